import Verif.Lemmas.SplitChoice
import Verif.Props.C24
import Verif.Lemmas.EncHist
import Verif.Lemmas.PaillierCipher

/-!
# C25 – the federated choice of a split is the centralised one

`splitBatch` is one batch of nodes: the guest searches its own histograms, each host proposes
candidates from its encrypted histograms, the guest decrypts, answers, and merges.  `P j i` are
the plain histograms of host `j` for node `i` that its ciphertexts stand for.
-/

set_option autoImplicit false

namespace Verif
open DTree Spec Histogram

variable {α : Type}

private theorem column_ok (C : Cipher α) (rd : Rat → Rat) (lam minImp δ : Rat) (node : Rat × Rat)
    (siteOf : Nat → Site) (off : Nat → Nat → Nat → Rat × Rat → Prop) (bidAt : Nat → Option Int)
    (i : Nat) (rs : List (List (SplitInfo α α)))
    (h : ∀ (j : Nat) infos, rs[j]? = some infos → ∃ info, infos[i]? = some info ∧
      Proposal C rd lam minImp δ node (siteOf j) (off j) info (bidAt j)) :
    ∃ col, column rs i = .ok col ∧ col.length = rs.length ∧
      ∀ (j : Nat) info, col[j]? = some info →
        Proposal C rd lam minImp δ node (siteOf j) (off j) info (bidAt j) := by
  unfold column
  induction rs generalizing siteOf off bidAt with
  | nil => exact ⟨[], rfl, rfl, by simp⟩
  | cons r rs ih =>
    obtain ⟨info, h1, h2⟩ := h 0 r rfl
    obtain ⟨col, c1, c2, c3⟩ := ih (fun j => siteOf (j + 1)) (fun j => off (j + 1))
      (fun j => bidAt (j + 1)) (fun j infos hj => h (j + 1) infos (by simpa using hj))
    refine ⟨info :: col, ?_, by simp [c2], ?_⟩
    · have hg : getAt r i = .ok info := by unfold getAt; rw [h1]
      simp only [evalList, hg, c1, bind, Except.bind, pure, Except.pure]
    · intro j info' hj
      cases j with
      | zero => simp only [List.getElem?_cons_zero, Option.some.injEq] at hj; subst hj; exact h2
      | succ j => exact c3 j info' (by simpa using hj)

private theorem mergeLoop_ok (C : Cipher α) (hosts : List (List (SplitInfo α α)))
    (Q : Nat → SplitInfo (Option Rat) Rat → Prop) (k : Nat) (gs : List (SplitInfo (Option Rat) Rat))
    (h : ∀ (i : Nat) g, gs[i]? = some g → ∃ col s, column hosts (k + i) = .ok col ∧
      findBestGuestHost id C g col = .ok s ∧ Q (k + i) s) :
    ∃ ss, mergeLoop id C hosts k gs = .ok ss ∧ ss.length = gs.length ∧
      ∀ (i : Nat) s, ss[i]? = some s → Q (k + i) s := by
  induction gs generalizing k with
  | nil => exact ⟨[], rfl, rfl, by simp⟩
  | cons g gs ih =>
    obtain ⟨col, s, h1, h2, h3⟩ := h 0 g rfl
    obtain ⟨ss, s1, s2, s3⟩ := ih (k + 1) (fun i g hg => by
      have := h (i + 1) g (by simpa using hg)
      rwa [show k + 1 + i = k + (i + 1) by omega])
    refine ⟨s :: ss, ?_, by simp [s2], ?_⟩
    · rw [Nat.add_zero] at h1
      simp only [mergeLoop, h1, h2, s1, bind, Except.bind, pure, Except.pure]
    · intro i s' hi
      cases i with
      | zero => simp only [List.getElem?_cons_zero, Option.some.injEq] at hi; subst hi; exact h3
      | succ i =>
        have := s3 i s' (by simpa using hi)
        rwa [show k + 1 + i = k + (i + 1) by omega] at this

theorem gainBy_self (lam : Rat) (node : Rat × Rat) : gainBy lam node node = fun _ => gain lam node := by
  funext j
  cases j <;> rfl

/-- The federated choice if the sums of the nodes that are sent to the hosts, `sums`, need not be the
totals of the guest's histograms, `own`: a split of the guest is judged with the latter. -/
theorem batch_choice (cfg : Config) [cfg.Exact] (C : Cipher α) (δ B : Rat) (hF : Faithful C δ B)
    (hδ : δ ≤ 1 / 10 ^ 6) (hB : |cfg.minImpurity - 1 / 10 ^ 6| ≤ B)
    (ids : List Nat) (hids : ids.Nodup) (sums own : List (Rat × Rat)) (hs : sums.length = ids.length)
    (ho : own.length = ids.length)
    (valid : List Bool) (hists : Hist Rat) (hh : hists.length = ids.length)
    (hguest : ∀ (i : Nat) node hist, own[i]? = some node → hists[i]? = some hist →
      hist.length ≤ valid.length ∧ (∃ cnt, LastIs valid hist (fun c => c = (node.1, node.2, cnt))) ∧
      ∀ f b c, Offered cfg valid hist f b c → Safe cfg.regLambda node (c.1, c.2.1))
    (hosts : List (HostSide α)) (hne : hosts ≠ []) (hH : ∀ H ∈ hosts, H.hists.length = ids.length)
    (P : Nat → Nat → List (List (HCell Rat)))
    (hhost : ∀ (j : Nat) H (i : Nat) node E, hosts[j]? = some H → sums[i]? = some node →
      H.hists[i]? = some E → NodeOk cfg C B H.valid node E (P j i)) :
    ∃ ss masks, splitBatch cfg C ids sums valid hists hosts = .ok (ss, masks) ∧
      ss.length = ids.length ∧ masks.length = hosts.length ∧
      (∀ (j : Nat) H mask id, hosts[j]? = some H → masks[j]? = some mask → id ∉ ids →
        Dict.get? mask id = Dict.get? H.mask id) ∧
      ∀ (i : Nat) id node nodeG hist s, ids[i]? = some id → sums[i]? = some node →
        own[i]? = some nodeG → hists[i]? = some hist → ss[i]? = some s →
        FederatedChoiceBy (gainBy cfg.regLambda nodeG node) cfg.minImpurity δ
          (partyOffers cfg valid hist hosts (fun j => P j i))
          (fun j => .host ((hosts[j]?.map HostSide.idx).getD 0))
          (fun j => masks[j]?.bind fun m => Dict.get? m id) s := by
  obtain ⟨rd, hF⟩ := hF
  -- the guest's search
  have hgs : ∃ gs, findSplit cfg valid hists = .ok gs ∧ gs.length = hists.length ∧
      ∀ (i : Nat) g hist node, gs[i]? = some g → hists[i]? = some hist → own[i]? = some node →
        g.site = .guest ∧ IsBest cfg.regLambda cfg.minImpurity node (offersOf cfg valid hist) g := by
    unfold findSplit
    have hsl : own.length = hists.length := by omega
    clear hh ho hhost
    induction hists generalizing own with
    | nil => exact ⟨[], rfl, rfl, by simp⟩
    | cons hist hists ih =>
      cases own with
      | nil => simp at hsl
      | cons node own =>
        obtain ⟨a1, ⟨cnt, a2⟩, a3⟩ := hguest 0 node hist rfl rfl
        obtain ⟨s, s1, s2, s3⟩ := C24_best_split cfg valid hist a1 node cnt a2 a3
        obtain ⟨gs, g1, g2, g3⟩ := ih own
          (fun i n h e1 e2 => hguest (i + 1) n h (by simpa using e1) (by simpa using e2))
          (by simpa using hsl)
        refine ⟨s :: gs, ?_, by simp [g2], ?_⟩
        · simp only [evalList, s1, g1, bind, Except.bind, pure, Except.pure]
        · intro i g h n e1 e2 e3
          cases i with
          | zero =>
            simp only [List.getElem?_cons_zero, Option.some.injEq] at e1 e2 e3
            subst e1; subst e2; subst e3
            exact ⟨s2, s3⟩
          | succ i => exact g3 i g h n (by simpa using e1) (by simpa using e2) (by simpa using e3)
  obtain ⟨gs, g1, g2, g3⟩ := hgs
  obtain ⟨rs, r1, r2, r3⟩ := hostsBatch_ok cfg C rd δ B hF hB ids hids sums hs hosts hH P hhost 0
  obtain ⟨ss, s1, s2, s3⟩ := mergeLoop_ok C (rs.map Prod.fst)
    (fun i s => ∀ id node nodeG hist, ids[i]? = some id → sums[i]? = some node → own[i]? = some nodeG →
        hists[i]? = some hist →
        FederatedChoiceBy (gainBy cfg.regLambda nodeG node) cfg.minImpurity δ
          (partyOffers cfg valid hist hosts (fun j => P j i))
          (fun j => .host ((hosts[j]?.map HostSide.idx).getD 0))
          (fun j => (rs.map Prod.snd)[j]?.bind fun m => Dict.get? m id) s) 0 gs (by
    intro i g hg
    rw [Nat.zero_add]
    have hi : i < gs.length := by
      by_contra hc
      rw [List.getElem?_eq_none (by omega)] at hg
      cases hg
    obtain ⟨id, hid⟩ : ∃ id, ids[i]? = some id := ⟨_, List.getElem?_eq_getElem (by omega)⟩
    obtain ⟨node, hnode⟩ : ∃ n, sums[i]? = some n := ⟨_, List.getElem?_eq_getElem (by omega)⟩
    obtain ⟨nodeG, hnodeG⟩ : ∃ n, own[i]? = some n := ⟨_, List.getElem?_eq_getElem (by omega)⟩
    obtain ⟨hist, hhist⟩ : ∃ h, hists[i]? = some h := ⟨_, List.getElem?_eq_getElem (by omega)⟩
    obtain ⟨col, c1, c2, c3⟩ := column_ok C rd cfg.regLambda cfg.minImpurity δ node
      (fun j => .host ((hosts[j]?.map HostSide.idx).getD 0))
      (fun j => partyOffers cfg valid hist hosts (fun j => P j i) (some j))
      (fun j => (rs.map Prod.snd)[j]?.bind fun m => Dict.get? m id) i (rs.map Prod.fst) (by
        intro j infos hj
        have hjl : j < hosts.length := by
          by_contra hc
          rw [List.getElem?_eq_none (by simp; omega)] at hj
          cases hj
        obtain ⟨infos', mask, e1, e2, e3, e4⟩ := r3 j hosts[j] (List.getElem?_eq_getElem hjl)
        rw [List.getElem?_map, e1] at hj
        simp only [Option.map_some, Option.some.injEq] at hj
        subst hj
        obtain ⟨info, f1, f2⟩ := e4 i id node hid hnode
        refine ⟨info, f1, ?_⟩
        have hof : partyOffers cfg valid hist hosts (fun j => P j i) (some j) =
            offersOf cfg hosts[j].valid (P j i) := by
          funext f b l
          apply propext
          simp only [partyOffers, List.getElem?_eq_getElem hjl, Option.some.injEq, exists_eq_left']
        rw [hof]
        simp only [List.getElem?_eq_getElem hjl, Option.map_some, Option.getD_some,
          List.getElem?_map, e1, Option.bind_some]
        exact f2)
    obtain ⟨b1, b2⟩ := g3 i g hist nodeG hg hhist hnodeG
    obtain ⟨s, t1, t2⟩ := findBestGuestHost_ok C rd cfg.regLambda cfg.minImpurity δ hδ nodeG node
      (partyOffers cfg valid hist hosts (fun j => P j i))
      (fun j => .host ((hosts[j]?.map HostSide.idx).getD 0))
      (fun j => (rs.map Prod.snd)[j]?.bind fun m => Dict.get? m id) g b1 b2 col (by
        intro hc
        rw [hc] at c2
        simp only [List.length_nil, List.length_map] at c2
        rw [r2] at c2
        exact hne (List.length_eq_zero_iff.mp c2.symm)) (by
        rintro j f b l ⟨H, h1, _⟩
        rw [c2, List.length_map, r2]
        by_contra hc
        rw [List.getElem?_eq_none (by omega)] at h1
        cases h1) c3
    refine ⟨col, s, c1, t1, ?_⟩
    intro id' node' nodeG' hist' e1 e2 e2' e3
    rw [hid, Option.some.injEq] at e1
    rw [hnode, Option.some.injEq] at e2
    rw [hnodeG, Option.some.injEq] at e2'
    rw [hhist, Option.some.injEq] at e3
    subst e1; subst e2; subst e2'; subst e3
    exact t2)
  refine ⟨ss, rs.map Prod.snd, ?_, by omega, by simp [r2], ?_, ?_⟩
  · simp only [splitBatch, Config.Exact.rnd_eq, g1, r1, s1, bind, Except.bind, pure, Except.pure]
  · intro j H mask id hj hm hid
    obtain ⟨infos, mask', e1, _, e3, _⟩ := r3 j H hj
    rw [List.getElem?_map, e1] at hm
    simp only [Option.map_some, Option.some.injEq] at hm
    subst hm
    exact e3 id hid
  · intro i id node nodeG hist s e1 e2 e2' e3 e4
    have := s3 i s e4
    rw [Nat.zero_add] at this
    exact this id node nodeG hist e1 e2 e2' e3

/-- **Federated choice.**  For every batch of nodes, any number of hosts and any encryption that
returns numbers with error `δ ≤ 10^-6`: if the hosts' cells decrypt to the cells of `P`, the
protocol succeeds and selects for every node a split that is as good as every split of every
party up to `10^-6` and the encryption error; a chosen host has recorded the bin of its split
under the node's id, and the records of other nodes are not touched. -/
theorem C25_choice (cfg : Config) [cfg.Exact] (C : Cipher α) (δ B : Rat) (hF : Faithful C δ B)
    (hδ : δ ≤ 1 / 10 ^ 6) (hB : |cfg.minImpurity - 1 / 10 ^ 6| ≤ B)
    (ids : List Nat) (hids : ids.Nodup) (sums : List (Rat × Rat)) (hs : sums.length = ids.length)
    (valid : List Bool) (hists : Hist Rat) (hh : hists.length = ids.length)
    (hguest : ∀ (i : Nat) node hist, sums[i]? = some node → hists[i]? = some hist →
      hist.length ≤ valid.length ∧ (∃ cnt, LastIs valid hist (fun c => c = (node.1, node.2, cnt))) ∧
      ∀ f b c, Offered cfg valid hist f b c → Safe cfg.regLambda node (c.1, c.2.1))
    (hosts : List (HostSide α)) (hne : hosts ≠ []) (hH : ∀ H ∈ hosts, H.hists.length = ids.length)
    (P : Nat → Nat → List (List (HCell Rat)))
    (hhost : ∀ (j : Nat) H (i : Nat) node E, hosts[j]? = some H → sums[i]? = some node →
      H.hists[i]? = some E → NodeOk cfg C B H.valid node E (P j i)) :
    ∃ ss masks, splitBatch cfg C ids sums valid hists hosts = .ok (ss, masks) ∧
      ss.length = ids.length ∧ masks.length = hosts.length ∧
      (∀ (j : Nat) H mask id, hosts[j]? = some H → masks[j]? = some mask → id ∉ ids →
        Dict.get? mask id = Dict.get? H.mask id) ∧
      ∀ (i : Nat) id node hist s, ids[i]? = some id → sums[i]? = some node →
        hists[i]? = some hist → ss[i]? = some s →
        FederatedChoice cfg.regLambda cfg.minImpurity δ node
          (partyOffers cfg valid hist hosts (fun j => P j i))
          (fun j => .host ((hosts[j]?.map HostSide.idx).getD 0))
          (fun j => masks[j]?.bind fun m => Dict.get? m id) s := by
  obtain ⟨ss, masks, h1, h2, h3, h4, h5⟩ := batch_choice cfg C δ B hF hδ hB ids hids sums sums hs hs valid hists hh
    hguest hosts hne hH P hhost
  refine ⟨ss, masks, h1, h2, h3, h4, fun i id node hist s e1 e2 e3 e4 => ?_⟩
  have := h5 i id node node hist s e1 e2 e2 e3 e4
  rw [gainBy_self] at this
  exact this

/-- **In one line**: whatever split any party could have offered, the chosen split's gain is at
least that gain up to `10^-6` and twice the encryption error – or the offered split is not worth
making.  With exact encryption (`δ = 0`) the chosen gain is the true gain. -/
theorem C25_within (lam minImp δ : Rat) (h0 : 0 ≤ δ) (node : Rat × Rat) (offers : Offers)
    (siteOf : Nat → Site) (bidAt : Nat → Option Int) (s : SplitInfo (Option Rat) Rat)
    (h : FederatedChoice lam minImp δ node offers siteOf bidAt s) (who : Option Nat) (f b : Nat)
    (l : Rat × Rat) (hl : offers who f b l) :
    gain lam node l ≤ s.gain + 1 / 10 ^ 6 + 3 * δ ∨ gain lam node l ≤ minImp + δ := by
  rcases h with ⟨_, _, _, _, h1, h2⟩ | ⟨f', b', l', _, _, _, _, _, h1, _, _, h2, h3⟩ |
    ⟨j, f', b', l', _, _, _, _, _, _, h1, _, _, h2, h3, _⟩
  · right
    cases who with
    | none => have := h1 f b l hl; linarith
    | some j => exact h2 j f b l hl
  · left
    rw [h1]
    cases who with
    | none => have := (h2 f b l hl).1; linarith
    | some j => have := h3 j f b l hl; linarith
  · have hg := abs_le.mp h1
    cases who with
    | none =>
      rcases h2 f b l hl with h | h
      · right; linarith
      · left; linarith [hg.1, hg.2, h.1]
    | some j' => left; have := (h3 j' f b l hl).1; linarith [hg.1, hg.2]

/-- A run without hosts raises `IndexError` as soon as there is a node to split. -/
theorem C25_no_hosts (cfg : Config) (C : Cipher α) (ids : List Nat) (sums : List (Rat × Rat))
    (valid : List Bool) (hists : Hist Rat) (g : SplitInfo (Option Rat) Rat)
    (gs : List (SplitInfo (Option Rat) Rat)) (h : findSplit cfg valid hists = .ok (g :: gs)) :
    splitBatch cfg C ids sums valid hists [] = .error .indexError := by
  simp only [splitBatch, h, hostsBatch, List.map_nil, mergeLoop, column, evalList,
    findBestGuestHost, bind, Except.bind]

section Samples

open Binning (Cell SparseVec)
open Paillier (PrivKey EncNum)

variable {K : Type} [DecidableEq K]

private theorem forall₂_imp_mem {β γ : Type} {R S : β → γ → Prop} {l : List β} {l' : List γ}
    (h : List.Forall₂ R l l') (H : ∀ a b, b ∈ l' → R a b → S a b) : List.Forall₂ S l l' := by
  induction h with
  | nil => exact .nil
  | cons hx _ ih =>
    exact .cons (H _ _ (by simp) hx) (ih fun a b hb => H a b (by simp [hb]))

private theorem atNode_agree {S T : Share K} (h : S.Agrees T) (gh : DTable K (Rat × Rat)) (id : Nat) :
    (atNode S.data gh id).map Prod.snd = (atNode T.data gh id).map Prod.snd := by
  unfold atNode
  generalize gh.data = l
  induction l with
  | nil => rfl
  | cons p l ih =>
    have hk := h p.1
    simp only [List.filterMap_cons]
    cases h1 : S.data.data.get? p.1 with
    | none =>
      rw [h1] at hk
      cases h2 : T.data.data.get? p.1 with
      | none => exact ih
      | some y => rw [h2] at hk; cases hk
    | some x =>
      rw [h1] at hk
      cases h2 : T.data.data.get? p.1 with
      | none => rw [h2] at hk; cases hk
      | some y =>
        rw [h2] at hk
        obtain ⟨v, st, nid⟩ := x
        obtain ⟨v', st', nid'⟩ := y
        simp only [Option.map_some, Option.some.injEq, Prod.mk.injEq] at hk
        obtain ⟨rfl, rfl⟩ := hk
        simp only
        by_cases hc : st ≠ 0 ∧ nid = id
        · rw [if_pos hc, if_pos hc]
          simp only [List.map_cons, ih]
        · rw [if_neg hc, if_neg hc]
          exact ih

private theorem sumsOf_congr {R : Type} {a b : List (R × Rat × Rat)} (h : a.map Prod.snd = b.map Prod.snd) :
    sumsOf a = sumsOf b := by
  have e : ∀ c : List (R × Rat × Rat), sumsOf c =
      (((c.map Prod.snd).map Prod.fst).sum, ((c.map Prod.snd).map Prod.snd).sum) := by
    intro c; simp only [sumsOf, List.map_map, Function.comp_def]
  rw [e, e, h]

private theorem regular_congr {R : Type} {cfg : Config} {a b : List (R × Rat × Rat)}
    (h : a.map Prod.snd = b.map Prod.snd) (hb : Regular cfg b) : Regular cfg a := by
  have key : ∀ s ∈ a, ∃ t ∈ b, t.2.2 = s.2.2 := by
    intro s hs
    have : s.2 ∈ b.map Prod.snd := by rw [← h]; exact List.mem_map_of_mem hs
    obtain ⟨t, ht, e⟩ := List.mem_map.mp this
    exact ⟨t, ht, by rw [e]⟩
  rcases hb with ⟨h1, h2⟩ | ⟨h1, h2, h3⟩
  · exact .inl ⟨h1, fun s hs => by obtain ⟨t, ht, e⟩ := key s hs; rw [← e]; exact h2 t ht⟩
  · exact .inr ⟨h1, h2, fun s hs => by obtain ⟨t, ht, e⟩ := key s hs; rw [← e]; exact h3 t ht⟩

private theorem abs_sum_le {β : Type} (f : β → Rat) (l : List β) :
    |(l.map f).sum| ≤ (l.map fun x => |f x|).sum := by
  induction l with
  | nil => simp
  | cons x l ih =>
    simp only [List.map_cons, List.sum_cons]
    exact le_trans (abs_add_le _ _) (by linarith)

private theorem sum_filter_le {β : Type} (f : β → Rat) (p : β → Bool) (l : List β) :
    ((l.filter p).map fun x => |f x|).sum ≤ (l.map fun x => |f x|).sum := by
  induction l with
  | nil => simp
  | cons x l ih =>
    by_cases h : p x
    · rw [List.filter_cons_of_pos h]; simp only [List.map_cons, List.sum_cons]; linarith
    · rw [List.filter_cons_of_neg h]; simp only [List.map_cons, List.sum_cons]
      linarith [abs_nonneg (f x)]

private theorem atNode_abs_le (data : DTable K (SparseVec Cell × Nat × Nat)) (gh : DTable K (Rat × Rat))
    (id : Nat) (f : Rat × Rat → Rat) :
    ((atNode data gh id).map fun s => |f s.2|).sum ≤ (gh.data.map fun p => |f p.2|).sum := by
  unfold atNode
  generalize gh.data = l
  induction l with
  | nil => simp
  | cons p l ih =>
    simp only [List.filterMap_cons, List.map_cons, List.sum_cons]
    have hp := abs_nonneg (f p.2)
    cases data.data.get? p.1 with
    | none => simp only; linarith
    | some x =>
      obtain ⟨v, st, nid⟩ := x
      simp only
      by_cases hc : st ≠ 0 ∧ nid = id
      · rw [if_pos hc]; simp only [List.map_cons, List.sum_cons]; linarith
      · rw [if_neg hc]; simp only; linarith

private theorem totals_bound (data : DTable K (SparseVec Cell × Nat × Nat)) (gh : DTable K (Rat × Rat))
    (id : Nat) (sparse : Dict Nat Nat) (f b : Nat) :
    |(totals (upToBin sparse f b (atNode data gh id))).1| ≤ (gh.data.map fun x => |x.2.1|).sum ∧
    |(totals (upToBin sparse f b (atNode data gh id))).2.1| ≤ (gh.data.map fun x => |x.2.2|).sum := by
  have bound : ∀ fn : Rat × Rat → Rat,
      |((upToBin sparse f b (atNode data gh id)).map fun s => fn s.2).sum| ≤
        (gh.data.map fun x => |fn x.2|).sum := by
    intro fn
    have e1 := abs_sum_le (fun s : SparseVec Cell × Rat × Rat => fn s.2)
      (upToBin sparse f b (atNode data gh id))
    have e2 := sum_filter_le (fun s : SparseVec Cell × Rat × Rat => fn s.2)
      (fun s => decide (binOf sparse f s.1 ≤ b)) (atNode data gh id)
    have e3 := atNode_abs_le data gh id fn
    exact e1.trans (e2.trans e3)
  exact ⟨bound fun x => x.1, bound fun x => x.2⟩

/-- The federated choice for nodes given by samples, for any cipher whose histograms the guest can
read: the hosts' histograms stand for the table `gh'`, which may differ from the guest's `gh`; the
sums `node` of the nodes are arbitrary. -/
theorem mixed_choice (A : Arith α) (C : Cipher α) (δ B : Rat) (hcip : Faithful C δ B)
    (hδ : δ ≤ 1 / 10 ^ 6) (cfg : Config) [cfg.Exact] (hB0 : |cfg.minImpurity - 1 / 10 ^ 6| ≤ B)
    (guest : Share K) (hguest : guest.Good) (hosts : List (Share K)) (hne : hosts ≠ [])
    (hhosts : ∀ H ∈ hosts, H.Good ∧ H.Agrees guest)
    (ids : List Nat) (hids : ids.Nodup) (hids0 : ids ≠ [])
    (encGh : DTable K (α × α)) (gh gh' : DTable K (Rat × Rat)) (hw : gh.WF) (hw' : gh'.WF)
    (node : Nat → Rat × Rat)
    (hread : ∀ H ∈ hosts, ∀ Hp, getHistograms plain H.splits H.sparse (some H.valid) ids H.data gh' =
      .ok Hp → (∀ fh ∈ Hp, ∀ bins ∈ fh, ∀ c ∈ bins, |c.1| ≤ (gh'.data.map fun x => |x.2.1|).sum ∧
        |c.2.1| ≤ (gh'.data.map fun x => |x.2.2|).sum) →
      ∃ HE, getHistograms A H.splits H.sparse (some H.valid) ids H.data encGh = .ok HE ∧
        List.Forall₂ (List.Forall₂ (List.Forall₂ (Readable C cfg.minLeaf))) HE Hp)
    (hsafe0 : ∀ id ∈ ids, ∀ f b l, mixedOffers cfg gh gh' id guest hosts none f b l →
      Safe cfg.regLambda (sumsOf (atNode guest.data gh id)) l)
    (hsafe : ∀ id ∈ ids, ∀ j f b l, mixedOffers cfg gh gh' id guest hosts (some j) f b l →
      Safe cfg.regLambda (node id) l)
    (hbound : ∀ id ∈ ids, ∀ j f b l, mixedOffers cfg gh gh' id guest hosts (some j) f b l →
      |gain cfg.regLambda (node id) l| ≤ B) :
    ∃ HG HEs,
      getHistograms plain guest.splits guest.sparse (some guest.valid) ids guest.data gh = .ok HG ∧
      List.Forall₂ (fun H HE => getHistograms A H.splits H.sparse (some H.valid) ids H.data
        encGh = .ok HE) hosts HEs ∧
      ∃ ss masks, splitBatch cfg C ids
          (ids.map node) guest.valid HG
          (List.zipWith (fun H HE => ⟨H.idx, H.valid, HE, H.mask⟩) hosts HEs) = .ok (ss, masks) ∧
        ss.length = ids.length ∧ masks.length = hosts.length ∧
        (∀ (j : Nat) H mask id, hosts[j]? = some H → masks[j]? = some mask → id ∉ ids →
          Dict.get? mask id = Dict.get? H.mask id) ∧
        ∀ (i : Nat) id s, ids[i]? = some id → ss[i]? = some s →
          FederatedChoiceBy (gainBy cfg.regLambda (sumsOf (atNode guest.data gh id)) (node id))
            cfg.minImpurity δ (mixedOffers cfg gh gh' id guest hosts)
            (fun j => .host ((hosts[j]?.map Share.idx).getD 0))
            (fun j => masks[j]?.bind fun m => Dict.get? m id) s := by
  obtain ⟨HG, g1, g2, g3⟩ := C22_histogram guest.splits guest.sparse guest.valid hguest.valid
    hguest.zero ids hids hids0 guest.data hguest.rows gh hw
  have hall : ∀ H, H ∈ hosts → ∃ (Hp : Hist Rat) (HE : Hist α),
      getHistograms A H.splits H.sparse (some H.valid) ids H.data encGh = .ok HE ∧
      List.Forall₂ (List.Forall₂ (List.Forall₂ (Readable C cfg.minLeaf))) HE Hp ∧
      Hp.length = ids.length ∧
      ∀ (i : Nat) (id : Nat), ids[i]? = some id → ∃ fh, Hp[i]? = some fh ∧
        fh.length = H.splits.length ∧
        ∀ (f : Nat) (sp : List Rat), H.splits[f]? = some sp → ∃ bins, fh[f]? = some bins ∧
          (H.valid[f]? = some false → bins = []) ∧
          (H.valid[f]? = some true → bins.length = sp.length + 1 ∧
            ∀ b ≤ sp.length, bins[b]? = some (totals (upToBin H.sparse f b (atNode H.data gh' id)))) := by
    intro H hH
    obtain ⟨hgd, _⟩ := hhosts H hH
    obtain ⟨Hp, h1, h2, h3⟩ := C22_histogram H.splits H.sparse H.valid hgd.valid hgd.zero ids hids
      hids0 H.data hgd.rows gh' hw'
    obtain ⟨HE, e1, e2⟩ := hread H hH Hp h1 (by
      intro fh hfh bins hb c hc
      obtain ⟨i, hi, rfl⟩ := List.getElem_of_mem hfh
      obtain ⟨fh', q0, q0', a3⟩ := h3 i ids[i] (List.getElem?_eq_getElem (by omega))
      rw [List.getElem?_eq_getElem hi, Option.some.injEq] at q0
      subst q0
      obtain ⟨f, hf, rfl⟩ := List.getElem_of_mem hb
      obtain ⟨b, hb', rfl⟩ := List.getElem_of_mem hc
      have hf' : f < H.splits.length := by omega
      obtain ⟨bins, q1, q2, q3⟩ := a3 f H.splits[f] (List.getElem?_eq_getElem hf')
      rw [List.getElem?_eq_getElem hf, Option.some.injEq] at q1
      have hfv : f < H.valid.length := by rw [hgd.valid]; exact hf'
      have hval : H.valid[f]? = some H.valid[f] := List.getElem?_eq_getElem hfv
      cases hv : H.valid[f] with
      | false =>
        rw [hv] at hval
        rw [← q1] at q2
        rw [q2 hval] at hb'
        simp at hb'
      | true =>
        rw [hv] at hval
        obtain ⟨q4, q5⟩ := q3 hval
        rw [← q1] at q4 q5
        have := q5 b (by omega)
        rw [List.getElem?_eq_getElem hb', Option.some.injEq] at this
        rw [this]
        exact totals_bound H.data gh' ids[i] H.sparse f b)
    exact ⟨Hp, HE, e1, e2, h2, h3⟩
  choose! Fp Fe hF using hall
  refine ⟨HG, hosts.map Fe, g1, ?_, ?_⟩
  · rw [List.forall₂_map_right_iff, List.forall₂_same]
    exact fun H hH => (hF H hH).1
  have hzip : List.zipWith (fun (H : Share K) HE => (⟨H.idx, H.valid, HE, H.mask⟩ : HostSide α))
      hosts (hosts.map Fe) = hosts.map fun H => ⟨H.idx, H.valid, Fe H, H.mask⟩ := by
    rw [List.zipWith_map_right, List.zipWith_self]
  rw [hzip]
  have hget : ∀ {j : Nat} {H' : HostSide α},
      (hosts.map fun H => (⟨H.idx, H.valid, Fe H, H.mask⟩ : HostSide α))[j]? = some H' →
      ∃ H, hosts[j]? = some H ∧ H ∈ hosts ∧ H' = ⟨H.idx, H.valid, Fe H, H.mask⟩ := by
    intro j H' h
    rw [List.getElem?_map, Option.map_eq_some_iff] at h
    obtain ⟨H, h1, h2⟩ := h
    exact ⟨H, h1, List.mem_of_getElem? h1, h2.symm⟩
  have hsums : ∀ {i : Nat} {nd : Rat × Rat},
      (ids.map node)[i]? = some nd →
      ∃ id, ids[i]? = some id ∧ id ∈ ids ∧ nd = node id := by
    intro i nd h
    rw [List.getElem?_map, Option.map_eq_some_iff] at h
    obtain ⟨id, h1, h2⟩ := h
    exact ⟨id, h1, List.mem_of_getElem? h1, h2.symm⟩
  have hhostOffers : ∀ H ∈ hosts, ∀ (i id : Nat) fh, ids[i]? = some id → (Fp H)[i]? = some fh →
      LastIs H.valid fh (fun c => c = totals (atNode H.data gh' id)) ∧
      ∀ f b l, offersOf cfg H.valid fh f b l ↔
        OfferedOn cfg H.valid H.splits H.sparse (atNode H.data gh' id) f b l := by
    intro H hH i id fh hid hfh
    obtain ⟨fh', a1, a2, a3⟩ := (hF H hH).2.2.2 i id hid
    rw [hfh, Option.some.injEq] at a1
    subst a1
    obtain ⟨n1, _, n3⟩ := nodeFacts cfg H.splits H.sparse H.valid (hhosts H hH).1.valid
      (hhosts H hH).1.zero H.data (hhosts H hH).1.rows gh' id fh a3
    exact ⟨n1, n3⟩
  obtain ⟨ss, masks, r1, r2, r3, r4, r5⟩ := batch_choice cfg C δ B hcip hδ hB0 ids hids
    (ids.map node) (ids.map fun id => sumsOf (atNode guest.data gh id)) (by simp) (by simp) guest.valid HG g2 (by
      intro i nd hist hn hh
      rw [List.getElem?_map, Option.map_eq_some_iff] at hn
      obtain ⟨id, hid, rfl⟩ := hn
      have hmem := List.mem_of_getElem? hid
      obtain ⟨fh, a1, a2, a3⟩ := g3 i id hid
      rw [hh, Option.some.injEq] at a1
      subst a1
      obtain ⟨n1, _, n3⟩ := nodeFacts cfg guest.splits guest.sparse guest.valid hguest.valid
        hguest.zero guest.data hguest.rows gh id hist a3
      refine ⟨by rw [a2, hguest.valid], ⟨(atNode guest.data gh id).length, n1⟩, ?_⟩
      intro f b c ho
      exact hsafe0 id hmem f b _ ((n3 f b _).mp ⟨c, ho, rfl⟩))
    (hosts.map fun H => ⟨H.idx, H.valid, Fe H, H.mask⟩) (by simpa using hne) (by
      intro H' hH'
      obtain ⟨H, hH, rfl⟩ := List.mem_map.mp hH'
      have := (hF H hH).2.1.length_eq
      simp only
      rw [this]
      exact (hF H hH).2.2.1)
    (fun j i => ((hosts[j]?.bind fun H => (Fp H)[i]?).getD [])) (by
      intro j H' i nd E hj hn hE
      obtain ⟨H, hHj, hH, rfl⟩ := hget hj
      obtain ⟨id, hid, hmem, rfl⟩ := hsums hn
      obtain ⟨fh, a1, a2, a3⟩ := (hF H hH).2.2.2 i id hid
      have hP : ((hosts[j]?.bind fun H => (Fp H)[i]?).getD []) = fh := by
        rw [hHj]; simp only [Option.bind_some]; rw [a1]; rfl
      rw [hP]
      obtain ⟨o1, o2⟩ := hhostOffers H hH i id fh hid a1
      have hgd := (hhosts H hH).1
      have hrel : List.Forall₂ (List.Forall₂ (Readable C cfg.minLeaf)) E fh := by
        have h := (hF H hH).2.1
        have hl := h.length_eq
        simp only at hE
        have hi1 : i < (Fe H).length := by
          by_contra hc; rw [List.getElem?_eq_none (by omega)] at hE; cases hE
        have := List.Forall₂.get h hi1 (by omega)
        simp only [List.get_eq_getElem] at this
        rw [List.getElem?_eq_getElem hi1, Option.some.injEq] at hE
        rw [List.getElem?_eq_getElem (by omega), Option.some.injEq] at a1
        rw [hE, a1] at this
        exact this
      refine ⟨?_, by rw [a2, hgd.valid], ⟨(atNode H.data gh' id).length, ?_⟩, ?_, ?_⟩
      · exact hrel
      · intro f bins c h1 h2 h3
        rw [o1 f bins c h1 h2 h3]
        rfl
      · intro f b c ho
        exact hsafe id hmem j f b _ ⟨H, hHj, (o2 f b _).mp ⟨c, ho, rfl⟩⟩
      · intro f b c ho
        exact hbound id hmem j f b _ ⟨H, hHj, (o2 f b _).mp ⟨c, ho, rfl⟩⟩)
  refine ⟨ss, masks, r1, r2, by simpa using r3, ?_, ?_⟩
  · intro j H mask id hj hm hid
    exact r4 j ⟨H.idx, H.valid, Fe H, H.mask⟩ mask id (by rw [List.getElem?_map, hj]; rfl) hm hid
  · intro i id s hid hs
    obtain ⟨fh, a1, a2, a3⟩ := g3 i id hid
    obtain ⟨_, _, n3⟩ := nodeFacts cfg guest.splits guest.sparse guest.valid hguest.valid
        hguest.zero guest.data hguest.rows gh id fh a3
    have := r5 i id (node id) _ fh s hid
      (by rw [List.getElem?_map, hid]; rfl) (by rw [List.getElem?_map, hid]; rfl) a1 hs
    have ho : partyOffers cfg guest.valid fh
        (hosts.map fun H => (⟨H.idx, H.valid, Fe H, H.mask⟩ : HostSide α))
        (fun j => ((hosts[j]?.bind fun H => (Fp H)[i]?).getD [])) =
        mixedOffers cfg gh gh' id guest hosts := by
      funext who f b l
      apply propext
      cases who with
      | none => exact n3 f b l
      | some j =>
        simp only [partyOffers, mixedOffers]
        constructor
        · rintro ⟨H', hj, h⟩
          obtain ⟨H, hHj, hH, rfl⟩ := hget hj
          obtain ⟨fh', b1, _, _⟩ := (hF H hH).2.2.2 i id hid
          rw [hHj] at h
          simp only [Option.bind_some] at h
          rw [b1] at h
          exact ⟨H, hHj, ((hhostOffers H hH i id fh' hid b1).2 f b l).mp h⟩
        · rintro ⟨H, hHj, h⟩
          have hH := List.mem_of_getElem? hHj
          obtain ⟨fh', b1, _, _⟩ := (hF H hH).2.2.2 i id hid
          refine ⟨⟨H.idx, H.valid, Fe H, H.mask⟩, by rw [List.getElem?_map, hHj]; rfl, ?_⟩
          rw [hHj]
          simp only [Option.bind_some]
          rw [b1]
          exact ((hhostOffers H hH i id fh' hid b1).2 f b l).mpr h
    rw [ho] at this
    have hidx : ∀ j : Nat, ((hosts.map fun H => (⟨H.idx, H.valid, Fe H, H.mask⟩ : HostSide α))[j]?.map
        HostSide.idx).getD 0 = (hosts[j]?.map Share.idx).getD 0 := by
      intro j
      rw [List.getElem?_map]
      cases hosts[j]? <;> rfl
    simp only [hidx] at this
    exact this

/-- The federated choice for nodes given by samples, for any cipher whose histograms the guest can
read. -/
theorem samples_choice (A : Arith α) (C : Cipher α) (δ B : Rat) (hcip : Faithful C δ B)
    (hδ : δ ≤ 1 / 10 ^ 6) (cfg : Config) [cfg.Exact] (hB0 : |cfg.minImpurity - 1 / 10 ^ 6| ≤ B)
    (guest : Share K) (hguest : guest.Good) (hosts : List (Share K)) (hne : hosts ≠ [])
    (hhosts : ∀ H ∈ hosts, H.Good ∧ H.Agrees guest)
    (ids : List Nat) (hids : ids.Nodup) (hids0 : ids ≠ [])
    (encGh : DTable K (α × α)) (gh : DTable K (Rat × Rat)) (hw : gh.WF)
    (hread : ∀ H ∈ hosts, ∀ Hp, getHistograms plain H.splits H.sparse (some H.valid) ids H.data gh =
      .ok Hp → (∀ fh ∈ Hp, ∀ bins ∈ fh, ∀ c ∈ bins, |c.1| ≤ (gh.data.map fun x => |x.2.1|).sum ∧
        |c.2.1| ≤ (gh.data.map fun x => |x.2.2|).sum) →
      ∃ HE, getHistograms A H.splits H.sparse (some H.valid) ids H.data encGh = .ok HE ∧
        List.Forall₂ (List.Forall₂ (List.Forall₂ (Readable C cfg.minLeaf))) HE Hp)
    (hreg : ∀ id ∈ ids, Regular cfg (atNode guest.data gh id))
    (hbound : ∀ id ∈ ids, ∀ j f b l, centralOffers cfg gh id guest hosts (some j) f b l →
      |gain cfg.regLambda (sumsOf (atNode guest.data gh id)) l| ≤ B) :
    ∃ HG HEs,
      getHistograms plain guest.splits guest.sparse (some guest.valid) ids guest.data gh = .ok HG ∧
      List.Forall₂ (fun H HE => getHistograms A H.splits H.sparse (some H.valid) ids H.data
        encGh = .ok HE) hosts HEs ∧
      ∃ ss masks, splitBatch cfg C ids
          (ids.map fun id => sumsOf (atNode guest.data gh id)) guest.valid HG
          (List.zipWith (fun H HE => ⟨H.idx, H.valid, HE, H.mask⟩) hosts HEs) = .ok (ss, masks) ∧
        ss.length = ids.length ∧ masks.length = hosts.length ∧
        (∀ (j : Nat) H mask id, hosts[j]? = some H → masks[j]? = some mask → id ∉ ids →
          Dict.get? mask id = Dict.get? H.mask id) ∧
        ∀ (i : Nat) id s, ids[i]? = some id → ss[i]? = some s →
          FederatedChoice cfg.regLambda cfg.minImpurity δ
            (sumsOf (atNode guest.data gh id)) (centralOffers cfg gh id guest hosts)
            (fun j => .host ((hosts[j]?.map Share.idx).getD 0))
            (fun j => masks[j]?.bind fun m => Dict.get? m id) s := by
  have hself : ∀ id, mixedOffers cfg gh gh id guest hosts = centralOffers cfg gh id guest hosts := by
    intro id
    funext j f b l
    cases j <;> rfl
  have := mixed_choice A C δ B hcip hδ cfg hB0 guest hguest hosts hne hhosts ids hids hids0 encGh gh gh
    hw hw (fun id => sumsOf (atNode guest.data gh id)) hread ?_ ?_
    (fun id hid j f b l ho => hbound id hid j f b l ho)
  · simp only [hself, gainBy_self] at this
    exact this
  · intro id hid f b l ho
    obtain ⟨_, _, _, e3, e4, e5⟩ := ho
    rw [e5]
    exact safe_of_regular cfg guest.sparse _ (hreg id hid) f b e3 e4
  · intro id hid j f b l ho
    obtain ⟨H, hj, _, _, _, e3, e4, e5⟩ := ho
    have hH := List.mem_of_getElem? hj
    rw [e5, ← sumsOf_congr (atNode_agree (hhosts H hH).2 gh id)]
    exact safe_of_regular cfg H.sparse _
      (regular_congr (atNode_agree (hhosts H hH).2 gh id) (hreg id hid)) f b e3 e4

/-- The guest can read the Paillier histograms of a host. -/
theorem paillier_reads (p q : Nat) (sk : PrivKey) (hk : KeyPair p q sk) (lo hi : Int)
    (hhi : 0 ≤ hi) (hgap : (16 : Int) ^ (hi - lo).toNat ≤ sk.pk.n / 3 - 1) (draw : Nat × Nat → Int)
    (cfg : Config) (hleaf : 1 ≤ cfg.minLeaf) (H : Share K) (ids : List Nat)
    (enc : DTable K (EncNum × EncNum)) (gh : DTable K (Rat × Rat)) (hw : gh.WF)
    (henc : List.Forall₂ (fun a b => a.1 = b.1 ∧ CiphertextOf sk lo hi a.2.1 b.2.1 ∧
      CiphertextOf sk lo hi a.2.2 b.2.2) enc.data gh.data)
    (hwg : (gh.data.map fun x => |x.2.1|).sum * (16 : Rat) ^ hi ≤ ((sk.pk.n / 3 - 1 : Int) : Rat))
    (hwh : (gh.data.map fun x => |x.2.2|).sum * (16 : Rat) ^ hi ≤ ((sk.pk.n / 3 - 1 : Int) : Rat))
    (Hp : Hist Rat)
    (h1 : getHistograms plain H.splits H.sparse (some H.valid) ids H.data gh = .ok Hp)
    (hcells : ∀ fh ∈ Hp, ∀ bins ∈ fh, ∀ c ∈ bins, |c.1| ≤ (gh.data.map fun x => |x.2.1|).sum ∧
      |c.2.1| ≤ (gh.data.map fun x => |x.2.2|).sum) :
    ∃ HE, getHistograms paillier H.splits H.sparse (some H.valid) ids H.data (liftGh enc) = .ok HE ∧
      List.Forall₂ (List.Forall₂ (List.Forall₂ (Readable (paillierCipher sk draw) cfg.minLeaf))) HE Hp := by
  obtain ⟨HE, e1, e2⟩ := encHist_reads p q sk hk lo hi hhi hgap H.splits H.sparse (some H.valid)
    ids H.data enc gh hw henc Hp h1
  have hpos : (0 : Rat) ≤ (16 : Rat) ^ hi := le_of_lt (zpow_pos (by norm_num) _)
  refine ⟨HE, e1, forall₂_imp_mem e2 fun ef pf hpf h => forall₂_imp_mem h fun eb pb hpb h =>
    forall₂_imp_mem h fun e c hc hr => ?_⟩
  obtain ⟨w1, w2⟩ := hcells pf hpf pb hpb c hc
  have w1 := (mul_le_mul_of_nonneg_right w1 hpos).trans hwg
  have w2 := (mul_le_mul_of_nonneg_right w2 hpos).trans hwh
  obtain ⟨r1, r2, r3, r4⟩ := hr
  refine ⟨r1, fun hm => ?_⟩
  obtain ⟨i1, i2⟩ := r4 (by omega)
  obtain ⟨eg, eh, n⟩ := e
  simp only at r1 r2 r3 i1 i2 ⊢
  constructor
  · cases eg with
    | int z => exact i1.elim
    | enc X =>
      obtain ⟨t, t1, t2⟩ := r2 w1
      simp only [paillierCipher, t1, Except.map, t2]
  · cases eh with
    | int z => exact i2.elim
    | enc X =>
      obtain ⟨t, t1, t2⟩ := r3 w2
      simp only [paillierCipher, t1, Except.map, t2]

/-- **Federated choice from the samples.**  Paillier run: every party computes its histograms
(hosts on ciphertexts of the gradients), and the protocol selects for every node of the batch the
split a centralised learner would choose, up to `10^-6` and the encoding error of a gain.
Hypotheses: the parties agree on the positions of the samples; the absolute gradients and
hessians fit into the plaintext window together; gains do not exceed `B`. -/
theorem C25_samples (p q : Nat) (sk : PrivKey) (hk : KeyPair p q sk) (lo hi : Int)
    (hhi : 0 ≤ hi) (hgap : (16 : Int) ^ (hi - lo).toNat ≤ sk.pk.n / 3 - 1)
    (hbig : 2 ^ 53 ≤ sk.pk.n / 3 - 1) (draw : Nat × Nat → Int) (hdraw : ∀ l, Usable sk (draw l))
    (cfg : Config) [cfg.Exact] (hleaf : 1 ≤ cfg.minLeaf) (B : Rat) (hB0 : |cfg.minImpurity - 1 / 10 ^ 6| ≤ B)
    (hδ : B / 2 ^ 50 + FP.tiny ≤ 1 / 10 ^ 6)
    (guest : Share K) (hguest : guest.Good) (hosts : List (Share K)) (hne : hosts ≠ [])
    (hhosts : ∀ H ∈ hosts, H.Good ∧ H.Agrees guest)
    (ids : List Nat) (hids : ids.Nodup) (hids0 : ids ≠ [])
    (enc : DTable K (EncNum × EncNum)) (gh : DTable K (Rat × Rat)) (hw : gh.WF)
    (henc : List.Forall₂ (fun a b => a.1 = b.1 ∧ CiphertextOf sk lo hi a.2.1 b.2.1 ∧
      CiphertextOf sk lo hi a.2.2 b.2.2) enc.data gh.data)
    (hwg : (gh.data.map fun x => |x.2.1|).sum * (16 : Rat) ^ hi ≤ ((sk.pk.n / 3 - 1 : Int) : Rat))
    (hwh : (gh.data.map fun x => |x.2.2|).sum * (16 : Rat) ^ hi ≤ ((sk.pk.n / 3 - 1 : Int) : Rat))
    (hreg : ∀ id ∈ ids, Regular cfg (atNode guest.data gh id))
    (hbound : ∀ id ∈ ids, ∀ j f b l, centralOffers cfg gh id guest hosts (some j) f b l →
      |gain cfg.regLambda (sumsOf (atNode guest.data gh id)) l| ≤ B) :
    ∃ HG HEs,
      getHistograms plain guest.splits guest.sparse (some guest.valid) ids guest.data gh = .ok HG ∧
      List.Forall₂ (fun H HE => getHistograms paillier H.splits H.sparse (some H.valid) ids H.data
        (liftGh enc) = .ok HE) hosts HEs ∧
      ∃ ss masks, splitBatch cfg (paillierCipher sk draw) ids
          (ids.map fun id => sumsOf (atNode guest.data gh id)) guest.valid HG
          (List.zipWith (fun H HE => ⟨H.idx, H.valid, HE, H.mask⟩) hosts HEs) = .ok (ss, masks) ∧
        ss.length = ids.length ∧ masks.length = hosts.length ∧
        (∀ (j : Nat) H mask id, hosts[j]? = some H → masks[j]? = some mask → id ∉ ids →
          Dict.get? mask id = Dict.get? H.mask id) ∧
        ∀ (i : Nat) id s, ids[i]? = some id → ss[i]? = some s →
          FederatedChoice cfg.regLambda cfg.minImpurity (B / 2 ^ 50 + FP.tiny)
            (sumsOf (atNode guest.data gh id)) (centralOffers cfg gh id guest hosts)
            (fun j => .host ((hosts[j]?.map Share.idx).getD 0))
            (fun j => masks[j]?.bind fun m => Dict.get? m id) s := by
  exact samples_choice paillier (paillierCipher sk draw) _ B
    (paillier_faithful p q sk hk hbig draw hdraw B) hδ cfg hB0 guest hguest hosts hne hhosts ids hids
    hids0 (liftGh enc) gh hw (fun H _ Hp h1 h2 => paillier_reads p q sk hk lo hi hhi hgap draw cfg hleaf
      H ids enc gh hw henc hwg hwh Hp h1 h2) hreg hbound

end Samples

/-- An exact cipher for examples. -/
private def exC : Cipher Rat := ⟨0, fun _ x => .ok x, fun x => .ok x⟩

/-- Two nodes, two hosts; the first node is split by the second host (which records bin 0 under
node 3), the second node by nobody. -/
example : splitBatch ⟨1, 1 / 1000, 2, 1, id⟩ exC [3, 4] [(0, 3), (1, 1)] [true]
    [[[(1, 1, 1), (0, 3, 3)]], [[(0, 0, 0), (1, 1, 1)]]]
    [⟨1, [true], [[[(0, 2, 1), (0, 3, 3)]], [[(1, 1, 1), (1, 1, 1)]]], []⟩,
     ⟨2, [true], [[[(3, 1, 1), (0, 3, 3)]], [[(1, 1, 1), (1, 1, 1)]]], [(9, 7)]⟩] =
    .ok ([⟨.host 2, some 0, none, some 3, some 1, 15 / 2⟩,
      ⟨.guest, none, none, none, none, 999 / 1000000⟩], [[], [(9, 7), (3, 0)]]) := by
  decide +kernel

example : Faithful exC 0 100 := ⟨id, fun _ x _ => ⟨x, rfl, rfl, by simp⟩⟩

end Verif
