import Verif.Lemmas.Levels
import Verif.Lemmas.Dict

/-! # Owners of splits, recorded bins, thresholds -/

set_option autoImplicit false

namespace Verif
namespace DTree

open Histogram (HCell Hist)

variable {K : Type} [DecidableEq K] {α : Type}

theorem evalList_all {β γ : Type} {f : β → Except PyErr γ} {P : γ → Prop} :
    ∀ (l : List β) (r : List γ), (∀ x ∈ l, ∀ y, f x = .ok y → P y) → evalList f l = .ok r →
      ∀ y ∈ r, P y
  | [], r, _, h => by unfold evalList at h; cases h; simp
  | x :: xs, r, hP, h => by
    unfold evalList at h
    cases h1 : f x with
    | error e => rw [h1] at h; cases h
    | ok y =>
      rw [h1] at h
      simp only [bind, Except.bind] at h
      cases h2 : evalList f xs with
      | error e => rw [h2] at h; cases h
      | ok ys =>
        rw [h2] at h
        cases h
        intro z hz
        rcases List.mem_cons.mp hz with rfl | hz
        · exact hP x (by simp) _ h1
        · exact evalList_all xs ys (fun x' hx' => hP x' (by simp [hx'])) h2 z hz

theorem findSplit_site {cfg : Config} {valid : List Bool} {hists : Hist Rat}
    {r : List (SplitInfo (Option Rat) Rat)} (h : findSplit cfg valid hists = .ok r) :
    ∀ s ∈ r, s.site = .guest := by
  refine evalList_all _ _ ?_ h
  intro x _ y hy
  unfold findSplitSingleGuest at hy
  cases h1 : featLoopGuest cfg valid 0 x ⟨cfg.rnd (cfg.minImpurity - Quantile.floatZero), none, none, none, none⟩ with
  | error e => rw [h1] at hy; cases hy
  | ok b => rw [h1] at hy; cases hy; rfl

/-- The proposals of a host carry its name, and it records bins for nodes of the batch only. -/
theorem finalSplits_inv {C : Cipher α} {site : Site} :
    ∀ (mask : Dict Nat Int) (ids : List Nat) (cs : List (List (SplitInfo α Unit)))
      (bs : List (Int × α)) (r : List (SplitInfo α α) × Dict Nat Int),
      finalSplits C site mask ids cs bs = .ok r →
      (∀ s ∈ r.1, s.site = site) ∧ ∀ id, id ∉ ids → Dict.get? r.2 id = Dict.get? mask id
  | mask, _, [], _, r, h => by
    unfold finalSplits at h; cases h; exact ⟨by simp, fun _ _ => rfl⟩
  | _, [], _ :: _, [], r, h => by unfold finalSplits at h; cases h
  | _, _ :: _, _ :: _, [], r, h => by unfold finalSplits at h; cases h
  | _, [], _ :: _, _ :: _, r, h => by unfold finalSplits at h; cases h
  | mask, nid :: ids, c :: cs, b :: bs, r, h => by
    unfold finalSplits at h
    cases h1 : finalSplit C site mask nid c b with
    | error e => rw [h1] at h; cases h
    | ok q =>
      obtain ⟨s, mask1⟩ := q
      rw [h1] at h
      simp only [bind, Except.bind] at h
      cases h2 : finalSplits C site mask1 ids cs bs with
      | error e => rw [h2] at h; cases h
      | ok q =>
        rw [h2] at h
        cases h
        obtain ⟨i1, i2⟩ := finalSplits_inv mask1 ids cs bs q h2
        have hone : s.site = site ∧ ∀ id, id ≠ nid → Dict.get? mask1 id = Dict.get? mask id := by
          unfold finalSplit at h1
          split at h1
          · split at h1
            · cases h1
            · split at h1
              · cases h1
              · rename_i hs
                simp only [ne_eq, not_not] at hs
                split at h1
                · cases h1
                · cases h1
                  refine ⟨hs, fun id hid => ?_⟩
                  rw [Dict.get?_set, if_neg (fun hc => hid hc.symm)]
                · cases h1
                  exact ⟨hs, fun _ _ => rfl⟩
          · cases h1
            exact ⟨rfl, fun _ _ => rfl⟩
        refine ⟨?_, fun id hid => ?_⟩
        · intro t ht
          rcases List.mem_cons.mp ht with rfl | ht
          · exact hone.1
          · exact i1 t ht
        · rw [List.mem_cons, not_or] at hid
          show Dict.get? q.2 id = _
          rw [i2 id hid.2, hone.2 id hid.1]

theorem hostsBatch_inv {cfg : Config} {C : Cipher α} {ids : List Nat} {sums : List (Rat × Rat)} :
    ∀ (j : Nat) (Hs : List (HostSide α)) (rs : List (List (SplitInfo α α) × Dict Nat Int)),
      hostsBatch cfg C ids sums j Hs = .ok rs →
      List.Forall₂ (fun H r => (∀ s ∈ r.1, s.site = .host H.idx) ∧
        ∀ id, id ∉ ids → Dict.get? r.2 id = Dict.get? H.mask id) Hs rs
  | _, [], rs, h => by unfold hostsBatch at h; cases h; exact .nil
  | j, H :: Hs, rs, h => by
    unfold hostsBatch at h
    cases h1 : hostBatch cfg C ids sums j H with
    | error e => rw [h1] at h; cases h
    | ok r =>
      rw [h1] at h
      simp only [bind, Except.bind] at h
      cases h2 : hostsBatch cfg C ids sums (j + 1) Hs with
      | error e => rw [h2] at h; cases h
      | ok rs' =>
        rw [h2] at h
        cases h
        refine .cons ?_ (hostsBatch_inv (j + 1) Hs rs' h2)
        unfold hostBatch at h1
        cases h3 : findSplitHost cfg H.valid (.host H.idx) H.hists with
        | error e => rw [h3] at h1; cases h1
        | ok q =>
          rw [h3] at h1
          simp only [bind, Except.bind] at h1
          cases h4 : bestForHost cfg C j 0 sums q.2 with
          | error e => rw [h4] at h1; cases h1
          | ok bests =>
            rw [h4] at h1
            exact finalSplits_inv _ _ _ _ _ h1

theorem bestHost_mem {C : Cipher α} : ∀ (l : List (SplitInfo α α)) (b r : Rat × SplitInfo α α),
    bestHost C l b = .ok r → r.2 ∈ b.2 :: l
  | [], b, r, h => by unfold bestHost at h; cases h; simp
  | s :: l, b, r, h => by
    unfold bestHost at h
    cases h1 : C.dec s.gain with
    | error e => rw [h1] at h; cases h
    | ok g =>
      rw [h1] at h
      simp only at h
      split at h
      · have := bestHost_mem l _ r h
        simp only [List.mem_cons] at this ⊢; tauto
      · have := bestHost_mem l _ r h
        simp only [List.mem_cons] at this ⊢; tauto

theorem findBestGuestHost_site {rnd : Rat → Rat} {C : Cipher α} {g s : SplitInfo (Option Rat) Rat}
    {hosts : List (SplitInfo α α)} (h : findBestGuestHost rnd C g hosts = .ok s) :
    s = g ∨ ∃ t ∈ hosts, s.site = t.site := by
  unfold findBestGuestHost at h
  cases hosts with
  | nil => cases h
  | cons t ts =>
    simp only at h
    cases h1 : C.dec t.gain with
    | error e => rw [h1] at h; cases h
    | ok gain =>
      rw [h1] at h
      simp only at h
      cases h2 : bestHost C (t :: ts) (gain, t) with
      | error e => rw [h2] at h; cases h
      | ok r =>
        obtain ⟨bg, best⟩ := r
        rw [h2] at h
        simp only at h
        split at h
        · cases h; exact Or.inl rfl
        · cases h3 : C.dec best.sumGrad with
          | error e => rw [h3] at h; cases h
          | ok a =>
            rw [h3] at h
            simp only at h
            cases h4 : C.dec best.sumHess with
            | error e => rw [h4] at h; cases h
            | ok b =>
              rw [h4] at h
              cases h
              have := bestHost_mem _ _ _ h2
              exact Or.inr ⟨best, by simp only [List.mem_cons] at this ⊢; tauto, rfl⟩

theorem column_mem {hosts : List (List (SplitInfo α α))} {i : Nat} {r : List (SplitInfo α α)}
    (h : column hosts i = .ok r) : ∀ s ∈ r, ∃ l ∈ hosts, s ∈ l := by
  refine evalList_all _ _ ?_ h
  intro l hl s hs
  unfold Histogram.getAt at hs
  cases h1 : l[i]? with
  | none => rw [h1] at hs; cases hs
  | some t => rw [h1] at hs; cases hs; exact ⟨l, hl, List.mem_of_getElem? h1⟩

theorem mergeLoop_site {rnd : Rat → Rat} {C : Cipher α} {hosts : List (List (SplitInfo α α))} :
    ∀ (i : Nat) (gs r : List (SplitInfo (Option Rat) Rat)), mergeLoop rnd C hosts i gs = .ok r →
      r.length = gs.length ∧ ∀ s ∈ r, s ∈ gs ∨ ∃ l ∈ hosts, ∃ t ∈ l, s.site = t.site
  | _, [], r, h => by unfold mergeLoop at h; cases h; simp
  | i, g :: gs, r, h => by
    unfold mergeLoop at h
    cases h1 : column hosts i with
    | error e => rw [h1] at h; cases h
    | ok col =>
      rw [h1] at h
      simp only [bind, Except.bind] at h
      cases h2 : findBestGuestHost rnd C g col with
      | error e => rw [h2] at h; cases h
      | ok b =>
        rw [h2] at h
        simp only at h
        cases h3 : mergeLoop rnd C hosts (i + 1) gs with
        | error e => rw [h3] at h; cases h
        | ok bs =>
          rw [h3] at h
          cases h
          obtain ⟨i1, i2⟩ := mergeLoop_site (i + 1) gs bs h3
          refine ⟨by simp [i1], ?_⟩
          intro s hs
          rcases List.mem_cons.mp hs with rfl | hs
          · rcases findBestGuestHost_site h2 with rfl | ⟨t, ht, hst⟩
            · exact Or.inl (by simp)
            · obtain ⟨l, hl, htl⟩ := column_mem h1 t ht
              exact Or.inr ⟨l, hl, t, htl, hst⟩
          · rcases i2 s hs with h' | h'
            · exact Or.inl (by simp [h'])
            · exact Or.inr h'

theorem evalList_length {β γ : Type} {f : β → Except PyErr γ} :
    ∀ (l : List β) (r : List γ), evalList f l = .ok r → r.length = l.length
  | [], r, h => by unfold evalList at h; cases h; rfl
  | x :: xs, r, h => by
    unfold evalList at h
    cases h1 : f x with
    | error e => rw [h1] at h; cases h
    | ok y =>
      rw [h1] at h
      simp only [bind, Except.bind] at h
      cases h2 : evalList f xs with
      | error e => rw [h2] at h; cases h
      | ok ys => rw [h2] at h; cases h; simp [evalList_length xs ys h2]

/-- A split chosen for a batch belongs to the guest or one of the hosts; hosts record bins for
nodes of the batch only. -/
theorem splitBatch_inv {cfg : Config} {C : Cipher α} {ids : List Nat} {sums : List (Rat × Rat)}
    {valid : List Bool} {hists : Hist Rat} {hosts : List (HostSide α)}
    {ss : List (SplitInfo (Option Rat) Rat)} {masks : List (Dict Nat Int)}
    (h : splitBatch cfg C ids sums valid hists hosts = .ok (ss, masks)) :
    ss.length = hists.length ∧
    (∀ s ∈ ss, s.site = .guest ∨ ∃ H ∈ hosts, s.site = .host H.idx) ∧
    List.Forall₂ (fun H m => ∀ id, id ∉ ids → Dict.get? m id = Dict.get? H.mask id) hosts masks := by
  unfold splitBatch at h
  cases h1 : findSplit cfg valid hists with
  | error e => rw [h1] at h; cases h
  | ok gs =>
    rw [h1] at h
    simp only [bind, Except.bind] at h
    cases h2 : hostsBatch cfg C ids sums 0 hosts with
    | error e => rw [h2] at h; cases h
    | ok rs =>
      rw [h2] at h
      simp only at h
      cases h3 : mergeLoop cfg.rnd C (rs.map Prod.fst) 0 gs with
      | error e => rw [h3] at h; cases h
      | ok best =>
        rw [h3] at h
        cases h
        have hb := hostsBatch_inv 0 hosts rs h2
        obtain ⟨m1, m2⟩ := mergeLoop_site 0 gs ss h3
        refine ⟨by rw [m1]; exact evalList_length _ _ h1, ?_, ?_⟩
        · intro s hs
          rcases m2 s hs with hg | ⟨l, hl, t, ht, hst⟩
          · exact Or.inl (findSplit_site h1 s hg)
          · right
            obtain ⟨r, hr, rfl⟩ := List.mem_map.mp hl
            obtain ⟨i, hi⟩ := List.mem_iff_getElem?.mp hr
            have hlen := hb.length_eq
            have hi' : i < hosts.length := by
              have := (List.getElem?_eq_some_iff.mp hi).1; omega
            have := (List.forall₂_iff_get.mp hb).2 i hi' (List.getElem?_eq_some_iff.mp hi).1
            have e : rs.get ⟨i, (List.getElem?_eq_some_iff.mp hi).1⟩ = r :=
              (List.getElem?_eq_some_iff.mp hi).2
            rw [e] at this
            exact ⟨_, List.get_mem hosts ⟨i, hi'⟩, by rw [hst, this.1 t ht]⟩
        · rw [List.forall₂_map_right_iff]
          exact hb.imp (fun _ _ h => h.2)

theorem hostSides_inv {S : Setup K α} {pos : DTable K (Nat × Nat)} {ids : List Nat} :
    ∀ (Hs : List (Party K)) (ms : List (Dict Nat Int)) (r : List (HostSide α)),
      Hs.length = ms.length → hostSides S pos ids Hs ms = .ok r →
      r.map (fun H => (H.idx, H.mask)) = List.zip (Hs.map Party.idx) ms
  | [], [], r, _, h => by unfold hostSides at h; cases h; rfl
  | [], _ :: _, _, hl, _ => by simp at hl
  | _ :: _, [], _, hl, _ => by simp at hl
  | H :: Hs, m :: ms, r, hl, h => by
    unfold hostSides at h
    cases h1 : H.data.join pos (fun v p => (v, p)) with
    | error e => simp only [bind, Except.bind, h1] at h; cases h
    | ok d =>
      simp only [bind, Except.bind, h1] at h
      cases h2 : Histogram.getHistograms S.arith H.splits H.sparse (some H.valid) ids d S.encGh with
      | error e => rw [h2] at h; cases h
      | ok E =>
        rw [h2] at h
        simp only at h
        cases h3 : hostSides S pos ids Hs ms with
        | error e => rw [h3] at h; cases h
        | ok rest =>
          rw [h3] at h
          cases h
          have := hostSides_inv Hs ms rest (by simpa using hl) h3
          simp [this]

theorem batchSplits_inv {S : Setup K α} {dep batch : Nat}
    {dataPos : DTable K (Binning.SparseVec Binning.Cell × Nat × Nat)} {pos : DTable K (Nat × Nat)}
    {nodes : List Node} {masks masks' : List (Dict Nat Int)}
    {ss : List (SplitInfo (Option Rat) Rat)} (hlen : S.hosts.length = masks.length)
    (h : batchSplits S dep batch dataPos pos nodes masks = .ok (ss, masks')) :
    (∀ s ∈ ss, s.site = .guest ∨ ∃ H ∈ S.hosts, s.site = .host H.idx) ∧
    List.Forall₂ (fun m m' => ∀ id, id ∉ nodes.map Node.id → Dict.get? m' id = Dict.get? m id)
      masks masks' := by
  unfold batchSplits at h
  cases h1 : Histogram.getHistograms (Histogram.floats S.cfg.rnd) S.guest.splits S.guest.sparse
      (some S.guest.valid) (nodes.map Node.id) dataPos S.gh with
  | error e => simp only [bind, Except.bind, h1] at h; cases h
  | ok HG =>
    simp only [bind, Except.bind, h1] at h
    cases h2 : hostSides S pos (nodes.map Node.id) S.hosts masks with
    | error e => rw [h2] at h; cases h
    | ok hosts =>
      rw [h2] at h
      simp only at h
      have e := hostSides_inv S.hosts masks hosts hlen h2
      obtain ⟨_, b2, b3⟩ := splitBatch_inv h
      refine ⟨fun s hs => ?_, ?_⟩
      · rcases b2 s hs with hg | ⟨H, hH, hs⟩
        · exact Or.inl hg
        · right
          have : (H.idx, H.mask) ∈ List.zip (S.hosts.map Party.idx) masks := by
            rw [← e]; exact List.mem_map.mpr ⟨H, hH, rfl⟩
          obtain ⟨P, hP, hPi⟩ := List.mem_map.mp (List.of_mem_zip this).1
          exact ⟨P, hP, by rw [hs, hPi]⟩
      · have e2 : masks = hosts.map HostSide.mask := by
          have := congrArg (List.map Prod.snd) e
          rw [List.map_map, List.map_snd_zip (by simp [hlen])] at this
          exact this.symm
        rw [e2, List.forall₂_map_left_iff]
        exact b3

theorem batchLoop_inv {S : Setup K α} {dep : Nat}
    {dataPos : DTable K (Binning.SparseVec Binning.Cell × Nat × Nat)} {pos : DTable K (Nat × Nat)} :
    ∀ (fuel batch : Nat) (nodes : List Node) (masks masks' : List (Dict Nat Int))
      (ss : List (SplitInfo (Option Rat) Rat)), S.hosts.length = masks.length →
      batchLoop S dep dataPos pos fuel batch nodes masks = .ok (ss, masks') →
      (∀ s ∈ ss, s.site = .guest ∨ ∃ H ∈ S.hosts, s.site = .host H.idx) ∧
      List.Forall₂ (fun m m' => ∀ id, id ∉ nodes.map Node.id → Dict.get? m' id = Dict.get? m id)
        masks masks'
  | fuel, _, [], masks, masks', ss, hlen, h => by
    unfold batchLoop at h
    cases h
    exact ⟨by simp, List.forall₂_same.mpr fun _ _ _ _ => rfl⟩
  | 0, _, n :: ns, masks, masks', ss, hlen, h => by
    unfold batchLoop at h
    cases h
    exact ⟨by simp, List.forall₂_same.mpr fun _ _ _ _ => rfl⟩
  | fuel + 1, batch, n :: ns, masks, masks', ss, hlen, h => by
    unfold batchLoop at h
    cases h1 : batchSplits S dep batch dataPos pos ((n :: ns).take S.maxSplitNodes) masks with
    | error e => simp only [bind, Except.bind, h1] at h; cases h
    | ok r =>
      obtain ⟨ss1, masks1⟩ := r
      simp only [bind, Except.bind, h1] at h
      cases h2 : batchLoop S dep dataPos pos fuel (batch + 1) ((n :: ns).drop S.maxSplitNodes) masks1 with
      | error e => rw [h2] at h; cases h
      | ok r =>
        obtain ⟨ss2, masks2⟩ := r
        rw [h2] at h
        cases h
        obtain ⟨a1, a2⟩ := batchSplits_inv hlen h1
        obtain ⟨b1, b2⟩ := batchLoop_inv fuel (batch + 1) _ masks1 masks2 ss2
          (by rw [hlen]; exact a2.length_eq) h2
        refine ⟨fun s hs => ?_, ?_⟩
        · rcases List.mem_append.mp hs with hs | hs
          · exact a1 s hs
          · exact b1 s hs
        · have htd : ∀ id, id ∉ (n :: ns).map Node.id →
              id ∉ ((n :: ns).take S.maxSplitNodes).map Node.id ∧
              id ∉ ((n :: ns).drop S.maxSplitNodes).map Node.id := by
            intro id hid
            rw [← List.take_append_drop S.maxSplitNodes (n :: ns), List.map_append, List.mem_append,
              not_or] at hid
            exact hid
          rw [List.forall₂_iff_get] at a2 b2 ⊢
          refine ⟨a2.1.trans b2.1, fun i h1 h2 id hid => ?_⟩
          have hi : i < masks1.length := by rw [← a2.1]; exact h1
          rw [b2.2 i hi h2 id (htd id hid).2, a2.2 i h1 hi id (htd id hid).1]

/-- What is written into the tree. -/
theorem updateLoop_nodes {cfg : Config} {kind : ImpType} {reach : Bool} (P : Node → Prop)
    (Q : SplitInfo (Option Rat) Rat → Prop)
    (hleaf : ∀ n : Node, P { n with isLeaf := true })
    (hinner : ∀ (n : Node) s num bid, Q s → ¬s.gain ≤ cfg.rnd (cfg.minImpurity + Quantile.floatZero) →
      P { n with
        left := some (num + 1), right := some (num + 2), site := s.site, fid := s.fid, bid := bid }) :
    ∀ (rem : List Node) (ss : List (SplitInfo (Option Rat) Rat)) (g g' : Grow),
      (∀ s ∈ ss, Q s) → (∀ n ∈ g.tree, P n) → updateLoop cfg kind reach rem ss g = .ok g' →
      ∀ n ∈ g'.tree, P n
  | [], _, g, g', _, hP, h => by unfold updateLoop at h; cases h; exact hP
  | m :: rem, ss, g, g', hQ, hP, h => by
    have hP' : ∀ n ∈ ({ g with tree := g.tree ++ [{ m with isLeaf := true }] } : Grow).tree, P n := by
      intro n hn
      rcases List.mem_append.mp hn with hn | hn
      · exact hP n hn
      · rw [List.mem_singleton] at hn; subst hn; exact hleaf m
    unfold updateLoop at h
    by_cases hr : reach = true
    · rw [if_pos hr] at h
      exact updateLoop_nodes P Q hleaf hinner rem _ _ g' (fun s hs => hQ s (List.mem_of_mem_tail hs)) hP' h
    · rw [if_neg hr] at h
      cases ss with
      | nil => cases h
      | cons s ss =>
        simp only at h
        split at h
        · exact updateLoop_nodes P Q hleaf hinner rem _ _ g' (fun s hs => hQ s (by simp [hs])) hP' h
        · rename_i hgain
          cases hsp : splitNode cfg.rnd cfg.regLambda kind m s g with
          | error e => rw [hsp] at h; cases h
          | ok g1 =>
            rw [hsp] at h
            obtain ⟨_, _, _, _, bid, _, _, _, _, _, _, _, _, ht, _, _, _⟩ := splitNode_inv hsp
            refine updateLoop_nodes P Q hleaf hinner rem ss g1 g' (fun s hs => hQ s (by simp [hs])) ?_ h
            intro n hn
            rw [ht] at hn
            rcases List.mem_append.mp hn with hn | hn
            · exact hP n hn
            · rw [List.mem_singleton] at hn; subst hn
              exact hinner m s g.num bid (hQ s (by simp)) hgain

/-- Names of the owners of inner nodes. -/
def SiteOk (hosts : List (Party K)) (n : Node) : Prop :=
  n.isLeaf = true ∨ n.site = .guest ∨ ∃ H ∈ hosts, n.site = .host H.idx

theorem level_sites {S : Setup K α} {dep : Nat} {reach : Bool} {st st' : State K}
    (hlen : S.hosts.length = st.masks.length) (hP : ∀ n ∈ st.grow.tree, SiteOk S.hosts n)
    (h : level S dep reach st = .ok st') :
    S.hosts.length = st'.masks.length ∧ (∀ n ∈ st'.grow.tree, SiteOk S.hosts n) ∧
    List.Forall₂ (fun m m' => ∀ id, id ∉ st.grow.queue.map Node.id →
      Dict.get? m' id = Dict.get? m id) st.masks st'.masks := by
  obtain ⟨_, _, ss, _, _, _, h3, h4, _⟩ := level_inv h
  obtain ⟨a1, a2⟩ := batchLoop_inv _ _ _ _ _ _ hlen h3
  refine ⟨hlen.trans a2.length_eq, ?_, a2⟩
  exact updateLoop_nodes (SiteOk S.hosts) _ (fun n => Or.inl rfl)
    (fun n s num bid hs _ => Or.inr hs) _ _ { st.grow with queue := [] } _ a1 hP h4

/-- The thresholds of a party. -/
theorem convert_inv {site : Site} {splits : List (List Rat)} {mask : Dict Nat Int} :
    ∀ (tree : List Node) (acc d : Dict Nat Rat), (tree.map Node.id).Nodup →
      convert site splits mask tree acc = .ok d →
      (∀ n ∈ tree, n.isLeaf = false → n.site = site → ∃ b x, mask.get? n.id = some b ∧
        realValue splits n.fid b = .ok x ∧ d.get? n.id = some x) ∧
      (∀ i, (∀ n ∈ tree, n.id = i → ¬(n.isLeaf = false ∧ n.site = site)) → d.get? i = acc.get? i)
  | [], acc, d, _, h => by unfold convert at h; cases h; simp
  | m :: tree, acc, d, hnd, h => by
    rw [List.map_cons, List.nodup_cons] at hnd
    obtain ⟨hm, hnd⟩ := hnd
    unfold convert at h
    by_cases hl : m.isLeaf = true
    · rw [if_pos hl] at h
      obtain ⟨i1, i2⟩ := convert_inv tree acc d hnd h
      refine ⟨fun n hn hnl hns => ?_, fun i hi => i2 i fun n hn => hi n (by simp [hn])⟩
      rcases List.mem_cons.mp hn with rfl | hn
      · rw [hl] at hnl; cases hnl
      · exact i1 n hn hnl hns
    · rw [if_neg hl] at h
      by_cases hs : m.site ≠ site
      · rw [if_pos hs] at h
        obtain ⟨i1, i2⟩ := convert_inv tree acc d hnd h
        refine ⟨fun n hn hnl hns => ?_, fun i hi => i2 i fun n hn => hi n (by simp [hn])⟩
        rcases List.mem_cons.mp hn with rfl | hn
        · exact absurd hns hs
        · exact i1 n hn hnl hns
      · rw [if_neg hs] at h
        cases h1 : decodeVal mask m.id with
        | error e => rw [h1] at h; cases h
        | ok b =>
          rw [h1] at h
          simp only at h
          cases h2 : realValue splits m.fid b with
          | error e => rw [h2] at h; cases h
          | ok x =>
            rw [h2] at h
            simp only at h
            obtain ⟨i1, i2⟩ := convert_inv tree _ d hnd h
            refine ⟨fun n hn hnl hns => ?_, fun i hi => ?_⟩
            · rcases List.mem_cons.mp hn with rfl | hn
              · refine ⟨b, x, ?_, h2, ?_⟩
                · unfold decodeVal at h1
                  split at h1
                  · cases h1; assumption
                  · cases h1
                · rw [i2 n.id, Dict.get?_set, if_pos rfl]
                  intro n' hn' he
                  exact absurd (List.mem_map.mpr ⟨n', hn', he⟩) hm
              · exact i1 n hn hnl hns
            · rw [i2 i fun n hn => hi n (by simp [hn]), Dict.get?_set, if_neg]
              intro he
              refine hi m (by simp) he ⟨by simpa using hl, by simpa using hs⟩

omit [DecidableEq K] in
theorem convertHosts_inv {tree : List Node} :
    ∀ (Hs : List (Party K)) (ms : List (Dict Nat Int)) (ds : List (Dict Nat Rat)),
      Hs.length = ms.length → convertHosts tree Hs ms = .ok ds →
      ds.length = Hs.length ∧ ∀ (j : Nat) H m, Hs[j]? = some H → ms[j]? = some m →
        ∃ d, ds[j]? = some d ∧ convert (.host H.idx) H.splits m tree [] = .ok d
  | [], [], ds, _, h => by unfold convertHosts at h; cases h; simp
  | [], _ :: _, _, hl, _ => by simp at hl
  | _ :: _, [], _, hl, _ => by simp at hl
  | H :: Hs, m :: ms, ds, hl, h => by
    unfold convertHosts at h
    cases h1 : convert (.host H.idx) H.splits m tree [] with
    | error e => simp only [bind, Except.bind, h1] at h; cases h
    | ok d =>
      simp only [bind, Except.bind, h1] at h
      cases h2 : convertHosts tree Hs ms with
      | error e => rw [h2] at h; cases h
      | ok ds' =>
        rw [h2] at h
        cases h
        obtain ⟨i1, i2⟩ := convertHosts_inv Hs ms ds' (by simpa using hl) h2
        refine ⟨by simp [i1], fun j H' m' hH hm => ?_⟩
        cases j with
        | zero =>
          simp only [List.getElem?_cons_zero, Option.some.injEq] at hH hm
          subst hH hm
          exact ⟨d, rfl, h1⟩
        | succ j =>
          simp only [List.getElem?_cons_succ] at hH hm ⊢
          exact i2 j H' m' hH hm

end DTree
end Verif
