import Verif.Lemmas.Greedy

/-! # Greedy growing: a whole run -/

set_option autoImplicit false

namespace Verif
namespace DTree

open Spec
open Binning (Cell SparseVec getBinNum)

variable {K : Type} [DecidableEq K] {α : Type}

theorem reduce_gh (l : List (Rat × Rat)) (acc : Rat × Rat) :
    DTable.reduceLoop (addGh id) (some acc) (l.map some) =
    some (acc.1 + (l.map Prod.fst).sum, acc.2 + (l.map Prod.snd).sum) := by
  induction l generalizing acc with
  | nil => simp [DTable.reduceLoop]
  | cons p l ih =>
    rw [List.map_cons, DTable.reduceLoop, show addGh id (some acc) (some p) = some (acc.1 + p.1, acc.2 + p.2) from rfl, ih]
    simp [add_assoc]

theorem gradHessSum_ok {gh : DTable K (Rat × Rat)} (hw : gh.WF) (hne : gh.data ≠ []) :
    gradHessSum id gh = .ok (sumKeys gh gh.data.keys) := by
  have e1 := ghOf_sum hw Prod.fst
  have e2 := ghOf_sum hw Prod.snd
  unfold gradHessSum sumKeys
  rw [e1, e2]
  cases hgh : gh.data with
  | nil => exact absurd hgh hne
  | cons p l =>
    have e : Dict.values (p :: l) = p.2 :: l.map Prod.snd := rfl
    rw [e, List.map_cons, DTable.reduceLoop, reduce_gh]
    simp [List.map_map, Function.comp_def]

theorem Steady.by {S : Setup K α} [S.cfg.Exact] {V : View K} {δ : Rat} (hp : Prepared S) (hv : Steady S V) :
    SteadyBy S (rulesOf S V δ) where
  root := ⟨_, by rw [Config.Exact.rnd_eq (cfg := S.cfg)]; exact gradHessSum_ok hp.wf hp.some, hv.root⟩
  split d A s j f b l P hd hA hn hP hpick := by
    simp only [Config.rnd_apply]
    exact hv.split d A s j f b l P hd hA hn hpick.1 hP
  weight d A s hd hA hne hn := nodeWeight_of (hv.weight d A s hd hA hne hn)

theorem Greedy.init {S : Setup K α} {R : Rules K} (hp : Prepared S) (hv : SteadyBy S R) :
    ∃ st, initState S = .ok st ∧ Greedy S R 0 (fun _ => 1) (fun _ => S.gh.data.keys) st := by
  have hne : S.gh.data.keys ≠ [] := by
    have := hp.some
    intro hc
    apply this
    unfold Dict.keys at hc
    simpa using hc
  obtain ⟨s, e1, hroot⟩ := hv.root
  obtain ⟨w, e2⟩ := hv.weight 0 _ s (Nat.zero_le _) (fun k hk => hk) hne hroot
  obtain ⟨_, _, hdwf, _, hkeys⟩ := hp.parties none S.guest rfl
  have e3 := DTable.mapValues_ok hdwf (fun _ => Disp.at 1 0)
  obtain ⟨disp, e3⟩ : ∃ d, S.guest.data.mapValues (fun _ => Disp.at 1 0) = .ok d := ⟨_, e3⟩
  have hinit : initState S = .ok ⟨⟨[], [Node.fresh 0 s.1 s.2 w], 0, [], []⟩, disp, none, S.hosts.map fun _ => []⟩ := by
    unfold initState
    simp only [bind, Except.bind, e1, e2, e3]
    rfl
  refine ⟨_, hinit, Track.init hinit, ⟨_, Ready.root _ _ _ _ _ e2 [] []⟩, by simp, rfl, fun i => ⟨fun _ => true, by simp⟩,
    ?_, ?_, by simp, fun _ => 0, ImpInv.start _ _ _ _ _ _⟩
  · intro n hn
    simp only [List.nil_append, List.mem_singleton] at hn
    subst hn
    exact ⟨hne, hroot⟩
  · intro n hn k
    simp only [List.mem_singleton] at hn
    subst hn
    obtain ⟨_, w2⟩ := DTable.mapValues_inv e3
    simp only [Node.fresh]
    rw [w2, ← hkeys k]
    cases hk : S.guest.data.data.get? k with
    | none =>
      rw [Dict.get?_eq_none_iff] at hk
      simp [hk]
    | some v => simp [Dict.mem_keys_of_get? hk]

theorem levels_ok {S : Setup K α} {R : Rules K} {m : Rat} (hp : Prepared S) (hu : Usual S m)
    (hc : ChoosesBy S R) (hv : SteadyBy S R) : ∀ (r dep : Nat) (lev : Nat → Nat) (mem : Nat → List K) (st : State K),
      Greedy S R dep lev mem st → dep + r = S.maxDepth → ∃ st' dep' lev' mem',
        levels S r dep st = .ok st' ∧ Greedy S R dep' lev' mem' st' ∧ dep' ≤ S.maxDepth
  | 0, dep, lev, mem, st, hg, he => ⟨st, dep, lev, mem, by unfold levels; rfl, hg, by omega⟩
  | r + 1, dep, lev, mem, st, hg, he => by
    unfold levels
    by_cases hq : st.grow.queue.isEmpty = true
    · rw [if_pos hq]
      exact ⟨st, dep, lev, mem, rfl, hg, by omega⟩
    · rw [if_neg hq]
      obtain ⟨st1, lev1, mem1, h1, h2⟩ := hg.step hp hu hc hv (by omega) (decide (r = 0)) (by
        intro hr
        have : r = 0 := by simpa using hr
        omega)
      rw [h1]
      exact levels_ok hp hu hc hv r (dep + 1) lev1 mem1 st1 h2 (by omega)

/-- Bins of samples are numbers not above the number of split points. -/
theorem binAt_le {S : Setup K α} (hp : Prepared S) {j : Option Nat} {P : Party K}
    (hP : partyAt S j = some P) {f : Nat} {sp : List Rat} (hf : P.splits[f]? = some sp) {k : K}
    (hk : k ∈ S.gh.data.keys) : ∃ c : Nat, binAt P f k = c ∧ c ≤ sp.length := by
  obtain ⟨_, hz, _, hb, hkeys⟩ := hp.parties j P hP
  obtain ⟨v, hv⟩ := Dict.exists_get?_of_mem ((hkeys k).mpr hk)
  obtain ⟨z, z1, z2⟩ := hz f sp hf
  unfold binAt
  rw [hv]
  simp only [binOf, z1, Option.getD_some]
  unfold Binning.SparseVec.getData
  cases hc : v.vec.get? f with
  | none => exact ⟨z, by simp [Binning.Cell.val], z2⟩
  | some c =>
    obtain ⟨b, sp', rfl, b2, b3⟩ := (hb k v hv).bins f c hc
    rw [hf, Option.some.injEq] at b2
    subst b2
    exact ⟨b, by simp [Binning.Cell.val], b3⟩

/-- The bin of a split that leaves samples on the right has a split point. -/
theorem best_lt {S : Setup K α} (hp : Prepared S) {A : List K}
    (hA : ∀ k ∈ A, k ∈ S.gh.data.keys) {j : Option Nat} {P : Party K} {f b : Nat} {sp : List Rat}
    (h1 : partyAt S j = some P) (h3 : P.splits[f]? = some sp)
    (hne : (A.filter fun k => decide ((b : Rat) < binAt P f k)) ≠ []) : b < sp.length := by
  obtain ⟨k, hk⟩ := List.exists_mem_of_ne_nil _ hne
  rw [List.mem_filter, decide_eq_true_eq] at hk
  obtain ⟨c, c1, c2⟩ := binAt_le hp h1 h3 (hA k hk.1)
  have := hk.2
  rw [c1] at this
  have : b < c := by exact_mod_cast this
  omega

theorem convert_ok {site : Site} {splits : List (List Rat)} {mask : Dict Nat Int} :
    ∀ (tree : List Node) (acc : Dict Nat Rat),
      (∀ n ∈ tree, n.isLeaf = false → n.site = site → ∃ (f b : Nat) (sp : List Rat),
        mask.get? n.id = some (b : Int) ∧ n.fid = some (f : Int) ∧ splits[f]? = some sp ∧ b < sp.length) →
      ∃ d, convert site splits mask tree acc = .ok d
  | [], acc, _ => ⟨acc, by unfold convert; rfl⟩
  | n :: tree, acc, h => by
    have ih := fun acc => convert_ok tree acc fun m hm => h m (by simp [hm])
    unfold convert
    by_cases hl : n.isLeaf = true
    · rw [if_pos hl]; exact ih acc
    · rw [if_neg hl]
      by_cases hs : n.site ≠ site
      · rw [if_pos hs]; exact ih acc
      · rw [if_neg hs]
        obtain ⟨f, b, sp, h1, h2, h3, h4⟩ := h n (by simp) (by simpa using hl) (not_not.mp hs)
        have e1 : decodeVal mask n.id = .ok (b : Int) := by unfold decodeVal; rw [h1]
        have e2 : realValue splits n.fid (b : Int) = .ok sp[b] := by
          unfold realValue
          rw [h2]
          simp only
          rw [if_neg (by omega)]
          simp only [Int.toNat_natCast, h3, List.getElem?_eq_getElem h4]
        rw [e1]
        simp only
        rw [e2]
        exact ih _

omit [DecidableEq K] in
theorem convertHosts_ok {tree : List Node} :
    ∀ (Hs : List (Party K)) (ms : List (Dict Nat Int)),
      (∀ (j : Nat) H m, Hs[j]? = some H → ms[j]? = some m →
        ∃ d, convert (.host H.idx) H.splits m tree [] = .ok d) →
      ∃ ds, convertHosts tree Hs ms = .ok ds
  | [], _, _ => ⟨[], by unfold convertHosts; rfl⟩
  | _ :: _, [], _ => ⟨[], by unfold convertHosts; rfl⟩
  | H :: Hs, m :: ms, h => by
    obtain ⟨d, hd⟩ := h 0 H m rfl rfl
    obtain ⟨ds, hds⟩ := convertHosts_ok Hs ms fun j H m h1 h2 => h (j + 1) H m (by simpa using h1) (by simpa using h2)
    refine ⟨d :: ds, ?_⟩
    unfold convertHosts
    simp only [bind, Except.bind, hd, hds]
    rfl

/-- A run of prepared parties that make the federated choice succeeds and grows greedily. -/
theorem fit_ok {S : Setup K α} {R : Rules K} {m : Rat} (hp : Prepared S) (hu : Usual S m)
    (hc : ChoosesBy S R) (hv : SteadyBy S R) : ∃ F st dep lev mem, fit S = .ok F ∧ F.tree = st.grow.tree ∧
      F.weights = st.weights ∧ F.imps = st.grow.imps ∧ st.grow.queue = [] ∧
      convert .guest S.guest.splits st.grow.mask F.tree [] = .ok F.guestMask ∧
      convertHosts F.tree S.hosts st.masks = .ok F.hostMasks ∧
      Greedy S R dep lev mem st ∧ dep ≤ S.maxDepth := by
  obtain ⟨st0, h1, g0⟩ := Greedy.init hp hv
  obtain ⟨st, dep, lev, mem, h2, g, hdep⟩ := levels_ok hp hu hc hv S.maxDepth 0 _ _ st0 g0 (by omega)
  have hq : st.grow.queue = [] := levels_done level_last _ 0 _ st (fun h => by have := hu.depth; omega) h2
  have hmemk : ∀ i, ∀ k ∈ mem i, k ∈ S.gh.data.keys := by
    intro i k hk
    obtain ⟨p, hp'⟩ := g.sub i
    rw [hp'] at hk
    exact List.mem_of_mem_filter hk
  have hconv : ∀ j P mk, partyAt S j = some P → maskAt st.grow.mask st.masks j = some mk →
      ∀ n ∈ st.grow.tree, n.isLeaf = false → n.site = siteName P j → ∃ (f b : Nat) (sp : List Rat),
        mk.get? n.id = some (b : Int) ∧ n.fid = some (f : Int) ∧ P.splits[f]? = some sp ∧ b < sp.length := by
    intro j P mk hP hm n hn hl hs
    rcases g.done n hn with ⟨d1, _⟩ | ⟨_, j', P', mk', f, b, l, c, sp, c1, c2, c3, c4, c5, c6, _, _, _, c10, c11, _, c13⟩
    · rw [hl] at d1; cases d1
    · have hj := party_unique hp.names c1 hP (by rw [← c2, ← hs])
      subst hj
      rw [hP, Option.some.injEq] at c1
      subst c1
      rw [hm, Option.some.injEq] at c3
      subst c3
      exact ⟨f, b, sp, c4, c5, c11, best_lt hp (hmemk n.id) hP c11 (by rw [← c10]; exact c13)⟩
  obtain ⟨gm, h3⟩ := convert_ok (site := .guest) (splits := S.guest.splits) (mask := st.grow.mask)
    st.grow.tree [] (hconv none S.guest _ rfl rfl)
  obtain ⟨hm, h4⟩ := convertHosts_ok (tree := st.grow.tree) S.hosts st.masks (by
    intro j H mk hj hm
    exact convert_ok _ [] (hconv (some j) H mk hj hm))
  have hfit : fit S = .ok ⟨st.grow.tree, gm, hm, st.weights, st.grow.imps⟩ := by
    unfold fit
    simp only [bind, Except.bind, h1, h2, h3, h4]
    rfl
  exact ⟨_, st, dep, lev, mem, hfit, rfl, rfl, rfl, hq, h3, h4, g, hdep⟩

/-- The samples listed for a node are those that come to it by the recorded bins. -/
theorem Greedy.reach {S : Setup K α} {R : Rules K} (hp : Prepared S) {dep : Nat}
    {lev : Nat → Nat} {mem : Nat → List K} {st : State K} (hg : Greedy S R dep lev mem st)
    (hq : st.grow.queue = []) (i : Nat) (hi : i < st.grow.tree.length) (k : K) :
    k ∈ mem i ↔ k ∈ S.gh.data.keys ∧ BinReach S st.grow.tree st.grow.mask st.masks k i := by
  obtain ⟨sums, hr⟩ := hg.ready
  have hinv := hr.inv
  rw [hq] at hinv
  obtain ⟨hlen, hnum⟩ := hinv.number
  have hwf := hinv.wellFormed
  have hside : ∀ (n : Node) j P mk f b, partyAt S j = some P → n.site = siteName P j →
      maskAt st.grow.mask st.masks j = some mk → Dict.get? mk n.id = some ((b : Nat) : Int) →
      n.fid = some ((f : Nat) : Int) → (∃ sp, P.splits[f]? = some sp) → ∀ k ∈ S.gh.data.keys,
      BinSide S st.grow.mask st.masks k n.id n (decide (binAt P f k ≤ (b : Rat))) := by
    rintro n j P mk f b h1 h2 h3 h4 h5 ⟨sp, h6⟩ k hk
    obtain ⟨_, hz, _, _, hkeys⟩ := hp.parties j P h1
    obtain ⟨v, hv⟩ := Dict.exists_get?_of_mem ((hkeys k).mpr hk)
    obtain ⟨z, z1, _⟩ := hz f sp h6
    refine ⟨j, P, mk, v, f, z, b, h1, h2, h3, h4, hv, h5, z1, ?_⟩
    unfold binAt
    rw [hv]
    simp only [binOf, z1, Option.getD_some, Int.cast_natCast]
  constructor
  · induction i using Nat.strong_induction_on with
    | _ i ih =>
      intro hk
      have hkk : k ∈ S.gh.data.keys := by
        obtain ⟨p, hp'⟩ := hg.sub i
        rw [hp'] at hk
        exact List.mem_of_mem_filter hk
      refine ⟨hkk, ?_⟩
      by_cases h0 : i = 0
      · subst h0; exact .root
      · obtain ⟨p, ⟨n, hn, hcn⟩, _⟩ := hwf.parent i (by omega) hi
        have hid := hnum p n hn
        have hpi : p < i ∧ p < st.grow.tree.length := by
          refine ⟨?_, (List.getElem?_eq_some_iff.mp hn).1⟩
          rcases hwf.shape p n hn with ⟨_, a, b⟩ | ⟨_, l, r, a, b, _, c, d, _⟩
          · rw [a, b] at hcn; simp at hcn
          · rw [a, b] at hcn
            rcases hcn with hcn | hcn <;> cases hcn <;> assumption
        rcases hg.done n (List.mem_of_getElem? hn) with ⟨d1, _⟩ |
          ⟨d1, j, P, mk, f, b, l, c, sp, c1, c2, c3, c4, c5, c6, c7, c8, c9, c10, c11, _, _⟩
        · rcases hwf.shape p n hn with ⟨_, a, b⟩ | ⟨a, _⟩
          · rw [a, b] at hcn; simp at hcn
          · rw [d1] at a; cases a
        have hbs := hside n j P mk f b c1 c2 c3 c4 c5 ⟨sp, c11⟩ k hkk
        rw [hid] at hbs
        rw [c7, c8] at hcn
        rcases hcn with hcn | hcn <;> cases hcn
        · rw [c9, List.mem_filter, hid] at hk
          refine .step (ih p hpi.1 hpi.2 hk.1).2 hn d1 hbs ?_
          rw [hk.2]; exact c7
        · rw [c10, List.mem_filter, hid, decide_eq_true_eq] at hk
          refine .step (ih p hpi.1 hpi.2 hk.1).2 hn d1 hbs ?_
          rw [decide_eq_false (not_le.mpr hk.2)]; exact c8
  · rintro ⟨hkk, hb⟩
    clear hi
    induction hb with
    | root => rw [hg.root]; exact hkk
    | @step i n s c _ hn hl hs hcn ih =>
      have hid := hnum i n hn
      rcases hg.done n (List.mem_of_getElem? hn) with ⟨d1, _⟩ |
        ⟨d1, j, P, mk, f, b, l, c', sp, c1, c2, c3, c4, c5, c6, c7, c8, c9, c10, c11, _, _⟩
      · rw [hl] at d1; cases d1
      rw [hid] at c4 c9 c10
      have := binAt_binSide hp.names hs c1 c2 c3 c4 c5
      subst this
      by_cases hle : binAt P f k ≤ (b : Rat)
      · rw [decide_eq_true hle] at hcn
        simp only [if_true] at hcn
        rw [c7] at hcn; cases hcn
        rw [c9, List.mem_filter]
        exact ⟨ih, by simpa using hle⟩
      · rw [decide_eq_false hle] at hcn
        simp only [Bool.false_eq_true, if_false] at hcn
        rw [c8] at hcn; cases hcn
        rw [c10, List.mem_filter]
        exact ⟨ih, by simpa using hle⟩

/-- A bin with a sample in it: bin test and threshold test agree. -/
theorem binOk_of_mem {sp : List Rat} {b : Nat} {v t : Rat} (hv : getBinNum v sp = b)
    (ht : sp[b]? = some t) : BinOk sp b t := by
  have h1 : v ≤ t := Binning.getBinNum_at v sp t (by rw [hv]; exact ht)
  have h2 := Binning.getBinNum_take v sp
  rw [hv] at h2
  intro w
  constructor
  · intro hw
    have hbl := (List.getElem?_eq_some_iff.mp ht).1
    have hl : getBinNum w sp < sp.length := by omega
    have hwt := Binning.getBinNum_at w sp _ (List.getElem?_eq_getElem hl)
    rcases Nat.lt_or_eq_of_le hw with h | h
    · have := h2 sp[getBinNum w sp] (by
        rw [List.mem_iff_getElem?]
        exact ⟨getBinNum w sp, by rw [List.getElem?_take_of_lt h, List.getElem?_eq_getElem hl]⟩)
      linarith
    · have : sp[getBinNum w sp]? = some t := by rw [h]; exact ht
      exact Binning.getBinNum_at w sp t this
  · intro hw
    by_contra hc
    have hc : b < getBinNum w sp := by omega
    have := Binning.getBinNum_take w sp t (by
      rw [List.mem_iff_getElem?]
      exact ⟨b, by rw [List.getElem?_take_of_lt hc, ht]⟩)
    linarith

/-- The best split uses the lowest bin that separates the samples this way, so that there is a
sample in its bin. -/
theorem best_bin_mem {S : Setup K α} {V : View K} {gn : Option Nat → Rat × Rat → Rat} {m mi ε : Rat} (hp : Prepared S) (hu : Usual S m) {A : List K}
    (hA : ∀ k ∈ A, k ∈ S.gh.data.keys) {j : Option Nat} {P : Party K} {f b : Nat} {l : Rat × Rat}
    (hP : partyAt S j = some P) (h : BestOf gn mi ε (OfferWith S V A) j f b l) : ∃ k ∈ A, binAt P f k = (b : Rat) := by
  obtain ⟨⟨P', sp, h1, h2, h3, h4, h5, h6, h7, h8⟩, _, _, hbest, _⟩ := h
  rw [hP, Option.some.injEq] at h1
  subst h1
  by_contra hno
  push Not at hno
  have hlow : ∀ k ∈ A, binAt P f k ≤ (b : Rat) → ∃ c : Nat, binAt P f k = c ∧ c < b := by
    intro k hk hle
    obtain ⟨c, c1, _⟩ := binAt_le hp hP h3 (hA k hk)
    refine ⟨c, c1, ?_⟩
    have h := hno k hk
    rw [c1] at h hle
    have hle' : c ≤ b := by exact_mod_cast hle
    have h' : c ≠ b := by exact_mod_cast h
    omega
  have hb0 : 1 ≤ b := by
    obtain ⟨k, hk⟩ := List.exists_mem_of_ne_nil _ (filter_ne_nil hu.leaf h6)
    rw [List.mem_filter, decide_eq_true_eq] at hk
    obtain ⟨c, _, c2⟩ := hlow k hk.1 hk.2
    omega
  have hiff : ∀ k ∈ A, (binAt P f k ≤ ((b - 1 : Nat) : Rat) ↔ binAt P f k ≤ (b : Rat)) := by
    intro k hk
    constructor
    · intro hle
      refine le_trans hle ?_
      exact_mod_cast Nat.sub_le b 1
    · intro hle
      obtain ⟨c, c1, c2⟩ := hlow k hk hle
      rw [c1]
      have : c ≤ b - 1 := by omega
      exact_mod_cast this
  have e1 : (A.filter fun k => decide (binAt P f k ≤ ((b - 1 : Nat) : Rat))) =
      A.filter fun k => decide (binAt P f k ≤ (b : Rat)) :=
    List.filter_congr fun k hk => by simp only [hiff k hk]
  have e2 : (A.filter fun k => decide (((b - 1 : Nat) : Rat) < binAt P f k)) =
      A.filter fun k => decide ((b : Rat) < binAt P f k) :=
    List.filter_congr fun k hk => by
      have := hiff k hk
      simp only [← not_le, this]
  have := (hbest f (b - 1) l ⟨P, sp, hP, h2, h3, by omega, h5, by rw [e1]; exact h6, by rw [e2]; exact h7,
    by rw [e1]; exact h8⟩).2 rfl
  omega

end DTree
end Verif
