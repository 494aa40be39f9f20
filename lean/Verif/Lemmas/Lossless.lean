import Verif.Lemmas.Solo
import Verif.Lemmas.Columns
import Verif.Lemmas.PaillierGreedy

/-! # Federated and centralised run grow the same tree -/

set_option autoImplicit false

namespace Verif
namespace DTree

open Spec
open Binning (getBinNum)

variable {K : Type} [DecidableEq K] {α : Type}

/-- The rows of the centralised run, with those of the host without features. -/
def duoRows (all dummy : DTable K (List Rat)) : Option Nat → DTable K (List Rat)
  | none => all
  | some _ => dummy

theorem exists_dummy (all : DTable K (List Rat)) (hw : all.WF) (hne : all.data ≠ []) :
    ∃ (D : Party K) (dummy : DTable K (List Rat)), FromRaw D dummy ∧ D.valid = [] ∧ D.splits = [] ∧
      dummy.data.keys = all.data.keys := by
  set dummy : DTable K (List Rat) := ⟨all.data.map fun p => (p.1, [])⟩ with hd
  have hk : dummy.data.keys = all.data.keys := Dict.keys_map (fun _ _ => []) all.data
  have hdw : dummy.WF := by unfold DTable.WF Dict.WF; rw [hk]; exact hw
  have hdn : dummy.data ≠ [] := by
    intro h
    apply hne
    simpa [hd] using h
  have hwid : ∀ k row, dummy.data.get? k = some row → row.length = ([] : List String).length := by
    intro k row h
    have := Dict.get?_mem h
    simp only [hd, List.mem_map] at this
    obtain ⟨p, _, hp⟩ := this
    cases hp
    rfl
  obtain ⟨table, sp, sb, h1, _, h3, _⟩ := C21_table (⟨1, 1, 0, []⟩ : Quantile.Config) (le_refl _) rfl 1
    (le_refl _) [] List.nodup_nil dummy hdw hdn hwid
  have hsp : sp = [] := List.eq_nil_of_length_eq_zero (by simpa using h3)
  exact ⟨⟨0, sp, sb, [], table⟩, dummy, ⟨_, 1, [], le_refl _, rfl, le_refl _, List.nodup_nil, hdw, hdn, hwid, h1⟩,
    rfl, hsp, hk⟩

theorem dict_keys_congr {V : Type} {d e : Dict K V} (h : ∀ k, Dict.get? d k = Dict.get? e k) (k : K) :
    k ∈ Dict.keys d ↔ k ∈ Dict.keys e := by
  constructor
  · intro hk
    obtain ⟨v, hv⟩ := Dict.exists_get?_of_mem hk
    rw [h] at hv
    exact Dict.mem_keys_of_get? hv
  · intro hk
    obtain ⟨v, hv⟩ := Dict.exists_get?_of_mem hk
    rw [← h] at hv
    exact Dict.mem_keys_of_get? hv

theorem central_keys {S : Setup K α} {rows : Option Nat → DTable K (List Rat)} {C : Central K}
    {all : DTable K (List Rat)} (hc : Centralised S rows C all) (k : K) :
    k ∈ C.gh.data.keys ↔ k ∈ S.gh.data.keys := dict_keys_congr hc.gh.2 k

theorem central_sum {S : Setup K α} {rows : Option Nat → DTable K (List Rat)} {C : Central K}
    {all : DTable K (List Rat)} (hc : Centralised S rows C all) (A : List K) :
    sumKeys C.gh A = sumKeys S.gh A := by
  unfold sumKeys ghOf
  simp only [hc.gh.2]

theorem duo_raw {S : Setup K α} {rows : Option Nat → DTable K (List Rat)} {C : Central K}
    {all dummy : DTable K (List Rat)} {D : Party K} (hr : RawRun S rows)
    (hc : Centralised S rows C all) (hD : FromRaw D dummy) (hv : D.valid = []) (hs : D.splits = [])
    (hk : dummy.data.keys = all.data.keys) : RawRun (duo C D) (duoRows all dummy) := by
  obtain ⟨h1, h2, _⟩ := central_splits hr hc
  have hkeys : ∀ k, k ∈ all.data.keys ↔ k ∈ C.gh.data.keys := by
    intro k
    rw [central_keys hc, ← hc.joined.keys none S.guest rfl k]
    exact (hr.parties none S.guest rfl).2.2 k
  refine ⟨fun j P hP => ?_, by simp [duo], hc.gh.1⟩
  match j with
  | none =>
    simp only [partyAt, duo, Option.some.injEq] at hP
    subst hP
    refine ⟨h1, ?_, hkeys⟩
    rw [h2, hc.valid, side_length]
    intro j P hP
    rw [hP]
    exact (hr.parties j P hP).2.1
  | some 0 =>
    simp only [partyAt, duo, List.getElem?_cons_zero, Option.some.injEq] at hP
    subst hP
    refine ⟨hD, by rw [hv, hs]; rfl, fun k => ?_⟩
    show k ∈ dummy.data.keys ↔ _
    rw [hk]
    exact hkeys k
  | some (j + 1) => simp [partyAt, duo] at hP

theorem duo_usual {S : Setup K α} {rows : Option Nat → DTable K (List Rat)} {C : Central K}
    {all : DTable K (List Rat)} {D : Party K} {m : Rat} (hu : Usual S m)
    (hc : Centralised S rows C all) : Usual (duo C D) m := by
  refine ⟨?_, hc.batch, hc.kind, by simp [duo], ?_, ?_, ?_⟩
  · show 1 ≤ C.maxDepth
    rw [hc.depth]; exact hu.depth
  · show 1 ≤ C.cfg.minLeaf
    rw [hc.cfg]; exact hu.leaf
  · show 0 ≤ C.cfg.regLambda
    rw [hc.cfg]; exact hu.lam
  · show 0 < m ∧ ∀ x ∈ C.gh.data, 0 ≤ x.2.2 ∧ m ≤ x.2.2 + C.cfg.regLambda
    rw [hc.cfg]
    refine ⟨hu.hess.1, fun x hx => ?_⟩
    have h := Dict.get?_of_mem hc.gh.1 hx
    rw [hc.gh.2] at h
    exact hu.hess.2 _ (Dict.get?_mem h)

theorem central_bin {S : Setup K α} {rows : Option Nat → DTable K (List Rat)} {C : Central K}
    {all : DTable K (List Rat)} (hr : RawRun S rows) (hc : Centralised S rows C all)
    {j : Option Nat} {P : Party K} (hP : partyAt S j = some P) {f : Nat} {sp : List Rat}
    (hf : P.splits[f]? = some sp) {k : K} (hk : k ∈ S.gh.data.keys) :
    binAt C.party (offset S j + f) k = binAt P f k := by
  obtain ⟨h1, h2, h3⟩ := central_splits hr hc
  have hb := binned_of_fromRaw h1
  have hall : k ∈ all.data.keys := by
    rw [← hc.joined.keys none S.guest rfl k]
    exact ((hr.parties none S.guest rfl).2.2 k).mpr hk
  obtain ⟨row, r1, r2⟩ := binAt_raw hb (k := k) (by rw [hb.keys]; exact hall) (h3 j P f sp hP hf)
  have hbP := RawRun.binned hr j P hP
  obtain ⟨row', r3, r4⟩ := binAt_raw hbP (k := k) (by
    rw [hbP.keys]; exact ((hr.parties j P hP).2.2 k).mpr hk) hf
  obtain ⟨r, e1, e2⟩ := joined_value hc.joined r1 hP
  rw [r3, Option.some.injEq] at e1
  subst e1
  rw [r2, r4]
  unfold value
  rw [e2 f (List.getElem?_eq_some_iff.mp hf).1]

theorem offer_central {S : Setup K α} {rows : Option Nat → DTable K (List Rat)} {C : Central K}
    {all : DTable K (List Rat)} {D : Party K} (hr : RawRun S rows) (hc : Centralised S rows C all)
    {A : List K} (hA : ∀ k ∈ A, k ∈ S.gh.data.keys) {c b : Nat} {l : Rat × Rat} :
    OfferAt (duo C D) A none c b l ↔ ∃ j f, c = offset S j + f ∧ OfferAt S A j f b l := by
  obtain ⟨_, h2, h3⟩ := central_splits hr hc
  have hvalid : ∀ j P f, partyAt S j = some P → f < P.splits.length →
      C.party.valid[offset S j + f]? = P.valid[f]? := by
    intro j P f hP hf
    rw [hc.valid, side_at (by
      intro j P hP
      rw [hP]
      exact (hr.parties j P hP).2.1) hP hf, hP]
    rfl
  have hfil : ∀ j P f sp, partyAt S j = some P → P.splits[f]? = some sp →
      (A.filter fun k => decide (binAt C.party (offset S j + f) k ≤ (b : Rat))) =
        (A.filter fun k => decide (binAt P f k ≤ (b : Rat))) ∧
      (A.filter fun k => decide ((b : Rat) < binAt C.party (offset S j + f) k)) =
        (A.filter fun k => decide ((b : Rat) < binAt P f k)) := by
    intro j P f sp hP hf
    constructor <;>
    · apply List.filter_congr
      intro k hk
      rw [central_bin hr hc hP hf (hA k hk)]
  constructor
  · rintro ⟨P', sp, o1, o2, o3, o4, o5, o6, o7, o8⟩
    simp only [partyAt, duo, Option.some.injEq] at o1
    subst o1
    have hcl := (List.getElem?_eq_some_iff.mp o3).1
    rw [h2] at hcl
    obtain ⟨j, P, f, hP, hf, rfl⟩ := col_split S hcl
    have hsp := List.getElem?_eq_getElem hf
    have := h3 j P f _ hP hsp
    rw [this, Option.some.injEq] at o3
    subst o3
    obtain ⟨e1, e2⟩ := hfil j P f _ hP hsp
    refine ⟨j, f, rfl, P, _, hP, ?_, hsp, o4, ?_, ?_, ?_, ?_⟩
    · rw [← hvalid j P f hP hf]; exact o2
    · rw [← hc.cfg]; exact o5
    · rw [← hc.cfg, ← e1]; exact o6
    · rw [← hc.cfg, ← e2]; exact o7
    · rw [← central_sum hc, ← e1]; exact o8
  · rintro ⟨j, f, rfl, P, sp, o1, o2, o3, o4, o5, o6, o7, o8⟩
    have hf := (List.getElem?_eq_some_iff.mp o3).1
    obtain ⟨e1, e2⟩ := hfil j P f _ o1 o3
    refine ⟨C.party, sp, rfl, ?_, h3 j P f sp o1 o3, o4, ?_, ?_, ?_, ?_⟩
    · rw [hvalid j P f o1 hf]; exact o2
    · show C.cfg.minSample ≤ _
      rw [hc.cfg]; exact o5
    · show C.cfg.minLeaf ≤ _
      rw [hc.cfg, e1]; exact o6
    · show C.cfg.minLeaf ≤ _
      rw [hc.cfg, e2]; exact o7
    · show l = sumKeys C.gh _
      rw [central_sum hc, e1]; exact o8

/-- Where the choice is clear, both runs make the same one. -/
theorem same_choice {S : Setup K α} {rows : Option Nat → DTable K (List Rat)} {C : Central K}
    {all : DTable K (List Rat)} {D : Party K} (hr : RawRun S rows) (hc : Centralised S rows C all)
    {A : List K} (hA : ∀ k ∈ A, k ∈ S.gh.data.keys) (hdec : Decisive S A) {ε ε' : Rat}
    (hε : ε ≤ 5 / 10 ^ 6) {j : Option Nat} {f b c b' : Nat} {l l' : Rat × Rat}
    (h : BestSplit S ε A j f b l) (h' : BestSplit (duo C D) ε' A none c b' l') :
    c = offset S j + f ∧ b' = b := by
  obtain ⟨o1, o2, o3, o4, o5⟩ := h
  obtain ⟨p1, p2, p3, p4, _⟩ := h'
  obtain ⟨j0, f0, rfl, q⟩ := (offer_central hr hc hA).mp p1
  have hcfg : (duo C D).cfg = S.cfg := hc.cfg
  have hgh : ∀ A, sumKeys (duo C D).gh A = sumKeys S.gh A := central_sum hc
  rw [hcfg, hgh] at p2 p4
  have hmax : ∀ j'' f'' b'' l'', OfferAt S A j'' f'' b'' l'' →
      gain S.cfg.regLambda (sumKeys S.gh A) l'' ≤ gain S.cfg.regLambda (sumKeys S.gh A) l' :=
    fun j'' f'' b'' l'' ho => (p4 _ b'' l'' ((offer_central hr hc hA).mpr ⟨j'', f'', rfl, ho⟩)).1
  have hle := hmax j f b l o1
  have hge := o3 j0 f0 b' l' q
  have hpart : ∀ {j f b l}, OfferAt S A j f b l → ∃ P, partyAt S j = some P ∧ f < P.splits.length := by
    rintro j f b l ⟨P, sp, a1, _, a3, _⟩
    exact ⟨P, a1, (List.getElem?_eq_some_iff.mp a3).1⟩
  obtain ⟨P, hP, hf⟩ := hpart o1
  obtain ⟨P0, hP0, hf0⟩ := hpart q
  have hlex : gain S.cfg.regLambda (sumKeys S.gh A) l = gain S.cfg.regLambda (sumKeys S.gh A) l' →
      offset S j0 + f0 < offset S j + f ∨ (offset S j0 + f0 = offset S j + f ∧ b' ≤ b) :=
    fun heq => (p4 _ b l ((offer_central hr hc hA).mpr ⟨j, f, rfl, o1⟩)).2 heq
  by_cases hj : j0 = j
  · subst hj
    have heq := le_antisymm hle (o4 f0 b' l' q).1
    have h1 := hlex heq
    have h2 := (o4 f0 b' l' q).2 heq.symm
    omega
  · exfalso
    rcases hdec.2 j0 f0 b' l' j f b l q o1 hj hmax with heq | hlt
    · rcases earlier_total j0 j hj with he | he
      · obtain ⟨f'', b'', l'', r1, r2⟩ := o5 j0 f0 b' l' he q heq.symm
        have := hmax j0 f'' b'' l'' r1
        rw [heq] at r2
        linarith
      · have := offset_earlier S hP he hf
        have := hlex heq
        omega
    · linarith

omit [DecidableEq K] in
theorem splitAt_unique {S : Setup K α} {F : Fitted K} (hidx : (S.hosts.map Party.idx).Nodup) {i : Nat}
    {j j' : Option Nat} {f f' : Nat} {t t' : Rat} (h : SplitAt S F i j f t) (h' : SplitAt S F i j' f' t') :
    j = j' ∧ f = f' ∧ t = t' := by
  obtain ⟨n1, P, d, a1, a2, a3, a4, a5, a6, a7⟩ := h
  obtain ⟨n2, P', d', b1, b2, b3, b4, b5, b6, b7⟩ := h'
  rw [a1, Option.some.injEq] at b1
  subst b1
  have hj := party_unique hidx a4 b4 (by rw [← a5, ← b5])
  subst hj
  rw [a6, Option.some.injEq] at b6
  subst b6
  rw [a7, Option.some.injEq] at b7
  rw [a3, Option.some.injEq] at b3
  exact ⟨rfl, by exact_mod_cast b3, b7⟩

/-- What it means that node `i` is the same in both trees. -/
structure SameAt (S : Setup K α) (C : Central K) (D : Party K) (F F' : Fitted K) (lev lev' : Nat → Nat)
    (i : Nat) : Prop where
  exists_iff : i < F.tree.length ↔ i < F'.tree.length
  level : i < F.tree.length → lev i = lev' i
  node : ∀ n n', F.tree[i]? = some n → F'.tree[i]? = some n' →
    n'.id = n.id ∧ n'.isLeaf = n.isLeaf ∧ n'.left = n.left ∧ n'.right = n.right ∧
    n'.sumGrad = n.sumGrad ∧ n'.sumHess = n.sumHess ∧ n'.weight = n.weight
  split : ∀ n, F.tree[i]? = some n → n.isLeaf = false → ∃ j P f t, partyAt S j = some P ∧
    f < P.splits.length ∧ SplitAt S F i j f t ∧ SplitAt (duo C D) F' i none (offset S j + f) t

theorem step_same {S : Setup K α} {C : Central K} {D : Party K} {F F' : Fitted K} {lev lev' : Nat → Nat}
    {i : Nat} (hidx : (S.hosts.map Party.idx).Nodup) (h : SameAt S C D F F' lev lev' i)
    {rows rows' : Option Nat → DTable K (List Rat)} (hj : JoinedRows S rows (rows' none)) {k : K}
    (hk : k ∈ (rows' none).data.keys) (c : Nat) :
    Step S F rows k i c ↔ Step (duo C D) F' rows' k i c := by
  obtain ⟨rowA, hrowA⟩ := Dict.exists_get?_of_mem hk
  have hidx' : (((duo C D).hosts).map Party.idx).Nodup := by simp [duo]
  constructor
  · rintro ⟨j, f, t, row, n, s1, s2, s3, s4⟩
    have hl : n.isLeaf = false := by
      obtain ⟨n1, P, d, a1, a2, _⟩ := s1
      rw [s3, Option.some.injEq] at a1
      subst a1; exact a2
    obtain ⟨j0, P, f0, t0, b1, b2, b3, b4⟩ := h.split n s3 hl
    obtain ⟨rfl, rfl, rfl⟩ := splitAt_unique hidx b3 s1
    have hlt : i < F'.tree.length := h.exists_iff.mp (List.getElem?_eq_some_iff.mp s3).1
    obtain ⟨_, _, e3, e4, _⟩ := h.node n _ s3 (List.getElem?_eq_getElem hlt)
    obtain ⟨r, r1, r2⟩ := joined_value hj hrowA b1
    rw [s2, Option.some.injEq] at r1
    subst r1
    refine ⟨none, _, t0, rowA, _, b4, hrowA, List.getElem?_eq_getElem hlt, ?_⟩
    have hv : value rowA (offset S j0 + f0) = value row f0 := by unfold value; rw [r2 f0 b2]
    rw [hv, e3, e4]
    exact s4
  · rintro ⟨j, f, t, row, n', s1, s2, s3, s4⟩
    have hlt : i < F.tree.length := h.exists_iff.mpr (List.getElem?_eq_some_iff.mp s3).1
    have hn := List.getElem?_eq_getElem hlt
    obtain ⟨_, e2, e3, e4, _⟩ := h.node _ n' hn s3
    have hl : F.tree[i].isLeaf = false := by
      obtain ⟨n1, P, d, a1, a2, _⟩ := s1
      rw [s3, Option.some.injEq] at a1
      subst a1
      rw [← e2]; exact a2
    obtain ⟨j0, P, f0, t0, b1, b2, b3, b4⟩ := h.split _ hn hl
    obtain ⟨rfl, rfl, rfl⟩ := splitAt_unique hidx' b4 s1
    rw [hrowA, Option.some.injEq] at s2
    subst s2
    obtain ⟨r, r1, r2⟩ := joined_value hj hrowA b1
    refine ⟨j0, f0, t0, r, _, b3, r1, hn, ?_⟩
    have hv : value rowA (offset S j0 + f0) = value r f0 := by unfold value; rw [r2 f0 b2]
    rw [hv, e3, e4] at s4
    exact s4

theorem step_lt {S : Setup K α} {F : Fitted K} {rows : Option Nat → DTable K (List Rat)}
    (hw : WellFormed F.tree) {k : K} {i c : Nat} (h : Step S F rows k i c) : i < c := by
  obtain ⟨j, f, t, row, n, _, _, s3, s4⟩ := h
  rcases hw.shape i n s3 with ⟨_, a, b⟩ | ⟨_, l, r, a, b, _, c1, c2, _⟩
  · rw [a, b] at s4; simp at s4
  · rw [a, b] at s4
    rcases s4 with ⟨_, e⟩ | ⟨_, e⟩ <;> cases e <;> assumption

theorem rtg_upto {R R' : Nat → Nat → Prop} {i : Nat} (hlt : ∀ a c, R a c → a < c)
    (h : ∀ a < i, ∀ c, R a c → R' a c) : ∀ x ≤ i, Relation.ReflTransGen R 0 x →
      Relation.ReflTransGen R' 0 x := by
  intro x hx hr
  induction hr with
  | refl => exact .refl
  | @tail b c _ hbc ih =>
    have := hlt b c hbc
    exact .tail (ih (by omega)) (h b (by omega) c hbc)

theorem reaches_same {S : Setup K α} {C : Central K} {D : Party K} {F F' : Fitted K}
    {lev lev' : Nat → Nat} {i : Nat} (hidx : (S.hosts.map Party.idx).Nodup) (hw : WellFormed F.tree)
    (hw' : WellFormed F'.tree) (h : ∀ a < i, SameAt S C D F F' lev lev' a)
    {rows rows' : Option Nat → DTable K (List Rat)} (hj : JoinedRows S rows (rows' none)) {k : K}
    (hk : k ∈ (rows' none).data.keys) :
    Reaches S F rows k i ↔ Reaches (duo C D) F' rows' k i :=
  ⟨rtg_upto (fun _ _ hs => step_lt hw hs) (fun a ha c hs => (step_same hidx (h a ha) hj hk c).mp hs) i le_rfl,
   rtg_upto (fun _ _ hs => step_lt hw' hs) (fun a ha c hs => (step_same hidx (h a ha) hj hk c).mpr hs) i le_rfl⟩

/-- The number of a left child is determined by the nodes before its parent. -/
theorem left_number {rnd : Rat → Rat} {lam : Rat} {lev : Nat → Nat} {sums : Nat → Rat × Rat} {dep num : Nat}
    {tree : List Node} (h : Inv rnd lam lev sums dep tree [] [] num) {i : Nat} {n : Node} {l : Nat}
    (hn : tree[i]? = some n) (hl : n.left = some l) :
    l = 1 + ((tree.take i).map fun n => n.children.length).sum := by
  have hk := h.kids
  obtain ⟨hil, hni⟩ := List.getElem?_eq_some_iff.mp hn
  rw [← List.take_append_drop i tree, List.drop_eq_getElem_cons hil, List.flatMap_append,
    List.flatMap_cons, hni] at hk
  have hc : n.children = l :: n.right.toList := by
    unfold Node.children
    rw [hl]; rfl
  rw [hc] at hk
  have hlen : ((tree.take i).flatMap Node.children).length =
      ((tree.take i).map fun n => n.children.length).sum := by
    rw [List.length_flatMap]
  have := congrArg (fun l => l[((tree.take i).flatMap Node.children).length]?) hk
  simp only [List.cons_append, List.getElem?_append_right (le_refl _), Nat.sub_self,
    List.getElem?_cons_zero] at this
  have hlt : ((tree.take i).flatMap Node.children).length < num := by
    by_contra hge
    rw [List.getElem?_eq_none (by simp only [List.length_range']; omega)] at this
    cases this
  rw [List.getElem?_range' (by simpa using hlt)] at this
  rw [← hlen]
  simpa using this

theorem inner_lev {S : Setup K α} {rows : Option Nat → DTable K (List Rat)} {δ : Rat} {F : Fitted K}
    {lev : Nat → Nat} {mem : Nat → List K} (g : GreedyRun S rows δ F lev mem) (hd : 1 ≤ S.maxDepth)
    {i : Nat} {n : Node} (hn : F.tree[i]? = some n) (hl : n.isLeaf = false) : lev i < S.maxDepth := by
  obtain ⟨lev', _, dep', _, hdep', _, hinv', hlast, _⟩ := fit_ready hd g.fit
  obtain ⟨sums, dep, num, hdep, hinv⟩ := g.inv
  have hil := (List.getElem?_eq_some_iff.mp hn).1
  obtain ⟨d, hdd⟩ := depth_exists hinv.wellFormed i hil
  have hlev := hinv.depth i d hdd
  rcases hinv.wellFormed.shape i n hn with ⟨hc, _⟩ | ⟨_, c, _, e1, _, _, _, _, e2, _⟩
  · rw [hl] at hc; cases hc
  · have h1 := hinv'.depth c (d + 1) (.child hdd ⟨n, hn, Or.inl e1⟩)
    have h2 := hlast F.tree[c] (List.getElem_mem e2)
    rw [hinv'.number.2 c _ (List.getElem?_eq_getElem e2), h1] at h2
    omega

theorem bestSplit_perm {S : Setup K α} {A B : List K} (h : A.Perm B) {ε : Rat} {j : Option Nat}
    {f b : Nat} {l : Rat × Rat} : BestSplit S ε A j f b l ↔ BestSplit S ε B j f b l := by
  unfold BestSplit
  rw [offerAt_perm h, sumKeys_perm h]

theorem noSplit_perm {S : Setup K α} {A B : List K} (h : A.Perm B) {ε : Rat} :
    NoSplit S ε A ↔ NoSplit S ε B := by
  unfold NoSplit
  rw [offerAt_perm h, sumKeys_perm h]

/-- **Both trees are the same**, node by node. -/
theorem same_nodes {S : Setup K α} {rows : Option Nat → DTable K (List Rat)} {C : Central K}
    {all dummy : DTable K (List Rat)} {D : Party K} {m δ : Rat} (hr : RawRun S rows) (hu : Usual S m)
    (hc : Centralised S rows C all) (hv : D.valid = []) (hδ : δ ≤ 1 / 10 ^ 6)
    {F F' : Fitted K} {lev lev' : Nat → Nat} {mem mem' : Nat → List K}
    (g : GreedyRun S rows δ F lev mem)
    (g' : GreedyRun (duo C D) (duoRows all dummy) 0 F' lev' mem')
    (hdec : DecisiveTree S F rows) (i : Nat) : SameAt S C D F F' lev lev' i := by
  obtain ⟨sums, dep, num, hdep, hinv⟩ := g.inv
  obtain ⟨sums', dep', num', hdep', hinv'⟩ := g'.inv
  have hw := hinv.wellFormed
  have hw' := hinv'.wellFormed
  obtain ⟨hlen, hnum⟩ := hinv.number
  obtain ⟨hlen', hnum'⟩ := hinv'.number
  have hkeys : ∀ k, k ∈ all.data.keys ↔ k ∈ S.gh.data.keys := by
    intro k
    rw [← hc.joined.keys none S.guest rfl k]
    exact (hr.parties none S.guest rfl).2.2 k
  induction i using Nat.strong_induction_on with
  | _ i ih =>
    -- the node exists in both trees, on the same level
    have hboth : (i < F.tree.length ↔ i < F'.tree.length) ∧ (i < F.tree.length → lev i = lev' i) := by
      by_cases h0 : i = 0
      · subst h0
        exact ⟨by omega, fun _ => by rw [hinv.lev0, hinv'.lev0]⟩
      constructor
      · constructor
        · intro hi
          obtain ⟨p, ⟨n, hn, hcn⟩, _⟩ := hw.parent i (by omega) hi
          rcases hw.shape p n hn with ⟨_, a, b⟩ | ⟨_, l, r, a, b, _, c1, c2, _⟩
          · rw [a, b] at hcn; simp at hcn
          · have hpi : p < i := by
              rw [a, b] at hcn
              rcases hcn with e | e <;> cases e <;> assumption
            have hs := ih p hpi
            have hp' := hs.exists_iff.mp (List.getElem?_eq_some_iff.mp hn).1
            have hn' := List.getElem?_eq_getElem hp'
            obtain ⟨_, _, e3, e4, _⟩ := hs.node n _ hn hn'
            rw [← e3, ← e4] at hcn
            rcases hw'.shape p _ hn' with ⟨_, a', b'⟩ | ⟨_, l', r', a', b', _, _, _, d1, d2⟩
            · rw [a', b'] at hcn; simp at hcn
            · rw [a', b'] at hcn
              rcases hcn with e | e <;> cases e <;> assumption
        · intro hi
          obtain ⟨p, ⟨n', hn', hcn⟩, _⟩ := hw'.parent i (by omega) hi
          rcases hw'.shape p n' hn' with ⟨_, a, b⟩ | ⟨_, l, r, a, b, _, c1, c2, _⟩
          · rw [a, b] at hcn; simp at hcn
          · have hpi : p < i := by
              rw [a, b] at hcn
              rcases hcn with e | e <;> cases e <;> assumption
            have hs := ih p hpi
            have hp' := hs.exists_iff.mpr (List.getElem?_eq_some_iff.mp hn').1
            have hn := List.getElem?_eq_getElem hp'
            obtain ⟨_, _, e3, e4, _⟩ := hs.node _ n' hn hn'
            rw [e3, e4] at hcn
            rcases hw.shape p _ hn with ⟨_, a', b'⟩ | ⟨_, l', r', a', b', _, _, _, d1, d2⟩
            · rw [a', b'] at hcn; simp at hcn
            · rw [a', b'] at hcn
              rcases hcn with e | e <;> cases e <;> assumption
      · intro hi
        obtain ⟨p, ⟨n, hn, hcn⟩, _⟩ := hw.parent i (by omega) hi
        have hpl := (List.getElem?_eq_some_iff.mp hn).1
        have hpi : p < i := by
          rcases hw.shape p n hn with ⟨_, a, b⟩ | ⟨_, l, r, a, b, _, c1, c2, _⟩
          · rw [a, b] at hcn; simp at hcn
          · rw [a, b] at hcn
            rcases hcn with e | e <;> cases e <;> assumption
        have hs := ih p hpi
        have hp' := hs.exists_iff.mp hpl
        have hn' := List.getElem?_eq_getElem hp'
        obtain ⟨_, _, e3, e4, _⟩ := hs.node n _ hn hn'
        have hcn' := hcn
        rw [← e3, ← e4] at hcn'
        have h1 : lev i = lev p + 1 := by
          rcases hinv.shape n (List.mem_of_getElem? hn) with ⟨_, a, b⟩ | ⟨_, l, a, b, _, _, c1, c2, _⟩
          · rw [a, b] at hcn; simp at hcn
          · rw [hnum p n hn] at c1 c2
            rw [a, b] at hcn
            rcases hcn with e | e <;> cases e <;> assumption
        have h2 : lev' i = lev' p + 1 := by
          rcases hinv'.shape _ (List.mem_of_getElem? hn') with ⟨_, a, b⟩ | ⟨_, l, a, b, _, _, c1, c2, _⟩
          · rw [a, b] at hcn'; simp at hcn'
          · rw [hnum' p _ hn'] at c1 c2
            rw [a, b] at hcn'
            rcases hcn' with e | e <;> cases e <;> assumption
        rw [h1, h2, hs.level hpl]
    by_cases hil : i < F.tree.length
    · have hil' := hboth.1.mp hil
      set n := F.tree[i] with hnd
      set n' := F'.tree[i] with hnd'
      have hn : F.tree[i]? = some n := List.getElem?_eq_getElem hil
      have hn' : F'.tree[i]? = some n' := List.getElem?_eq_getElem hil'
      have hid := hnum i n hn
      have hid' := hnum' i n' hn'
      have hm := List.mem_of_getElem? hn
      have hm' := List.mem_of_getElem? hn'
      -- the same samples
      have hperm : (mem' i).Perm (mem i) := Lists.perm (g'.lists i hil') (g.lists i hil) fun k => by
        show (k ∈ C.gh.data.keys ∧ _) ↔ _
        rw [central_keys hc]
        constructor
        · rintro ⟨h1, h2⟩
          exact ⟨h1, (reaches_same (rows' := duoRows all dummy) hr.names hw hw' ih hc.joined
            ((hkeys k).mpr h1)).mpr h2⟩
        · rintro ⟨h1, h2⟩
          exact ⟨h1, (reaches_same (rows' := duoRows all dummy) hr.names hw hw' ih hc.joined
            ((hkeys k).mpr h1)).mp h2⟩
      have hsum : (n'.sumGrad, n'.sumHess) = (n.sumGrad, n.sumHess) := by
        have h1 := (g.sums n hm).2
        have h2 := (g'.sums n' hm').2
        rw [hid] at h1
        rw [hid', show ∀ A, sumKeys (duo C D).gh A = sumKeys S.gh A from central_sum hc, sumKeys_perm hperm] at h2
        rw [h1, h2]
      have hsum1 : n'.sumGrad = n.sumGrad := (Prod.mk.inj hsum).1
      have hsum2 : n'.sumHess = n.sumHess := (Prod.mk.inj hsum).2
      have hweight : n'.weight = n.weight := by
        have h1 := hinv.weight n (by simpa using hm)
        have h2 := hinv'.weight n' (by simpa using hm')
        rw [show (duo C D).cfg = S.cfg from hc.cfg, hsum1, hsum2, h1] at h2
        exact (Except.ok.inj h2).symm
      have hsub : ∀ k ∈ mem i, k ∈ S.gh.data.keys := fun k hk => ((g.lists i hil).2 k).mp hk |>.1
      have hD := hdec i hil (mem i) (g.lists i hil)
      have hnodes := g.nodes n hm
      have hnodes' := g'.nodes n' hm'
      rw [hid] at hnodes
      rw [hid'] at hnodes'
      -- leaf or inner node
      have hleaf : n'.isLeaf = n.isLeaf := by
        rcases hnodes with ⟨h1, h2⟩ | ⟨h1, j, P, f, b, l, sp, t, a1, a2, a3, a4, a5⟩
        · rcases hnodes' with ⟨h1', _⟩ | ⟨h1', j', P', c, b', l', sp', t', b1, b2, b3, b4, b5⟩
          · rw [h1, h1']
          · exfalso
            rcases h2 with h2 | h2
            · have h3 := inner_lev g' (by show 1 ≤ C.maxDepth; rw [hc.depth]; exact hu.depth) hn' h1'
              rw [← hboth.2 hil, h2] at h3
              have : (duo C D).maxDepth = S.maxDepth := hc.depth
              omega
            · rw [bestSplit_perm hperm] at b5
              have hnone := solo_site hv (V := exactView (duo C D)) (by rw [offerWith_exact]; exact b5.1)
              subst hnone
              obtain ⟨j0, f0, _, ho⟩ := (offer_central hr hc hsub).mp b5.1
              have h3 := h2 j0 f0 b' l' ho
              have h4 := b5.2.1
              rw [show (duo C D).cfg = S.cfg from hc.cfg, show ∀ A, sumKeys (duo C D).gh A = sumKeys S.gh A from central_sum hc] at h4
              rcases hD.1 j0 f0 b' l' ho with h5 | h5 <;> linarith
        · rcases hnodes' with ⟨h1', h2'⟩ | ⟨h1', _⟩
          · exfalso
            rcases h2' with h2' | h2'
            · have h3 := inner_lev g hu.depth hn h1
              rw [hboth.2 hil, h2'] at h3
              have : (duo C D).maxDepth = S.maxDepth := hc.depth
              omega
            · rw [noSplit_perm hperm] at h2'
              have h3 := h2' none _ b l ((offer_central hr hc hsub).mpr ⟨j, f, rfl, a5.1⟩)
              rw [show (duo C D).cfg = S.cfg from hc.cfg, show ∀ A, sumKeys (duo C D).gh A = sumKeys S.gh A from central_sum hc] at h3
              have h4 := a5.2.1
              rcases hD.1 j f b l a5.1 with h5 | h5 <;> linarith
          · rw [h1, h1']
      have hchildren : ((F'.tree.take i).map fun n => n.children.length).sum =
          ((F.tree.take i).map fun n => n.children.length).sum := by
        congr 1
        apply List.ext_getElem?
        intro a
        rw [List.getElem?_map, List.getElem?_map, List.getElem?_take, List.getElem?_take]
        split
        · rename_i ha
          have hs := ih a ha
          have hal : a < F.tree.length := by omega
          have hal' := hs.exists_iff.mp hal
          rw [List.getElem?_eq_getElem hal, List.getElem?_eq_getElem hal']
          obtain ⟨_, _, e3, e4, _⟩ := hs.node _ _ (List.getElem?_eq_getElem hal) (List.getElem?_eq_getElem hal')
          simp only [Option.map_some, Option.some.injEq]
          unfold Node.children
          rw [e3, e4]
        · rfl
      have hkids : n'.left = n.left ∧ n'.right = n.right := by
        rcases hinv.shape n hm with ⟨h1, h2, h3⟩ | ⟨h1, l, h2, h3, _⟩
        · rcases hinv'.shape n' hm' with ⟨h1', h2', h3'⟩ | ⟨h1', _⟩
          · rw [h2, h3, h2', h3']; exact ⟨rfl, rfl⟩
          · rw [hleaf, h1] at h1'; cases h1'
        · rcases hinv'.shape n' hm' with ⟨h1', _⟩ | ⟨h1', l', h2', h3', _⟩
          · rw [hleaf, h1] at h1'; cases h1'
          · have e1 := left_number hinv hn h2
            have e2 := left_number hinv' hn' h2'
            rw [hchildren, ← e1] at e2
            subst e2
            rw [h2, h3, h2', h3']; exact ⟨rfl, rfl⟩
      refine ⟨hboth.1, hboth.2, ?_, ?_⟩
      · intro a a' ha ha'
        rw [hn, Option.some.injEq] at ha
        rw [hn', Option.some.injEq] at ha'
        subst ha ha'
        exact ⟨by rw [hid, hid'], hleaf, hkids.1, hkids.2, hsum1, hsum2, hweight⟩
      · intro a ha hal
        rw [hn, Option.some.injEq] at ha
        subst ha
        rcases hnodes with ⟨h1, _⟩ | ⟨h1, j, P, f, b, l, sp, t, a1, a2, a3, a4, a5⟩
        · rw [hal] at h1; cases h1
        rcases hnodes' with ⟨h1', _⟩ | ⟨h1', j', P', c, b', l', sp', t', b1, b2, b3, b4, b5⟩
        · rw [hleaf, hal] at h1'; cases h1'
        rw [bestSplit_perm hperm] at b5
        have hnone := solo_site hv (V := exactView (duo C D)) (by rw [offerWith_exact]; exact b5.1)
        subst hnone
        obtain ⟨rfl, rfl⟩ := same_choice hr hc hsub hD (by linarith) a5 b5
        simp only [partyAt, duo, Option.some.injEq] at b1
        subst b1
        obtain ⟨_, _, hsp⟩ := central_splits hr hc
        rw [hsp j P f sp a1 a2, Option.some.injEq] at b2
        subst b2
        rw [a3, Option.some.injEq] at b3
        subst b3
        exact ⟨j, P, f, t, a1, (List.getElem?_eq_some_iff.mp a2).1, a4, b4⟩
    · have hil' : ¬ i < F'.tree.length := fun h => hil (hboth.1.mpr h)
      refine ⟨hboth.1, hboth.2, fun n n' hn _ => ?_, fun n hn _ => ?_⟩
      · exact absurd (List.getElem?_eq_some_iff.mp hn).1 hil
      · exact absurd (List.getElem?_eq_some_iff.mp hn).1 hil

end DTree
end Verif
