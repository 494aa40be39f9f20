import Verif.Spec.C82
import Verif.Lemmas.OrderTree

/-! # Columns with other values in the same order: from the specification to the relations -/

set_option autoImplicit false

namespace Verif
namespace DTree

open Spec Binning

variable {K : Type} {α L : Type}

theorem snap_snap (x : Rat) : snap (snap x) = snap x := by
  unfold snap
  split
  · norm_num
  · rfl

/-- What the columns have to fulfil. -/
theorem orders_of {rows rows' new new' : DTable K (List Rat)} (h : SameOrder rows rows' new new') :
    Orders (PairOf rows rows' new new') where
  order := fun f x y x' y' h1 h2 => h f x y x' y' h1 h2
  zero := fun _ => .inl ⟨rfl, rfl⟩
  snapped := by
    rintro f x y (⟨rfl, rfl⟩ | ⟨i, p, q, _, _, rfl, rfl⟩ | ⟨i, p, q, _, _, rfl, rfl⟩)
    · exact ⟨by unfold snap; norm_num, by unfold snap; norm_num⟩
    · exact ⟨snap_snap _, snap_snap _⟩
    · exact ⟨snap_snap _, snap_snap _⟩

theorem dictRel_of_shape {d e : List (K × List Rat)} (h : d.map (fun p => (p.1, p.2.length)) = e.map fun p => (p.1, p.2.length)) :
    DictRel (fun _ r s => r.length = s.length ∧ ∃ (i : Nat) (p q : K × List Rat), d[i]? = some p ∧ e[i]? = some q ∧ r = p.2 ∧ s = q.2) d e := by
  unfold DictRel
  rw [List.forall₂_iff_get]
  have hl : d.length = e.length := by simpa using congrArg List.length h
  refine ⟨hl, fun i h1 h2 => ?_⟩
  have h3 : (d.map (fun p => (p.1, p.2.length)))[i]? = (e.map fun p => (p.1, p.2.length))[i]? := by rw [h]
  rw [List.getElem?_map, List.getElem?_map, List.getElem?_eq_getElem h1, List.getElem?_eq_getElem h2] at h3
  simp only [Option.map_some, Option.some.injEq, Prod.mk.injEq] at h3
  exact ⟨h3.1, h3.2, i, _, _, List.getElem?_eq_getElem h1, List.getElem?_eq_getElem h2, rfl, rfl⟩

theorem rawRel_rows {rows rows' : DTable K (List Rat)} (new new' : DTable K (List Rat)) (h : SameLayout rows rows') :
    RawRel (PairOf rows rows' new new') rows rows' := by
  refine DictRel.imp (dictRel_of_shape h) ?_
  rintro k r s ⟨hl, i, p, q, e1, e2, rfl, rfl⟩
  exact ⟨hl, fun f => .inr (.inl ⟨i, p, q, e1, e2, rfl, rfl⟩)⟩

theorem rawRel_new (rows rows' : DTable K (List Rat)) {new new' : DTable K (List Rat)} (h : SameLayout new new') :
    RawRel (PairOf rows rows' new new') new new' := by
  refine DictRel.imp (dictRel_of_shape h) ?_
  rintro k r s ⟨hl, i, p, q, e1, e2, rfl, rfl⟩
  exact ⟨hl, fun f => .inr (.inr ⟨i, p, q, e1, e2, rfl, rfl⟩)⟩

theorem width_rel {R : Nat → Rat → Rat → Prop} {rows rows' : DTable K (List Rat)} {w : Nat} (h : RawRel R rows rows')
    (hw : ∀ p ∈ rows.data, p.2.length ≤ w) :
    DictRel (fun _ r s => r.length = s.length ∧ r.length ≤ w ∧ ∀ f, R f (value r f) (value s f)) rows.data rows'.data := by
  revert h hw
  unfold RawRel
  generalize rows.data = d
  generalize rows'.data = e
  intro h hw
  induction h with
  | nil => exact .nil
  | @cons a b d e hab _ ih =>
    exact .cons ⟨hab.1, hab.2.1, hw a (List.mem_cons_self ..), hab.2.2⟩ (ih fun p hp => hw p (List.mem_cons_of_mem _ hp))

variable [DecidableEq K]

theorem partyRel_of {P P' : Party K} {rows rows' new new' : DTable K (List Rat)} (h : Recoded P P' rows rows' new new') :
    PartyRel (PairOf rows rows' new new') P P' := by
  obtain ⟨h1, h2, h3, h4, h5, cfg, binNum, header, a1, a2, a3, a4, a5⟩ := h
  obtain ⟨S', e1, e2⟩ := prepare_rel (orders_of h5) a1 binNum a2 (width_rel (rawRel_rows new new' h3) a3) a4
  rw [a5] at e1
  simp only [Except.ok.injEq, Prod.mk.injEq] at e1
  obtain ⟨b1, b2, b3⟩ := e1
  exact ⟨h1, b3, h2, b1, by rw [b2]; exact e2⟩

theorem idxRel_of {A B : Type} {Q : Nat → A → B → Prop} : ∀ (as : List A) (bs : List B) (i : Nat), as.length = bs.length →
    (∀ (j : Nat) a b, as[j]? = some a → bs[j]? = some b → Q (i + j) a b) → IdxRel Q i as bs
  | [], [], _, _, _ => trivial
  | [], _ :: _, _, h, _ => by simp at h
  | _ :: _, [], _, h, _ => by simp at h
  | a :: as, b :: bs, i, h, hq =>
    ⟨hq 0 a b rfl rfl, idxRel_of as bs (i + 1) (by simpa using h) fun j x y hx hy => by
      have := hq (j + 1) x y hx hy
      rw [show i + 1 + j = i + (j + 1) by omega]
      exact this⟩

theorem IdxRel.at {A B : Type} {Q : Nat → A → B → Prop} : ∀ (i : Nat) (as : List A) (bs : List B), IdxRel Q i as bs →
    ∀ (j : Nat) a, as[j]? = some a → ∃ b, bs[j]? = some b ∧ Q (i + j) a b
  | _, [], [], _, j, a, ha => by simp at ha
  | _, [], _ :: _, h, _, _, _ => h.elim
  | _, _ :: _, [], h, _, _, _ => h.elim
  | _, x :: as, y :: bs, h, 0, a, ha => by
    simp only [List.getElem?_cons_zero, Option.some.injEq] at ha
    subst ha
    exact ⟨y, rfl, h.1⟩
  | i, x :: as, y :: bs, h, j + 1, a, ha => by
    obtain ⟨b, hb, hq⟩ := IdxRel.at (i + 1) as bs h.2 j a ha
    exact ⟨b, hb, by rw [show i + (j + 1) = i + 1 + j by omega]; exact hq⟩

section Pairs

variable {rows new rows' new' : Option Nat → DTable K (List Rat)}

/-- Corresponding values at party `j`. -/
abbrev pairs (rows new rows' new' : Option Nat → DTable K (List Rat)) (j : Option Nat) : Nat → Rat → Rat → Prop :=
  PairOf (rows j) (rows' j) (new j) (new' j)

theorem setupRel_of {S S' : Setup K α} (h : RecodedSetup S rows new S' rows' new') : SetupRel (pairs rows new rows' new') S S' := by
  obtain ⟨⟨g, hs, rfl⟩, hl, hp⟩ := h
  refine ⟨rfl, rfl, rfl, rfl, rfl, rfl, rfl, rfl, partyRel_of (hp none _ _ rfl rfl), ?_⟩
  refine idxRel_of _ _ 0 hl.symm fun j P P' hP hP' => ?_
  rw [Nat.zero_add]
  exact partyRel_of (hp (some j) P P' hP hP')

theorem boostRel_of {B B' : Boost K α L} (h : RecodedRun B rows new B' rows' new') : BoostRel (pairs rows new rows' new') B B' := by
  obtain ⟨⟨base, rfl⟩, h2⟩ := h
  exact ⟨setupRel_of h2, rfl, rfl, rfl, rfl, rfl, rfl, rfl, rfl, rfl, rfl⟩

/-- Tables of parties that do not exist are left out. -/
def cut (n : Nat) (rows : Option Nat → DTable K (List Rat)) : Option Nat → DTable K (List Rat)
  | none => rows none
  | some j => if j < n then rows (some j) else ⟨[]⟩

theorem cut_party {S : Setup K α} {j : Option Nat} {P : Party K} (h : partyAt S j = some P) (rows : Option Nat → DTable K (List Rat)) :
    cut S.hosts.length rows j = rows j := by
  match j with
  | none => rfl
  | some j => exact if_pos (List.getElem?_eq_some_iff.mp h).1

theorem recoded_cut {S S' : Setup K α} (h : RecodedSetup S rows new S' rows' new') :
    RecodedSetup S (cut S.hosts.length rows) (cut S.hosts.length new) S' (cut S.hosts.length rows') (cut S.hosts.length new') := by
  refine ⟨h.1, h.2.1, fun j P P' hP hP' => ?_⟩
  rw [cut_party hP, cut_party hP, cut_party hP, cut_party hP]
  exact h.2.2 j P P' hP hP'

theorem orders_cut {S S' : Setup K α} (h : RecodedSetup S rows new S' rows' new') (j : Option Nat) :
    Orders (pairs (cut S.hosts.length rows) (cut S.hosts.length new) (cut S.hosts.length rows') (cut S.hosts.length new') j) := by
  match j with
  | none =>
    obtain ⟨_, _, _, h4, h5, _⟩ := h.2.2 none _ _ rfl rfl
    exact orders_of h5
  | some j =>
    by_cases hlt : j < S.hosts.length
    · have hP : partyAt S (some j) = some _ := List.getElem?_eq_getElem hlt
      obtain ⟨_, _, _, h4, h5, _⟩ := h.2.2 (some j) _ _ hP (List.getElem?_eq_getElem (by rw [h.2.1]; exact hlt))
      unfold pairs
      rw [cut_party hP, cut_party hP, cut_party hP, cut_party hP]
      exact orders_of h5
    · refine orders_of ?_
      simp only [cut, if_neg hlt]
      rintro f x y x' y' (⟨rfl, rfl⟩ | ⟨i, p, q, e, _⟩ | ⟨i, p, q, e, _⟩) (⟨rfl, rfl⟩ | ⟨i', p', q', e', _⟩ | ⟨i', p', q', e', _⟩)
      · exact ⟨fun _ => le_refl _, fun _ => le_refl _⟩
      all_goals first | simp at e | simp at e'

theorem rows_cut {S S' : Setup K α} (h : RecodedSetup S rows new S' rows' new') :
    RawRel (pairs (cut S.hosts.length rows) (cut S.hosts.length new) (cut S.hosts.length rows') (cut S.hosts.length new') none)
      (new none) (new' none) ∧
    IdxRel (fun j => RawRel (pairs (cut S.hosts.length rows) (cut S.hosts.length new) (cut S.hosts.length rows')
      (cut S.hosts.length new') (some j))) 0 (hostRows S new) (hostRows S' new') := by
  constructor
  · obtain ⟨_, _, _, h4, _⟩ := h.2.2 none _ _ rfl rfl
    exact rawRel_new _ _ h4
  · refine idxRel_of _ _ 0 (by simp only [hostRows, List.length_map, List.length_range, h.2.1]) fun j t u ht hu => ?_
    unfold hostRows at ht hu
    rw [List.getElem?_map] at ht hu
    have hlt : j < S.hosts.length := by
      by_contra hc
      rw [List.getElem?_eq_none (by simpa using hc)] at ht
      cases ht
    rw [List.getElem?_range hlt] at ht
    rw [List.getElem?_range (by rw [h.2.1]; exact hlt)] at hu
    cases ht
    cases hu
    rw [Nat.zero_add]
    have hP : partyAt S (some j) = some _ := List.getElem?_eq_getElem hlt
    obtain ⟨_, _, _, h4, _⟩ := h.2.2 (some j) _ _ hP (List.getElem?_eq_getElem (by rw [h.2.1]; exact hlt))
    unfold pairs
    rw [cut_party hP, cut_party hP, cut_party hP, cut_party hP]
    exact rawRel_new _ _ h4

theorem idx_rel {S S' : Setup K α} (h : RecodedSetup S rows new S' rows' new') :
    IdxRel (fun _ (H H' : Party K) => H'.idx = H.idx) 0 S.hosts S'.hosts :=
  idxRel_of _ _ 0 h.2.1.symm fun j P P' hP hP' => (h.2.2 (some j) P P' hP hP').1

end Pairs

/-! ## Rescaled tables -/

theorem rescale_shape (φ : Nat → Rat → Rat) (t : DTable K (List Rat)) : SameLayout t (rescale φ t) := by
  unfold SameLayout rescale
  rw [List.map_map]
  exact List.map_congr_left fun p _ => by simp

theorem scale_snap {φ : Rat → Rat} (h : Scale φ) {x : Rat} (hs : |φ x| < 1 / 10 ^ 6 ↔ |x| < 1 / 10 ^ 6) : snap (φ x) = φ (snap x) := by
  unfold snap
  by_cases hx : |x| < 1 / 10 ^ 6
  · rw [if_pos hx, if_pos (hs.mpr hx), h.zero]
  · rw [if_neg hx, if_neg fun hc => hx (hs.mp hc)]

theorem value_rescale {φ : Nat → Rat → Rat} (h : ∀ f, Scale (φ f)) {row : List Rat}
    (hs : ∀ (f : Nat) x, row[f]? = some x → (|φ f x| < 1 / 10 ^ 6 ↔ |x| < 1 / 10 ^ 6)) (f : Nat) :
    value (row.mapIdx φ) f = φ f (value row f) := by
  unfold value
  rw [List.getElem?_mapIdx]
  cases hx : row[f]? with
  | none =>
    have h0 : snap 0 = 0 := by unfold snap; norm_num
    simp only [Option.map_none, Option.getD_none, h0, (h f).zero]
  | some x => exact scale_snap (h f) (hs f x hx)

theorem pairIn_rescale {φ : Nat → Rat → Rat} (h : ∀ f, Scale (φ f)) {t : DTable K (List Rat)} (hs : Visible φ t) {f : Nat} {x y : Rat}
    (hp : PairIn t (rescale φ t) f x y) : y = φ f x := by
  obtain ⟨i, p, q, e1, e2, rfl, rfl⟩ := hp
  unfold rescale at e2
  rw [List.getElem?_map, e1] at e2
  cases e2
  exact value_rescale h (hs p (List.mem_of_getElem? e1)) _

theorem rescale_order {φ : Nat → Rat → Rat} (h : ∀ f, Scale (φ f)) {t new : DTable K (List Rat)} (ht : Visible φ t)
    (hn : Visible φ new) : SameOrder t (rescale φ t) new (rescale φ new) := by
  have hy : ∀ f x y, PairOf t (rescale φ t) new (rescale φ new) f x y → y = φ f x := by
    rintro f x y (⟨rfl, rfl⟩ | hp | hp)
    · exact ((h f).zero).symm
    · exact pairIn_rescale h ht hp
    · exact pairIn_rescale h hn hp
  intro f x y x' y' h1 h2
  rw [hy _ _ _ h1, hy _ _ _ h2]
  have hm : StrictMono (φ f) := fun a b hab => (h f).increasing a b hab
  exact hm.le_iff_le.symm

/-- The party prepared from the rescaled rows. -/
theorem rescale_party {P : Party K} {t new : DTable K (List Rat)} (hP : PreparedFrom P t) {φ : Nat → Rat → Rat} (h : ∀ f, Scale (φ f))
    (ht : Visible φ t) (hn : Visible φ new) :
    ∃ sp, Recoded P { P with splits := sp } t (rescale φ t) new (rescale φ new) := by
  obtain ⟨cfg, binNum, header, a1, a2, a3, a4⟩ := hP
  have ho := rescale_order h ht hn
  obtain ⟨sp, e1, _⟩ := prepare_rel (orders_of ho) a1 binNum a2
    (width_rel (rawRel_rows new (rescale φ new) (rescale_shape φ t)) a3) a4
  exact ⟨sp, rfl, rfl, rescale_shape φ t, rescale_shape φ new, ho, cfg, binNum, header, a1, a2, a3, a4, e1⟩

/-- The run on the rescaled tables. -/
theorem rescale_run (B : Boost K α L) (rows new : Option Nat → DTable K (List Rat))
    (hp : ∀ j P, partyAt B.base j = some P → PreparedFrom P (rows j)) (φ : Option Nat → Nat → Rat → Rat)
    (h : ∀ j f, Scale (φ j f)) (ht : ∀ j P, partyAt B.base j = some P → Visible (φ j) (rows j) ∧ Visible (φ j) (new j)) :
    ∃ B', RecodedRun B rows new B' (fun j => rescale (φ j) (rows j)) fun j => rescale (φ j) (new j) := by
  have h1 : ∀ j, ∃ sp, ∀ P, partyAt B.base j = some P →
      Recoded P { P with splits := sp } (rows j) (rescale (φ j) (rows j)) (new j) (rescale (φ j) (new j)) := by
    intro j
    cases hj : partyAt B.base j with
    | none => exact ⟨[], fun P hP => by cases hP⟩
    | some P =>
      obtain ⟨sp, hsp⟩ := rescale_party (new := new j) (hp j P hj) (h j) (ht j P hj).1 (ht j P hj).2
      exact ⟨sp, fun Q hQ => by cases hQ; exact hsp⟩
  choose sp hsp using h1
  refine ⟨{ B with base := { B.base with guest := { B.base.guest with splits := sp none }, hosts := B.base.hosts.mapIdx fun j P =>
    { P with splits := sp (some j) } } }, ⟨_, rfl⟩, ⟨_, _, rfl⟩, by simp, ?_⟩
  intro j P P' hP hP'
  match j with
  | none =>
    cases hP'
    cases hP
    exact hsp none _ rfl
  | some j =>
    have hP : B.base.hosts[j]? = some P := hP
    unfold partyAt at hP'
    simp only [List.getElem?_mapIdx] at hP'
    rw [hP] at hP'
    cases hP'
    exact hsp (some j) P hP

end DTree
end Verif
