import Verif.Spec.C15
import Verif.Lemmas.DTable
import Mathlib.Data.List.Forall2
import Mathlib.Tactic.Linarith

set_option autoImplicit false

namespace Verif
open EncryptMode Spec
namespace EncryptMode
variable {K C : Type} [DecidableEq K]

theorem mapIdx_forall₂ {dec : C → Rat} {δ : Rat} (f : Nat → Rat → C) (row : List Rat)
    (h : ∀ i v, |dec (f i v) - v| ≤ δ) :
    List.Forall₂ (fun c v => |dec c - v| ≤ δ) (row.mapIdx f) row := by
  induction row generalizing f with
  | nil => simp
  | cons v vs ih =>
    rw [List.mapIdx_cons]
    exact List.Forall₂.cons (h 0 v) (ih _ (fun i v => h (i + 1) v))

theorem incr_forall₂ {dec : C → Rat} {δ ε₁ ε₂ : Rat} (sub : Rat → Rat → Rat) (addS : Rat → C → C)
    (hadd : ∀ d c, |dec (addS d c) - (d + dec c)| ≤ ε₁) (hsub : ∀ a b, |sub a b - (a - b)| ≤ ε₂)
    (new old : List Rat) (cs : List C) (hlen : old.length = new.length)
    (h : List.Forall₂ (fun c v => |dec c - v| ≤ δ) cs old) :
    List.Forall₂ (fun c v => |dec c - v| ≤ δ + (ε₁ + ε₂))
      (addDifference addS (getDifference sub new old) cs) new := by
  induction h generalizing new with
  | nil =>
    have : new = [] := by cases new <;> simp_all
    subst this
    simp [addDifference, getDifference]
  | @cons c v cs' old' hcv _ ih =>
    cases new with
    | nil => simp at hlen
    | cons w new' =>
      have := ih new' (by simpa using hlen)
      simp only [addDifference, getDifference, List.zip_cons_cons, List.map_cons] at this ⊢
      refine List.Forall₂.cons ?_ this
      have h1 := abs_le.mp (hadd (sub w v) c)
      have h2 := abs_le.mp (hsub w v)
      have h3 := abs_le.mp hcv
      rw [abs_le]
      constructor <;> linarith [h1.1, h1.2, h2.1, h2.2, h3.1, h3.2]

theorem DecryptsTo.mono {dec : C → Rat} {δ δ' : Rat} (hδ : δ ≤ δ') {e : DTable K (List C)}
    {d : DTable K (List Rat)} (h : DecryptsTo dec δ e d) : DecryptsTo dec δ' e d := by
  intro k
  have := h k
  revert this
  cases e.data.get? k <;> cases d.data.get? k <;> intro h <;> try exact h
  exact h.imp fun _ _ h => le_trans h hδ

theorem mapValues_id {V : Type} {t : DTable K V} (h : t.WF) : t.mapValues id = .ok t := by
  rw [DTable.mapValues_ok h]; simp

/-- The calculator's memory is consistent. -/
def Inv (dec : C → Rat) (δ : Rat) (s : State K C) : Prop :=
  match s.prev with
  | none => True
  | some (d, e) => d.WF ∧ e.WF ∧ DecryptsTo dec δ e d

theorem reencrypt_ok {dec : C → Rat} {ε₀ : Rat} (enc : K → Nat → Rat → C)
    (henc : ∀ k i v, |dec (enc k i v) - v| ≤ ε₀) (input : DTable K (List Rat)) (hin : input.WF) :
    ∃ out, input.map (encryptRow enc) = .ok out ∧ out.WF ∧ DecryptsTo dec ε₀ out input := by
  refine ⟨_, DTable.map_ok hin _, ?_, ?_⟩
  · unfold DTable.WF Dict.WF
    simp only
    rw [Dict.keys_map]; exact hin
  · intro k
    simp only
    rw [Dict.get?_map]
    cases input.data.get? k with
    | none => trivial
    | some vs => exact mapIdx_forall₂ _ vs (fun i v => henc k i v)

theorem step_ok {dec : C → Rat} {ε₀ ε₁ ε₂ δ : Rat} (sub : Rat → Rat → Rat) (addS : Rat → C → C)
    (hadd : ∀ d c, |dec (addS d c) - (d + dec c)| ≤ ε₁) (hsub : ∀ a b, |sub a b - (a - b)| ≤ ε₂)
    (enc : K → Nat → Rat → C) (henc : ∀ k i v, |dec (enc k i v) - v| ≤ ε₀) (draw : Rat)
    (s : State K C) (hs : Inv dec δ s) (input : DTable K (List Rat)) (hin : input.WF)
    (hshape : ∀ d e, s.prev = some (d, e) → s.mode ≠ .strict → SameShape input d)
    (hε : ε₀ ≤ δ + (ε₁ + ε₂)) :
    ∃ out s', EncryptMode.encrypt sub addS enc draw s input = .ok (out, s') ∧
      DecryptsTo dec (if s.mode = .strict ∨ s.prev = none then ε₀ else δ + (ε₁ + ε₂)) out input ∧
      out.WF ∧ s'.mode = s.mode ∧ s'.rate = s.rate ∧ s'.prev = some (input, out) := by
  unfold EncryptMode.encrypt
  by_cases hre : reEncrypt s draw = true
  · rw [if_pos hre]
    obtain ⟨out, ho, hwf, hd⟩ := reencrypt_ok enc henc input hin
    rw [ho]
    simp only [bind, Except.bind, mapValues_id hin, mapValues_id hwf]
    refine ⟨_, _, rfl, ?_, hwf, rfl, rfl, rfl⟩
    split
    · exact hd
    · exact DecryptsTo.mono hε hd
  · rw [if_neg hre]
    unfold reEncrypt at hre
    simp only [Bool.or_eq_true, not_or, decide_eq_true_eq] at hre
    obtain ⟨⟨h1, h2⟩, _⟩ := hre
    cases hp : s.prev with
    | none => rw [hp] at h1; simp at h1
    | some de =>
      obtain ⟨d, e⟩ := de
      unfold Inv at hs
      rw [hp] at hs
      obtain ⟨hdwf, hewf, hdec⟩ := hs
      simp only [DTable.join_ok input hdwf, DTable.join_ok _ hewf, bind, Except.bind]
      have hjwf : DTable.WF (K := K) (V := List C) ⟨DTable.joinLoop
          (DTable.joinLoop input.data (getDifference sub) d.data) (addDifference addS) e.data⟩ :=
        DTable.joinLoop_WF _ _ hewf
      simp only [mapValues_id hin, mapValues_id hjwf]
      refine ⟨_, _, rfl, ?_, hjwf, rfl, rfl, rfl⟩
      rw [if_neg (by simp [h2])]
      intro k
      simp only
      rw [DTable.joinLoop_get?, DTable.joinLoop_get?]
      have hk := hdec k
      cases hik : input.data.get? k with
      | none => simp
      | some vs =>
        obtain ⟨ws, hws, hl⟩ := hshape d e hp h2 k vs hik
        rw [hws] at hk
        cases hek : e.data.get? k with
        | none => rw [hek] at hk; exact hk.elim
        | some cs =>
          rw [hek] at hk
          rw [hws]
          exact incr_forall₂ sub addS hadd hsub vs ws cs hl hk

end EncryptMode
end Verif
