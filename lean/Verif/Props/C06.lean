import Verif.Lemmas.Data
import Mathlib.Data.Rat.Floor
import Mathlib.Tactic.Positivity

/-!
# C06 – the train/test split is a partition and keeps the parties aligned
-/

set_option autoImplicit false

namespace Verif
open Data

/-- The split never loses or duplicates a row: the two parts together are a
rearrangement of the input, for every ratio, every shuffle draw and list. -/
theorem C06_partition {α : Type*} (l : List α) (scaled : Rat) (sh : Bool) (draw : Nat → Nat → Nat) :
    ((dataSplit l scaled sh draw).1 ++ (dataSplit l scaled sh draw).2.1).Perm l := by
  unfold dataSplit
  simp only
  split
  · simp
  · split
    · simp only [List.take_append_drop]; exact shuffle_perm _ _
    · simp

/-- Without shuffling the parts are consecutive pieces in the original order. -/
theorem C06_no_shuffle {α : Type*} (l : List α) (scaled : Rat) (draw : Nat → Nat → Nat) :
    (dataSplit l scaled false draw).1 ++ (dataSplit l scaled false draw).2.1 = l := by
  unfold dataSplit
  simp only
  split
  · simp
  · simp

/-- With an exactly computed product and a ratio in `[0,1]`, the first part has
`⌊n·ratio⌋` rows. -/
theorem C06_size {α : Type*} (l : List α) (ratio : Rat) (h0 : 0 ≤ ratio) (h1 : ratio ≤ 1)
    (sh : Bool) (draw : Nat → Nat → Nat) :
    (((dataSplit l (l.length * ratio) sh draw).1.length : Nat) : Int) = ⌊(l.length : Rat) * ratio⌋ := by
  have hnn : (0 : Rat) ≤ l.length * ratio := by positivity
  have hfl : pyInt (l.length * ratio) = ⌊(l.length : Rat) * ratio⌋ := by
    unfold pyInt
    have hnum : 0 ≤ ((l.length : Rat) * ratio).num := Rat.num_nonneg.mpr hnn
    rw [Int.tdiv_eq_ediv_of_nonneg hnum, Rat.floor_def']
  have hle : ⌊(l.length : Rat) * ratio⌋ ≤ l.length := by
    have h2 : (l.length : Rat) * ratio ≤ l.length := by
      have : (0 : Rat) ≤ l.length := by positivity
      calc (l.length : Rat) * ratio ≤ l.length * 1 := mul_le_mul_of_nonneg_left h1 this
        _ = l.length := mul_one _
    have := Int.floor_le_floor h2
    simpa using this
  have hge : 0 ≤ ⌊(l.length : Rat) * ratio⌋ := Int.floor_nonneg.mpr hnn
  unfold dataSplit
  simp only [hfl]
  split
  · rename_i h
    rcases h with h | h
    · simp [h]
    · simp; omega
  · have hlen : ∀ l' : List α, l'.length = l.length →
        (((l'.take (⌊(l.length : Rat) * ratio⌋).toNat).length : Nat) : Int)
          = ⌊(l.length : Rat) * ratio⌋ := by
      intro l' hl'
      rw [List.length_take, hl']
      omega
    split
    · exact hlen _ (shuffle_perm _ _).length_eq
    · exact hlen _ rfl

example : (0 : Rat) ≤ 7/10 ∧ (7/10 : Rat) ≤ 1 := by norm_num

/-- Alignment: which original positions go into which part, and in which order,
depends only on the length, the ratio and the generator – not on the rows.  Hence
row `j` of the guest's part and row `j` of the host's part stem from the same
original position. -/
theorem C06_aligned (n : Nat) (scaled : Rat) (sh : Bool) (draw : Nat → Nat → Nat) :
    ∃ train test : List Nat, (train ++ test).Perm (List.range n) ∧
      ∀ {α : Type} (l : List α), l.length = n →
        (dataSplit l scaled sh draw).1.map some = train.map (fun i => l[i]?) ∧
        (dataSplit l scaled sh draw).2.1.map some = test.map (fun i => l[i]?) := by
  refine ⟨(dataSplit (List.range n) scaled sh draw).1, (dataSplit (List.range n) scaled sh draw).2.1,
    C06_partition _ _ _ _, ?_⟩
  intro α l hl
  have hrange : (List.range n).map (fun i => l[i]?) = l.map some := by
    apply List.ext_getElem?
    intro i
    simp only [List.getElem?_map]
    rcases Nat.lt_or_ge i n with h | h
    · simp [h, hl]
    · simp [h, hl]
  have hnat : ∀ {β γ : Type} (f : β → γ) (l' : List β),
      (dataSplit (l'.map f) scaled sh draw).1 = (dataSplit l' scaled sh draw).1.map f ∧
      (dataSplit (l'.map f) scaled sh draw).2.1 = (dataSplit l' scaled sh draw).2.1.map f := by
    intro β γ f l'
    unfold dataSplit
    simp only [List.length_map]
    split
    · exact ⟨rfl, rfl⟩
    · split
      · rw [shuffle_map]; simp [List.map_take, List.map_drop]
      · simp [List.map_take, List.map_drop]
  have h1 := hnat (fun i => l[i]?) (List.range n)
  have h2 := hnat some l
  rw [hrange] at h1
  rw [← h2.1, ← h2.2, h1.1, h1.2]
  exact ⟨rfl, rfl⟩

/-- Two parties with lists of equal length: pairing the parts row by row is the same
as splitting the paired list. -/
theorem C06_aligned_pairs {α β : Type} (g : List α) (h : List β) (hlen : g.length = h.length)
    (scaled : Rat) (sh : Bool) (draw : Nat → Nat → Nat) :
    (dataSplit (g.zip h) scaled sh draw).1 =
      (dataSplit g scaled sh draw).1.zip (dataSplit h scaled sh draw).1 ∧
    (dataSplit (g.zip h) scaled sh draw).2.1 =
      (dataSplit g scaled sh draw).2.1.zip (dataSplit h scaled sh draw).2.1 := by
  have hnat : ∀ {γ : Type} (f : α × β → γ),
      (dataSplit ((g.zip h).map f) scaled sh draw).1 = (dataSplit (g.zip h) scaled sh draw).1.map f ∧
      (dataSplit ((g.zip h).map f) scaled sh draw).2.1 = (dataSplit (g.zip h) scaled sh draw).2.1.map f := by
    intro γ f
    unfold dataSplit
    simp only [List.length_map]
    split
    · exact ⟨rfl, rfl⟩
    · split
      · rw [shuffle_map]; simp [List.map_take, List.map_drop]
      · simp [List.map_take, List.map_drop]
  have hg : (g.zip h).map Prod.fst = g := List.map_fst_zip (by omega)
  have hh : (g.zip h).map Prod.snd = h := List.map_snd_zip (by omega)
  have h1 := hnat Prod.fst
  have h2 := hnat Prod.snd
  rw [hg] at h1; rw [hh] at h2
  constructor
  · rw [h1.1, h2.1]; exact (List.zip_of_prod rfl rfl)
  · rw [h1.2, h2.2]; exact (List.zip_of_prod rfl rfl)

/-- Concrete run: shuffling really moves rows, and both parties move them alike. -/
example : dataSplit ['a', 'b', 'c', 'd'] 3 true (fun _ i => i / 2) =
    (['c', 'a', 'd'], ['b'], ['c', 'a', 'd', 'b']) ∧
    dataSplit [0, 1, 2, 3] 3 true (fun _ i => i / 2) = ([2, 0, 3], [1], [2, 0, 3, 1]) := by
  decide

end Verif
