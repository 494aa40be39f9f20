import Verif.Model.Data

set_option autoImplicit false

namespace Verif
namespace Data

/-- Joining cells with commas. -/
def joinComma : List Cell → List Char
  | [] => []
  | [c] => c
  | c :: d :: cs => c ++ ',' :: joinComma (d :: cs)

/-- Text of a file with one line per entry, each terminated by a newline. -/
def unlines (ls : List (List Char)) : List Char := (ls.map fun l => l ++ ['\n']).flatten

theorem splitComma_ne_nil (l : List Char) : splitComma l ≠ [] := by
  cases l with
  | nil => simp [splitComma]
  | cons c cs =>
    unfold splitComma
    split
    · simp
    · split <;> simp

theorem splitComma_cell (c : Cell) (h : ',' ∉ c) : splitComma c = [c] := by
  induction c with
  | nil => rfl
  | cons a c ih =>
    simp only [List.mem_cons, not_or] at h
    have ha : ¬ a = ',' := fun e => h.1 e.symm
    simp [splitComma, ha, ih h.2]

theorem splitComma_cons (c : Cell) (rest : List Char) (h : ',' ∉ c) :
    splitComma (c ++ ',' :: rest) = c :: splitComma rest := by
  induction c with
  | nil => simp [splitComma]
  | cons a c ih =>
    simp only [List.mem_cons, not_or] at h
    have ha : ¬ a = ',' := fun e => h.1 e.symm
    simp [splitComma, ha, ih h.2]

theorem splitComma_join (cells : List Cell) (hne : cells ≠ []) (h : ∀ c ∈ cells, ',' ∉ c) :
    splitComma (joinComma cells) = cells := by
  induction cells with
  | nil => exact absurd rfl hne
  | cons c cells ih =>
    cases cells with
    | nil => exact splitComma_cell c (h c (by simp))
    | cons d cells =>
      rw [joinComma, splitComma_cons _ _ (h c (by simp)), ih (by simp)]
      intro x hx
      exact h x (List.mem_cons_of_mem _ hx)

theorem fileLines_line (l rest : List Char) (h : '\n' ∉ l) :
    fileLines (l ++ '\n' :: rest) = l :: fileLines rest := by
  induction l with
  | nil => rw [List.nil_append, fileLines, if_pos rfl]
  | cons a l ih =>
    simp only [List.mem_cons, not_or] at h
    have ha : ¬ a = '\n' := fun e => h.1 e.symm
    rw [List.cons_append, fileLines, if_neg ha, ih h.2]

theorem fileLines_unlines (ls : List (List Char)) (h : ∀ l ∈ ls, '\n' ∉ l) :
    fileLines (unlines ls) = ls := by
  induction ls with
  | nil => rfl
  | cons l ls ih =>
    have : unlines (l :: ls) = l ++ '\n' :: unlines ls := by simp [unlines]
    rw [this, fileLines_line l _ (h l (by simp)), ih (fun l hl => h l (by simp [hl]))]

theorem joinComma_no_newline (cells : List Cell) (h : ∀ c ∈ cells, '\n' ∉ c) :
    '\n' ∉ joinComma cells := by
  induction cells with
  | nil => simp [joinComma]
  | cons c cells ih =>
    cases cells with
    | nil => exact h c (by simp)
    | cons d cells =>
      have h1 := h c (by simp)
      have h2 := ih (fun x hx => h x (List.mem_cons_of_mem _ hx))
      simp [joinComma, h1, h2]

theorem floats_ok {F : Type*} (parse : Cell → Option F) (cells : List Cell) (xs : List F)
    (h : cells.map parse = xs.map some) : floats parse cells = .ok xs := by
  induction cells generalizing xs with
  | nil => cases xs with
    | nil => rfl
    | cons _ _ => simp at h
  | cons c cells ih =>
    cases xs with
    | nil => simp at h
    | cons x xs =>
      simp only [List.map_cons, List.cons.injEq] at h
      simp only [floats, h.1, ih xs h.2]

theorem floats_error {F : Type*} (parse : Cell → Option F) (cells : List Cell)
    (h : ∃ c ∈ cells, parse c = none) : floats parse cells = .error .valueError := by
  induction cells with
  | nil => obtain ⟨c, hc, _⟩ := h; simp at hc
  | cons c cells ih =>
    unfold floats
    cases hp : parse c with
    | none => rfl
    | some x =>
      simp only
      have : ∃ c ∈ cells, parse c = none := by
        obtain ⟨d, hd, he⟩ := h
        rcases List.mem_cons.mp hd with e | e
        · subst e; rw [hp] at he; cases he
        · exact ⟨d, e, he⟩
      rw [ih this]

/-! ## shuffle -/

theorem shuffleLoop_perm {α : Type*} (draw : Nat → Nat) (i : Nat) (a : Array α) :
    (shuffleLoop draw i a).toList.Perm a.toList := by
  induction i generalizing a with
  | zero => exact List.Perm.refl _
  | succ i ih =>
    refine (ih _).trans ?_
    rw [Array.swapIfInBounds_def]
    split
    · split
      · exact Array.perm_iff_toList_perm.mp (Array.swap_perm _ _)
      · exact List.Perm.refl _
    · exact List.Perm.refl _

theorem map_swapIfInBounds {α β : Type*} (f : α → β) (a : Array α) (i j : Nat) :
    (a.swapIfInBounds i j).map f = (a.map f).swapIfInBounds i j := by
  rw [Array.swapIfInBounds_def, Array.swapIfInBounds_def]
  by_cases hi : i < a.size
  · by_cases hj : j < a.size
    · have hi' : i < (a.map f).size := by simpa using hi
      have hj' : j < (a.map f).size := by simpa using hj
      simp only [hi, hj, hi', hj', dif_pos]
      apply Array.ext
      · simp
      · intro k h1 h2
        simp only [Array.getElem_map, Array.getElem_swap]
        split
        · rfl
        · split <;> rfl
    · have hj' : ¬ j < (a.map f).size := by simpa using hj
      simp [hj]
  · simp [hi]

theorem shuffleLoop_map {α β : Type*} (draw : Nat → Nat) (f : α → β) (i : Nat) (a : Array α) :
    (shuffleLoop draw i a).map f = shuffleLoop draw i (a.map f) := by
  induction i generalizing a with
  | zero => rfl
  | succ i ih => simp only [shuffleLoop]; rw [ih, map_swapIfInBounds]

theorem shuffle_map {α β : Type*} (draw : Nat → Nat) (f : α → β) (l : List α) :
    shuffle draw (l.map f) = (shuffle draw l).map f := by
  unfold shuffle
  have := shuffleLoop_map draw f (l.length - 1) l.toArray
  rw [← Array.toList_map (xs := shuffleLoop draw (l.length - 1) l.toArray), this]
  simp

theorem shuffle_perm {α : Type*} (draw : Nat → Nat) (l : List α) : (shuffle draw l).Perm l :=
  shuffleLoop_perm draw _ _

end Data
end Verif
