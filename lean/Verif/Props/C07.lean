import Verif.Lemmas.Data

/-!
# C07 – CSV rows keep id, label and features together

The specification is the inverse direction: a table of cells is written as text
(`unlines`, `joinComma`) and must be read back column by column.
-/

set_option autoImplicit false

namespace Verif
open Data

variable {F : Type*}

/-- A line as `id,label,features…`. -/
structure Spec.Row where
  id : Cell
  label : Cell
  feats : List Cell

/-- A cell contains no separator. -/
def Spec.CleanCell (c : Cell) : Prop := ',' ∉ c ∧ '\n' ∉ c

def Spec.Row.cells (r : Spec.Row) : List Cell := r.id :: r.label :: r.feats
def Spec.Row.Clean (r : Spec.Row) : Prop := ∀ c ∈ r.cells, Spec.CleanCell c

theorem pop_two {α : Type*} (a b : α) (l : List α) : pop (a :: b :: l) 1 = .ok (b, a :: l) := rfl
theorem pop_one {α : Type*} (a : α) (l : List α) : pop (a :: l) 0 = .ok (a, l) := rfl

theorem labelledLoop_render (parse : Cell → Option F) (rows : List (Spec.Row × List F))
    (hclean : ∀ r ∈ rows, r.1.Clean)
    (hparse : ∀ r ∈ rows, r.1.feats.map parse = r.2.map some) (t : Table F) :
    labelledLoop parse (rows.map fun r => joinComma r.1.cells) t =
      .ok ⟨t.header, t.ids ++ rows.map (·.1.id), t.features ++ rows.map (·.2),
        t.labels ++ rows.map (·.1.label)⟩ := by
  induction rows generalizing t with
  | nil => simp [labelledLoop]
  | cons r rows ih =>
    have hs : splitComma (joinComma r.1.cells) = r.1.id :: r.1.label :: r.1.feats :=
      splitComma_join _ (by simp [Spec.Row.cells]) (fun c hc => (hclean r (by simp) c hc).1)
    have hf := floats_ok parse _ _ (hparse r (by simp))
    simp only [List.map_cons, labelledLoop, hs, pop_two, pop_one, hf]
    rw [ih (fun r hr => hclean r (by simp [hr])) (fun r hr => hparse r (by simp [hr]))]
    simp

/-- Reading a labelled file: every data line in order contributes its first cell to the
ids, its second to the labels and the rest (parsed) to the features; the header names
are those of the feature columns in order. -/
theorem C07_labelled (parse : Cell → Option F) (head : Spec.Row)
    (rows : List (Spec.Row × List F)) (hhead : head.Clean)
    (hclean : ∀ r ∈ rows, r.1.Clean)
    (hparse : ∀ r ∈ rows, r.1.feats.map parse = r.2.map some) :
    readLabelled parse (unlines (joinComma head.cells :: rows.map fun r => joinComma r.1.cells)) =
      .ok ⟨head.feats, rows.map (·.1.id), rows.map (·.2), rows.map (·.1.label)⟩ := by
  unfold readLabelled
  rw [fileLines_unlines]
  · have hs : splitComma (joinComma head.cells) = head.id :: head.label :: head.feats :=
      splitComma_join _ (by simp [Spec.Row.cells]) (fun c hc => (hhead c hc).1)
    simp only [hs, pop_two, pop_one]
    have := labelledLoop_render parse rows hclean hparse ⟨head.feats, [], [], []⟩
    simpa using this
  · intro l hl
    simp only [List.mem_cons, List.mem_map] at hl
    rcases hl with e | ⟨r, hr, e⟩
    · subst e; exact joinComma_no_newline _ (fun c hc => (hhead c hc).2)
    · subst e; exact joinComma_no_newline _ (fun c hc => (hclean r hr c hc).2)

/-- A toy number parser for the examples: single decimal digits. -/
def digitParse : Cell → Option Nat
  | [c] => if c.isDigit then some (c.toNat - 48) else none
  | _ => none

example : readLabelled digitParse "id,y,a,b\nu,1,5,6\nv,0,7,8\n".toList =
    .ok ⟨["a".toList, "b".toList], ["u".toList, "v".toList], [[5, 6], [7, 8]],
      ["1".toList, "0".toList]⟩ := by decide

/-- All output columns have one entry per data line. -/
theorem C07_lengths (parse : Cell → Option F) (text : List Char) (t : Table F)
    (h : readLabelled parse text = .ok t) :
    t.ids.length + 1 = (fileLines text).length ∧ t.labels.length = t.ids.length ∧
      t.features.length = t.ids.length := by
  have loop : ∀ (rows : List (List Char)) (t0 t : Table F), labelledLoop parse rows t0 = .ok t →
      t.ids.length = t0.ids.length + rows.length ∧ t.labels.length = t0.labels.length + rows.length ∧
      t.features.length = t0.features.length + rows.length := by
    intro rows
    induction rows with
    | nil => intro t0 t h; simp [labelledLoop] at h; subst h; simp
    | cons r rows ih =>
      intro t0 t h
      unfold labelledLoop at h
      split at h
      · cases h
      · split at h
        · cases h
        · split at h
          · cases h
          · have := ih _ _ h
            simp at this ⊢
            omega
  unfold readLabelled at h
  split at h
  · cases h
  · rename_i r0 rows hl
    split at h
    · cases h
    · split at h
      · cases h
      · have := loop _ _ _ h
        rw [hl]
        simp at this ⊢
        omega

/-- A non-numeric feature anywhere in the file is rejected with `ValueError`; nothing
is returned.  (All lines before it well-formed; any lines after it.) -/
theorem C07_non_numeric_rejected (parse : Cell → Option F) (head bad : Spec.Row)
    (rows : List (Spec.Row × List F)) (after : List (List Char)) (hhead : head.Clean)
    (hclean : ∀ r ∈ rows, r.1.Clean)
    (hparse : ∀ r ∈ rows, r.1.feats.map parse = r.2.map some)
    (hbadc : bad.Clean) (hbad : ∃ c ∈ bad.feats, parse c = none) (hafter : ∀ l ∈ after, '\n' ∉ l) :
    readLabelled parse (unlines (joinComma head.cells :: (rows.map fun r => joinComma r.1.cells) ++
      joinComma bad.cells :: after)) = .error .valueError := by
  have hbadloop : ∀ t : Table F, labelledLoop parse (joinComma bad.cells :: after) t = .error .valueError := by
    intro t
    have hs : splitComma (joinComma bad.cells) = bad.id :: bad.label :: bad.feats :=
      splitComma_join _ (by simp [Spec.Row.cells]) (fun c hc => (hbadc c hc).1)
    simp only [labelledLoop, hs, pop_two, pop_one, floats_error parse _ hbad]
  have hpre : ∀ (rows : List (Spec.Row × List F)), (∀ r ∈ rows, r.1.Clean) →
      (∀ r ∈ rows, r.1.feats.map parse = r.2.map some) → ∀ t : Table F,
      labelledLoop parse ((rows.map fun r => joinComma r.1.cells) ++ joinComma bad.cells :: after) t
        = .error .valueError := by
    intro rows
    induction rows with
    | nil => intro _ _ t; exact hbadloop t
    | cons r rows ih =>
      intro hc hp t
      have hs : splitComma (joinComma r.1.cells) = r.1.id :: r.1.label :: r.1.feats :=
        splitComma_join _ (by simp [Spec.Row.cells]) (fun c hc' => (hc r (by simp) c hc').1)
      have hf := floats_ok parse _ _ (hp r (by simp))
      simp only [List.map_cons, List.cons_append, labelledLoop, hs, pop_two, pop_one, hf]
      exact ih (fun r hr => hc r (by simp [hr])) (fun r hr => hp r (by simp [hr])) _
  unfold readLabelled
  rw [fileLines_unlines]
  · have hs : splitComma (joinComma head.cells) = head.id :: head.label :: head.feats :=
      splitComma_join _ (by simp [Spec.Row.cells]) (fun c hc => (hhead c hc).1)
    simp only [List.cons_append, hs, pop_two, pop_one]
    exact hpre rows hclean hparse ⟨head.feats, [], [], []⟩
  · intro l hl
    simp only [List.cons_append, List.mem_cons, List.mem_append, List.mem_map] at hl
    rcases hl with e | ⟨r, hr, e⟩ | e | e
    · subst e; exact joinComma_no_newline _ (fun c hc => (hhead c hc).2)
    · subst e; exact joinComma_no_newline _ (fun c hc => (hclean r hr c hc).2)
    · subst e; exact joinComma_no_newline _ (fun c hc => (hbadc c hc).2)
    · exact hafter l e

example : readLabelled digitParse "id,y,a\nu,1,x\n".toList = .error .valueError := by decide

theorem unlabelledLoop_render (parse : Cell → Option F) (rows : List (Cell × List Cell × List F))
    (hclean : ∀ r ∈ rows, ∀ c ∈ r.1 :: r.2.1, Spec.CleanCell c)
    (hparse : ∀ r ∈ rows, r.2.1.map parse = r.2.2.map some) (t : Table F) :
    unlabelledLoop parse (rows.map fun r => joinComma (r.1 :: r.2.1)) t =
      .ok ⟨t.header, t.ids ++ rows.map (·.1), t.features ++ rows.map (·.2.2), t.labels⟩ := by
  induction rows generalizing t with
  | nil => simp [unlabelledLoop]
  | cons r rows ih =>
    have hs : splitComma (joinComma (r.1 :: r.2.1)) = r.1 :: r.2.1 :=
      splitComma_join _ (by simp) (fun c hc => (hclean r (by simp) c hc).1)
    have hf := floats_ok parse _ _ (hparse r (by simp))
    simp only [List.map_cons, unlabelledLoop, hs, pop_one, hf]
    rw [ih (fun r hr => hclean r (by simp [hr])) (fun r hr => hparse r (by simp [hr]))]
    simp

/-- Reading a host file (no label column): first cell is the id, all others features. -/
theorem C07_unlabelled (parse : Cell → Option F) (h0 : Cell) (hs : List Cell)
    (rows : List (Cell × List Cell × List F)) (hhead : ∀ c ∈ h0 :: hs, Spec.CleanCell c)
    (hclean : ∀ r ∈ rows, ∀ c ∈ r.1 :: r.2.1, Spec.CleanCell c)
    (hparse : ∀ r ∈ rows, r.2.1.map parse = r.2.2.map some) :
    readUnlabelled parse (unlines (joinComma (h0 :: hs) :: rows.map fun r => joinComma (r.1 :: r.2.1))) =
      .ok ⟨hs, rows.map (·.1), rows.map (·.2.2), []⟩ := by
  unfold readUnlabelled
  rw [fileLines_unlines]
  · have hsp : splitComma (joinComma (h0 :: hs)) = h0 :: hs :=
      splitComma_join _ (by simp) (fun c hc => (hhead c hc).1)
    simp only [hsp, pop_one]
    simpa using unlabelledLoop_render parse rows hclean hparse ⟨hs, [], [], []⟩
  · intro l hl
    simp only [List.mem_cons, List.mem_map] at hl
    rcases hl with e | ⟨r, hr, e⟩
    · subst e; exact joinComma_no_newline _ (fun c hc => (hhead c hc).2)
    · subst e; exact joinComma_no_newline _ (fun c hc => (hclean r hr c hc).2)

example : readUnlabelled digitParse "id,a,b\nu,5,6\nv,7,8\n".toList =
    .ok ⟨["a".toList, "b".toList], ["u".toList, "v".toList], [[5, 6], [7, 8]], []⟩ := by decide

/-- Observation (not part of the claim): a line with too few or too many columns is
accepted – its feature vector just has another length than the header. -/
theorem C07_ragged_accepted :
    readLabelled digitParse "id,y,a,b\nu,1,5\n".toList =
      .ok ⟨["a".toList, "b".toList], ["u".toList], [[5]], ["1".toList]⟩ := by decide

end Verif
