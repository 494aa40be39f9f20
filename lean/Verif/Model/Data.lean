import Verif.Model.Py
import Mathlib.Algebra.Order.Ring.Rat

/-!
# Model of `i_o/utils.py` (CSV input) and of `data_split` in `guest.py` / `host.py`
-/

set_option autoImplicit false

namespace Verif
namespace Data

/-! ## CSV -/

abbrev Cell := List Char

/-- `i_o/utils.py` 31-33 / 84-86: iterating over a text file yields its lines, the
terminating newline stripped.  A file ending in a newline has no extra empty line.
Simplified: `\r\n` translation is not modelled. -/
def fileLines : List Char → List (List Char)
  | [] => []
  | c :: cs =>
    if c = '\n' then [] :: fileLines cs
    else match fileLines cs with
      | [] => [[c]]
      | l :: ls => (c :: l) :: ls

/-- `line.split(',')` -/
def splitComma : List Char → List Cell
  | [] => [[]]
  | c :: cs =>
    if c = ',' then [] :: splitComma cs
    else match splitComma cs with
      | [] => [[c]]
      | l :: ls => (c :: l) :: ls

/-- `l.pop(i)` for a non-negative index: the element and the shortened list. -/
def pop {α : Type*} (l : List α) (i : Nat) : Except PyErr (α × List α) :=
  match l[i]? with
  | none => .error .indexError
  | some a => .ok (a, l.eraseIdx i)

/-- `[float(val) for val in vals]`; `parse` is Python's `float`, `none` = `ValueError`. -/
def floats {F : Type*} (parse : Cell → Option F) : List Cell → Except PyErr (List F)
  | [] => .ok []
  | v :: vs =>
    match parse v with
    | none => .error .valueError
    | some x => match floats parse vs with
      | .error e => .error e
      | .ok xs => .ok (x :: xs)

/-- Result of reading a labelled file. -/
structure Table (F : Type*) where
  header : List Cell
  ids : List Cell
  features : List (List F)
  labels : List Cell
  deriving DecidableEq, Repr

/-- `i_o/utils.py` 48-55: loop over the data rows. -/
def labelledLoop {F : Type*} (parse : Cell → Option F) :
    List (List Char) → Table F → Except PyErr (Table F)
  | [], t => .ok t
  | row :: rows, t =>
    match pop (splitComma row) 1 with
    | .error e => .error e
    | .ok (lab, vals) =>
      match pop vals 0 with
      | .error e => .error e
      | .ok (i, vals) =>
        match floats parse vals with
        | .error e => .error e
        | .ok xs =>
          labelledLoop parse rows
            { t with ids := t.ids ++ [i], features := t.features ++ [xs], labels := t.labels ++ [lab] }

/-- `i_o/utils.py` 3-57 `read_from_csv_with_lable`; the argument is the file's text. -/
def readLabelled {F : Type*} (parse : Cell → Option F) (text : List Char) :
    Except PyErr (Table F) :=
  match fileLines text with
  | [] => .error .indexError
  | r0 :: rows =>
    match pop (splitComma r0) 1 with
    | .error e => .error e
    | .ok (_, h) =>
      match pop h 0 with
      | .error e => .error e
      | .ok (_, h) => labelledLoop parse rows ⟨h, [], [], []⟩

/-- `i_o/utils.py` 97-103: loop over the data rows (no label column). -/
def unlabelledLoop {F : Type*} (parse : Cell → Option F) :
    List (List Char) → Table F → Except PyErr (Table F)
  | [], t => .ok t
  | row :: rows, t =>
    match pop (splitComma row) 0 with
    | .error e => .error e
    | .ok (i, vals) =>
      match floats parse vals with
      | .error e => .error e
      | .ok xs =>
        unlabelledLoop parse rows { t with ids := t.ids ++ [i], features := t.features ++ [xs] }

/-- `i_o/utils.py` 59-105 `read_from_csv_with_no_lable` (the `labels` field stays empty). -/
def readUnlabelled {F : Type*} (parse : Cell → Option F) (text : List Char) :
    Except PyErr (Table F) :=
  match fileLines text with
  | [] => .error .indexError
  | r0 :: rows =>
    match pop (splitComma r0) 0 with
    | .error e => .error e
    | .ok (_, h) => unlabelledLoop parse rows ⟨h, [], [], []⟩

/-! ## Train/test split -/

/-- `int(x)` for a rational: truncation toward zero. -/
def pyInt (x : Rat) : Int := Int.tdiv x.num x.den

/-- CPython's `random.shuffle`: `for i in reversed(range(1, n)): j = randbelow(i+1);
x[i], x[j] = x[j], x[i]`.  `draw i` is the value of `randbelow(i+1)`. -/
def shuffleLoop {α : Type*} (draw : Nat → Nat) : Nat → Array α → Array α
  | 0, a => a
  | i + 1, a => shuffleLoop draw i (a.swapIfInBounds (i + 1) (draw (i + 1)))

/-- `random.shuffle(full_list)` -/
def shuffle {α : Type*} (draw : Nat → Nat) (l : List α) : List α :=
  (shuffleLoop draw (l.length - 1) l.toArray).toList

/-- `guest.py` 84-102, `host.py` 63-81: `data_split(full_list, ratio, shuffle, random_seed)`.
`scaled` is the value of `n_total * ratio` (a float product in the code; any rational
here); `draw n i` are the draws of the generator, which for a fixed seed depend only on
the list length `n` and the step `i`.  The result of the shuffle also replaces the
caller's list (third component). -/
def dataSplit {α : Type*} (full : List α) (scaled : Rat) (doShuffle : Bool)
    (draw : Nat → Nat → Nat) : List α × List α × List α :=
  let n := full.length
  let offset := pyInt scaled
  if n = 0 ∨ offset < 1 then ([], full, full)
  else
    let full := if doShuffle then shuffle (draw n) full else full
    (full.take offset.toNat, full.drop offset.toNat, full)

end Data
end Verif
