import Verif.Model.DTable
import Mathlib.Algebra.Order.Ring.Rat
import Mathlib.Data.List.Sort
import Mathlib.Algebra.Order.Floor.Defs
import Mathlib.Data.Rat.Floor

/-!
# Model of `ml/feature/quantile_summaries.py`

Observations and the error parameter are exact rationals.  The only Python effect left out
is aliasing: `_compress_immut` changes `g` of `Stats` objects in place; since every such
object is afterwards only referenced from the new sample list (the old list is replaced),
the functional model returns the same lists.
-/

set_option autoImplicit false

namespace Verif
namespace Quantile

/-- `quantile_summaries.py` 25-29. -/
structure Stat where
  value : Rat
  g : Nat
  delta : Int
deriving DecidableEq, Repr

/-- `quantile_summaries.py` 33-46; the constructor arguments. -/
structure Config where
  compressThres : Nat
  headSize : Nat
  error : Rat
  abnormal : List Rat
deriving DecidableEq, Repr

/-- `quantile_summaries.py` 32-46. -/
structure QS where
  cfg : Config
  head : List Rat
  sampled : List Stat
  count : Nat
deriving DecidableEq, Repr

/-- `quantile_summaries.py` 33-46. -/
def QS.new (cfg : Config) : QS := ⟨cfg, [], [], 0⟩

/-- The `while` loop of `_insert_head_buffer`, `quantile_summaries.py` 78-99: `acc` is
`new_sampled`, `rest` is `self.sampled[sample_idx:]`, `cnt` is `current_count`.  When the
sorted buffer is exhausted, `rest` is forgotten (line 100), as in the code. -/
def headLoop (err : Rat) : List Rat → List Stat → List Stat → Nat → List Stat × Nat
  | [], acc, _, cnt => (acc, cnt)
  | x :: xs, acc, rest, cnt =>
    let pre := rest.takeWhile (fun s => s.value ≤ x)
    let rest' := rest.dropWhile (fun s => s.value ≤ x)
    let acc' := acc ++ pre
    let cnt' := cnt + 1
    let delta : Int :=
      if acc' = [] ∨ (rest' = [] ∧ xs = []) then 0 else ⌊2 * err * (cnt' : Rat)⌋
    headLoop err xs (acc' ++ [⟨x, 1, delta⟩]) rest' cnt'

/-- `quantile_summaries.py` 73-102. -/
def insertHeadBuffer (q : QS) : QS :=
  if q.head = [] then q
  else
    let r := headLoop q.cfg.error (q.head.insertionSort (· ≤ ·)) [] q.sampled q.count
    { q with sampled := r.1, head := [], count := r.2 }

/-- The `while i >= 1` loop of `_compress_immut`, `quantile_summaries.py` 206-213; the list
is `self.sampled[i], self.sampled[i-1], …, self.sampled[1]`, and `res` is kept in final
order (prepended) instead of being reversed at the end. -/
def compressLoop (thr : Rat) : Stat → List Stat → List Stat → Stat × List Stat
  | head, [], res => (head, res)
  | head, t :: ts, res =>
    if ((t.g : Int) + head.g + head.delta : Int) < thr then
      compressLoop thr { head with g := head.g + t.g } ts res
    else compressLoop thr t ts (head :: res)

/-- `quantile_summaries.py` 196-224. -/
def compressImmut (thr : Rat) (sampled : List Stat) : List Stat :=
  match sampled with
  | [] => []
  | s0 :: tail =>
    match tail.reverse with
    | [] => [s0]                       -- a single sample: the loop does not run
    | last :: down =>
      let r := compressLoop thr last down []
      let res := r.1 :: r.2
      if s0.value ≤ r.1.value then s0 :: res else res

/-- `quantile_summaries.py` 104-109. -/
def compress (q : QS) : QS :=
  let q := insertHeadBuffer q
  { q with sampled := compressImmut (2 * q.cfg.error * q.count) q.sampled }

/-- `quantile_summaries.py` 49-71 (a value that is not a number is skipped by the code; here
every observation is a number). -/
def insert (q : QS) (x : Rat) : QS :=
  if x ∈ q.cfg.abnormal then q
  else
    let q := { q with head := q.head ++ [x] }
    if q.cfg.headSize ≤ q.head.length then
      let q := insertHeadBuffer q
      if q.cfg.compressThres ≤ q.sampled.length then compress q else q
    else q

/-- The merging loop, `quantile_summaries.py` 136-146. -/
def mergeSampled : List Stat → List Stat → List Stat
  | [], bs => bs
  | as, [] => as
  | a :: as, b :: bs =>
    if a.value < b.value then a :: mergeSampled as (b :: bs) else b :: mergeSampled (a :: as) bs
termination_by as bs => as.length + bs.length

/-- `if …head_sampled: …compress()`, `quantile_summaries.py` 119-125, 167-169. -/
def flushed (q : QS) : QS := if q.head = [] then q else compress q

/-- `quantile_summaries.py` 111-153 (the new `self`; `other` is left flushed). -/
def merge (q other : QS) : QS :=
  let other := flushed other
  let q := flushed q
  if other.count = 0 then q
  else if q.count = 0 then { q with count := other.count, sampled := other.sampled }
  else
    let count := q.count + other.count
    { q with
      count := count
      sampled := compressImmut (2 * q.cfg.error * count) (mergeSampled q.sampled other.sampled) }

/-- The search loop of `query`, `quantile_summaries.py` 185-193; the list is
`self.sampled[1:-1]`. -/
def queryLoop (rank te : Int) : Int → List Stat → Option Rat
  | _, [] => none
  | minRank, s :: ss =>
    let minRank := minRank + s.g
    let maxRank := minRank + s.delta
    if maxRank - te ≤ rank ∧ rank ≤ minRank + te then some s.value
    else queryLoop rank te minRank ss

/-- `quantile_summaries.py` 155-194, on a flushed summary. -/
def queryFlushed (q : QS) (quantile : Rat) : Except PyErr Rat :=
  if quantile < 0 ∨ 1 < quantile then .error .valueError
  else if q.count = 0 then .ok 0
  else match q.sampled.head?, q.sampled.getLast? with
    | some first, some last =>
      if quantile ≤ q.cfg.error then .ok first.value
      else if 1 - q.cfg.error ≤ quantile then .ok last.value
      else
        match queryLoop ⌈quantile * q.count⌉ ⌈q.cfg.error * q.count⌉ 0 q.sampled.tail.dropLast with
        | some v => .ok v
        | none => .ok last.value
    | _, _ => .error .indexError       -- `self.sampled[0]` of an empty list

/-- `quantile_summaries.py` 155-194: the answer; the state afterwards is `flushed q`. -/
def query (q : QS) (quantile : Rat) : Except PyErr Rat := queryFlushed (flushed q) quantile

/-! ### Sparse summaries, `quantile_summaries.py` 227-284 -/

/-- `quantile_summaries.py` 227-240. -/
structure Sparse where
  qs : QS
  smaller : Nat
  bigger : Nat
  total : Nat
deriving DecidableEq, Repr

def Sparse.new (cfg : Config) : Sparse := ⟨.new cfg, 0, 0, 0⟩

/-- `consts.FLOAT_ZERO`, `ml/utils/consts.py`. -/
def floatZero : Rat := 1 / 10 ^ 6

/-- `quantile_summaries.py` 242-247 (`x < FLOAT_ZERO` / `x >= FLOAT_ZERO`). -/
def Sparse.insert (s : Sparse) (x : Rat) : Sparse :=
  if x < floatZero then { s with smaller := s.smaller + 1, qs := Quantile.insert s.qs x }
  else { s with bigger := s.bigger + 1, qs := Quantile.insert s.qs x }

/-- `quantile_summaries.py` 239-240. -/
def Sparse.setTotal (s : Sparse) (n : Nat) : Sparse := { s with total := n }

/-- `compress` is inherited, `quantile_summaries.py` 104-109. -/
def Sparse.compress (s : Sparse) : Sparse := { s with qs := Quantile.compress s.qs }

/-- `quantile_summaries.py` 257-260. -/
def Sparse.merge (s o : Sparse) : Sparse :=
  { s with smaller := s.smaller + o.smaller, bigger := s.bigger + o.bigger,
           qs := Quantile.merge s.qs o.qs }

/-- Python division of numbers. -/
def pyDiv (a b : Rat) : Except PyErr Rat := if b = 0 then .error .zeroDivision else .ok (a / b)

/-- `quantile_summaries.py` 273-277. -/
def Sparse.zeroLower (s : Sparse) : Except PyErr Rat :=
  if s.smaller = 0 then .ok 0 else pyDiv s.smaller s.total

/-- `quantile_summaries.py` 279-284 (returns the *count* when there is no bigger value). -/
def Sparse.zeroUpper (s : Sparse) : Except PyErr Rat :=
  if s.bigger = 0 then .ok s.total
  else
    let zeros : Int := (s.total : Int) - s.smaller - s.bigger
    pyDiv ((s.smaller : Int) + zeros : Int) s.total

/-- `quantile_summaries.py` 262-271. -/
def Sparse.convert (s : Sparse) (quantile : Rat) : Except PyErr Rat := do
  let zerosCount : Int := (s.total : Int) - s.qs.count
  if zerosCount = 0 then .ok quantile
  else do
    let l ← s.zeroLower
    if quantile < l then do
      let f ← pyDiv s.total s.qs.count
      .ok (f * quantile)
    else do
      let u ← s.zeroUpper
      pyDiv (quantile - u + l) (1 - u + l)

/-- `quantile_summaries.py` 249-255. -/
def Sparse.query (s : Sparse) (quantile : Rat) : Except PyErr Rat := do
  let l ← s.zeroLower
  let inZeros ←
    if l ≤ quantile then do
      let u ← s.zeroUpper
      .ok (decide (quantile ≤ u))
    else .ok false                     -- Python's chained comparison short-circuits
  if inZeros then .ok 0
  else do
    let q' ← s.convert quantile
    Quantile.query s.qs q'

/-! ### Programs over summaries -/

/-- A program building one summary by any sequence of API calls. -/
inductive Prog where
  | new (cfg : Config)
  | insert (p : Prog) (x : Rat)
  | compress (p : Prog)
  | merge (p other : Prog)
  | query (p : Prog)                  -- a query flushes the buffer
deriving Repr

def Prog.eval : Prog → QS
  | .new cfg => QS.new cfg
  | .insert p x => Quantile.insert p.eval x
  | .compress p => Quantile.compress p.eval
  | .merge p o => Quantile.merge p.eval o.eval
  | .query p => flushed p.eval

/-- `insert` in a loop, `quantile_binning.py` 132-149 (one column). -/
def insertAll (q : QS) (xs : List Rat) : QS := xs.foldl insert q

/-- `quantile_binning.py` 117-129, 144-149 and 52-55 for one column of sparse data: create a
summary, insert the stored entries, compress, set the number of rows. -/
def sparseOf (cfg : Config) (data : List Rat) (total : Nat) : Sparse :=
  (data.foldl Sparse.insert (Sparse.new cfg)).compress.setTotal total

/-- `quantile_binning.py` 109-114, 136-143 and 126-127 for one column of dense data. -/
def denseOf (cfg : Config) (data : List Rat) : QS := compress (insertAll (.new cfg) data)

/-- `quantile_binning.py` 37-69 for one column: split points at `i / bin_num`, each value
kept once.  `i * (1.0 / bin_num)` is exact here. -/
def splitLoop (ask : Rat → Except PyErr Rat) : List Rat → List Rat → Except PyErr (List Rat)
  | [], acc => .ok acc
  | q :: qs, acc => do
    let sp ← ask q
    splitLoop ask qs (if sp ∈ acc then acc else acc ++ [sp])

def percentiles (binNum : Nat) : List Rat :=
  (List.range (binNum - 1)).map fun i => ((i + 1 : Nat) : Rat) * (1 / (binNum : Rat))

def splitPoints (ask : Rat → Except PyErr Rat) (binNum : Nat) : Except PyErr (List Rat) :=
  if binNum = 0 then .error .zeroDivision else splitLoop ask (percentiles binNum) []

end Quantile
end Verif
