import Verif.Model.Program
import Verif.Props.C07
import Verif.Spec.C53
import Verif.Spec.C33

/-! # Specification vocabulary for the programs from the files to the accuracy -/

set_option autoImplicit false

namespace Verif
namespace Spec

open DTree Histogram Program
open Data (Cell unlines joinComma)

/-- The text is a header line and a line `id,label,features` for each of the samples. -/
def LabelledFile (parse : Cell → Option Rat) (text : List Char) (header : List Cell)
    (samples : List (Cell × Cell × List Rat)) : Prop :=
  ∃ (head : Row) (lines : List (Row × List Rat)), head.Clean ∧ head.feats = header ∧
    (∀ r ∈ lines, r.1.Clean) ∧ (∀ r ∈ lines, r.1.feats.map parse = r.2.map some) ∧
    lines.map (fun r => (r.1.id, r.1.label, r.2)) = samples ∧
    text = unlines (joinComma head.cells :: lines.map fun r => joinComma r.1.cells)

/-- The text is a header line and a line `id,features` for each of the samples. -/
def PlainFile (parse : Cell → Option Rat) (text : List Char) (header : List Cell)
    (samples : List (Cell × List Rat)) : Prop :=
  ∃ (first : Cell) (lines : List (Cell × List Cell × List Rat)),
    (∀ c ∈ first :: header, CleanCell c) ∧ (∀ r ∈ lines, ∀ c ∈ r.1 :: r.2.1, CleanCell c) ∧
    (∀ r ∈ lines, r.2.1.map parse = r.2.2.map some) ∧
    lines.map (fun r => (r.1, r.2.2)) = samples ∧
    text = unlines (joinComma (first :: header) :: lines.map fun r => joinComma (r.1 :: r.2.1))

/-- The table of a list: the keys are 0, 1, 2, … -/
def numbered {V : Type} (l : List V) : DTable Nat V := ⟨l.mapIdx fun i v => (i, v)⟩

/-- The entries at the given positions. -/
def entriesAt {V : Type} (l : List V) (pos : List Nat) : List V := pos.filterMap fun p => l[p]?

/-- The files of all parties: features of the lines of the guest, and of every host. -/
structure Features where
  guest : List (List Rat)
  hosts : List (List (List Rat))

/-- The rows of every party at the given lines of its file. -/
def Features.at (X : Features) (pos : List Nat) : Option Nat → DTable Nat (List Rat)
  | none => numbered (entriesAt X.guest pos)
  | some j => numbered (entriesAt ((X.hosts[j]?).getD []) pos)

/-- The number of score components for a number of classes. -/
def components (num : Nat) : Nat := if num > 2 then num else 1

/-- The settings suit files with `n` lines: the conditions of C53, stated for settings that do not
depend on the data. -/
structure ProgramOk {P : Type} (p q : Nat) (sk : Paillier.PrivKey) (lo hi : Int) (m gmax hmax eg eh : Rat)
    (G : Rat × Rat → Prop) (S : Settings Num P) (n : Nat) : Prop where
  error : 0 ≤ S.binning.error
  abnormal : S.binning.abnormal = []
  bins : 1 ≤ S.binNum
  depth : 1 ≤ S.maxDepth ∧ S.maxDepth ≤ 31
  fuel : 2 ^ S.maxDepth ≤ S.fuel
  batch : S.maxSplitNodes ≠ 0
  kind : S.kind ≠ .other
  leaf : 1 ≤ S.tree.minLeaf
  lam : 0 ≤ S.tree.regLambda
  grads : ∀ (num c : Nat) l f, c < num → l.value = (Label.int (T := Cell) c).value →
    f.length = components num → ∃ g h, S.gradHess num l f = .ok (g, h) ∧
    g.length = components num ∧ h.length = components num ∧
    ∀ (c : Nat) a b, g[c]? = some a → h[c]? = some b → G (a, b)
  loss : ∀ (num : Nat) y s, s.WF → (∀ k, k ∈ s.data.keys ↔ k ∈ y.data.keys) →
    ∃ v, S.loss num y s = .ok v
  bounds : ∀ a b, G (a, b) → |a| ≤ gmax ∧ 0 ≤ b ∧ b ≤ hmax ∧ m ≤ b + S.tree.regLambda
  pos : 0 < m
  gpos : 0 ≤ gmax
  hpos : 0 ≤ hmax
  key : KeyPair p q sk
  hi0 : 0 ≤ hi
  gap : (16 : Int) ^ (hi - lo).toNat ≤ sk.pk.n / 3 - 1
  big : 2 ^ 53 ≤ sk.pk.n / 3 - 1
  cipher : ∃ draw : Nat → Nat → Nat → Nat → Nat × Nat → Int, (∀ i t d b l, Usable sk (draw i t d b l)) ∧
    ∀ i t d b, S.cipher i t d b = paillierCipher sk (draw i t d b)
  arith : S.arith = Histogram.paillier
  enc : ∀ i t gh, gh.WF → (∀ x ∈ gh.data, G x.2) →
    ∃ e : DTable Nat (Paillier.EncNum × Paillier.EncNum), S.enc i t gh = .ok (liftGh e) ∧
      List.Forall₂ (fun a b => a.1 = b.1 ∧ EncryptionOf sk lo hi eg a.2.1 b.2.1 ∧
        EncryptionOf sk lo hi eh a.2.2 b.2.2) e.data gh.data
  errors : 0 ≤ eg ∧ 0 ≤ eh
  room : (S.maxDepth : Rat) * (n * eh) ≤ m / 2
  windowG : (n : Rat) * (gmax + eg) * (16 : Rat) ^ hi ≤ ((sk.pk.n / 3 - 1 : Int) : Rat)
  windowH : (n : Rat) * (hmax + eh) * (16 : Rat) ^ hi ≤ ((sk.pk.n / 3 - 1 : Int) : Rat)
  accuracy : max (2 * (n * gmax + (S.maxDepth + 1) * (n * eg)) ^ 2 / m) |S.tree.minImpurity - 1 / 10 ^ 6| / 2 ^ 50 +
    FP.tiny ≤ 1 / 10 ^ 6
  softmax : ∀ s, (S.softmax s).length = s.length

/-- The boosting run has the given settings, for the classes found in the labels. -/
structure UsesSettings {α P : Type} (S : Settings α P) (R : Labels.Checked Nat Cell)
    (B : Boost Nat α (Label Cell)) : Prop where
  cfg : B.base.cfg = S.tree
  kind : B.base.kind = S.kind
  depth : B.base.maxDepth = S.maxDepth
  batch : B.base.maxSplitNodes = S.maxSplitNodes
  arith : B.base.arith = S.arith
  valid : B.valid = S.valid
  cipher : B.cipher = S.cipher
  enc : B.enc = S.enc
  gradHess : B.gradHess = S.gradHess R.num
  loss : B.loss = S.loss R.num
  rounds : B.rounds = S.rounds
  dim : B.dim = R.dim
  rate : B.rate = S.rate
  early : B.early = S.early
  tol : B.tol = S.tol

/-- The column names of party `j` suit the settings: no name twice, as many feature flags as
columns. -/
structure HeaderOk {P : Type} (S : Settings Num P) (j : Option Nat) (header : List Cell) : Prop where
  nodup : header.Nodup
  flags : ∀ i t, (S.valid i t j).length = header.length
  short : header.length ≤ 2 ^ 31

/-- The file of a host has `n` lines of full width, and its proportion gives the same split. -/
structure HostFile (parse : Cell → Option Rat) (n : Nat) (scaled : Nat → Rat) (h : HostArgs)
    (f : List Cell × List (Cell × List Rat)) : Prop where
  file : PlainFile parse h.text f.1 f.2
  scaled : h.scaled n = scaled n
  length : f.2.length = n
  width : ∀ s ∈ f.2, s.2.length = f.1.length

/-- The class that scores stand for.  With two classes it is the second exactly if the probability
exceeds the threshold; otherwise it is the first class of largest probability. -/
def Decides {P : Type} [LinearOrder P] (S : Settings Num P) (classes : List (Label Cell))
    (s : List Rat) (c : Label Cell) : Prop :=
  (∀ c0 c1, classes = [c0, c1] → ∃ x, s = [x] ∧ c = if S.sigmoid x > S.threshold then c1 else c0) ∧
  (classes.length ≠ 2 → ∃ (i : Nat) (p : P), classes[i]? = some c ∧ (S.softmax s)[i]? = some p ∧
    (∀ p' ∈ S.softmax s, p' ≤ p) ∧ ∀ (j : Nat) p', j < i → (S.softmax s)[j]? = some p' → p' < p)

/-- The classes are the different labels in increasing order. -/
def ClassesOf (labels : List Cell) (classes : List (Label Cell)) : Prop :=
  classes.Pairwise (fun a b => a.value < b.value) ∧ ∀ c, c ∈ classes ↔ ∃ l ∈ labels, c = .str l

end Spec
end Verif
