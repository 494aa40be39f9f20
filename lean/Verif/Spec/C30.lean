import Verif.Model.Protocol

/-!
# What messages may contain, and what they may depend on
-/

set_option autoImplicit false

namespace Verif
namespace Spec

open Network DTree

variable {K α : Type}

/-- A bin field that says nothing: empty, or `-1` where a host has no split to propose. -/
def NoBin (b : Option Int) : Prop := b = none ∨ b = some (-1)

/-- Where a sample is in training: a node, or a question without a bin; no leaf weight. -/
def QuietPlace : Disp → Prop
  | .at _ _ => True
  | .ask _ _ bid _ _ _ _ => NoBin bid
  | .leaf _ => False

/-- Where a sample is in prediction: a node; no leaf weight. -/
def QuietState : PState → Prop
  | .node _ _ => True
  | .weight _ => False

/-- What a message may contain.  No bin of a split, no leaf weight of a sample; the gradients of
samples and the gains found by the guest only as values in `E` (ciphertexts).  The sums and weights
of the nodes in `tree` are not restricted: see `C30_sums_refuted`. -/
def Discreet (E : α → Prop) : Msg K α → Prop
  | .gradHess t => ∀ r ∈ t.data, E r.2.1 ∧ E r.2.2
  | .bests b => ∀ x ∈ b, E x.2
  | .finals s => ∀ x ∈ s, NoBin x.bid
  | .tree ns => ∀ n ∈ ns, NoBin n.bid
  | .positions t => ∀ r ∈ t.data, QuietPlace r.2
  | .questions t => ∀ r ∈ t.data, QuietPlace r.2
  | .answers t => ∀ r ∈ t.data, QuietPlace r.2
  | .walking t => ∀ r ∈ t.data, QuietState r.2
  | .walked t => ∀ r ∈ t.data, QuietState r.2
  | .nodes _ => True
  | .cands _ => True
  | .treeDim _ => True
  | .stop _ => True
  | .finish _ => True

/-- Everything `B`'s guest encrypts is in `E`. -/
structure Encrypts {L : Type} (E : α → Prop) (B : GuestBoost K α L) : Prop where
  table : ∀ i t g e, B.enc i t g = .ok e → ∀ r ∈ e.data, E r.2.1 ∧ E r.2.2
  gain : ∀ i t dep batch label x c, (B.cipher i t dep batch).enc label x = .ok c → E c

/-- Two programs that no party they talk to can tell apart: after the same messages received they
send the same messages to the same parties, and they fail or return at the same point.  The results
they return are related by `Q`. -/
inductive Alike {P M R R' : Type} (Q : R → R' → Prop) : Proc P M R → Proc P M R' → Prop
  | done (r : R) (r' : R') (h : Q r r') : Alike Q (.done r) (.done r')
  | fail (e : PyErr) : Alike Q (.fail e) (.fail e)
  | send (q : P) (m : M) (k : Proc P M R) (k' : Proc P M R') (h : Alike Q k k') :
      Alike Q (.send q m k) (.send q m k')
  | wait (q : P) (k : Proc P M R) (k' : Proc P M R') (h : Alike Q k k') :
      Alike Q (.wait q k) (.wait q k')
  | recv (q : P) (k : M → Proc P M R) (k' : M → Proc P M R') (h : ∀ m, Alike Q (k m) (k' m)) :
      Alike Q (.recv q k) (.recv q k')

/-- As many features, and as many split points for each. -/
def SameCounts (s s' : List (List Rat)) : Prop := s.map List.length = s'.map List.length

/-- The guest with other split points. -/
def guestWith {L : Type} (B : GuestBoost K α L) (splits : List (List Rat)) : GuestBoost K α L :=
  { B with base := { B.base with party := { B.base.party with splits := splits } } }

/-- The host with other split points. -/
def hostWith (B : HostBoost K α) (splits : List (List Rat)) : HostBoost K α :=
  { B with base := { B.base with party := { B.base.party with splits := splits } } }

/-- The same system with another program at `p`. -/
def swap {P M R : Type} [DecidableEq P] (c : Net P M R) (p : P) (pr : Proc P M R) : Net P M R :=
  ⟨Function.update c.state p pr, c.chan⟩

/-- Thresholds for the same nodes that sort every row of `rows` in the same way, whatever the
feature: no value lies between the one and the other. -/
def SameSide (rows : DTable K (List Rat)) (m m' : Dict Nat Rat) : Prop :=
  ∀ nid, (m.get? nid = none ↔ m'.get? nid = none) ∧
    ∀ x x', m.get? nid = some x → m'.get? nid = some x' →
      (0 ≤ x ↔ 0 ≤ x') ∧ ∀ r ∈ rows.data, ∀ v ∈ r.2, v ≤ x ↔ v ≤ x'

end Spec
end Verif
