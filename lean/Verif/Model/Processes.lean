import Verif.Model.Program
import Verif.Model.Protocol

/-!
# The programs `guest.py` and `host.py` as separate processes

Each program reads its own file and talks to the others through its connections only.  The settings
are those compiled into the programs (`ml/param/*.py`), so they are the same everywhere; a host uses
only those that do not depend on labels or keys.
-/

set_option autoImplicit false

namespace Verif
namespace Program

open DTree Labels Network
open Data (Cell)

variable {α P : Type}

/-- What the guest boosts with, for `conns` hosts. -/
def guestPart (S : Settings α P) (conns : Nat) (party : Party Nat) (R : Checked Nat Cell) :
    GuestBoost Nat α (Label Cell) where
  base :=
    { cfg := S.tree, kind := S.kind, maxDepth := S.maxDepth, maxSplitNodes := S.maxSplitNodes,
      cipher := S.cipher 0 0, party := party, conns := conns, gh := ⟨[]⟩, encGh := ⟨[]⟩ }
  valid := fun i t => S.valid i t none
  cipher := S.cipher
  enc := S.enc
  gradHess := S.gradHess R.num
  loss := S.loss R.num
  rounds := S.rounds
  dim := R.dim
  rate := S.rate
  early := S.early
  tol := S.tol

/-- What the host at connection `j` boosts with. -/
def hostPart (S : Settings α P) (j : Nat) (party : Party Nat) : HostBoost Nat α where
  base :=
    { cfg := S.tree, maxDepth := S.maxDepth, maxSplitNodes := S.maxSplitNodes, arith := S.arith,
      zero := fun dep batch => (S.cipher 0 0 dep batch).zero, party := party }
  valid := fun i t => S.valid i t (some j)
  zero := fun i t dep batch => (S.cipher i t dep batch).zero
  rounds := S.rounds
  early := S.early

/-- What the guest's program ends with. -/
structure GuestEnd (P : Type) where
  state : GuestBoostState Nat
  result : DTable Nat (Row Cell P)
  accuracy : Option Rat

/-- `guest.py` 24-82, after the connections are made. -/
def guestProcess [LinearOrder P] [One P] [Sub P] (S : Settings α P) (parse : Cell → Option Rat)
    (draw : Nat → Nat → Nat) (text : List Char) (scaled : Nat → Rat) (conns : Nat) :
    Prog Nat α (GuestEnd P) := do
  let g ← lift (guestTables parse text scaled draw)
  let party ← lift (prepareParty S 0 g.header g.train)
  let y ← lift (g.train.mapValuesM givenLabel)
  let R ← lift (checkLabel y)
  let init := List.replicate R.dim (0 : Rat)
  let st ← guestBoost (guestPart S conns party R) init R.y
  let rows ← lift (g.test.mapValues Inst.features)
  let scores ← guestPredict conns S.rate R.dim init st.trees rows S.fuel
  let given ← lift (g.test.mapValues Inst.label)
  let res ← lift (predictRows S.sigmoid S.softmax R.num R.classes S.threshold given scores)
  let a ← lift (accuracy res)
  pure ⟨st, res, a⟩

/-- `host.py` 24-62, after the connection is made, for the host that is the guest's connection `j`. -/
def hostProcess (S : Settings α P) (parse : Cell → Option Rat) (draw : Nat → Nat → Nat) (j : Nat)
    (h : HostArgs) : Prog Nat α Unit := do
  let t ← lift (hostTables parse h.text h.scaled draw)
  let party ← lift (prepareParty S h.idx t.header t.train)
  let m ← hostBoost (hostPart S j party)
  let rows ← lift (t.test.mapValues Inst.features)
  hostPredict h.idx m.1 m.2 rows S.fuel

/-- The programs at their start, connected. -/
def programs [LinearOrder P] [One P] [Sub P] (S : Settings α P) (parse : Cell → Option Rat)
    (draw : Nat → Nat → Nat) (text : List Char) (scaled : Nat → Rat) (hosts : List HostArgs) :
    Net (Option Nat) (Msg Nat α) (Network.Outcome (GuestEnd P) Unit) :=
  system (guestProcess S parse draw text scaled hosts.length)
    (hosts.mapIdx fun j a => hostProcess S parse draw j a)

end Program
end Verif
