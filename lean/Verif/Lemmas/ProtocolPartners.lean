import Verif.Lemmas.Dialog
import Verif.Model.Processes

/-! # With whom the programs talk -/

set_option autoImplicit false

namespace Verif
namespace Network

open DTree Program
open Data (Cell)

/-- All calls of the program are on connections to parties in `T`. -/
def Only {P M R : Type} (T : P → Prop) : Proc P M R → Prop
  | .done _ => True
  | .fail _ => True
  | .send q _ k => T q ∧ Only T k
  | .wait q k => T q ∧ Only T k
  | .recv q k => T q ∧ ∀ m, Only T (k m)

section
variable {P M R R' : Type} {T : P → Prop}

theorem only_follows [DecidableEq P] {q : P} (hq : ¬ T q) :
    ∀ {p : Proc P M R} {d : Dialog M}, Only T p → Follows q p d
  | .done _, _, _ => trivial
  | .fail _, _, _ => trivial
  | .send q' m k, d, h => by
    have : q' ≠ q := fun e => hq (e ▸ h.1)
    simp only [Follows, if_neg this]
    exact only_follows hq h.2
  | .wait q' k, d, h => only_follows hq (p := k) h.2
  | .recv q' k, d, h => by
    have : q' ≠ q := fun e => hq (e ▸ h.1)
    simp only [Follows, if_neg this]
    exact fun m => only_follows hq (h.2 m)

theorem only_bind {p : Proc P M R} {k : R → Proc P M R'} (h : Only T p) (hk : ∀ v, Only T (k v)) :
    Only T (p >>= k) := by
  show Only T (p.bind k)
  induction p with
  | done r => exact hk r
  | fail e => trivial
  | send q m p ih => exact ⟨h.1, ih h.2⟩
  | wait q p ih => exact ⟨h.1, ih h.2⟩
  | recv q p ih => exact ⟨h.1, fun m => ih m (h.2 m)⟩

theorem only_pure (r : R) : Only T (pure r : Proc P M R) := trivial

theorem only_lift (r : Except PyErr R) : Only T (lift r : Proc P M R) := by
  cases r <;> trivial

end

variable {K : Type} [DecidableEq K] {α : Type}

omit [DecidableEq K] in
theorem only_sendTo {T : Option Nat → Prop} {q : Option Nat} {m : Msg K α} (h : T q) :
    Only T (sendTo q m) := ⟨h, trivial⟩

omit [DecidableEq K] in
theorem only_recvAs {β : Type} {T : Option Nat → Prop} {q : Option Nat}
    {dec : Msg K α → Except PyErr β} (h : T q) : Only T (recvAs q dec) := ⟨h, fun _ => only_lift _⟩

/-- The partners of a guest with `conns` connections. -/
def Conn (conns : Nat) : Option Nat → Prop
  | none => False
  | some i => i < conns

omit [DecidableEq K] in
theorem only_sendAll {T : Option Nat → Prop} {m : Msg K α} : ∀ {is : List Nat}, (∀ i ∈ is, T (some i)) →
    Only T (sendAll m is)
  | [], _ => trivial
  | i :: is, h => only_bind (only_sendTo (h i (by simp))) fun _ =>
    only_sendAll fun i hi => h i (List.mem_cons_of_mem _ hi)

omit [DecidableEq K] in
theorem only_recvAll {β : Type} {T : Option Nat → Prop} {dec : Msg K α → Except PyErr β} :
    ∀ {is : List Nat}, (∀ i ∈ is, T (some i)) → Only T (recvAll dec is)
  | [], _ => trivial
  | i :: is, h => only_bind (only_recvAs (h i (by simp))) fun _ =>
    only_bind (only_recvAll fun i hi => h i (List.mem_cons_of_mem _ hi)) fun _ => only_pure _

theorem conn_range {n : Nat} : ∀ i ∈ List.range n, Conn n (some i) := fun _ hi => List.mem_range.mp hi

/-- One step of the proofs below. -/
macro "only_step" : tactic => `(tactic| with_reducible first
  | refine only_bind ?_ fun _ => ?_
  | exact only_lift _
  | exact only_pure _
  | exact only_sendAll conn_range
  | exact only_recvAll conn_range
  | exact only_sendTo rfl
  | exact only_recvAs rfl
  | apply_assumption
  | split)

omit [DecidableEq K] in
theorem only_answer {cfg : Config} {C : Cipher α} {sums : List (Rat × Rat)} {n : Nat} :
    ∀ {es : List (List (List (α × α)))} {i : Nat}, i + es.length ≤ n →
      Only (Conn n) (answerHosts cfg C sums i es : Prog K α Unit)
  | [], i, _ => trivial
  | e :: es, i, h => by
    simp only [List.length_cons] at h
    exact only_bind (only_lift _) fun _ => only_bind (only_sendTo (show i < n by omega)) fun _ =>
      only_answer (by omega)

omit [DecidableEq K] in
theorem only_recvAll_bind {β R : Type} {T : Option Nat → Prop} {dec : Msg K α → Except PyErr β} :
    ∀ {is : List Nat} {k : List β → Prog K α R}, (∀ i ∈ is, T (some i)) →
      (∀ vs, vs.length = is.length → Only T (k vs)) → Only T (recvAll dec is >>= k)
  | [], k, _, h => h [] rfl
  | i :: is, k, hi, h => by
    refine ⟨hi i (by simp), fun m => ?_⟩
    show Only T (Proc.bind (Proc.bind (lift (dec m)) _) k)
    cases dec m with
    | error e => trivial
    | ok v =>
      have := only_recvAll_bind (dec := dec) (is := is) (k := fun vs => k (v :: vs))
        (fun i h => hi i (List.mem_cons_of_mem _ h)) fun vs hv => h _ (by simp [hv])
      show Only T (Proc.bind (Proc.bind (recvAll dec is) fun vs => .done (v :: vs)) k)
      have e : Proc.bind (Proc.bind (recvAll dec is) fun vs => .done (v :: vs)) k
          = (recvAll dec is >>= fun vs => k (v :: vs)) := by
        show _ = Proc.bind _ _
        generalize recvAll dec is = p
        induction p with
        | done r => rfl
        | fail e => rfl
        | send q m k ih => simp only [Proc.bind, ih]
        | wait q k ih => simp only [Proc.bind, ih]
        | recv q k ih => simp only [Proc.bind, ih]
      rw [e]; exact this

theorem only_guestBatches {G : GuestIn K α} {dep : Nat}
    {dataPos : DTable K (Binning.SparseVec Binning.Cell × Nat × Nat)} :
    ∀ {fuel batch : Nat} {nodes : List Node}, Only (Conn G.conns) (guestBatches G dep dataPos fuel batch nodes)
  | fuel, batch, [] => by cases fuel <;> trivial
  | 0, batch, n :: ns => trivial
  | fuel + 1, batch, n :: ns => by
    unfold guestBatches guestBatch
    refine only_bind ?_ fun _ => only_bind only_guestBatches fun _ => only_pure _
    refine only_bind (only_lift _) fun _ => only_bind (only_lift _) fun _ => ?_
    refine only_recvAll_bind conn_range fun vs hv => ?_
    refine only_bind (only_answer (by simp [hv])) fun _ => ?_
    repeat only_step

theorem only_guestRedispatch {G : GuestIn K α} {g : Grow}
    {dataPos : DTable K (Binning.SparseVec Binning.Cell × Nat × Nat)} {weights : Option (DTable K Rat)} :
    Only (Conn G.conns) (guestRedispatch G g dataPos weights) := by
  unfold guestRedispatch
  repeat only_step

theorem only_guestLevel {G : GuestIn K α} {dep : Nat} {reach : Bool} {st : GuestState K} :
    Only (Conn G.conns) (guestLevel G dep reach st) := by
  unfold guestLevel
  refine only_bind (only_sendAll conn_range) fun _ => only_bind (only_lift _) fun _ =>
    only_bind (only_lift _) fun _ => ?_
  split
  · exact only_lift _
  · exact only_bind only_guestBatches fun _ => only_bind (only_lift _) fun _ => only_guestRedispatch

theorem only_guestLevels {G : GuestIn K α} (r : Nat) : ∀ (dep : Nat) (st : GuestState K),
    Only (Conn G.conns) (guestLevels G r dep st) := by
  induction r with
  | zero => intros; trivial
  | succ r ih =>
    intro dep st
    unfold guestLevels
    refine only_bind (only_sendAll conn_range) fun _ => ?_
    split
    · exact only_pure _
    · exact only_bind only_guestLevel fun st => ih (dep + 1) st

theorem only_guestFit {G : GuestIn K α} : Only (Conn G.conns) (guestFit G) := by
  have h : ∀ st, Only (Conn G.conns) (guestLevels G G.maxDepth 0 st) := only_guestLevels _ _
  unfold guestFit
  repeat only_step

variable {L : Type}

theorem only_guestTrees {B : GuestBoost K α L} {gh : DTable K (List Rat × List Rat)} {i : Nat} :
    ∀ {r t : Nat} {st : GuestBoostState K}, Only (Conn B.base.conns) (guestTrees B gh i r t st)
  | 0, _, _ => trivial
  | r + 1, t, st => by
    have ih : ∀ st, Only (Conn B.base.conns) (guestTrees B gh i r (t + 1) st) := fun st => only_guestTrees
    have hf : ∀ g e, Only (Conn B.base.conns) (guestFit (B.treeIn i t g e)) := fun g e =>
      only_guestFit (G := B.treeIn i t g e)
    unfold guestTrees guestTree
    repeat only_step

theorem only_guestLoop {B : GuestBoost K α L} {y : DTable K L} :
    ∀ {r i : Nat} {st : GuestBoostState K}, Only (Conn B.base.conns) (guestLoop B y r i st)
  | 0, _, _ => trivial
  | r + 1, i, st => by
    have ih : ∀ st, Only (Conn B.base.conns) (guestLoop B y r (i + 1) st) := fun st => only_guestLoop
    have ht : ∀ gh st, Only (Conn B.base.conns) (guestTrees B gh i B.dim 0 st) := fun _ _ => only_guestTrees
    unfold guestLoop guestRound
    repeat only_step

theorem only_guestBoost {B : GuestBoost K α L} {init : List Rat} {y : DTable K L} :
    Only (Conn B.base.conns) (guestBoost B init y) := by
  have h : ∀ st, Only (Conn B.base.conns) (guestLoop B y B.rounds 0 st) := fun st => only_guestLoop
  unfold guestBoost
  repeat only_step

theorem only_guestWalk {conns : Nat} {tree : List Node} {mask : Dict Nat Rat}
    {rows : DTable K (Binning.SparseVec Rat)} {fuel : Nat} :
    ∀ {r : Nat} {todo : DTable K PState} {res : Option (DTable K Rat)},
      Only (Conn conns) (guestPredictLoop conns tree mask rows fuel r todo res : Prog K α _)
  | 0, todo, res => trivial
  | r + 1, todo, res => by
    have ih : ∀ todo res, Only (Conn conns)
      (guestPredictLoop conns tree mask rows fuel r todo res : Prog K α _) := fun _ _ => only_guestWalk
    unfold guestPredictLoop
    repeat only_step

theorem only_guestPredict {conns : Nat} {rate : Rate} {dim : Nat} {init : List Rat}
    {trees : List (List NodeParam × Dict Nat Rat)} {table : DTable K (List Rat)} {fuel : Nat} :
    Only (Conn conns) (guestPredict conns rate dim init trees table fuel : Prog K α _) := by
  have h1 : ∀ rows i r t scores, Only (Conn conns)
      (guestPredictRound conns rate dim trees rows fuel i r t scores : Prog K α _) := by
    intro rows i r
    induction r with
    | zero => intros; trivial
    | succ r ih =>
      intro t scores
      have hw : ∀ tree mask todo res, Only (Conn conns)
        (guestPredictLoop conns tree mask rows fuel fuel todo res : Prog K α _) := fun _ _ _ _ => only_guestWalk
      unfold guestPredictRound guestPredictTree
      repeat only_step
  have h2 : ∀ rows r i scores, Only (Conn conns)
      (guestPredictRounds conns rate dim trees rows fuel r i scores : Prog K α _) := by
    intro rows r
    induction r with
    | zero => intros; trivial
    | succ r ih =>
      intro i scores
      unfold guestPredictRounds
      repeat only_step
  unfold guestPredict
  repeat only_step

/-! ## A host -/

theorem only_hostBatches {P : HostIn K α} {egh : DTable K (α × α)} {dep : Nat}
    {data : DTable K (Binning.SparseVec Binning.Cell × Nat × Nat)} :
    ∀ {fuel batch : Nat} {ids : List Nat} {mask : Dict Nat Int},
      Only (· = none) (hostBatches P egh dep data fuel batch ids mask)
  | fuel, batch, [], mask => by cases fuel <;> trivial
  | 0, batch, n :: ns, mask => trivial
  | fuel + 1, batch, n :: ns, mask => by
    have ih : ∀ mask, Only (· = none) (hostBatches P egh dep data fuel (batch + 1)
      ((n :: ns).drop P.maxSplitNodes) mask) := fun _ => only_hostBatches
    unfold hostBatches hostBatchP
    repeat only_step

theorem only_hostLevel {P : HostIn K α} {egh : DTable K (α × α)} {dep : Nat} {ids : List Nat}
    {mask : Dict Nat Int} : Only (· = none) (hostLevel P egh dep ids mask) := by
  unfold hostLevel
  refine only_bind (only_recvAs rfl) fun _ => only_bind (only_lift _) fun _ =>
    only_bind (only_lift _) fun _ => ?_
  split
  · exact only_lift _
  · exact only_bind only_hostBatches fun _ => only_bind (only_recvAs rfl) fun _ =>
      only_bind (only_lift _) fun _ => only_bind (only_sendTo rfl) fun _ => only_pure _

theorem only_hostLevels {P : HostIn K α} {egh : DTable K (α × α)} (r : Nat) :
    ∀ (dep : Nat) (mask : Dict Nat Int), Only (· = none) (hostLevels P egh r dep mask) := by
  induction r with
  | zero => intros; trivial
  | succ r ih =>
    intro dep mask
    unfold hostLevels
    refine only_bind (only_recvAs rfl) fun _ => ?_
    split
    · exact only_pure _
    · exact only_bind only_hostLevel fun mask => ih (dep + 1) mask

theorem only_hostLoop {B : HostBoost K α} {dim : Nat} :
    ∀ {r i : Nat} {trees : List (List NodeParam × Dict Nat Rat)}, Only (· = none) (hostLoop B dim r i trees)
  | 0, _, _ => trivial
  | r + 1, i, trees => by
    have ih : ∀ trees, Only (· = none) (hostLoop B dim r (i + 1) trees) := fun _ => only_hostLoop
    have ht : ∀ n t trees, Only (· = none) (hostTrees B i n t trees) := by
      intro n
      induction n with
      | zero => intros; trivial
      | succ n ih' =>
        intro t trees
        have hl : ∀ egh, Only (· = none) (hostLevels (B.treeIn i t) egh (B.treeIn i t).maxDepth 0 []) :=
          fun _ => only_hostLevels _ _ _
        unfold hostTrees hostFit
        repeat only_step
    unfold hostLoop
    repeat only_step

theorem only_hostBoost {B : HostBoost K α} : Only (· = none) (hostBoost B) := by
  have h : ∀ dim, Only (· = none) (hostLoop B dim B.rounds 0 []) := fun _ => only_hostLoop
  unfold hostBoost
  repeat only_step

theorem only_hostPredict {idx dim : Nat} {trees : List (List NodeParam × Dict Nat Rat)}
    {table : DTable K (List Rat)} {fuel : Nat} :
    Only (· = none) (hostPredict idx dim trees table fuel : Prog K α Unit) := by
  have h0 : ∀ tree mask rows r, Only (· = none)
      (hostPredictLoop (.host idx) tree mask rows fuel r : Prog K α Unit) := by
    intro tree mask rows r
    induction r with
    | zero => trivial
    | succ r ih => unfold hostPredictLoop; repeat only_step
  have h1 : ∀ rows i r t, Only (· = none) (hostPredictRound idx dim trees rows fuel i r t : Prog K α Unit) := by
    intro rows i r
    induction r with
    | zero => intros; trivial
    | succ r ih => intro t; unfold hostPredictRound; repeat only_step
  have h2 : ∀ rows r i, Only (· = none) (hostPredictRounds idx dim trees rows fuel r i : Prog K α Unit) := by
    intro rows r
    induction r with
    | zero => intros; trivial
    | succ r ih => intro i; unfold hostPredictRounds; repeat only_step
  unfold hostPredict
  repeat only_step

end Network
end Verif
