import Verif.Lemmas.Dialog
import Verif.Model.Processes

/-! # The dialog of the guest with a host -/

set_option autoImplicit false

namespace Verif
namespace Network

open DTree

variable {K : Type} [DecidableEq K] {α : Type}

/-! ## The dialog, from the guest's view -/

def batchesD (width : Nat) (k : Dialog (Msg K α)) : Nat → List Nat → Dialog (Msg K α)
  | _, [] => k
  | 0, _ :: _ => k
  | fuel + 1, n :: ns => .take fun
    | .cands _ => .give fun
      | .bests _ => .take fun
        | .finals _ => batchesD width k fuel ((n :: ns).drop width)
        | _ => .over
      | _ => .over
    | _ => .over

def levelD (width : Nat) (ids : List Nat) (k : Dialog (Msg K α)) : Dialog (Msg K α) := .give fun
  | .positions _ =>
    if width = 0 then .over
    else batchesD width (.give fun
      | .questions _ => .take fun
        | .answers _ => k
        | _ => .over
      | _ => .over) ids.length ids
  | _ => .over

def levelsD (width : Nat) (k : Dialog (Msg K α)) : Nat → Dialog (Msg K α)
  | 0 => k
  | r + 1 => .give fun
    | .nodes ids => if ids.isEmpty then k else levelD width ids (levelsD width k r)
    | _ => .over

def treeD (depth width : Nat) (k : Dialog (Msg K α)) : Dialog (Msg K α) := .give fun
  | .gradHess _ => levelsD width (.give fun
    | .tree _ => k
    | _ => .over) depth
  | _ => .over

def treesD (depth width : Nat) (k : Dialog (Msg K α)) : Nat → Dialog (Msg K α)
  | 0 => k
  | r + 1 => treeD depth width (treesD depth width k r)

/-- `n` counts the trees so far. -/
def loopD (depth width dim : Nat) (early : Bool) (k : Nat → Dialog (Msg K α)) :
    Nat → Nat → Dialog (Msg K α)
  | 0, n => k n
  | r + 1, n => treesD depth width
    (if early then .give fun
      | .stop b => if b then k (n + dim) else loopD depth width dim early k r (n + dim)
      | _ => .over
    else loopD depth width dim early k r (n + dim)) dim

def walkD (k : Dialog (Msg K α)) : Nat → Dialog (Msg K α)
  | 0 => .over
  | r + 1 => .give fun
    | .finish b => if b then k else .give fun
      | .walking _ => .take fun
        | .walked _ => walkD k r
        | _ => .over
      | _ => .over
    | _ => .over

def walksD (fuel : Nat) (k : Dialog (Msg K α)) : Nat → Dialog (Msg K α)
  | 0 => k
  | r + 1 => walkD (walksD fuel k r) fuel

def walkRoundsD (fuel dim : Nat) (k : Dialog (Msg K α)) : Nat → Dialog (Msg K α)
  | 0 => k
  | r + 1 => walksD fuel (walkRoundsD fuel dim k r) dim

def predictD (fuel dim n : Nat) : Dialog (Msg K α) :=
  if dim = 0 then .over else walkRoundsD fuel dim .over (n / dim)

def runD (depth width : Nat) (early : Bool) (rounds fuel : Nat) : Dialog (Msg K α) := .give fun
  | .treeDim dim => loopD depth width dim early (predictD fuel dim) rounds 0
  | _ => .over

/-! ## Rules -/

section
variable {P M R R' : Type} [DecidableEq P] {q : P} {d : Dialog M}

theorem follows_done (r : R) : Follows q (.done r : Proc P M R) d := trivial

theorem follows_lift {r : Except PyErr R'} {k : R' → Proc P M R}
    (h : ∀ v, r = .ok v → Follows q (k v) d) : Follows q (lift r >>= k) d := by
  cases r with
  | ok v => exact h v rfl
  | error e => trivial

theorem follows_assoc {A B : Type} {p : Proc P M A} {f : A → Proc P M B} {g : B → Proc P M R}
    (h : Follows q (p >>= fun a => f a >>= g) d) : Follows q ((p >>= f) >>= g) d := by
  have : ((p >>= f) >>= g) = (p >>= fun a => f a >>= g) := by
    clear h
    show (p.bind f).bind g = p.bind fun a => (f a).bind g
    induction p with
    | done r => rfl
    | fail e => rfl
    | send q m k ih => simp only [Proc.bind, ih]
    | wait q k ih => simp only [Proc.bind, ih]
    | recv q k ih => simp only [Proc.bind, ih]
  rw [this]; exact h

end

variable {R : Type}

omit [DecidableEq K] in
theorem follows_sendTo {q : Option Nat} {m : Msg K α} {k : Unit → Prog K α R} {f : Msg K α → Dialog (Msg K α)}
    (h : Follows q (k ()) (f m)) : Follows q (sendTo q m >>= k) (.give f) := by
  show Follows q (Proc.send q m (Proc.bind (.done ()) k)) _
  simp only [Follows, if_true]
  exact ⟨f, rfl, h⟩

omit [DecidableEq K] in
theorem follows_sendTo_other {q q' : Option Nat} {m : Msg K α} {k : Unit → Prog K α R}
    {d : Dialog (Msg K α)} (hq : q' ≠ q) (h : Follows q (k ()) d) : Follows q (sendTo q' m >>= k) d := by
  show Follows q (Proc.send q' m (Proc.bind (.done ()) k)) _
  simp only [Follows, if_neg hq]
  exact h

omit [DecidableEq K] in
theorem follows_recvAs {β : Type} {q : Option Nat} {dec : Msg K α → Except PyErr β} {k : β → Prog K α R}
    {f : Msg K α → Dialog (Msg K α)} (h : ∀ m v, dec m = .ok v → Follows q (k v) (f m)) :
    Follows q (recvAs q dec >>= k) (.take f) := by
  show Follows q (Proc.recv q fun m => Proc.bind (lift (dec m)) k) _
  simp only [Follows, if_true]
  exact ⟨f, rfl, fun m => follows_lift (h m)⟩

omit [DecidableEq K] in
theorem follows_recvAs_other {β : Type} {q q' : Option Nat} {dec : Msg K α → Except PyErr β}
    {k : β → Prog K α R} {d : Dialog (Msg K α)} (hq : q' ≠ q) (h : ∀ v, Follows q (k v) d) :
    Follows q (recvAs q' dec >>= k) d := by
  show Follows q (Proc.recv q' fun m => Proc.bind (lift (dec m)) k) _
  simp only [Follows, if_neg hq]
  exact fun m => follows_lift fun v _ => h v

omit [DecidableEq K] in
theorem follows_sendAll_other {q : Option Nat} {m : Msg K α} {d : Dialog (Msg K α)} :
    ∀ {is : List Nat} {k : Unit → Prog K α R}, (∀ i ∈ is, some i ≠ q) → Follows q (k ()) d →
      Follows q (sendAll m is >>= k) d
  | [], k, _, h => h
  | i :: is, k, hq, h => by
    unfold sendAll
    exact follows_assoc (follows_sendTo_other (hq i (by simp))
      (follows_sendAll_other (fun i hi => hq i (List.mem_cons_of_mem _ hi)) h))

omit [DecidableEq K] in
theorem follows_sendAll {j : Nat} {m : Msg K α} {f : Msg K α → Dialog (Msg K α)} :
    ∀ {is : List Nat} {k : Unit → Prog K α R}, is.Nodup → j ∈ is → Follows (some j) (k ()) (f m) →
      Follows (some j) (sendAll m is >>= k) (.give f)
  | i :: is, k, hn, hj, h => by
    unfold sendAll
    rw [List.nodup_cons] at hn
    refine follows_assoc ?_
    by_cases hi : i = j
    · subst hi
      exact follows_sendTo (follows_sendAll_other (fun i' hi' he => by
        rw [Option.some.injEq] at he; subst he; exact hn.1 hi') h)
    · exact follows_sendTo_other (by simpa using hi) (follows_sendAll hn.2
        ((List.mem_cons.mp hj).resolve_left (Ne.symm hi)) h)

omit [DecidableEq K] in
theorem follows_recvAll_other {β : Type} {q : Option Nat} {dec : Msg K α → Except PyErr β}
    {d : Dialog (Msg K α)} :
    ∀ {is : List Nat} {k : List β → Prog K α R}, (∀ i ∈ is, some i ≠ q) →
      (∀ vs, vs.length = is.length → Follows q (k vs) d) → Follows q (recvAll dec is >>= k) d
  | [], k, _, h => h [] rfl
  | i :: is, k, hq, h => by
    unfold recvAll
    refine follows_assoc (follows_recvAs_other (hq i (by simp)) fun v => ?_)
    refine follows_assoc (follows_recvAll_other (fun i hi => hq i (List.mem_cons_of_mem _ hi)) fun vs hv => ?_)
    exact h (v :: vs) (by simp [hv])

omit [DecidableEq K] in
theorem follows_recvAll {β : Type} {j : Nat} {dec : Msg K α → Except PyErr β}
    {f : Msg K α → Dialog (Msg K α)} :
    ∀ {is : List Nat} {k : List β → Prog K α R}, is.Nodup → j ∈ is →
      (∀ m v, dec m = .ok v → ∀ vs, vs.length = is.length → Follows (some j) (k vs) (f m)) →
      Follows (some j) (recvAll dec is >>= k) (.take f)
  | i :: is, k, hn, hj, h => by
    unfold recvAll
    rw [List.nodup_cons] at hn
    refine follows_assoc ?_
    by_cases hi : i = j
    · subst hi
      refine follows_recvAs fun m v hv => ?_
      refine follows_assoc (follows_recvAll_other (fun i' hi' he => by
        rw [Option.some.injEq] at he; subst he; exact hn.1 hi') fun vs hvs => ?_)
      exact h m v hv (v :: vs) (by simp [hvs])
    · refine follows_recvAs_other (by simpa using hi) fun w => ?_
      refine follows_assoc (follows_recvAll hn.2 ((List.mem_cons.mp hj).resolve_left (Ne.symm hi)) ?_)
      intro m v hv vs hvs
      exact h m v hv (w :: vs) (by simp [hvs])

/-! ## The guest -/

section
variable {j : Nat}

omit [DecidableEq K] in
theorem follows_answer_other {q : Option Nat} {cfg : Config} {C : Cipher α} {sums : List (Rat × Rat)}
    {d : Dialog (Msg K α)} :
    ∀ {es : List (List (List (α × α)))} {i : Nat} {k : Unit → Prog K α R},
      (∀ i', i ≤ i' → some i' ≠ q) → Follows q (k ()) d →
      Follows q (answerHosts cfg C sums i es >>= k) d
  | [], i, k, _, h => h
  | e :: es, i, k, hq, h => by
    unfold answerHosts
    refine follows_assoc (follows_lift fun b _ => ?_)
    refine follows_assoc (follows_sendTo_other (hq i (le_refl _)) ?_)
    exact follows_answer_other (fun i' hi' => hq i' (by omega)) h

omit [DecidableEq K] in
theorem follows_answer {cfg : Config} {C : Cipher α} {sums : List (Rat × Rat)}
    {f : Msg K α → Dialog (Msg K α)} :
    ∀ {es : List (List (List (α × α)))} {i : Nat} {k : Unit → Prog K α R}, i ≤ j → j < i + es.length →
      (∀ b, Follows (some j) (k ()) (f (.bests b))) →
      Follows (some j) (answerHosts cfg C sums i es >>= k) (.give f)
  | [], i, k, h1, h2, _ => by simp at h2; omega
  | e :: es, i, k, h1, h2, h => by
    unfold answerHosts
    refine follows_assoc (follows_lift fun b _ => ?_)
    refine follows_assoc ?_
    by_cases hi : i = j
    · subst hi
      exact follows_sendTo (follows_answer_other (fun i' hi' he => by
        rw [Option.some.injEq] at he; omega) (h b))
    · refine follows_sendTo_other (by simpa using hi) (follows_answer (by omega) ?_ h)
      simp only [List.length_cons] at h2
      omega

theorem follows_guestBatches {G : GuestIn K α} {dep : Nat}
    {dataPos : DTable K (Binning.SparseVec Binning.Cell × Nat × Nat)} (hj : j < G.conns)
    {d : Dialog (Msg K α)} :
    ∀ {fuel batch : Nat} {nodes : List Node} {k : List (SplitInfo (Option Rat) Rat) → Prog K α R},
      (∀ ss, Follows (some j) (k ss) d) →
      Follows (some j) (guestBatches G dep dataPos fuel batch nodes >>= k)
        (batchesD G.maxSplitNodes d fuel (nodes.map Node.id))
  | fuel, batch, [], k, h => by cases fuel <;> exact h []
  | 0, batch, n :: ns, k, h => h []
  | fuel + 1, batch, n :: ns, k, h => by
    unfold guestBatches guestBatch
    simp only [List.map_cons, batchesD]
    refine follows_assoc ?_
    refine follows_assoc (follows_lift fun H _ => ?_)
    refine follows_assoc (follows_lift fun gs _ => ?_)
    refine follows_assoc (follows_recvAll List.nodup_range (List.mem_range.mpr hj) fun m v hv vs hvs => ?_)
    cases m <;> cases hv
    refine follows_assoc (follows_answer (Nat.zero_le _) (by simpa [hvs] using hj) fun b => ?_)
    refine follows_assoc (follows_recvAll List.nodup_range (List.mem_range.mpr hj) fun m v hv vs hvs => ?_)
    cases m <;> cases hv
    refine follows_lift fun ss _ => ?_
    have := follows_guestBatches (G := G) (dep := dep) (dataPos := dataPos) hj (d := d) (fuel := fuel)
      (batch := batch + 1) (nodes := (n :: ns).drop G.maxSplitNodes)
      (k := fun rest => k (ss ++ rest)) (fun rest => h _)
    rw [List.map_drop, List.map_cons] at this
    exact follows_assoc this

theorem follows_guestLevel {G : GuestIn K α} {dep : Nat} {reach : Bool} {st : GuestState K}
    (hj : j < G.conns) {d : Dialog (Msg K α)} {k : GuestState K → Prog K α R}
    (h : ∀ st, Follows (some j) (k st) d) :
    Follows (some j) (guestLevel G dep reach st >>= k)
      (levelD G.maxSplitNodes (st.grow.queue.map Node.id) d) := by
  unfold guestLevel guestRedispatch levelD
  refine follows_assoc (follows_sendAll List.nodup_range (List.mem_range.mpr hj) ?_)
  refine follows_assoc (follows_lift fun pos _ => ?_)
  refine follows_assoc (follows_lift fun dataPos _ => ?_)
  simp only
  split
  · exact follows_lift fun v hv => nomatch hv
  · rw [List.length_map]
    refine follows_assoc (follows_guestBatches hj fun ss => ?_)
    refine follows_assoc (follows_lift fun g _ => ?_)
    refine follows_assoc (follows_lift fun res _ => ?_)
    refine follows_assoc (follows_lift fun toHost _ => ?_)
    refine follows_assoc (follows_lift fun res _ => ?_)
    refine follows_assoc (follows_lift fun leaf _ => ?_)
    refine follows_assoc (follows_lift fun leafW _ => ?_)
    refine follows_assoc (follows_lift fun weights _ => ?_)
    refine follows_assoc (follows_lift fun res _ => ?_)
    refine follows_assoc (follows_sendAll List.nodup_range (List.mem_range.mpr hj) ?_)
    refine follows_assoc (follows_recvAll List.nodup_range (List.mem_range.mpr hj) fun m v hv vs hvs => ?_)
    cases m <;> cases hv
    refine follows_assoc (follows_lift fun fromHosts _ => ?_)
    exact follows_assoc (follows_lift fun disp _ => h _)

theorem follows_guestLevels {G : GuestIn K α} (hj : j < G.conns) {d : Dialog (Msg K α)}
    {k : GuestState K → Prog K α R} (h : ∀ st, Follows (some j) (k st) d) :
    ∀ {r dep : Nat} {st : GuestState K},
      Follows (some j) (guestLevels G r dep st >>= k) (levelsD G.maxSplitNodes d r)
  | 0, dep, st => h st
  | r + 1, dep, st => by
    unfold guestLevels levelsD
    refine follows_assoc (follows_sendAll List.nodup_range (List.mem_range.mpr hj) ?_)
    simp only [List.isEmpty_map]
    split
    · exact h st
    · exact follows_assoc (follows_guestLevel hj fun st => follows_guestLevels hj h)

theorem follows_guestFit {G : GuestIn K α} (hj : j < G.conns) {d : Dialog (Msg K α)}
    {k : GuestTree K → Prog K α R} (h : ∀ t, Follows (some j) (k t) d) :
    Follows (some j) (guestFit G >>= k) (treeD G.maxDepth G.maxSplitNodes d) := by
  unfold guestFit treeD
  refine follows_assoc (follows_sendAll List.nodup_range (List.mem_range.mpr hj) ?_)
  refine follows_assoc (follows_lift fun st _ => ?_)
  refine follows_assoc (follows_guestLevels hj fun st => ?_)
  refine follows_assoc (follows_sendAll List.nodup_range (List.mem_range.mpr hj) ?_)
  exact follows_assoc (follows_lift fun m _ => h _)

variable {L : Type}

theorem follows_guestTrees {B : GuestBoost K α L} {gh : DTable K (List Rat × List Rat)} {i : Nat}
    (hj : j < B.base.conns) {d : Dialog (Msg K α)} {k : GuestBoostState K → Prog K α R} :
    ∀ {r t : Nat} {st : GuestBoostState K},
      (∀ s, s.trees.length = st.trees.length + r → Follows (some j) (k s) d) →
      Follows (some j) (guestTrees B gh i r t st >>= k)
        (treesD B.base.maxDepth B.base.maxSplitNodes d r)
  | 0, t, st, h => h st rfl
  | r + 1, t, st, h => by
    unfold guestTrees guestTree treesD
    refine follows_assoc (follows_assoc (follows_lift fun g _ => ?_))
    refine follows_assoc (follows_lift fun e _ => ?_)
    refine follows_assoc (follows_guestFit (G := B.treeIn i t g e) hj fun F => ?_)
    refine follows_assoc (follows_lift fun P _ => ?_)
    refine follows_assoc (follows_lift fun scores _ => ?_)
    refine follows_guestTrees hj fun s hs => h s ?_
    rw [hs]; simp; omega

theorem follows_guestLoop {B : GuestBoost K α L} {y : DTable K L} (hj : j < B.base.conns)
    {d : Nat → Dialog (Msg K α)} {k : GuestBoostState K → Prog K α R}
    (h : ∀ s, Follows (some j) (k s) (d s.trees.length)) :
    ∀ {r i : Nat} {st : GuestBoostState K},
      Follows (some j) (guestLoop B y r i st >>= k)
        (loopD B.base.maxDepth B.base.maxSplitNodes B.dim B.early d r st.trees.length)
  | 0, i, st => h st
  | r + 1, i, st => by
    unfold guestLoop guestRound loopD
    refine follows_assoc (follows_assoc (follows_lift fun gh _ => ?_))
    refine follows_assoc (follows_guestTrees hj fun s hs => ?_)
    refine follows_assoc (follows_lift fun l _ => ?_)
    by_cases he : B.early = true
    · simp only [he, if_true]
      refine follows_assoc (follows_sendAll List.nodup_range (List.mem_range.mpr hj) ?_)
      have hc : ∀ st : GuestBoostState K, (guestConverge B.tol st).2.trees = st.trees := by
        intro st; unfold guestConverge; split <;> rfl
      simp only
      split
      · have := h (guestConverge B.tol { s with losses := s.losses ++ [l] }).2
        rw [hc] at this
        simp only [hs] at this
        exact this
      · have := follows_guestLoop (y := y) hj h (r := r) (i := i + 1)
          (st := (guestConverge B.tol { s with losses := s.losses ++ [l] }).2)
        rw [hc] at this
        simp only [hs, he] at this
        exact this
    · have he : B.early = false := by simpa using he
      simp only [he, Bool.false_eq_true, if_false]
      have := follows_guestLoop (y := y) hj h (r := r) (i := i + 1)
        (st := { s with losses := s.losses ++ [l] })
      simp only [hs, he] at this
      exact this

theorem follows_guestWalk {conns : Nat} {tree : List Node} {mask : Dict Nat Rat}
    {rows : DTable K (Binning.SparseVec Rat)} {fuel : Nat} (hj : j < conns)
    {d : Dialog (Msg K α)} {k : DTable K Rat → Prog K α R} (h : ∀ t, Follows (some j) (k t) d) :
    ∀ {r : Nat} {todo : DTable K PState} {res : Option (DTable K Rat)},
      Follows (some j) (guestPredictLoop conns tree mask rows fuel r todo res >>= k) (walkD d r)
  | 0, todo, res => trivial
  | r + 1, todo, res => by
    unfold guestPredictLoop walkD
    refine follows_assoc (follows_lift fun moved _ => ?_)
    refine follows_assoc (follows_lift fun leaf _ => ?_)
    refine follows_assoc (follows_lift fun leafW _ => ?_)
    refine follows_assoc (follows_lift fun result _ => ?_)
    refine follows_assoc (follows_lift fun todo _ => ?_)
    split
    · exact follows_assoc (follows_sendAll List.nodup_range (List.mem_range.mpr hj) (h _))
    · refine follows_assoc (follows_sendAll List.nodup_range (List.mem_range.mpr hj) ?_)
      refine follows_assoc (follows_sendAll List.nodup_range (List.mem_range.mpr hj) ?_)
      refine follows_assoc (follows_recvAll List.nodup_range (List.mem_range.mpr hj) fun m v hv vs hvs => ?_)
      cases m <;> cases hv
      exact follows_assoc (follows_lift fun todo _ => follows_guestWalk hj h)

theorem follows_guestWalks {conns : Nat} {rate : Rate} {dim : Nat}
    {trees : List (List NodeParam × Dict Nat Rat)} {rows : DTable K (Binning.SparseVec Rat)}
    {fuel i : Nat} (hj : j < conns) {d : Dialog (Msg K α)} {k : DTable K (List Rat) → Prog K α R}
    (h : ∀ t, Follows (some j) (k t) d) :
    ∀ {r t : Nat} {scores : DTable K (List Rat)},
      Follows (some j) (guestPredictRound conns rate dim trees rows fuel i r t scores >>= k) (walksD fuel d r)
  | 0, t, scores => h _
  | r + 1, t, scores => by
    unfold guestPredictRound guestPredictTree walksD
    refine follows_assoc (follows_lift fun P _ => ?_)
    refine follows_assoc (follows_assoc (follows_lift fun todo _ => ?_))
    refine follows_guestWalk hj fun w => ?_
    exact follows_assoc (follows_lift fun scores _ => follows_guestWalks hj h)

theorem follows_guestWalkRounds {conns : Nat} {rate : Rate} {dim : Nat}
    {trees : List (List NodeParam × Dict Nat Rat)} {rows : DTable K (Binning.SparseVec Rat)}
    {fuel : Nat} (hj : j < conns) {d : Dialog (Msg K α)} {k : DTable K (List Rat) → Prog K α R}
    (h : ∀ t, Follows (some j) (k t) d) :
    ∀ {r i : Nat} {scores : DTable K (List Rat)},
      Follows (some j) (guestPredictRounds conns rate dim trees rows fuel r i scores >>= k)
        (walkRoundsD fuel dim d r)
  | 0, i, scores => h _
  | r + 1, i, scores => by
    unfold guestPredictRounds walkRoundsD
    exact follows_assoc (follows_guestWalks hj fun t => follows_guestWalkRounds hj h)

theorem follows_guestPredict {conns : Nat} {rate : Rate} {dim : Nat} {init : List Rat}
    {trees : List (List NodeParam × Dict Nat Rat)} {table : DTable K (List Rat)}
    {fuel : Nat} (hj : j < conns) {k : DTable K (List Rat) → Prog K α R}
    (h : ∀ t, Follows (some j) (k t) .over) :
    Follows (some j) (guestPredict conns rate dim init trees table fuel >>= k)
      (predictD fuel dim trees.length) := by
  unfold guestPredict predictD
  refine follows_assoc (follows_lift fun rows _ => ?_)
  refine follows_assoc (follows_lift fun scores _ => ?_)
  split
  · exact follows_lift fun v hv => nomatch hv
  · exact follows_guestWalkRounds hj h

end

/-! ## A host -/

section

theorem follows_hostBatches {P : HostIn K α} {egh : DTable K (α × α)} {dep : Nat}
    {data : DTable K (Binning.SparseVec Binning.Cell × Nat × Nat)} {d : Dialog (Msg K α)} :
    ∀ {fuel batch : Nat} {ids : List Nat} {mask : Dict Nat Int} {k : Dict Nat Int → Prog K α R},
      (∀ m, Follows none (k m) d.dual) →
      Follows none (hostBatches P egh dep data fuel batch ids mask >>= k)
        (batchesD P.maxSplitNodes d fuel ids).dual
  | fuel, batch, [], mask, k, h => by cases fuel <;> exact h _
  | 0, batch, n :: ns, mask, k, h => h _
  | fuel + 1, batch, n :: ns, mask, k, h => by
    unfold hostBatches hostBatchP
    simp only [batchesD, Dialog.dual]
    refine follows_assoc (follows_assoc (follows_lift fun E _ => ?_))
    refine follows_assoc (follows_lift fun s _ => ?_)
    refine follows_assoc (follows_sendTo ?_)
    refine follows_assoc (follows_recvAs fun m v hv => ?_)
    cases m <;> cases hv
    refine follows_assoc (follows_lift fun f _ => ?_)
    refine follows_assoc (follows_sendTo ?_)
    exact follows_hostBatches h

theorem follows_hostLevel {P : HostIn K α} {egh : DTable K (α × α)} {dep : Nat} {ids : List Nat}
    {mask : Dict Nat Int} {d : Dialog (Msg K α)} {k : Dict Nat Int → Prog K α R}
    (h : ∀ m, Follows none (k m) d.dual) :
    Follows none (hostLevel P egh dep ids mask >>= k) (levelD P.maxSplitNodes ids d).dual := by
  unfold hostLevel levelD
  refine follows_assoc (follows_recvAs fun m v hv => ?_)
  cases m <;> cases hv
  refine follows_assoc (follows_lift fun pos _ => ?_)
  refine follows_assoc (follows_lift fun data _ => ?_)
  simp only
  split
  · exact follows_lift fun v hv => nomatch hv
  · refine follows_assoc (follows_hostBatches fun mask => ?_)
    refine follows_assoc (follows_recvAs fun m v hv => ?_)
    cases m <;> cases hv
    refine follows_assoc (follows_lift fun a _ => ?_)
    exact follows_assoc (follows_sendTo (h _))

theorem follows_hostLevels {P : HostIn K α} {egh : DTable K (α × α)} {d : Dialog (Msg K α)}
    {k : Dict Nat Int → Prog K α R} (h : ∀ m, Follows none (k m) d.dual) :
    ∀ {r dep : Nat} {mask : Dict Nat Int},
      Follows none (hostLevels P egh r dep mask >>= k) (levelsD P.maxSplitNodes d r).dual
  | 0, dep, mask => h _
  | r + 1, dep, mask => by
    unfold hostLevels levelsD
    refine follows_assoc (follows_recvAs fun m v hv => ?_)
    cases m <;> cases hv
    simp only
    split
    · exact h _
    · exact follows_assoc (follows_hostLevel fun mask => follows_hostLevels h)

theorem follows_hostFit {P : HostIn K α} {d : Dialog (Msg K α)}
    {k : List Node × Dict Nat Rat → Prog K α R} (h : ∀ m, Follows none (k m) d.dual) :
    Follows none (hostFit P >>= k) (treeD P.maxDepth P.maxSplitNodes d).dual := by
  unfold hostFit treeD
  refine follows_assoc (follows_recvAs fun m v hv => ?_)
  cases m <;> cases hv
  refine follows_assoc (follows_hostLevels fun mask => ?_)
  refine follows_assoc (follows_recvAs fun m v hv => ?_)
  cases m <;> cases hv
  exact follows_assoc (follows_lift fun m _ => h _)

theorem follows_hostTrees {B : HostBoost K α} {i : Nat} {d : Dialog (Msg K α)}
    {k : List (List NodeParam × Dict Nat Rat) → Prog K α R} :
    ∀ {r t : Nat} {trees : List (List NodeParam × Dict Nat Rat)},
      (∀ ts, ts.length = trees.length + r → Follows none (k ts) d.dual) →
      Follows none (hostTrees B i r t trees >>= k)
        (treesD B.base.maxDepth B.base.maxSplitNodes d r).dual
  | 0, t, trees, h => h _ rfl
  | r + 1, t, trees, h => by
    unfold hostTrees treesD
    refine follows_assoc (follows_hostFit (P := B.treeIn i t) fun F => ?_)
    refine follows_assoc (follows_lift fun P _ => ?_)
    refine follows_hostTrees fun ts hts => h ts ?_
    rw [hts]; simp; omega

theorem follows_hostLoop {B : HostBoost K α} {dim : Nat} {d : Nat → Dialog (Msg K α)}
    {k : List (List NodeParam × Dict Nat Rat) → Prog K α R}
    (h : ∀ ts, Follows none (k ts) (d ts.length).dual) :
    ∀ {r i : Nat} {trees : List (List NodeParam × Dict Nat Rat)},
      Follows none (hostLoop B dim r i trees >>= k)
        (loopD B.base.maxDepth B.base.maxSplitNodes dim B.early d r trees.length).dual
  | 0, i, trees => h _
  | r + 1, i, trees => by
    unfold hostLoop loopD
    refine follows_assoc (follows_hostTrees fun ts hts => ?_)
    rw [← hts]
    by_cases he : B.early = true
    · simp only [he, if_true]
      refine follows_assoc (follows_recvAs fun m v hv => ?_)
      cases m <;> cases hv
      simp only
      split
      · exact h ts
      · have := follows_hostLoop (B := B) (dim := dim) h (r := r) (i := i + 1) (trees := ts)
        rw [he] at this
        exact this
    · have he : B.early = false := by simpa using he
      simp only [he, Bool.false_eq_true, if_false]
      have := follows_hostLoop (B := B) (dim := dim) h (r := r) (i := i + 1) (trees := ts)
      rw [he] at this
      exact this

theorem follows_hostWalk {site : Site} {tree : List Node} {mask : Dict Nat Rat}
    {rows : DTable K (Binning.SparseVec Rat)} {fuel : Nat} {d : Dialog (Msg K α)}
    {k : Unit → Prog K α R} (h : Follows none (k ()) d.dual) :
    ∀ {r : Nat}, Follows none (hostPredictLoop site tree mask rows fuel r >>= k) (walkD d r).dual
  | 0 => trivial
  | r + 1 => by
    unfold hostPredictLoop walkD
    refine follows_assoc (follows_recvAs fun m v hv => ?_)
    cases m <;> cases hv
    simp only
    split
    · exact h
    · refine follows_assoc (follows_recvAs fun m v hv => ?_)
      cases m <;> cases hv
      refine follows_assoc (follows_lift fun t _ => ?_)
      exact follows_assoc (follows_sendTo (follows_hostWalk h))

theorem follows_hostWalks {idx dim : Nat} {trees : List (List NodeParam × Dict Nat Rat)}
    {rows : DTable K (Binning.SparseVec Rat)} {fuel i : Nat} {d : Dialog (Msg K α)}
    {k : Unit → Prog K α R} (h : Follows none (k ()) d.dual) :
    ∀ {r t : Nat}, Follows none (hostPredictRound idx dim trees rows fuel i r t >>= k) (walksD fuel d r).dual
  | 0, t => h
  | r + 1, t => by
    unfold hostPredictRound walksD
    refine follows_assoc (follows_lift fun P _ => ?_)
    exact follows_assoc (follows_hostWalk (follows_hostWalks h))

theorem follows_hostWalkRounds {idx dim : Nat} {trees : List (List NodeParam × Dict Nat Rat)}
    {rows : DTable K (Binning.SparseVec Rat)} {fuel : Nat} {d : Dialog (Msg K α)}
    {k : Unit → Prog K α R} (h : Follows none (k ()) d.dual) :
    ∀ {r i : Nat}, Follows none (hostPredictRounds idx dim trees rows fuel r i >>= k)
      (walkRoundsD fuel dim d r).dual
  | 0, t => h
  | r + 1, t => by
    unfold hostPredictRounds walkRoundsD
    exact follows_assoc (follows_hostWalks (follows_hostWalkRounds h))

theorem follows_hostPredict {idx dim : Nat} {trees : List (List NodeParam × Dict Nat Rat)}
    {table : DTable K (List Rat)} {fuel : Nat} {k : Unit → Prog K α R}
    (h : Follows none (k ()) .over) :
    Follows none (hostPredict idx dim trees table fuel >>= k) (predictD fuel dim trees.length).dual := by
  unfold hostPredict predictD
  refine follows_assoc (follows_lift fun rows _ => ?_)
  split
  · exact follows_lift fun v hv => nomatch hv
  · exact follows_hostWalkRounds h

end

end Network
end Verif
