import Verif.Lemmas.Discreet
import Verif.Lemmas.Alike
import Verif.Lemmas.SameSide
import Verif.Props.C31
import Verif.Props.C48
import Verif.Examples.DemoBoost

/-!
# C30: split thresholds stay with the party that owns them
-/

set_option autoImplicit false

namespace Verif

open DTree Spec Network

variable {K : Type} [DecidableEq K] {α L G H : Type}

/-- **Contents of messages.**  Whatever the data and settings, whether the run succeeds or not, and
whatever the order of steps: no message of training or of the prediction that follows it contains
the bin of a split or the leaf weight of a sample, and gradients of samples and gains leave the
guest only as the encrypter has returned them. -/
theorem C30_messages (E : α → Prop) (B : GuestBoost K α L) (hB : Encrypts E B) (init : List Rat)
    (y : DTable K L) (table : DTable K (List Rat)) (fuel : Nat)
    (hosts : List (HostBoost K α × DTable K (List Rat)))
    (b : Bool) (n : Nat) (d : Net (Option Nat) (Msg K α) (Outcome (DTable K (List Rat)) Unit))
    (hr : Run b n (system
      (do
        let st ← guestBoost B init y
        guestPredict B.base.conns B.rate B.dim init st.trees table fuel)
      (hosts.map fun h => do
        let t ← hostBoost h.1
        hostPredict h.1.base.party.idx t.1 t.2 h.2 fuel)) d) :
    ∀ x, ∀ m ∈ d.chan x, Discreet E m := by
  refine keeps_system ?_ ?_ hr
  · exact Keeps.bind (keeps_guestBoost hB init y) fun _ _ => keeps_guestPredict ..
  · intro h hh
    obtain ⟨x, _, rfl⟩ := List.mem_map.mp hh
    exact Keeps.bind (keeps_hostBoost x.1) fun _ _ => keeps_hostPredict ..

omit [DecidableEq K] in
/-- With Paillier encryption, what the guest sends of gradients and gains are ciphertexts. -/
theorem C30_ciphertexts (sk : Paillier.PrivKey) (draw : Nat → Nat → Nat → Nat → Nat × Nat → Int)
    (B : GuestBoost K Histogram.Num L)
    (hc : ∀ i t dep batch, B.cipher i t dep batch = paillierCipher sk (draw i t dep batch))
    (he : ∀ i t g e, B.enc i t g = .ok e →
      ∃ e' : DTable K (Paillier.EncNum × Paillier.EncNum), e = Histogram.liftGh e') :
    Encrypts (fun x => ∃ c, x = .enc c) B := by
  refine ⟨fun i t g e h r hr => ?_, fun i t dep batch label x c h => ?_⟩
  · obtain ⟨e', rfl⟩ := he i t g e h
    obtain ⟨z, _, rfl⟩ := List.mem_map.mp hr
    exact ⟨⟨_, rfl⟩, ⟨_, rfl⟩⟩
  · rw [hc] at h
    simp only [paillierCipher] at h
    cases hx : Paillier.encrypt sk.pk (.float x) none (draw i t dep batch label) with
    | error e => rw [hx] at h; cases h
    | ok v => rw [hx] at h; cases h; exact ⟨v, rfl⟩

/-- Three parties boost with Paillier encryption. -/
example (sk : Paillier.PrivKey) :
    Encrypts (fun x => ∃ c, x = .enc c) (guestBoostIn (DemoBoost.secure sk)) :=
  C30_ciphertexts sk (fun _ _ _ _ _ => 1) _ (fun _ _ _ _ => rfl) fun _ _ _ _ h => ⟨_, (Except.ok.inj h).symm⟩

/-- Without encryption nothing of the kind holds. -/
example : ¬ Encrypts (fun x : Rat => x = 0) (guestBoostIn DemoBoost.clear) := by
  intro h
  have := h.gain 0 0 0 0 (0, 0) 1 1 rfl
  simp at this

/-- **A host's thresholds, training.**  Replace the split points of a host by others, as many per
feature.  Whatever it receives, it sends the same messages: they do not depend on the thresholds. -/
theorem C30_host_thresholds (B : HostBoost K α) (splits : List (List Rat))
    (h : SameCounts B.base.party.splits splits) :
    Alike (fun _ _ => True) (hostBoost B) (hostBoost (hostWith B splits)) :=
  hostBoost_shape B h

/-- **The guest's thresholds, training.**  Likewise for the guest, which also ends with the same
scores, importances and losses. -/
theorem C30_guest_thresholds (B : GuestBoost K α L) (splits : List (List Rat))
    (h : SameCounts B.base.party.splits splits) (init : List Rat) (y : DTable K L) :
    Alike (fun st st' => st.scores = st'.scores ∧ st.imps = st'.imps ∧ st.losses = st'.losses)
      (guestBoost B init y) (guestBoost (guestWith B splits) init y) :=
  Alike.mono (guestBoost_shape B h init y) fun _ _ hs => ⟨hs.1, hs.2.1, hs.2.2.1⟩

omit [DecidableEq K] in
private theorem system_guest (g g' : Prog K α G) (hs : List (Prog K α H)) :
    system g' hs = swap (system g hs) none (do let r ← g'; pure (.guest r)) := by
  simp only [system, lock, swap, Net.mk.injEq, and_true]
  funext p
  cases p with
  | none => simp
  | some i => simp

omit [DecidableEq K] in
private theorem system_host (g : Prog K α G) (hs : List (Prog K α H)) (j : Nat) (h' : Prog K α H)
    (hj : j < hs.length) :
    system g (hs.set j h') = swap (system g hs) (some j) (do let r ← h'; pure (.host r)) := by
  simp only [system, lock, swap, Net.mk.injEq, and_true]
  funext p
  cases p with
  | none => simp
  | some i =>
    by_cases hi : i = j
    · subst hi
      simp [hj]
    · simp [Function.update_of_ne (show some i ≠ some j by simpa using hi),
        Ne.symm hi]

/-- **What the others see of a host in training.**  Next to a guest and other hosts that may run
any programs, also such as do not keep to the protocol: to every execution corresponds one, step by
step, with other thresholds at host `j`, in which all messages and the states of all other parties
are the same. -/
theorem C30_host_view (g : Prog K α G) (hs : List (Prog K α (Nat × List (List NodeParam × Dict Nat Rat))))
    (j : Nat) (B : HostBoost K α) (hj : hs[j]? = some (hostBoost B)) (splits : List (List Rat))
    (h : SameCounts B.base.party.splits splits) (b : Bool) (n : Nat)
    (d : Net (Option Nat) (Msg K α) _) (hr : Run b n (system g hs) d) :
    ∃ d', Run b n (system g (hs.set j (hostBoost (hostWith B splits)))) d' ∧
      d'.chan = d.chan ∧ ∀ q, q ≠ some j → d'.state q = d.state q := by
  have hlt : j < hs.length := by
    by_contra hge
    rw [List.getElem?_eq_none (by omega)] at hj
    cases hj
  obtain ⟨pr, _, h2⟩ := alike_run (Q := fun _ _ => True) hr (some j)
    (do let r ← hostBoost (hostWith B splits); pure (.host r)) (by
      show Alike _ (((hs.map _)[j]?).getD _) _
      rw [List.getElem?_map, hj]
      exact Alike.bind (C30_host_thresholds B splits h) fun _ _ _ => .done _ _ trivial)
  rw [system_host _ _ _ _ hlt]
  exact ⟨_, h2, rfl, fun q hq => Function.update_of_ne hq _ _⟩

/-- **What the hosts see of the guest's thresholds in training**, likewise. -/
theorem C30_guest_view (B : GuestBoost K α L) (init : List Rat) (y : DTable K L)
    (hs : List (Prog K α H)) (splits : List (List Rat)) (h : SameCounts B.base.party.splits splits)
    (b : Bool) (n : Nat) (d : Net (Option Nat) (Msg K α) _)
    (hr : Run b n (system (guestBoost B init y) hs) d) :
    ∃ d', Run b n (system (guestBoost (guestWith B splits) init y) hs) d' ∧
      d'.chan = d.chan ∧ ∀ q, q ≠ none → d'.state q = d.state q := by
  obtain ⟨pr, _, h2⟩ := alike_run (Q := fun _ _ => True) hr none
    (do let r ← guestBoost (guestWith B splits) init y; pure (.guest r))
    (Alike.bind (C30_guest_thresholds B splits h init y) fun _ _ _ => .done _ _ trivial)
  rw [system_guest (guestBoost B init y)]
  exact ⟨_, h2, rfl, fun q hq => Function.update_of_ne hq _ _⟩

/-- Other thresholds for the hosts and the guest of a run that grows four trees. -/
example : SameCounts DemoBoost.clear.base.guest.splits [[1, 5, 9], [-7, 100]] ∧
    (∃ H ∈ DemoBoost.clear.base.hosts, SameCounts H.splits [[3, 3]] ∧ H.splits ≠ [[3, 3]]) ∧
    ∃ st, boost DemoBoost.clear [0, 1] DemoBoost.labels = .ok st ∧ st.trees.length = 4 :=
  ⟨by unfold SameCounts; decide +kernel, by unfold SameCounts; decide +kernel, _, DemoBoost.final_ok,
    by decide +kernel⟩

/-- **Prediction.**  What a host or the guest sends depends on its thresholds only through the
comparisons with its own rows: with thresholds that lie between the same values, its program is the
same. -/
theorem C30_prediction (trees trees' : List (List NodeParam × Dict Nat Rat))
    (table : DTable K (List Rat)) (fuel : Nat)
    (h : List.Forall₂ (fun T T' => T.1 = T'.1 ∧ SameSide table T.2 T'.2) trees trees') :
    (∀ idx dim, hostPredict (α := α) idx dim trees table fuel = hostPredict idx dim trees' table fuel) ∧
    ∀ conns rate dim init, guestPredict (α := α) conns rate dim init trees table fuel
      = guestPredict conns rate dim init trees' table fuel :=
  ⟨fun idx dim => hostPredict_same idx dim h fuel,
    fun conns rate dim init => guestPredict_same conns rate dim init h fuel⟩

/-- 9/4 in place of 2, and 1/3 in place of 1/2, sort the rows of the demo alike; 1 in place of 2 does not. -/
example : SameSide (DemoRaw.rows none) [(1, 2), (3, 1 / 2)] [(1, 9 / 4), (3, 1 / 3)] ∧
    ¬ SameSide (DemoRaw.rows none) [(1, 2)] [(1, 1)] := by
  constructor
  · intro nid
    by_cases h1 : nid = 1
    · subst h1
      refine ⟨by simp [Dict.get?], fun x x' hx hx' => ?_⟩
      cases hx; cases hx'
      decide +kernel
    by_cases h3 : nid = 3
    · subst h3
      refine ⟨by simp [Dict.get?], fun x x' hx hx' => ?_⟩
      cases hx; cases hx'
      decide +kernel
    have e : Dict.get? [(1, (2 : Rat)), (3, 1 / 2)] nid = none := by
      simp [Dict.get?, Ne.symm h1, Ne.symm h3]
    have e' : Dict.get? [(1, (9 / 4 : Rat)), (3, 1 / 3)] nid = none := by
      simp [Dict.get?, Ne.symm h1, Ne.symm h3]
    rw [e, e']
    simp
  · intro h
    have := ((h 1).2 2 1 rfl rfl).2 (2, [2, 4]) (by decide) 2 (by decide)
    revert this
    decide +kernel

/-- **Gradient statistics in plaintext** (`sync_tree`, `hetero_decision_tree_guest.py` 306-309).
The guest does reveal them: after every run every host holds the tree, with the sums of each node;
those of the root are the gradient and hessian sums of the whole data set. -/
theorem C30_sums_refuted (S : Setup K α) [S.cfg.Exact] (hd : 1 ≤ S.maxDepth) (F : Fitted K) (h : fit S = .ok F) :
    ∃ (ns : List Node) (root : Node) (masks : List (Dict Nat Rat)), masks.length = S.hosts.length ∧
      Completes (system (guestFit (guestIn S)) (S.hosts.map fun H => hostFit (hostIn S H)))
        (results ⟨F.tree, F.guestMask, F.weights, F.imps⟩ (masks.map fun m => (ns, m))) ∧
      ns[0]? = some root ∧ (root.sumGrad, root.sumHess) = allSums S.gh := by
  obtain ⟨h1, h2⟩ := C31_tree S F h
  obtain ⟨n, h3, h4⟩ := C48_root S hd F h
  exact ⟨F.tree, n, F.hostMasks, h1, h2, h3, h4⟩

/-- The demo run: three parties, a tree of seven nodes. -/
example : fit Demo.setup = .ok Demo.fitted ∧ 1 ≤ Demo.setup.maxDepth ∧ Demo.fitted.tree.length = 7 :=
  ⟨Demo.fit_ok, by decide, by decide +kernel⟩

/-- **A sample's own gradient.**  In a run with Paillier encryption, the node to which a single
sample `k` comes tells every host the gradient and hessian of `k`, up to the encoding errors. -/
theorem C30_sample_refuted (p q : Nat) (sk : Paillier.PrivKey) (lo hi : Int) (m eg eh : Rat)
    (S : Setup K Histogram.Num) [S.cfg.Exact] (rows : Option Nat → DTable K (List Rat)) (hr : RawRun S rows)
    (hu : Usual S m) (hp : PaillierRun p q sk lo hi m eg eh S) :
    ∃ (F : Fitted K) (ns : List Node) (masks : List (Dict Nat Rat)), fit S = .ok F ∧ masks.length = S.hosts.length ∧
      Completes (system (guestFit (guestIn S)) (S.hosts.map fun H => hostFit (hostIn S H)))
        (results ⟨F.tree, F.guestMask, F.weights, F.imps⟩ (masks.map fun m => (ns, m))) ∧
      ∀ (i : Nat) (n : Node) (k : K), ns[i]? = some n →
        (∀ k', (k' ∈ S.gh.data.keys ∧ Reaches S F rows k' i) ↔ k' = k) →
        |n.sumGrad - (ghOf S.gh k).1| ≤ S.maxDepth * (S.gh.data.length * eg) ∧
        |n.sumHess - (ghOf S.gh k).2| ≤ S.maxDepth * (S.gh.data.length * eh) := by
  obtain ⟨F, h1, h2⟩ := C48_samples_encoded p q sk lo hi m eg eh S rows hr hu hp
  obtain ⟨h3, h4⟩ := C31_tree S F h1
  refine ⟨F, F.tree, F.hostMasks, h1, h3, h4, fun i n k hn hk => ?_⟩
  obtain ⟨A, _, hA, e1, e2⟩ := h2 i n hn
  have : A = [k] := by
    obtain ⟨hnd, hm⟩ := hA
    have hall : ∀ x ∈ A, x = k := fun x hx => (hk x).1 ((hm x).1 hx)
    have hkA : k ∈ A := (hm k).2 ((hk k).2 rfl)
    exact (List.perm_singleton.mp ((List.perm_ext_iff_of_nodup hnd (List.nodup_singleton k)).2
      fun x => ⟨fun hx => by simpa using hall x hx, fun hx => by rw [List.mem_singleton.mp hx]; exact hkA⟩))
  rw [this] at e1 e2
  simp only [List.map_cons, List.map_nil, List.sum_cons, List.sum_nil, add_zero] at e1 e2
  exact ⟨e1, e2⟩

example : ∃ p q sk lo hi m, ∃ S : Setup Nat Histogram.Num, RawRun S DemoRaw.rows ∧ Usual S m ∧
    PaillierRun p q sk lo hi m 0 0 S ∧ S.hosts.length = 2 := by
  obtain ⟨sk, h1, h2⟩ := DemoPaillier.key
  exact ⟨_, _, sk, 12, 13, 11 / 10, DemoPaillier.setup sk, DemoPaillier.raw sk,
    DemoPaillier.usual sk, DemoPaillier.run h1 h2, rfl⟩

end Verif
