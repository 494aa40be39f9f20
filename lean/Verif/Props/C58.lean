import Verif.Lemmas.StrictRun
import Verif.Props.C51
import Verif.Props.C53
import Verif.Props.C56
import Verif.Examples.DemoStrict

/-!
# C58: strict encryption of float gradients needs only bounds

The guest encrypts arbitrary gradients and hessians as floats; nothing is assumed about which
numbers they are except bounds on their size.
-/

set_option autoImplicit false

namespace Verif

open DTree Spec Histogram Program Labels
open Data (Cell)

variable {K : Type} [DecidableEq K] {L : Type} {P : Type} [LinearOrder P] [One P] [Sub P]

/-- **Every table of gradients can be encrypted**, whatever the numbers: the result has the same
samples in the same order, and every number decrypts to what was encrypted, up to its 2^-50th part
or 1e-200. -/
theorem C58_encrypt (p q : Nat) (sk : Paillier.PrivKey) (hk : KeyPair p q sk)
    (hbig : 2 ^ 53 ≤ sk.pk.n / 3 - 1) (draw : K → Nat → Int) (hd : ∀ k i, Usable sk (draw k i))
    (gh : DTable K (Rat × Rat)) (hw : gh.WF) :
    ∃ e : DTable K (Paillier.EncNum × Paillier.EncNum), strictEncrypt sk.pk draw gh = .ok (liftGh e) ∧
      List.Forall₂ (fun a b => a.1 = b.1 ∧
        (∃ t, Paillier.decrypt sk a.2.1 = .ok t ∧ |t.val - b.2.1| ≤ |b.2.1| / 2 ^ 50 + FP.tiny) ∧
        (∃ t, Paillier.decrypt sk a.2.2 = .ok t ∧ |t.val - b.2.2| ≤ |b.2.2| / 2 ^ 50 + FP.tiny))
        e.data gh.data :=
  strictEncrypt_of sk.pk draw gh hw
    (fun X x => ∃ t, Paillier.decrypt sk X = .ok t ∧ |t.val - x| ≤ |x| / 2 ^ 50 + FP.tiny)
    (fun X x => ∃ t, Paillier.decrypt sk X = .ok t ∧ |t.val - x| ≤ |x| / 2 ^ 50 + FP.tiny) fun x _ => by
      obtain ⟨X, t, a1, a2, a3⟩ := decrypt_float p q sk hk hbig x.2.1 (draw x.1 0) (hd x.1 0)
      obtain ⟨Y, s, b1, b2, b3⟩ := decrypt_float p q sk hk hbig x.2.2 (draw x.1 1) (hd x.1 1)
      exact ⟨⟨X, a1, t, a2, a3⟩, Y, b1, s, b2, b3⟩

/-- **A whole run with strict encryption** completes under bounds on the gradients and hessians, every
sample gets a score, and prediction on the training rows returns exactly these scores. -/
theorem C58_run (p q : Nat) (sk : Paillier.PrivKey) (m gmax hmax : Rat)
    (G : Rat × Rat → Prop) (B : Boost K Num L) [B.base.cfg.Exact] (y : DTable K L)
    (rows : Option Nat → DTable K (List Rat))
    (hb : StrictBoost p q sk m gmax hmax G B y rows) (init : List Rat)
    (hdim : init.length = B.dim) (hpos : 0 < B.dim) :
    ∃ st fuel T, boost B init y = .ok st ∧ (∀ k, k ∈ st.scores.data.keys ↔ k ∈ y.data.keys) ∧
      predictScores B.base.hosts B.rate B.dim init st.trees (rows none) (hostRows B.base rows) fuel =
        .ok T ∧
      ∀ k, T.data.get? k = st.scores.data.get? k :=
  C53_run p q sk 0 179 m gmax hmax _ _ G B y rows (strictBoost_paillier hb) init hdim hpos

/-- **The trees of such a run are nearly greedy**: each is trained on the gradients of the loss at the
scores after the finished rounds, and at every node its sums, weight and split are those of the
exact greedy algorithm up to errors of the size of the 2^-50th part of the gradients. -/
theorem C58_trees (p q : Nat) (sk : Paillier.PrivKey) (m gmax hmax : Rat)
    (G : Rat × Rat → Prop) (B : Boost K Num L) [B.base.cfg.Exact] (y : DTable K L)
    (rows : Option Nat → DTable K (List Rat))
    (hb : StrictBoost p q sk m gmax hmax G B y rows) (init : List Rat)
    (hdim : init.length = B.dim) (st : BoostState K) (h : boost B init y = .ok st) :
    ∃ fits, List.Forall₂ (fun F T => save F = .ok T) fits st.trees ∧
      ∀ (n : Nat) F, fits[n]? = some F → ∃ gh egh,
        fit (treeSetup B (n / B.dim) (n % B.dim) gh egh) = .ok F ∧
        (∀ k, k ∈ gh.data.keys ↔ k ∈ y.data.keys) ∧
        (∀ k l, y.data.get? k = some l → ∃ g h a b,
          B.gradHess l (scoreAfter init B.rate B.dim (weightIn fits k) (n / B.dim * B.dim)) = .ok (g, h) ∧
          g[n % B.dim]? = some a ∧ h[n % B.dim]? = some b ∧ gh.data.get? k = some (a, b)) ∧
        NearlyGreedy (treeSetup B (n / B.dim) (n % B.dim) gh egh) F rows m (floatError gmax)
          (floatError hmax) := by
  have hp := strictBoost_paillier hb
  obtain ⟨fits, h1, _, _⟩ := boost_inv hp.depth.1 hp.sameData hdim h
  refine ⟨fits, h1.saved, fun n F hF => ?_⟩
  obtain ⟨gh, egh, g1, g2, hfit, g3, g4⟩ := h1.trained n F hF
  refine ⟨gh, egh, hfit, g3, g4, ?_⟩
  have hG : ∀ x ∈ gh.data, G x.2 := by
    intro x hx
    have hx' := Dict.get?_of_mem g1 hx
    obtain ⟨l, hl⟩ := Dict.exists_get?_of_mem ((g3 x.1).mp (Dict.mem_keys_of_get? hx'))
    obtain ⟨g, h, a, b, e1, e2, e3, e4⟩ := g4 x.1 l hl
    obtain ⟨g', h', q1, _, _, q4⟩ := hp.grads x.1 l (scoreAfter init B.rate B.dim (weightIn fits x.1)
      (n / B.dim * B.dim)) hl (by unfold scoreAfter; rw [List.length_mapIdx]; exact hdim)
    rw [e1] at q1
    cases q1
    have hx2 : x.2 = (a, b) := by
      have : some x.2 = some (a, b) := by rw [← hx', e4]
      exact Option.some.inj this
    rw [hx2]; exact q4 _ a b e2 e3
  obtain ⟨egh', e1, e2, e3, e4⟩ := hp.tree (n / B.dim) (n % B.dim) g1 g3 hG
  rw [g2] at e1
  cases e1
  intro i nd hnd A hA
  exact C51_greedy_encoded p q sk 0 179 m _ _ _ rows e2 e3 e4 F hfit i nd hnd A hA

/-- **The programs with strict encryption**: files to accuracy, under bounds on the gradients. -/
theorem C58_program (p q : Nat) (sk : Paillier.PrivKey) (m gmax hmax : Rat)
    (G : Rat × Rat → Prop) (S : Settings Num P) [S.tree.Exact] (parse : Cell → Option Rat)
    (draw : Nat → Nat → Nat) (text : List Char) (header : List Cell)
    (gs : List (Cell × Cell × List Rat)) (scaled : Nat → Rat) (hosts : List HostArgs)
    (files : List (List Cell × List (Cell × List Rat)))
    (hg : LabelledFile parse text header gs) (hwidth : ∀ s ∈ gs, s.2.2.length = header.length)
    (hf : List.Forall₂ (HostFile parse gs.length scaled) hosts files)
    (hhead : HeaderOk S none header)
    (hheads : ∀ (j : Nat) f, files[j]? = some f → HeaderOk S (some j) f.1)
    (hidx : (hosts.map HostArgs.idx).Nodup) (hne : hosts ≠ [])
    (h1 : 1 ≤ Data.pyInt (scaled gs.length)) (h2 : Data.pyInt (scaled gs.length) < gs.length)
    (hcls : (gs.map (·.2.1)).dedup.length ≤ 1000)
    (hok : StrictProgram p q sk m gmax hmax G S gs.length) :
    let X : Features := ⟨gs.map (·.2.2), files.map fun f => f.2.map (·.2)⟩
    let labels := gs.map (·.2.1)
    ∃ out train test B R fits,
      program S parse draw text scaled hosts = .ok out ∧ UsesSettings S R B ∧
      (train ++ test).Perm (List.range gs.length) ∧
      (train.length : Int) = Data.pyInt (scaled gs.length) ∧
      (∀ j Q, partyAt B.base j = some Q → FromRaw Q (X.at train j)) ∧
      B.base.hosts.map Party.idx = hosts.map HostArgs.idx ∧
      ClassesOf (entriesAt labels train) R.classes ∧ R.num = R.classes.length ∧
      R.dim = components R.num ∧
      R.y.data.keys = List.range train.length ∧
      (∀ i l, (entriesAt labels train)[i]? = some l → ∃ code, ∃ c : Nat, R.y.data.get? i = some code ∧
        code.value = (Label.int (T := Cell) c).value ∧ R.classes[c]? = some (.str l)) ∧
      boost B (List.replicate R.dim 0) R.y = .ok out.state ∧
      List.Forall₂ (fun F T => save F = .ok T) fits out.state.trees ∧
      (∀ (n : Nat) F, fits[n]? = some F →
        TrainedOn B R.y (List.replicate R.dim 0) fits n F) ∧
      (∀ i, i ∈ out.result.data.keys ↔ i < test.length) ∧
      (∀ i l, (entriesAt labels test)[i]? = some l → ∃ row W, out.result.data.get? i = some row ∧
        row.given = some (.str l) ∧
        (∀ (n : Nat) F, fits[n]? = some F →
          LeafWeight B.base F (X.at test) i (W n)) ∧
        Decides S R.classes (scoreAfter (List.replicate R.dim 0) S.rate R.dim W fits.length) row.label) ∧
      out.accuracy = some ((((List.range test.length).countP fun i => (out.result.data.get? i).any
        fun row => decide (row.given = some row.label) : Nat) : Rat) / test.length) :=
  C56_program p q sk 0 179 m gmax hmax _ _ G S parse draw text header gs scaled hosts files hg hwidth hf hhead
    hheads hidx hne h1 h2 hcls (strictProgram_ok hok)

/-- A key of 1128 bits with which a run over three parties meets the hypotheses, with gradients that
cannot be encoded exactly. -/
example : ∃ p q sk m gmax hmax G, ∃ B : Boost Nat Num Rat,
    StrictBoost p q sk m gmax hmax G B DemoBoost.labels DemoRaw.rows ∧ B.dim = 2 ∧
    B.rounds = 3 ∧ B.base.hosts.length = 2 ∧ B.gradHess 5 [4] = .ok ([-1 / 3], [1 / 3]) := by
  obtain ⟨sk, h1, h2⟩ := DemoStrict.key
  refine ⟨_, _, sk, _, _, _, _, DemoStrict.secure sk, DemoStrict.run h1 h2, rfl, rfl, rfl, ?_⟩
  show DemoStrict.gradHess 5 [4] = _
  decide +kernel

/-- The same for the programs. -/
example : ∃ p q sk m gmax hmax G, ∃ S : Settings Num Rat,
    StrictProgram p q sk m gmax hmax G S DemoProgram.samples.length := by
  obtain ⟨sk, h1, h2⟩ := DemoStrict.key
  exact ⟨_, _, sk, _, _, _, _, DemoStrict.settings sk, DemoStrict.ok h1 h2⟩

/-- A table that is encrypted: a third cannot be encoded exactly. -/
example : (⟨[(0, 1 / 3, 1), (1, -2, 1 / 7)]⟩ : DTable Nat (Rat × Rat)).WF := by
  unfold DTable.WF Dict.WF; decide

end Verif
