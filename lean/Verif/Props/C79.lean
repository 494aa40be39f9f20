import Verif.Lemmas.MovedBoost
import Verif.Props.C78
import Verif.Examples.DemoClear

/-!
# C79: a whole run depends neither on which party holds which column nor on the order of the samples
-/

set_option autoImplicit false

namespace Verif

open DTree Spec

variable {K : Type} [DecidableEq K] {L : Type}

/-- **The same run from another distribution of the columns.**  Two runs with Paillier encryption whose
conditions can be checked before they start (C53), with the same limits, loss, labels and columns, which
are held by other parties and listed in another order; keys, draws, encodings, batches and numbers of
hosts are different too.  Both runs succeed.  If every decision in the first run is clear by 5e-6, they
train as many trees, pairwise the same, stop in the same round with the same losses and flags, and have
the same scores. -/
theorem C79_same_run (p q : Nat) (sk : Paillier.PrivKey) (lo hi : Int) (m gmax hmax : Rat) (G : Rat × Rat → Prop)
    (p' q' : Nat) (sk' : Paillier.PrivKey) (lo' hi' : Int) (m' gmax' hmax' : Rat) (G' : Rat × Rat → Prop)
    (B B' : Boost K Histogram.Num L) [B.base.cfg.Exact] [B'.base.cfg.Exact] (y y' : DTable K L)
    (rows rows' : Option Nat → DTable K (List Rat))
    (hb : PaillierBoost p q sk lo hi m gmax hmax 0 0 G B y rows)
    (hb' : PaillierBoost p' q' sk' lo' hi' m' gmax' hmax' 0 0 G' B' y' rows')
    (hd : RedistributedBoost B y rows B' y' rows')
    (hinc : ∀ j P, partyAt B.base j = some P → ∀ sp ∈ P.splits, sp.Pairwise (· < ·))
    (hinc' : ∀ j P, partyAt B'.base j = some P → ∀ sp ∈ P.splits, sp.Pairwise (· < ·))
    (init : List Rat) (hdim : init.length = B.dim) :
    ∃ s s' fits, boost B init y = .ok s ∧ boost B' init y' = .ok s' ∧
      List.Forall₂ (fun F P => save F = .ok P) fits s.trees ∧
      (∀ (n : Nat) F, fits[n]? = some F → TrainedOn B y init fits n F) ∧
      (ClearRun B y init (5 / 10 ^ 6) rows fits →
        ∃ fits', List.Forall₂ (fun F P => save F = .ok P) fits' s'.trees ∧
          List.Forall₂ (SameGrowth y.data.keys B.base rows B'.base rows') fits fits' ∧
          s'.losses = s.losses ∧ s'.flags = s.flags ∧
          ∀ k, s'.scores.data.get? k = s.scores.data.get? k) := by
  obtain ⟨s, h⟩ := boost_ok hb hdim
  obtain ⟨s', h'⟩ := boost_ok hb' (init := init) (by rw [hd.dim]; exact hdim)
  obtain ⟨fits, f1, f2⟩ := boost_moved hb hb' hd hinc hinc' hdim h h'
  refine ⟨s, s', fits, h, h', f1.saved, f1.trained, fun hclear => ?_⟩
  obtain ⟨fits', g1, g2, g3, g4⟩ := f2 hclear
  refine ⟨fits', g1.saved, ?_, g3, g4, scores_moved hb hb' hd hinc hinc' hdim f1 g1 g2 hclear⟩
  rw [List.forall₂_iff_get]
  refine ⟨g2.symm, fun n h1 h2 => ?_⟩
  exact trees_same hb hb' hd hinc hinc' hdim f1 g1 hclear n _ _ (List.getElem?_eq_getElem h1) (List.getElem?_eq_getElem h2)

omit [DecidableEq K] in
private theorem partner {α : Type} {S S' : Setup K α} (h : S'.hosts.length = S.hosts.length) {j : Option Nat} {P : Party K}
    (hP : partyAt S j = some P) : ∃ P', partyAt S' j = some P' := by
  match j with
  | none => exact ⟨_, rfl⟩
  | some j =>
    have hlt : j < S'.hosts.length := by
      rw [h]; exact (List.getElem?_eq_some_iff.mp hP).1
    exact ⟨_, List.getElem?_eq_getElem hlt⟩

/-- **Runs on reordered rows have the same columns**, so `C79_same_run` applies to them. -/
theorem C79_reordered {α : Type} (B B' : Boost K α L) (y y' : DTable K L) (rows rows' : Option Nat → DTable K (List Rat))
    (hw : ∀ j P, partyAt B.base j = some P → (rows j).WF) (hw' : ∀ j P, partyAt B'.base j = some P → (rows' j).WF)
    (h : ReorderedBoost B y rows B' y' rows') : RedistributedBoost B y rows B' y' rows' := by
  have hcol : ∀ j P P', partyAt B.base j = some P → partyAt B'.base j = some P' →
      P'.splits = P.splits ∧ ∀ k, (rows' j).data.get? k = (rows j).data.get? k := by
    intro j P P' hP hP'
    obtain ⟨hp, cfg, binNum, header, hn, hwd, hsize, e1, e2⟩ := h.parties j P P' hP hP'
    obtain ⟨t', e3, _⟩ := Binning.prepare_perm cfg binNum header hn (hw j P hP) hp hwd hsize e1
    rw [e2] at e3
    simp only [Except.ok.injEq, Prod.mk.injEq] at e3
    exact ⟨e3.2.1, lookup_perm (hw j P hP) (hw' j P' hP') hp⟩
  refine ⟨h.lam, h.impurity, h.sample, h.leaf, h.depth, h.labels, ?_, ?_, h.gradHess, h.loss, h.rounds, h.dim, h.rate,
    h.early, h.tol⟩
  · intro j P hP f hf
    obtain ⟨P', hP'⟩ := partner h.hosts hP
    obtain ⟨c1, c3⟩ := hcol j P P' hP hP'
    refine ⟨j, P', f, hP', by rw [c1], fun i t => by rw [h.valid], fun k _ row row' e e' => ?_⟩
    rw [c3, e] at e'
    cases e'
    rfl
  · intro j P' hP' f hf
    obtain ⟨P, hP⟩ := partner h.hosts.symm hP'
    obtain ⟨c1, c3⟩ := hcol j P P' hP hP'
    refine ⟨j, P, f, hP, by rw [c1], fun i t => by rw [h.valid], fun k _ row row' e e' => ?_⟩
    rw [c3, e'] at e
    cases e
    rfl

/-- Three parties with two, one and one columns, and two parties with one and three and the samples in
the reverse order, three rounds, two components: all hypotheses are met, and the decisions are clear
in whatever trees are trained. -/
example : ∃ p q sk lo hi m gmax hmax G, ∃ (B B' : Boost Nat Histogram.Num (Rat × Rat)) (y y' : DTable Nat (Rat × Rat))
    (rows rows' : Option Nat → DTable Nat (List Rat)), B.base.cfg.Exact ∧ B'.base.cfg.Exact ∧
    PaillierBoost p q sk lo hi m gmax hmax 0 0 G B y rows ∧ PaillierBoost p q sk lo hi m gmax hmax 0 0 G B' y' rows' ∧
    RedistributedBoost B y rows B' y' rows' ∧
    (∀ j P, partyAt B.base j = some P → ∀ sp ∈ P.splits, sp.Pairwise (· < ·)) ∧
    (∀ j P, partyAt B'.base j = some P → ∀ sp ∈ P.splits, sp.Pairwise (· < ·)) ∧
    (∀ init fits, ClearRun B y init (5 / 10 ^ 6) rows fits) ∧
    B.dim = 2 ∧ B.rounds = 3 ∧ B.base.hosts.length ≠ B'.base.hosts.length ∧ y'.data.keys ≠ y.data.keys ∧
    (∃ x ∈ sideList DemoClear.plain [0, 1, 2, 3, 4, 5], 1 < x.2) := by
  obtain ⟨sk, h1, h2⟩ := DemoPaillier.key
  refine ⟨_, _, sk, _, _, _, _, _, _, DemoMovedBoost.first sk, DemoMovedBoost.second sk, DemoMovedBoost.labels,
    DemoMovedBoost.reversed, _, _, inferInstance, inferInstance, DemoMovedBoost.run h1 h2, DemoMovedBoost.run_second h1 h2,
    DemoMovedBoost.moved sk, DemoRounded.increasing sk id 5 .split 1, DemoMovedBoost.cases (by decide +kernel) (by decide +kernel),
    DemoClear.run_clear sk, rfl, rfl, ?_, ?_, ?_⟩
  · show 2 ≠ 1
    decide
  · decide
  · decide +kernel

/-- A run with the rows of two parties and the labels in other orders: the hypotheses of `C79_reordered`
are met. -/
example (sk : Paillier.PrivKey) : ∃ (B B' : Boost Nat Histogram.Num (Rat × Rat)) (y y' : DTable Nat (Rat × Rat))
    (rows rows' : Option Nat → DTable Nat (List Rat)), ReorderedBoost B y rows B' y' rows' ∧
    (∀ j P, partyAt B.base j = some P → (rows j).WF) ∧ (∀ j P, partyAt B'.base j = some P → (rows' j).WF) ∧
    (rows none).data.keys ≠ (rows' none).data.keys := by
  have h := DemoReorder.reordered sk sk id id 5 .split .split 1 1
  have hr := DemoRounded.raw sk id 5 .split 1
  have hr' := DemoReorder.raw sk id 5 .split 1
  refine ⟨DemoMovedBoost.first sk, { DemoMovedBoost.first sk with
      base := { (DemoMovedBoost.first sk).base with guest := DemoReorder.guest, hosts := [DemoReorder.host1, DemoReorder.host2] } },
    DemoMovedBoost.labels, DemoMovedBoost.reversed, DemoRaw.rows, DemoReorder.rows,
    ⟨rfl, rfl, rfl, rfl, rfl, List.reverse_perm _, rfl, fun j P P' hP hP' => (h.parties j P P' hP hP').2, fun _ _ _ => rfl, rfl,
      (DemoMovedBoost.moved sk).loss, rfl, rfl, rfl, rfl, rfl⟩, fun j P hP => ?_, fun j P hP => ?_, by decide⟩
  · obtain ⟨⟨_, _, _, _, _, _, _, w, _⟩, _⟩ := hr.parties j P hP
    exact w
  · obtain ⟨⟨_, _, _, _, _, _, _, w, _⟩, _⟩ := hr'.parties j P hP
    exact w

end Verif
