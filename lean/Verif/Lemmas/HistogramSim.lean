import Verif.Model.Histogram
import Verif.Lemmas.DTable

/-!
# Running the histogram code with two arithmetics

If the operations of two arithmetics are related, so are the histograms.
-/

set_option autoImplicit false

namespace Verif
namespace Histogram

open Binning (Cell SparseVec)

/-- If the second computation succeeds so does the first, with a related result. -/
def Fwd {α β : Type} (R : α → β → Prop) (x : Except PyErr α) (y : Except PyErr β) : Prop :=
  ∀ b, y = .ok b → ∃ a, x = .ok a ∧ R a b

theorem Fwd.ok {α β : Type} {R : α → β → Prop} {a : α} {b : β} (h : R a b) :
    Fwd R (.ok a) (.ok b) := by
  intro b' hb
  cases hb
  exact ⟨a, rfl, h⟩

theorem Fwd.err {α β : Type} {R : α → β → Prop} {x : Except PyErr α} {e : PyErr} :
    Fwd R x (.error e) := by
  intro b' hb
  cases hb

theorem Fwd.bind {α β γ δ : Type} {R : α → β → Prop} {S : γ → δ → Prop} {x : Except PyErr α}
    {y : Except PyErr β} {f : α → Except PyErr γ} {g : β → Except PyErr δ} (h : Fwd R x y)
    (hf : ∀ a b, R a b → Fwd S (f a) (g b)) : Fwd S (x >>= f) (y >>= g) := by
  intro d hd
  cases hy : y with
  | error e => rw [hy] at hd; cases hd
  | ok b =>
    rw [hy] at hd
    obtain ⟨a, ha, hr⟩ := h b hy
    obtain ⟨c, hc, hs⟩ := hf a b hr d hd
    exact ⟨c, by rw [ha]; exact hc, hs⟩

theorem Fwd.refl {α : Type} (x : Except PyErr α) : Fwd (fun a b => a = b) x x :=
  fun b h => ⟨b, h, rfl⟩

variable {α β : Type}

/-- Cells with related sums and equal counts; `Z` marks values no sample has contributed to. -/
def CellRel (R : α → β → Prop) (Z : α → Prop) (a : HCell α) (b : HCell β) : Prop :=
  R a.1 b.1 ∧ R a.2.1 b.2.1 ∧ a.2.2 = b.2.2 ∧ (Z a.1 → a.2.2 = 0) ∧ (Z a.2.1 → a.2.2 = 0)

/-- Related arithmetics. -/
structure ArithRel (R : α → β → Prop) (Z : α → Prop) (A : Arith α) (B : Arith β) : Prop where
  zero : R A.zero B.zero
  add : ∀ a b x y, R a x → R b y →
    Fwd (fun c z => R c z ∧ (Z c → Z a ∧ Z b)) (A.add a b) (B.add x y)
  sub : ∀ a b x y, R a x → R b y →
    Fwd (fun c z => R c z ∧ (Z c → Z a ∧ Z b)) (A.sub a b) (B.sub x y)

variable {R : α → β → Prop} {Z : α → Prop} {A : Arith α} {B : Arith β}

theorem addCell_fwd (h : ArithRel R Z A B) {d c : HCell α} {d' c' : HCell β} (hd : CellRel R Z d d')
    (hc : CellRel R Z c c') : Fwd (CellRel R Z) (addCell A d c) (addCell B d' c') := by
  unfold addCell
  refine Fwd.bind (h.add _ _ _ _ hc.1 hd.1) fun g g' hg => ?_
  refine Fwd.bind (h.add _ _ _ _ hc.2.1 hd.2.1) fun e e' he => ?_
  exact Fwd.ok ⟨hg.1, he.1, by simp only [hc.2.2.1, hd.2.2.1],
    fun z => by have := hg.2 z; simp only; rw [hc.2.2.2.1 this.1, hd.2.2.2.1 this.2]; rfl,
    fun z => by have := he.2 z; simp only; rw [hc.2.2.2.2 this.1, hd.2.2.2.2 this.2]; rfl⟩

theorem subCell_fwd (h : ArithRel R Z A B) {d c : HCell α} {d' c' : HCell β} (hd : CellRel R Z d d')
    (hc : CellRel R Z c c') : Fwd (CellRel R Z) (subCell A d c) (subCell B d' c') := by
  unfold subCell
  refine Fwd.bind (h.sub _ _ _ _ hd.1 hc.1) fun g g' hg => ?_
  refine Fwd.bind (h.sub _ _ _ _ hd.2.1 hc.2.1) fun e e' he => ?_
  exact Fwd.ok ⟨hg.1, he.1, by simp only [hc.2.2.1, hd.2.2.1],
    fun z => by have := hg.2 z; simp only; rw [hd.2.2.2.1 this.1, hc.2.2.2.1 this.2]; rfl,
    fun z => by have := he.2 z; simp only; rw [hd.2.2.2.2 this.1, hc.2.2.2.2 this.2]; rfl⟩

theorem zeroCell_rel (h : ArithRel R Z A B) : CellRel R Z (zeroCell A) (zeroCell B) :=
  ⟨h.zero, h.zero, rfl, fun _ => rfl, fun _ => rfl⟩

theorem updAt_fwd {γ δ : Type} {S : γ → δ → Prop} {f : γ → Except PyErr γ} {g : δ → Except PyErr δ}
    (hf : ∀ a b, S a b → Fwd S (f a) (g b)) {l : List γ} {l' : List δ} (hl : List.Forall₂ S l l')
    (i : Nat) : Fwd (List.Forall₂ S) (updAt l i f) (updAt l' i g) := by
  induction hl generalizing i with
  | nil => exact Fwd.err
  | cons hx hxs ih =>
    cases i with
    | zero =>
      unfold updAt
      exact Fwd.bind (hf _ _ hx) fun _ _ h => Fwd.ok (.cons h hxs)
    | succ i =>
      unfold updAt
      exact Fwd.bind (ih i) fun _ _ h => Fwd.ok (.cons hx h)

theorem forall₂_replicate {γ δ : Type} {S : γ → δ → Prop} {a : γ} {b : δ} (h : S a b) (n : Nat) :
    List.Forall₂ S (List.replicate n a) (List.replicate n b) := by
  induction n with
  | zero => exact .nil
  | succ n ih => exact .cons h ih

/-- Related histograms. -/
abbrev HistRel (R : α → β → Prop) (Z : α → Prop) : Hist α → Hist β → Prop :=
  List.Forall₂ (List.Forall₂ (List.Forall₂ (CellRel R Z)))

theorem template_fwd (h : ArithRel R Z A B) (valid : Option (List Bool)) (fid : Nat)
    (splits : List (List Rat)) :
    Fwd (List.Forall₂ (List.Forall₂ (CellRel R Z))) (template A valid fid splits)
      (template B valid fid splits) := by
  induction splits generalizing fid with
  | nil => exact Fwd.ok .nil
  | cons sp splits ih =>
    unfold template
    refine Fwd.bind (Fwd.refl _) fun d d' hd => ?_
    subst hd
    refine Fwd.bind (ih (fid + 1)) fun t t' ht => ?_
    refine Fwd.ok (.cons ?_ ht)
    cases d
    · exact forall₂_replicate (zeroCell_rel h) _
    · exact .nil

/-- Related accumulators. -/
structure AccRel (R : α → β → Prop) (Z : α → Prop) (a : Acc α) (b : Acc β) : Prop where
  hist : HistRel R Z a.hist b.hist
  zo : List.Forall₂ (List.Forall₂ (CellRel R Z)) a.zeroOptim b.zeroOptim
  ns : List.Forall₂ (CellRel R Z) a.nodeSum b.nodeSum

theorem featureLoop_fwd (h : ArithRel R Z A B) (valid : Option (List Bool)) (nid : Nat) {d : HCell α}
    {d' : HCell β} (hd : CellRel R Z d d') (l : List (Nat × Cell)) {acc : Acc α} {acc' : Acc β}
    (ha : AccRel R Z acc acc') :
    Fwd (AccRel R Z) (featureLoop A valid nid d l acc) (featureLoop B valid nid d' l acc') := by
  induction l generalizing acc acc' with
  | nil => exact Fwd.ok ha
  | cons e l ih =>
    obtain ⟨fid, c⟩ := e
    unfold featureLoop
    refine Fwd.bind (Fwd.refl _) fun dis dis' hdis => ?_
    subst hdis
    cases dis with
    | true => exact ih ha
    | false =>
      cases c with
      | raw x => exact Fwd.err
      | bin b =>
        refine Fwd.bind (updAt_fwd (fun _ _ h1 => updAt_fwd (fun _ _ h2 => updAt_fwd
          (fun _ _ h3 => addCell_fwd h hd h3) h2 b) h1 fid) ha.hist nid) fun hi hi' hhi => ?_
        refine Fwd.bind (updAt_fwd (fun _ _ h1 => updAt_fwd (fun _ _ h2 => addCell_fwd h hd h2) h1 fid)
          ha.zo nid) fun zo zo' hzo => ?_
        exact ih ⟨hhi, hzo, ha.ns⟩

/-- Related records. -/
def RecRel (R : α → β → Prop) (Z : α → Prop) (a : Record α) (b : Record β) : Prop :=
  a.features = b.features ∧ a.nodeId = b.nodeId ∧ R a.grad b.grad ∧ R a.hess b.hess ∧
    ¬ Z a.grad ∧ ¬ Z a.hess

theorem recordLoop_fwd (h : ArithRel R Z A B) (valid : Option (List Bool)) (nodeMap : Dict Nat Nat)
    {rs : List (Record α)} {rs' : List (Record β)} (hr : List.Forall₂ (RecRel R Z) rs rs')
    {acc : Acc α} {acc' : Acc β} (ha : AccRel R Z acc acc') :
    Fwd (AccRel R Z) (recordLoop A valid nodeMap rs acc) (recordLoop B valid nodeMap rs' acc') := by
  induction hr generalizing acc acc' with
  | nil => exact Fwd.ok ha
  | @cons r r' rs rs' hx _ ih =>
    unfold recordLoop
    obtain ⟨h1, h2, h3, h4, h5, h6⟩ := hx
    rw [h2]
    cases nodeMap.get? r'.nodeId with
    | none => exact Fwd.err
    | some nid =>
      have hd : CellRel R Z (r.grad, r.hess, 1) (r'.grad, r'.hess, 1) := ⟨h3, h4, rfl, fun z => (h5 z).elim, fun z => (h6 z).elim⟩
      simp only
      refine Fwd.bind (updAt_fwd (fun _ _ hc => addCell_fwd h hd hc) ha.ns nid) fun ns ns' hns => ?_
      rw [h1]
      refine Fwd.bind (featureLoop_fwd h valid nid hd _ ⟨ha.hist, ha.zo, hns⟩) fun a a' haa => ?_
      exact ih haa

theorem collectRecords_rel (nodeMap : Dict Nat Nat)
    {l : List ((SparseVec Cell × Nat × Nat) × α × α)} {l' : List ((SparseVec Cell × Nat × Nat) × β × β)}
    (h : List.Forall₂ (fun a b => a.1 = b.1 ∧ R a.2.1 b.2.1 ∧ R a.2.2 b.2.2 ∧ ¬ Z a.2.1 ∧ ¬ Z a.2.2) l l') :
    List.Forall₂ (RecRel R Z) (collectRecords nodeMap l) (collectRecords nodeMap l') := by
  induction h with
  | nil => exact .nil
  | @cons a b l l' hx _ ih =>
    obtain ⟨⟨f, st, nid⟩, g, e⟩ := a
    obtain ⟨⟨f', st', nid'⟩, g', e'⟩ := b
    obtain ⟨h1, h2, h3⟩ := hx
    simp only [Prod.mk.injEq] at h1
    obtain ⟨rfl, rfl, rfl⟩ := h1
    unfold collectRecords
    split
    · exact ih
    · exact .cons ⟨rfl, rfl, h2, h3⟩ ih

theorem zeroFixNode_fwd (h : ArithRel R Z A B) (valid : Option (List Bool)) (sparse : Dict Nat Nat)
    {s : HCell α} {s' : HCell β} (hs : CellRel R Z s s') {zs : List (HCell α)} {zs' : List (HCell β)}
    (hz : List.Forall₂ (CellRel R Z) zs zs') : ∀ (fid : Nat) {fh : List (List (HCell α))}
    {fh' : List (List (HCell β))}, List.Forall₂ (List.Forall₂ (CellRel R Z)) fh fh' →
    Fwd (List.Forall₂ (List.Forall₂ (CellRel R Z))) (zeroFixNode A valid sparse s fid zs fh)
      (zeroFixNode B valid sparse s' fid zs' fh') := by
  induction hz with
  | nil =>
    intro fid fh fh' hf
    cases hf with
    | nil => exact Fwd.ok .nil
    | cons h1 h2 => exact Fwd.ok (.cons h1 h2)
  | cons hx _ ih =>
    intro fid fh fh' hf
    cases hf with
    | nil => exact Fwd.err
    | cons h1 h2 =>
      unfold zeroFixNode
      refine Fwd.bind (Fwd.refl _) fun en en' hen => ?_
      subst hen
      refine Fwd.bind (R := List.Forall₂ (CellRel R Z)) ?_ fun bs bs' hbs => ?_
      · unfold zeroFixIf
        cases en with
        | false => exact Fwd.ok h1
        | true =>
          simp only [if_true]
          unfold zeroFix
          cases sparse.get? fid with
          | none => exact Fwd.err
          | some sp =>
            refine Fwd.bind (subCell_fwd h hs hx) fun d d' hd => ?_
            exact updAt_fwd (fun _ _ hc => addCell_fwd h hd hc) h1 sp
      · exact Fwd.bind (ih (fid + 1) h2) fun r r' hr => Fwd.ok (.cons hbs hr)

theorem zeroFixAll_fwd (h : ArithRel R Z A B) (valid : Option (List Bool)) (sparse : Dict Nat Nat)
    {ss : List (HCell α)} {ss' : List (HCell β)} (hs : List.Forall₂ (CellRel R Z) ss ss') :
    ∀ {zs : List (List (HCell α))} {zs' : List (List (HCell β))} {hi : Hist α} {hi' : Hist β},
    List.Forall₂ (List.Forall₂ (CellRel R Z)) zs zs' → HistRel R Z hi hi' →
    Fwd (HistRel R Z) (zeroFixAll A valid sparse ss zs hi) (zeroFixAll B valid sparse ss' zs' hi') := by
  induction hs with
  | nil =>
    intro zs zs' hi hi' _ hh
    unfold zeroFixAll
    exact Fwd.ok hh
  | cons hx _ ih =>
    intro zs zs' hi hi' hz hh
    cases hz with
    | nil => exact Fwd.err
    | cons hz1 hz2 =>
      cases hh with
      | nil => exact Fwd.err
      | cons hh1 hh2 =>
        unfold zeroFixAll
        refine Fwd.bind (zeroFixNode_fwd h valid sparse hx hz1 0 hh1) fun f f' hf => ?_
        exact Fwd.bind (ih hz2 hh2) fun r r' hr => Fwd.ok (.cons hf hr)

theorem batch_fwd (h : ArithRel R Z A B) (splits : List (List Rat)) (sparse : Dict Nat Nat)
    (valid : Option (List Bool)) (nodeMap : Dict Nat Nat)
    {l : List ((SparseVec Cell × Nat × Nat) × α × α)} {l' : List ((SparseVec Cell × Nat × Nat) × β × β)}
    (hl : List.Forall₂ (fun a b => a.1 = b.1 ∧ R a.2.1 b.2.1 ∧ R a.2.2 b.2.2 ∧ ¬ Z a.2.1 ∧ ¬ Z a.2.2) l l') :
    Fwd (HistRel R Z) (batch A splits sparse valid nodeMap l) (batch B splits sparse valid nodeMap l') := by
  unfold batch
  refine Fwd.bind (template_fwd h valid 0 splits) fun t t' ht => ?_
  simp only
  split
  · exact Fwd.err
  · refine Fwd.bind (recordLoop_fwd h valid nodeMap (collectRecords_rel nodeMap hl)
      ⟨forall₂_replicate ht _, forall₂_replicate (forall₂_replicate (zeroCell_rel h) _) _,
        forall₂_replicate (zeroCell_rel h) _⟩) fun a a' ha => ?_
    exact zeroFixAll_fwd h valid sparse ha.ns ha.zo ha.hist

theorem accBins_fwd (h : ArithRel R Z A B) {l : List (HCell α)} {l' : List (HCell β)}
    (hl : List.Forall₂ (CellRel R Z) l l') : ∀ {p : HCell α} {p' : HCell β}, CellRel R Z p p' →
    Fwd (List.Forall₂ (CellRel R Z)) (accBins A p l) (accBins B p' l') := by
  induction hl with
  | nil => intro p p' _; exact Fwd.ok .nil
  | cons hx _ ih =>
    intro p p' hp
    unfold accBins
    refine Fwd.bind (addCell_fwd h hp hx) fun c c' hc => ?_
    exact Fwd.bind (ih hc) fun r r' hr => Fwd.ok (.cons hc hr)

theorem accFeature_fwd (h : ArithRel R Z A B) {l : List (HCell α)} {l' : List (HCell β)}
    (hl : List.Forall₂ (CellRel R Z) l l') :
    Fwd (List.Forall₂ (CellRel R Z)) (accFeature A l) (accFeature B l') := by
  cases hl with
  | nil => exact Fwd.ok .nil
  | cons hx hxs =>
    unfold accFeature
    exact Fwd.bind (accBins_fwd h hxs hx) fun r r' hr => Fwd.ok (.cons hx hr)

theorem forEach_fwd {γ γ' δ δ' : Type} {S : γ → δ → Prop} {T : γ' → δ' → Prop}
    {f : γ → Except PyErr γ'} {g : δ → Except PyErr δ'} (hf : ∀ a b, S a b → Fwd T (f a) (g b))
    {l : List γ} {l' : List δ} (hl : List.Forall₂ S l l') :
    Fwd (List.Forall₂ T) (forEach f l) (forEach g l') := by
  induction hl with
  | nil => exact Fwd.ok .nil
  | cons hx _ ih =>
    unfold forEach
    refine Fwd.bind (hf _ _ hx) fun y y' hy => ?_
    exact Fwd.bind ih fun r r' hr => Fwd.ok (.cons hy hr)

theorem accumulate_fwd (h : ArithRel R Z A B) {H : Hist α} {H' : Hist β} (hh : HistRel R Z H H') :
    Fwd (HistRel R Z) (accumulate A H) (accumulate B H') :=
  forEach_fwd (fun _ _ h1 => forEach_fwd (fun _ _ h2 => accFeature_fwd h h2) h1) hh

variable {K : Type} [DecidableEq K]

theorem joinLoop_rel (d : Dict K (SparseVec Cell × Nat × Nat)) {g : List (K × α × α)}
    {g' : List (K × β × β)}
    (h : List.Forall₂ (fun a b => a.1 = b.1 ∧ R a.2.1 b.2.1 ∧ R a.2.2 b.2.2 ∧ ¬ Z a.2.1 ∧ ¬ Z a.2.2) g g') :
    List.Forall₂ (fun a b => a.1 = b.1 ∧ R a.2.1 b.2.1 ∧ R a.2.2 b.2.2 ∧ ¬ Z a.2.1 ∧ ¬ Z a.2.2)
      (Dict.values (DTable.joinLoop d (fun v w => (v, w)) g))
      (Dict.values (DTable.joinLoop d (fun v w => (v, w)) g')) := by
  induction h with
  | nil => exact .nil
  | @cons a b g g' hx _ ih =>
    obtain ⟨k, w⟩ := a
    obtain ⟨k', w'⟩ := b
    obtain ⟨rfl, h2, h3⟩ := hx
    unfold DTable.joinLoop
    simp only
    cases d.get? k with
    | none => exact ih
    | some v => exact .cons ⟨rfl, h2, h3⟩ ih

theorem getHistograms_fwd (h : ArithRel R Z A B) (splits : List (List Rat)) (sparse : Dict Nat Nat)
    (valid : Option (List Bool)) (ids : List Nat) (data : DTable K (SparseVec Cell × Nat × Nat))
    {gh : DTable K (α × α)} {gh' : DTable K (β × β)} (h1 : gh.WF) (h2 : gh'.WF)
    (hg : List.Forall₂ (fun a b => a.1 = b.1 ∧ R a.2.1 b.2.1 ∧ R a.2.2 b.2.2 ∧ ¬ Z a.2.1 ∧ ¬ Z a.2.2) gh.data gh'.data) :
    Fwd (HistRel R Z) (getHistograms A splits sparse valid ids data gh)
      (getHistograms B splits sparse valid ids data gh') := by
  unfold getHistograms
  refine Fwd.bind (R := HistRel R Z) ?_ fun H H' hH => accumulate_fwd h hH
  unfold calculate
  rw [DTable.join_ok data h1, DTable.join_ok data h2]
  exact batch_fwd h splits sparse valid (nodeMapOf ids) (joinLoop_rel data.data hg)

end Histogram
end Verif
