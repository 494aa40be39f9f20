import Verif.Spec.C73
import Verif.Model.Fit

/-! # Names of samples and hosts do not matter -/

set_option autoImplicit false

namespace Verif

open Spec

section Tables

variable {K K' : Type} [DecidableEq K] [DecidableEq K'] {V V' W W' X X' : Type} {κ : K → K'}

/-- Sequencing commutes with translation. -/
theorem bind_ren {ε A A' B B' : Type} {x : Except ε A} {x' : Except ε A'} {r : A → A'}
    {f : A → Except ε B} {f' : A' → Except ε B'} {s : B → B'} (hx : x' = x.map r)
    (hf : ∀ a, f' (r a) = (f a).map s) : (x' >>= f') = (x >>= f).map s := by
  subst hx
  cases x with
  | error e => rfl
  | ok a => exact hf a

theorem Dict.get?_ren (hκ : Function.Injective κ) (f : V → W) (d : Dict K V) (k : K) :
    Dict.get? (d.map fun p => (κ p.1, f p.2)) (κ k) = (d.get? k).map f := by
  induction d with
  | nil => rfl
  | cons p d ih =>
    obtain ⟨a, v⟩ := p
    simp only [List.map_cons, Dict.get?]
    by_cases h : a = k
    · rw [if_pos h, if_pos (congrArg κ h)]; rfl
    · rw [if_neg h, if_neg (fun h' => h (hκ h'))]; exact ih

theorem Dict.has_ren (hκ : Function.Injective κ) (f : V → W) (d : Dict K V) (k : K) :
    Dict.has (d.map fun p => (κ p.1, f p.2)) (κ k) = d.has k := by
  unfold Dict.has
  rw [Dict.get?_ren hκ]
  cases d.get? k <;> rfl

theorem Dict.set_ren (hκ : Function.Injective κ) (f : V → W) (d : Dict K V) (k : K) (v : V) :
    Dict.set (d.map fun p => (κ p.1, f p.2)) (κ k) (f v) =
      (d.set k v).map fun p => (κ p.1, f p.2) := by
  induction d with
  | nil => rfl
  | cons p d ih =>
    obtain ⟨a, w⟩ := p
    simp only [List.map_cons, Dict.set]
    by_cases h : a = k
    · rw [if_pos h, if_pos (congrArg κ h)]; rfl
    · rw [if_neg h, if_neg (fun h' => h (hκ h')), ih]; rfl

namespace DTable

theorem ofPairs_ren (hκ : Function.Injective κ) (f : V → W) (ps : List (K × V)) :
    ofPairs (ps.map fun p => (κ p.1, f p.2)) = (ofPairs ps).map (renTable κ f) := by
  have key : ∀ (ps : List (K × V)) (acc : Dict K V),
      ctorLoop (acc.map fun p => (κ p.1, f p.2))
        ((ps.map fun p => (κ p.1, f p.2)).map fun p => Item.pair p.1 p.2) =
      (ctorLoop acc (ps.map fun p => Item.pair p.1 p.2)).map (List.map fun p => (κ p.1, f p.2)) := by
    intro ps
    induction ps with
    | nil => intro acc; rfl
    | cons p ps ih =>
      intro acc
      obtain ⟨a, v⟩ := p
      simp only [List.map_cons, ctorLoop]
      rw [Dict.has_ren hκ]
      by_cases h : acc.has a = true
      · rw [if_pos h, if_pos h]; rfl
      · rw [if_neg h, if_neg h, Dict.set_ren hκ, ih]
  unfold ofPairs ofItems
  simp only
  have := key ps []
  simp only [List.map_nil] at this
  rw [this]
  cases ctorLoop [] (ps.map fun p => Item.pair p.1 p.2) <;> rfl

omit [DecidableEq K] [DecidableEq K'] in
theorem evalRecords_ren {fv : V → V'} {fw : W → W'} {f : V → Except PyErr W}
    {f' : V' → Except PyErr W'} (h : ∀ v, f' (fv v) = (f v).map fw) (l : List (K × V)) :
    evalRecords f' (l.map fun p => (κ p.1, fv p.2)) =
      (evalRecords f l).map (List.map fun p => (κ p.1, fw p.2)) := by
  induction l with
  | nil => rfl
  | cons p l ih =>
    obtain ⟨a, v⟩ := p
    simp only [List.map_cons, evalRecords]
    rw [h, ih]
    cases f v with
    | error e => rfl
    | ok w =>
      cases evalRecords f l with
      | error e => rfl
      | ok ws => rfl

theorem mapValuesM_ren (hκ : Function.Injective κ) {fv : V → V'} {fw : W → W'}
    {f : V → Except PyErr W} {f' : V' → Except PyErr W'} (h : ∀ v, f' (fv v) = (f v).map fw)
    (t : DTable K V) : (renTable κ fv t).mapValuesM f' = (t.mapValuesM f).map (renTable κ fw) := by
  unfold mapValuesM renTable
  simp only
  rw [evalRecords_ren h]
  cases evalRecords f t.data with
  | error e => rfl
  | ok l => exact ofPairs_ren hκ fw l

theorem mapValues_ren (hκ : Function.Injective κ) {fv : V → V'} {fw : W → W'}
    {f : V → W} {f' : V' → W'} (h : ∀ v, f' (fv v) = fw (f v)) (t : DTable K V) :
    (renTable κ fv t).mapValues f' = (t.mapValues f).map (renTable κ fw) := by
  unfold mapValues
  rw [show (renTable κ fv t).data.map (fun p => (p.1, f' p.2)) =
      (t.data.map fun p => (p.1, f p.2)).map fun p => (κ p.1, fw p.2) by
    unfold renTable; simp [List.map_map, Function.comp_def, h]]
  exact ofPairs_ren hκ fw _

theorem filter_ren (hκ : Function.Injective κ) {fv : V → V'} {p : V → Bool} {p' : V' → Bool}
    (h : ∀ v, p' (fv v) = p v) (t : DTable K V) :
    (renTable κ fv t).filter (fun _ v => p' v) = (t.filter (fun _ v => p v)).map (renTable κ fv) := by
  unfold filter renTable
  simp only [List.filter_map]
  have : ((fun q : K' × V' => p' q.2 == true) ∘ fun q : K × V => (κ q.1, fv q.2)) =
      fun q : K × V => p q.2 == true := by
    funext q; simp [h]
  rw [this]
  exact ofPairs_ren hκ fv _

theorem subtractByKey_ren (hκ : Function.Injective κ) (fv : V → V') (fw : W → W') (t : DTable K V)
    (o : DTable K W) : (renTable κ fv t).subtractByKey (renTable κ fw o) =
      (t.subtractByKey o).map (renTable κ fv) := by
  unfold subtractByKey renTable
  simp only [List.filter_map]
  have : ((fun q : K' × V' => !Dict.has (o.data.map fun p => (κ p.1, fw p.2)) q.1) ∘
      fun q : K × V => (κ q.1, fv q.2)) = fun q : K × V => !o.data.has q.1 := by
    funext q; simp only [Function.comp_def]; rw [Dict.has_ren hκ]
  rw [this]
  exact ofPairs_ren hκ fv _

theorem joinLoop_ren (hκ : Function.Injective κ) {fv : V → V'} {fw : W → W'} {fx : X → X'}
    {f : V → W → X} {f' : V' → W' → X'} (h : ∀ v w, f' (fv v) (fw w) = fx (f v w))
    (d : Dict K V) (l : List (K × W)) :
    joinLoop (d.map fun p => (κ p.1, fv p.2)) f' (l.map fun p => (κ p.1, fw p.2)) =
      (joinLoop d f l).map fun p => (κ p.1, fx p.2) := by
  induction l with
  | nil => rfl
  | cons p l ih =>
    obtain ⟨a, w⟩ := p
    simp only [List.map_cons, joinLoop]
    rw [Dict.get?_ren hκ]
    cases hd : d.get? a with
    | none => simpa [hd] using ih
    | some v => simp [ih, h]

theorem join_ren (hκ : Function.Injective κ) {fv : V → V'} {fw : W → W'} {fx : X → X'}
    {f : V → W → X} {f' : V' → W' → X'} (h : ∀ v w, f' (fv v) (fw w) = fx (f v w))
    (t : DTable K V) (o : DTable K W) :
    (renTable κ fv t).join (renTable κ fw o) f' = (t.join o f).map (renTable κ fx) := by
  unfold join
  rw [show joinLoop (renTable κ fv t).data f' (renTable κ fw o).data = _ from
    joinLoop_ren hκ h t.data o.data]
  exact ofPairs_ren hκ fx _

theorem joinM_ren (hκ : Function.Injective κ) {fv : V → V'} {fw : W → W'} {fx : X → X'}
    {f : V → W → Except PyErr X} {f' : V' → W' → Except PyErr X'}
    (h : ∀ v w, f' (fv v) (fw w) = (f v w).map fx) (t : DTable K V) (o : DTable K W) :
    (renTable κ fv t).joinM (renTable κ fw o) f' = (t.joinM o f).map (renTable κ fx) := by
  unfold joinM
  rw [show joinLoop (renTable κ fv t).data Prod.mk (renTable κ fw o).data = _ from
    joinLoop_ren hκ (fx := fun p : V × W => (fv p.1, fw p.2)) (f := Prod.mk) (fun _ _ => rfl)
      t.data o.data]
  rw [evalRecords_ren (fv := fun p : V × W => (fv p.1, fw p.2)) (fw := fx)
    (f := fun p : V × W => f p.1 p.2) (f' := fun p => f' p.1 p.2) (fun p => h p.1 p.2)]
  cases evalRecords (fun p : V × W => f p.1 p.2) (joinLoop t.data Prod.mk o.data) with
  | error e => rfl
  | ok l => exact ofPairs_ren hκ fx l

theorem union_ren (hκ : Function.Injective κ) (fv : V → V') (t o : DTable K V) :
    (renTable κ fv t).union (renTable κ fv o) = (t.union o).map (renTable κ fv) := by
  have key : ∀ (l : List (K × V)) (acc : Dict K V),
      unionLoop (fun v _ => v) (acc.map fun p => (κ p.1, fv p.2)) (l.map fun p => (κ p.1, fv p.2)) =
        (unionLoop (fun v _ => v) acc l).map fun p => (κ p.1, fv p.2) := by
    intro l
    induction l with
    | nil => intro acc; rfl
    | cons p l ih =>
      intro acc
      obtain ⟨a, v⟩ := p
      simp only [List.map_cons, unionLoop]
      rw [Dict.get?_ren hκ]
      cases acc.get? a with
      | none => simp only [Option.map_none, Dict.set_ren hκ, ih]
      | some old => simp only [Option.map_some, Dict.set_ren hκ, ih]
  unfold union
  rw [show unionLoop (fun v _ => v) (renTable κ fv t).data (renTable κ fv o).data = _ from
    key o.data t.data]
  exact ofPairs_ren hκ fv _

end DTable

omit [DecidableEq K] [DecidableEq K'] in
theorem values_ren (κ : K → K') (f : V → W) (t : DTable K V) :
    (renTable κ f t).data.values = t.data.values.map f := by
  unfold renTable Dict.values
  simp [List.map_map, Function.comp_def]

end Tables

namespace DTree

open Histogram (HCell Hist getHistograms)
open Binning (Cell SparseVec)

variable {K K' : Type} [DecidableEq K] [DecidableEq K'] {α γ : Type} {σ : Nat → Nat} {κ : K → K'}

theorem renSite_inj (hσ : Function.Injective σ) : Function.Injective (renSite σ) := by
  intro a b h
  cases a <;> cases b <;> simp only [renSite, reduceCtorEq, Site.host.injEq] at h ⊢
  exact hσ h

/-- A split under the new names. -/
def renSplit {β : Type} (σ : Nat → Nat) (s : SplitInfo β γ) : SplitInfo β γ :=
  { s with site := renSite σ s.site }

/-! ### Choosing a split -/

theorem binLoopHost_ren (cfg : Config) (site : Site) (fid : Nat) (tot : HCell α) :
    ∀ (bid : Nat) (cs : List (HCell α)), binLoopHost cfg (renSite σ site) fid tot bid cs =
      (binLoopHost cfg site fid tot bid cs).map (renSplit σ)
  | _, [] => rfl
  | bid, c :: cs => by
    unfold binLoopHost
    rw [binLoopHost_ren cfg site fid tot (bid + 1) cs]
    split <;> rfl

theorem featLoopHost_ren (cfg : Config) (valid : List Bool) (site : Site) :
    ∀ (fid : Nat) (h : List (List (HCell α))), featLoopHost cfg valid (renSite σ site) fid h =
      (featLoopHost cfg valid site fid h).map (List.map (renSplit σ))
  | _, [] => rfl
  | fid, bins :: rest => by
    unfold featLoopHost
    rw [featLoopHost_ren cfg valid site (fid + 1) rest]
    cases Histogram.getAt valid fid with
    | error e => rfl
    | ok b =>
      cases b with
      | false => rfl
      | true =>
        simp only
        cases bins.getLast? with
        | none => rfl
        | some tot =>
          simp only
          split
          · rfl
          · cases featLoopHost cfg valid site (fid + 1) rest with
            | error e => rfl
            | ok more =>
              show Except.ok _ = Except.ok _
              rw [binLoopHost_ren]; simp

theorem evalList_ren {A B B' : Type} {f : A → Except PyErr B} {f' : A → Except PyErr B'} {r : B → B'}
    (h : ∀ a, f' a = (f a).map r) : ∀ l : List A, evalList f' l = (evalList f l).map (List.map r)
  | [] => rfl
  | a :: l => by
    unfold evalList
    rw [h, evalList_ren h l]
    cases f a with
    | error e => rfl
    | ok b =>
      cases evalList f l with
      | error e => rfl
      | ok bs => rfl

theorem findSplitHost_ren (cfg : Config) (valid : List Bool) (site : Site) (hists : Hist α) :
    findSplitHost cfg valid (renSite σ site) hists =
      (findSplitHost cfg valid site hists).map fun r => (r.1.map (List.map (renSplit σ)), r.2) := by
  unfold findSplitHost
  have h1 : ∀ h : List (List (HCell α)), findSplitSingleHost cfg valid (renSite σ site) h =
      (findSplitSingleHost cfg valid site h).map fun r => (r.1.map (renSplit σ), r.2) := by
    intro h
    unfold findSplitSingleHost
    rw [featLoopHost_ren]
    cases featLoopHost cfg valid site 0 h with
    | error e => rfl
    | ok cs =>
      show Except.ok _ = Except.ok _
      simp [List.map_map, Function.comp_def, renSplit]
  rw [evalList_ren h1]
  cases evalList (findSplitSingleHost cfg valid site) hists with
  | error e => rfl
  | ok rs =>
    show Except.ok _ = Except.ok _
    simp [List.map_map, Function.comp_def]

theorem getAt_map {A B : Type} (f : A → B) (l : List A) (i : Nat) :
    Histogram.getAt (l.map f) i = (Histogram.getAt l i).map f := by
  unfold Histogram.getAt
  rw [List.getElem?_map]
  cases l[i]? <;> rfl

theorem getAtInt_map {A B : Type} (f : A → B) (l : List A) (i : Int) :
    getAtInt (l.map f) i = (getAtInt l i).map f := by
  unfold getAtInt
  rw [List.length_map]
  split
  · exact getAt_map f l _
  · split
    · exact getAt_map f l _
    · rfl

theorem finalSplit_ren (hσ : Function.Injective σ) (C : Cipher α) (site : Site) (mask : Dict Nat Int)
    (nid : Nat) (cands : List (SplitInfo α Unit)) (best : Int × α) :
    finalSplit C (renSite σ site) mask nid (cands.map (renSplit σ)) best =
      (finalSplit C site mask nid cands best).map fun r => (renSplit σ r.1, r.2) := by
  unfold finalSplit
  split
  · rw [getAtInt_map]
    cases getAtInt cands best.1 with
    | error e => rfl
    | ok s =>
      simp only [Except.map]
      by_cases hs : s.site = site
      · rw [if_neg (by simp [renSplit, hs]), if_neg (by simp [hs])]
        cases hf : s.fid with
        | none => simp [renSplit, hf]
        | some f =>
          cases hb : s.bid with
          | none => simp [renSplit, hf, hb]
          | some b => simp [renSplit, hf, hb]
      · have hs' : (renSplit σ s).site ≠ renSite σ site := fun h => hs (renSite_inj hσ h)
        rw [if_pos hs', if_pos hs]
  · rfl

theorem finalSplits_ren (hσ : Function.Injective σ) (C : Cipher α) (site : Site) :
    ∀ (cs : List (List (SplitInfo α Unit))) (mask : Dict Nat Int) (ids : List Nat)
      (bs : List (Int × α)),
      finalSplits C (renSite σ site) mask ids (cs.map (List.map (renSplit σ))) bs =
        (finalSplits C site mask ids cs bs).map fun r => (r.1.map (renSplit σ), r.2)
  | [], mask, ids, bs => by simp [finalSplits, Except.map]
  | c :: cs, mask, ids, [] => by simp [finalSplits, Except.map]
  | c :: cs, mask, [], b :: bs => by simp [finalSplits, Except.map]
  | c :: cs, mask, nid :: ids, b :: bs => by
    simp only [List.map_cons, finalSplits]
    rw [finalSplit_ren hσ]
    cases finalSplit C site mask nid c b with
    | error e => rfl
    | ok r =>
      simp only [Except.map, bind, Except.bind]
      rw [finalSplits_ren hσ C site cs r.2 ids bs]
      cases finalSplits C site r.2 ids cs bs with
      | error e => rfl
      | ok q => rfl

/-- A host's side under the new names. -/
def renSide (σ : Nat → Nat) (H : HostSide α) : HostSide α := { H with idx := σ H.idx }

theorem hostBatch_ren (hσ : Function.Injective σ) (cfg : Config) (C : Cipher α) (ids : List Nat)
    (sums : List (Rat × Rat)) (j : Nat) (H : HostSide α) :
    hostBatch cfg C ids sums j (renSide σ H) =
      (hostBatch cfg C ids sums j H).map fun r => (r.1.map (renSplit σ), r.2) := by
  unfold hostBatch renSide
  simp only
  rw [show Site.host (σ H.idx) = renSite σ (.host H.idx) from rfl, findSplitHost_ren]
  cases findSplitHost cfg H.valid (.host H.idx) H.hists with
  | error e => rfl
  | ok r =>
    simp only [Except.map, bind, Except.bind]
    cases bestForHost cfg C j 0 sums r.2 with
    | error e => rfl
    | ok bs => exact finalSplits_ren hσ C _ _ _ _ _

theorem hostsBatch_ren (hσ : Function.Injective σ) (cfg : Config) (C : Cipher α) (ids : List Nat)
    (sums : List (Rat × Rat)) : ∀ (j : Nat) (Hs : List (HostSide α)),
    hostsBatch cfg C ids sums j (Hs.map (renSide σ)) =
      (hostsBatch cfg C ids sums j Hs).map (List.map fun r => (r.1.map (renSplit σ), r.2))
  | _, [] => rfl
  | j, H :: Hs => by
    simp only [List.map_cons, hostsBatch]
    rw [hostBatch_ren hσ, hostsBatch_ren hσ cfg C ids sums (j + 1) Hs]
    cases hostBatch cfg C ids sums j H with
    | error e => rfl
    | ok r =>
      cases hostsBatch cfg C ids sums (j + 1) Hs with
      | error e => rfl
      | ok rs => rfl

theorem bestHost_ren (C : Cipher α) : ∀ (ss : List (SplitInfo α α)) (best : Rat × SplitInfo α α),
    bestHost C (ss.map (renSplit σ)) (best.1, renSplit σ best.2) =
      (bestHost C ss best).map fun r => (r.1, renSplit σ r.2)
  | [], best => rfl
  | s :: ss, best => by
    simp only [List.map_cons, bestHost]
    have hg : (renSplit σ s).gain = s.gain := rfl
    rw [hg]
    cases C.dec s.gain with
    | error e => rfl
    | ok gain =>
      simp only
      split
      · exact bestHost_ren C ss (gain, s)
      · exact bestHost_ren C ss best

theorem findBestGuestHost_ren (rnd : Rat → Rat) (C : Cipher α) (g : SplitInfo (Option Rat) Rat)
    (hg : g.site = .guest) (hosts : List (SplitInfo α α)) :
    findBestGuestHost rnd C g (hosts.map (renSplit σ)) =
      (findBestGuestHost rnd C g hosts).map (renSplit σ) := by
  have hg' : renSplit σ g = g := by
    cases g; simp only at hg; subst hg; rfl
  cases hosts with
  | nil => rfl
  | cons s ss =>
    simp only [List.map_cons, findBestGuestHost]
    have e1 : (renSplit σ s).gain = s.gain := rfl
    rw [e1]
    cases C.dec s.gain with
    | error e => rfl
    | ok gain =>
      simp only
      have := bestHost_ren (σ := σ) C (s :: ss) (gain, s)
      simp only [List.map_cons] at this
      rw [this]
      cases bestHost C (s :: ss) (gain, s) with
      | error e => rfl
      | ok r =>
        obtain ⟨bg, b⟩ := r
        simp only [Except.map]
        split
        · show Except.ok g = Except.ok (renSplit σ g)
          rw [hg']
        · have e2 : (renSplit σ b).sumGrad = b.sumGrad := rfl
          have e3 : (renSplit σ b).sumHess = b.sumHess := rfl
          rw [e2, e3]
          cases C.dec b.sumGrad with
          | error e => rfl
          | ok x =>
            simp only
            cases C.dec b.sumHess with
            | error e => rfl
            | ok y => rfl

theorem column_ren (hosts : List (List (SplitInfo α α))) (i : Nat) :
    column (hosts.map (List.map (renSplit σ))) i =
      (column hosts i).map (List.map (renSplit σ)) := by
  unfold column
  induction hosts with
  | nil => rfl
  | cons l hosts ih =>
    simp only [List.map_cons, evalList]
    rw [getAt_map, ih]
    cases Histogram.getAt l i with
    | error e => rfl
    | ok x =>
      cases evalList (fun l => Histogram.getAt l i) hosts with
      | error e => rfl
      | ok xs => rfl

theorem mergeLoop_ren (rnd : Rat → Rat) (C : Cipher α) (hosts : List (List (SplitInfo α α))) :
    ∀ (i : Nat) (gs : List (SplitInfo (Option Rat) Rat)), (∀ g ∈ gs, g.site = .guest) →
    mergeLoop rnd C (hosts.map (List.map (renSplit σ))) i gs =
      (mergeLoop rnd C hosts i gs).map (List.map (renSplit σ))
  | _, [], _ => rfl
  | i, g :: gs, hg => by
    simp only [mergeLoop]
    rw [column_ren, mergeLoop_ren rnd C hosts (i + 1) gs (fun g h => hg g (by simp [h]))]
    cases column hosts i with
    | error e => rfl
    | ok col =>
      simp only [Except.map, bind, Except.bind]
      rw [findBestGuestHost_ren rnd C g (hg g (by simp)) col]
      cases findBestGuestHost rnd C g col with
      | error e => rfl
      | ok b =>
        simp only [Except.map]
        cases mergeLoop rnd C hosts (i + 1) gs with
        | error e => rfl
        | ok bs => rfl

theorem findSplit_guest {cfg : Config} {valid : List Bool} :
    ∀ {hists : Hist Rat} {gs : List (SplitInfo (Option Rat) Rat)}, findSplit cfg valid hists = .ok gs →
      ∀ g ∈ gs, g.site = .guest := by
  intro hists
  induction hists with
  | nil => intro gs h; cases h; simp
  | cons x hists ih =>
    intro gs h
    unfold findSplit evalList at h
    simp only [bind, Except.bind] at h
    split at h; · cases h
    rename_i y hy
    split at h; · cases h
    rename_i ys hys
    cases h
    intro g hg
    rcases List.mem_cons.mp hg with rfl | hg
    · unfold findSplitSingleGuest at hy
      simp only [bind, Except.bind] at hy
      split at hy; · cases hy
      cases hy; rfl
    · exact ih hys g hg

theorem splitBatch_ren (hσ : Function.Injective σ) (cfg : Config) (C : Cipher α) (ids : List Nat)
    (sums : List (Rat × Rat)) (valid : List Bool) (hists : Hist Rat) (hosts : List (HostSide α)) :
    splitBatch cfg C ids sums valid hists (hosts.map (renSide σ)) =
      (splitBatch cfg C ids sums valid hists hosts).map fun r => (r.1.map (renSplit σ), r.2) := by
  unfold splitBatch
  rw [hostsBatch_ren hσ]
  cases hgs : findSplit cfg valid hists with
  | error e => rfl
  | ok gs =>
    simp only [bind, Except.bind]
    cases hostsBatch cfg C ids sums 0 hosts with
    | error e => rfl
    | ok rs =>
      simp only [Except.map]
      rw [show (rs.map fun r => (r.1.map (renSplit σ), r.2)).map Prod.fst =
        (rs.map Prod.fst).map (List.map (renSplit σ)) by simp [List.map_map, Function.comp_def],
        mergeLoop_ren cfg.rnd C _ 0 gs (findSplit_guest hgs)]
      cases mergeLoop cfg.rnd C (rs.map Prod.fst) 0 gs with
      | error e => rfl
      | ok b =>
        show Except.ok _ = Except.ok _
        simp [List.map_map, Function.comp_def]

/-! ### Histograms -/

theorem getHistograms_ren (hκ : Function.Injective κ) (A : Histogram.Arith α) (splits : List (List Rat))
    (sparse : Dict Nat Nat) (valid : Option (List Bool)) (ids : List Nat)
    (data : DTable K (SparseVec Cell × Nat × Nat)) (gh : DTable K (α × α)) :
    getHistograms A splits sparse valid ids (renTable κ id data) (renTable κ id gh) =
      getHistograms A splits sparse valid ids data gh := by
  have hc : ∀ m, Histogram.calculate A splits sparse valid m (renTable κ id data) (renTable κ id gh) =
      Histogram.calculate A splits sparse valid m data gh := by
    intro m
    unfold Histogram.calculate
    rw [DTable.join_ren hκ (fv := id) (fw := id) (fx := id) (f := fun v w => (v, w))
      (f' := fun v w => (v, w)) (fun _ _ => rfl)]
    cases data.join gh (fun v w => (v, w)) with
    | error e => rfl
    | ok t =>
      simp only [Except.map, bind, Except.bind]
      rw [values_ren, List.map_id]
  unfold getHistograms
  simp only [hc]

theorem hostSides_ren (hκ : Function.Injective κ) (S : Setup K α) (pos : DTable K (Nat × Nat))
    (ids : List Nat) : ∀ (Hs : List (Party K)) (ms : List (Dict Nat Int)),
    hostSides (renSetup σ κ S) (renTable κ id pos) ids (Hs.map (renParty σ κ)) ms =
      (hostSides S pos ids Hs ms).map (List.map (renSide σ))
  | [], _ => rfl
  | _ :: _, [] => rfl
  | H :: Hs, m :: ms => by
    simp only [List.map_cons, hostSides]
    have e1 : (renParty σ κ H).data = renTable κ id H.data := rfl
    have e2 : (renSetup σ κ S).encGh = renTable κ id S.encGh := rfl
    rw [e1, e2, DTable.join_ren hκ (fv := id) (fw := id) (fx := id) (f := fun v p => (v, p))
      (f' := fun v p => (v, p)) (fun _ _ => rfl)]
    have ih := hostSides_ren hκ S pos ids Hs ms
    refine bind_ren (r := renTable κ id) rfl fun data => ?_
    refine bind_ren (r := id) ?_ fun E => ?_
    · rw [getHistograms_ren hκ]
      show getHistograms S.arith H.splits H.sparse (some H.valid) ids data S.encGh = _
      cases getHistograms S.arith H.splits H.sparse (some H.valid) ids data S.encGh <;> rfl
    refine bind_ren (r := List.map (renSide σ)) ih fun rest => ?_
    rfl

theorem renNode_map (f : Node → γ) (h : ∀ n, f (renNode σ n) = f n) (l : List Node) :
    (l.map (renNode σ)).map f = l.map f := by
  simp [List.map_map, Function.comp_def, h]

theorem batchSplits_ren (hσ : Function.Injective σ) (hκ : Function.Injective κ) (S : Setup K α)
    (dep batch : Nat) (dataPos : DTable K (SparseVec Cell × Nat × Nat)) (pos : DTable K (Nat × Nat))
    (nodes : List Node) (masks : List (Dict Nat Int)) :
    batchSplits (renSetup σ κ S) dep batch (renTable κ id dataPos) (renTable κ id pos)
      (nodes.map (renNode σ)) masks =
      (batchSplits S dep batch dataPos pos nodes masks).map fun r => (r.1.map (renSplit σ), r.2) := by
  unfold batchSplits
  rw [renNode_map Node.id (fun _ => rfl), renNode_map (fun n => (n.sumGrad, n.sumHess)) (fun _ => rfl)]
  refine bind_ren (r := id) ?_ fun E => ?_
  · have := getHistograms_ren hκ (Histogram.floats S.cfg.rnd) S.guest.splits S.guest.sparse
      (some S.guest.valid) (nodes.map Node.id) dataPos S.gh
    refine Eq.trans this ?_
    cases getHistograms (Histogram.floats S.cfg.rnd) S.guest.splits S.guest.sparse
      (some S.guest.valid) (nodes.map Node.id) dataPos S.gh <;> rfl
  refine bind_ren (r := List.map (renSide σ)) (hostSides_ren hκ S pos _ S.hosts masks) fun hs => ?_
  exact splitBatch_ren hσ S.cfg (S.cipher dep batch) _ _ _ _ hs

theorem batchLoop_ren (hσ : Function.Injective σ) (hκ : Function.Injective κ) (S : Setup K α)
    (dep : Nat) (dataPos : DTable K (SparseVec Cell × Nat × Nat)) (pos : DTable K (Nat × Nat)) :
    ∀ (fuel batch : Nat) (nodes : List Node) (masks : List (Dict Nat Int)),
    batchLoop (renSetup σ κ S) dep (renTable κ id dataPos) (renTable κ id pos) fuel batch
      (nodes.map (renNode σ)) masks =
      (batchLoop S dep dataPos pos fuel batch nodes masks).map fun r => (r.1.map (renSplit σ), r.2)
  | 0, _, [], _ => rfl
  | 0, _, _ :: _, _ => rfl
  | _ + 1, _, [], _ => rfl
  | fuel + 1, batch, n :: ns, masks => by
    have hb := batchSplits_ren hσ hκ S dep batch dataPos pos ((n :: ns).take S.maxSplitNodes) masks
    have hl := fun ms => batchLoop_ren hσ hκ S dep dataPos pos fuel (batch + 1)
      ((n :: ns).drop S.maxSplitNodes) ms
    rw [List.map_take] at hb
    simp only [List.map_drop] at hl
    simp only [List.map_cons, batchLoop] at hb hl ⊢
    have e : (renSetup σ κ S).maxSplitNodes = S.maxSplitNodes := rfl
    rw [e, hb]
    cases batchSplits S dep batch dataPos pos ((n :: ns).take S.maxSplitNodes) masks with
    | error e => rfl
    | ok r =>
      simp only [Except.map, bind, Except.bind]
      rw [hl]
      cases batchLoop S dep dataPos pos fuel (batch + 1) ((n :: ns).drop S.maxSplitNodes) r.2 with
      | error e => rfl
      | ok q =>
        show Except.ok _ = Except.ok _
        simp

/-! ### Growing -/

/-- The growing tree under the new names. -/
def renGrow (σ : Nat → Nat) (g : Grow) : Grow :=
  ⟨g.tree.map (renNode σ), g.queue.map (renNode σ), g.num, g.mask, renImps σ g.imps⟩

theorem renKey_inj (hσ : Function.Injective σ) :
    Function.Injective fun p : Site × Option Int => (renSite σ p.1, p.2) := by
  rintro ⟨a, b⟩ ⟨c, d⟩ h
  simp only [Prod.mk.injEq] at h
  rw [renSite_inj hσ h.1, h.2]

theorem updateImportance_ren (hσ : Function.Injective σ) (kind : ImpType)
    (s : SplitInfo (Option Rat) Rat) (imps : Dict (Site × Option Int) Rat) :
    updateImportance kind (renSplit σ s) (renImps σ imps) =
      (updateImportance kind s imps).map (renImps σ) := by
  have hget : Dict.get? (renImps σ imps) (renSite σ s.site, s.fid) = imps.get? (s.site, s.fid) := by
    have := Dict.get?_ren (renKey_inj hσ) (id : Rat → Rat) imps (s.site, s.fid)
    simpa [renImps] using this
  have hset : ∀ v, Dict.set (renImps σ imps) (renSite σ s.site, s.fid) v =
      renImps σ (imps.set (s.site, s.fid) v) := by
    intro v
    exact Dict.set_ren (renKey_inj hσ) (id : Rat → Rat) imps (s.site, s.fid) v
  unfold updateImportance
  have e1 : (renSplit σ s).site = renSite σ s.site := rfl
  have e2 : (renSplit σ s).fid = s.fid := rfl
  have e3 : (renSplit σ s).gain = s.gain := rfl
  rw [e1, e2, e3, hget]
  cases kind with
  | split => simp only [hset]; rfl
  | gain => simp only [hset]; rfl
  | other => rfl

theorem splitNode_ren (hσ : Function.Injective σ) (rnd : Rat → Rat) (lam : Rat) (kind : ImpType)
    (n : Node) (s : SplitInfo (Option Rat) Rat) (g : Grow) :
    splitNode rnd lam kind (renNode σ n) (renSplit σ s) (renGrow σ g) =
      (splitNode rnd lam kind n s g).map (renGrow σ) := by
  unfold splitNode
  have e1 : (renSplit σ s).sumGrad = s.sumGrad := rfl
  have e2 : (renSplit σ s).sumHess = s.sumHess := rfl
  have e3 : (renGrow σ g).imps = renImps σ g.imps := rfl
  have e4 : (renSplit σ s).bid = s.bid := rfl
  rw [e1, e2, e3, e4, updateImportance_ren hσ]
  cases s.sumGrad with
  | none => rfl
  | some gl =>
    cases s.sumHess with
    | none => rfl
    | some hl =>
      simp only
      have n1 : (renNode σ n).sumGrad = n.sumGrad := rfl
      have n2 : (renNode σ n).sumHess = n.sumHess := rfl
      rw [n1, n2]
      simp only [bind, Except.bind]
      cases nodeWeight rnd lam gl hl with
      | error e => rfl
      | ok wl =>
        simp only
        cases nodeWeight rnd lam (rnd (n.sumGrad - gl)) (rnd (n.sumHess - hl)) with
        | error e => rfl
        | ok wr =>
          simp only
          cases hs : s.site with
          | guest =>
            have hs' : (renSplit σ s).site = .guest := by simp [renSplit, hs, renSite]
            rw [hs']
            cases hb : s.bid with
            | none => rfl
            | some b =>
              simp only
              cases updateImportance kind s g.imps with
              | error e => rfl
              | ok imps =>
                show Except.ok _ = Except.ok _
                simp [renGrow, renNode, renSplit, renSite, Node.fresh]
          | host j =>
            have hs' : (renSplit σ s).site = .host (σ j) := by simp [renSplit, hs, renSite]
            rw [hs']
            simp only
            cases updateImportance kind s g.imps with
            | error e => rfl
            | ok imps =>
              show Except.ok _ = Except.ok _
              simp [renGrow, renNode, renSplit, renSite, Node.fresh]

theorem updateLoop_ren (hσ : Function.Injective σ) (cfg : Config) (kind : ImpType) (reach : Bool) :
    ∀ (rem : List Node) (ss : List (SplitInfo (Option Rat) Rat)) (g : Grow),
    updateLoop cfg kind reach (rem.map (renNode σ)) (ss.map (renSplit σ)) (renGrow σ g) =
      (updateLoop cfg kind reach rem ss g).map (renGrow σ)
  | [], _, g => by simp [updateLoop, Except.map]
  | n :: rem, ss, g => by
    simp only [List.map_cons, updateLoop]
    have hleaf : (⟨(renGrow σ g).tree ++ [{ renNode σ n with isLeaf := true }], (renGrow σ g).queue,
        (renGrow σ g).num, (renGrow σ g).mask, (renGrow σ g).imps⟩ : Grow) =
        renGrow σ { g with tree := g.tree ++ [{ n with isLeaf := true }] } := by
      simp [renGrow, renNode]
    split
    · rw [← List.map_tail, hleaf]
      exact updateLoop_ren hσ cfg kind reach rem ss.tail _
    · cases ss with
      | nil => rfl
      | cons s ss =>
        simp only [List.map_cons]
        have e1 : (renSplit σ s).gain = s.gain := rfl
        rw [e1]
        split
        · rw [hleaf]
          exact updateLoop_ren hσ cfg kind reach rem ss _
        · rw [splitNode_ren hσ]
          cases splitNode cfg.rnd cfg.regLambda kind n s g with
          | error e => rfl
          | ok g1 => exact updateLoop_ren hσ cfg kind reach rem ss g1

theorem updateQueue_ren (hσ : Function.Injective σ) (cfg : Config) (kind : ImpType) (reach : Bool)
    (ss : List (SplitInfo (Option Rat) Rat)) (g : Grow) :
    updateQueue cfg kind reach (ss.map (renSplit σ)) (renGrow σ g) =
      (updateQueue cfg kind reach ss g).map (renGrow σ) :=
  updateLoop_ren hσ cfg kind reach g.queue ss { g with queue := [] }

/-! ### Dispatching -/

/-- A dispatch value under the new names. -/
def renDisp (σ : Nat → Nat) : Disp → Disp
  | .at s n => .at s n
  | .ask st f b site n l r => .ask st f b (renSite σ site) n l r
  | .leaf w => .leaf w

theorem dispatchNode_ren (tree : List Node) (mask : Dict Nat Int) (sparse : Dict Nat Nat)
    (v : SparseVec Cell × Nat × Nat) :
    dispatchNode (tree.map (renNode σ)) mask sparse v =
      (dispatchNode tree mask sparse v).map (renDisp σ) := by
  unfold dispatchNode
  rw [List.getElem?_map]
  cases tree[v.2.2]? with
  | none => rfl
  | some n =>
    simp only [Option.map_some]
    have e1 : (renNode σ n).isLeaf = n.isLeaf := rfl
    have e2 : (renNode σ n).fid = n.fid := rfl
    have e3 : (renNode σ n).bid = n.bid := rfl
    have e4 : kids (renNode σ n) = kids n := rfl
    have e5 : (renNode σ n).site = renSite σ n.site := rfl
    have e6 : (renNode σ n).weight = n.weight := rfl
    rw [e1, e2, e3, e4, e5, e6]
    split
    · rfl
    · cases n.site with
      | guest =>
        simp only [renSite, bind, Except.bind]
        cases binTest mask sparse v.2.2 n.fid v.1 with
        | error e => rfl
        | ok t =>
          simp only
          cases kids n with
          | error e => rfl
          | ok p => cases t <;> rfl
      | host j =>
        simp only [renSite, bind, Except.bind]
        cases kids n with
        | error e => rfl
        | ok p => rfl

theorem dispatchHost_ren (hσ : Function.Injective σ) (site : Site) (mask : Dict Nat Int)
    (sparse : Dict Nat Nat) (d : Disp) (row : SparseVec Cell) :
    dispatchHost (renSite σ site) mask sparse (renDisp σ d) row =
      (dispatchHost site mask sparse d row).map (renDisp σ) := by
  cases d with
  | «at» s n => rfl
  | leaf w => rfl
  | ask st f b ns n l r =>
    simp only [renDisp, dispatchHost]
    by_cases h : ns = site
    · rw [if_neg (by simp [h]), if_neg (by simp [h])]
      simp only [bind, Except.bind]
      cases binTest mask sparse n f row with
      | error e => rfl
      | ok t => cases t <;> rfl
    · rw [if_pos (fun h' => h (renSite_inj hσ h')), if_pos h]; rfl

theorem renDisp_isAsk (d : Disp) : (renDisp σ d).isAsk = d.isAsk := by cases d <;> rfl
theorem renDisp_isLeaf (d : Disp) : (renDisp σ d).isLeaf = d.isLeaf := by cases d <;> rfl
theorem renDisp_isAt (d : Disp) : (renDisp σ d).isAt = d.isAt := by cases d <;> rfl
theorem renDisp_weight (d : Disp) : (renDisp σ d).weight = d.weight := by cases d <;> rfl

theorem hostAnswers_ren (hσ : Function.Injective σ) (hκ : Function.Injective κ) (toHost : DTable K Disp) :
    ∀ (Hs : List (Party K)) (ms : List (Dict Nat Int)),
    hostAnswers (renTable κ (renDisp σ) toHost) (Hs.map (renParty σ κ)) ms =
      (hostAnswers toHost Hs ms).map (List.map (renTable κ (renDisp σ)))
  | [], _ => rfl
  | _ :: _, [] => rfl
  | H :: Hs, m :: ms => by
    simp only [List.map_cons, hostAnswers]
    have e1 : (renParty σ κ H).data = renTable κ id H.data := rfl
    have e2 : Site.host (renParty σ κ H).idx = renSite σ (.host H.idx) := rfl
    have e3 : (renParty σ κ H).sparse = H.sparse := rfl
    rw [e1, e2, e3, DTable.joinM_ren hκ (fv := renDisp σ) (fw := id) (fx := renDisp σ)
      (f := dispatchHost (.host H.idx) m H.sparse) (fun d row => dispatchHost_ren hσ (.host H.idx) m H.sparse d row),
      hostAnswers_ren hσ hκ toHost Hs ms]
    cases toHost.joinM H.data (dispatchHost (.host H.idx) m H.sparse) with
    | error e => rfl
    | ok t =>
      cases hostAnswers toHost Hs ms with
      | error e => rfl
      | ok ts => rfl

theorem combine_ren (hκ : Function.Injective κ) : ∀ (ts : List (DTable K Disp)) (acc : Option (DTable K Disp)),
    combine (acc.map (renTable κ (renDisp σ))) (ts.map (renTable κ (renDisp σ))) =
      (combine acc ts).map (Option.map (renTable κ (renDisp σ)))
  | [], acc => by cases acc <;> rfl
  | t :: ts, none => by
    simp only [List.map_cons, Option.map_none, combine]
    exact combine_ren hκ ts (some t)
  | t :: ts, some a => by
    simp only [List.map_cons, Option.map_some, combine]
    rw [DTable.join_ren hκ (fx := renDisp σ) (f := fun x y => if x.isAt then x else y) (by
      intro x y; rw [renDisp_isAt]; split <;> rfl)]
    cases a.join t (fun x y => if x.isAt then x else y) with
    | error e => rfl
    | ok b => exact combine_ren hκ ts (some b)

theorem redispatch_ren (hσ : Function.Injective σ) (hκ : Function.Injective κ) (S : Setup K α)
    (g : Grow) (masks : List (Dict Nat Int)) (dataPos : DTable K (SparseVec Cell × Nat × Nat))
    (weights : Option (DTable K Rat)) :
    redispatch (renSetup σ κ S) (renGrow σ g) masks (renTable κ id dataPos)
      (weights.map (renTable κ id)) =
      (redispatch S g masks dataPos weights).map fun r =>
        (renTable κ (renDisp σ) r.1, r.2.map (renTable κ id)) := by
  unfold redispatch
  refine bind_ren (r := renTable κ (renDisp σ)) ?_ fun res => ?_
  · exact DTable.mapValuesM_ren hκ (fun v => dispatchNode_ren g.tree g.mask S.guest.sparse v) dataPos
  refine bind_ren (r := renTable κ (renDisp σ)) ?_ fun toHost => ?_
  · exact DTable.filter_ren hκ (p := Disp.isAsk) (p' := Disp.isAsk) renDisp_isAsk res
  refine bind_ren (r := renTable κ (renDisp σ)) ?_ fun res => ?_
  · exact DTable.subtractByKey_ren hκ _ _ _ _
  refine bind_ren (r := renTable κ (renDisp σ)) ?_ fun leaf => ?_
  · exact DTable.filter_ren hκ (p := Disp.isLeaf) (p' := Disp.isLeaf) renDisp_isLeaf res
  refine bind_ren (r := renTable κ id) ?_ fun leafW => ?_
  · exact DTable.mapValues_ren hκ (fw := id) (f := Disp.weight) (fun v => renDisp_weight v) leaf
  refine bind_ren (r := renTable κ id) ?_ fun w => ?_
  · cases weights with
    | none => rfl
    | some w => exact DTable.union_ren hκ id w leafW
  refine bind_ren (r := renTable κ (renDisp σ)) ?_ fun res => ?_
  · exact DTable.subtractByKey_ren hκ _ _ _ _
  refine bind_ren (r := List.map (renTable κ (renDisp σ))) ?_ fun answers => ?_
  · exact hostAnswers_ren hσ hκ toHost S.hosts masks
  refine bind_ren (r := Option.map (renTable κ (renDisp σ))) ?_ fun fromHosts => ?_
  · exact combine_ren hκ answers none
  refine bind_ren (r := renTable κ (renDisp σ)) ?_ fun disp => ?_
  · cases fromHosts with
    | none => rfl
    | some d => exact DTable.union_ren hκ _ d res
  rfl

/-! ### Levels -/

/-- The state of a run under the new names. -/
def renState (σ : Nat → Nat) (κ : K → K') (st : State K) : State K' :=
  ⟨renGrow σ st.grow, renTable κ (renDisp σ) st.disp, st.weights.map (renTable κ id), st.masks⟩

theorem level_ren (hσ : Function.Injective σ) (hκ : Function.Injective κ) (S : Setup K α) (dep : Nat)
    (reach : Bool) (st : State K) :
    level (renSetup σ κ S) dep reach (renState σ κ st) =
      (level S dep reach st).map (renState σ κ) := by
  unfold level
  refine bind_ren (r := renTable κ id) ?_ fun pos => ?_
  · refine DTable.mapValuesM_ren hκ (fun d => ?_) st.disp
    cases d <;> rfl
  refine bind_ren (r := renTable κ id) ?_ fun dataPos => ?_
  · exact DTable.join_ren hκ (fx := id) (f := fun v p => (v, p)) (fun _ _ => rfl) S.guest.data pos
  have e : (renSetup σ κ S).maxSplitNodes = S.maxSplitNodes := rfl
  rw [e]
  split
  · rfl
  refine bind_ren (r := fun r => (r.1.map (renSplit σ), r.2)) ?_ fun r => ?_
  · have := batchLoop_ren hσ hκ S dep dataPos pos st.grow.queue.length 0 st.grow.queue st.masks
    rw [← this]
    simp [renState, renGrow]
  obtain ⟨ss, masks⟩ := r
  refine bind_ren (r := renGrow σ) ?_ fun g => ?_
  · exact updateQueue_ren hσ S.cfg S.kind reach ss st.grow
  refine bind_ren (r := fun r => (renTable κ (renDisp σ) r.1, r.2.map (renTable κ id))) ?_ fun r => ?_
  · exact redispatch_ren hσ hκ S g masks dataPos st.weights
  rfl

theorem levels_ren (hσ : Function.Injective σ) (hκ : Function.Injective κ) (S : Setup K α) :
    ∀ (r dep : Nat) (st : State K), levels (renSetup σ κ S) r dep (renState σ κ st) =
      (levels S r dep st).map (renState σ κ)
  | 0, _, _ => rfl
  | r + 1, dep, st => by
    simp only [levels]
    have e : (renState σ κ st).grow.queue.isEmpty = st.grow.queue.isEmpty := by
      simp [renState, renGrow]
    rw [e, level_ren hσ hκ]
    split
    · rfl
    · cases level S dep (r = 0) st with
      | error e => rfl
      | ok st1 => exact levels_ren hσ hκ S r (dep + 1) st1

theorem initState_ren (hκ : Function.Injective κ) (S : Setup K α) :
    initState (renSetup σ κ S) = (initState S).map (renState σ κ) := by
  unfold initState
  have hsum : gradHessSum (renSetup σ κ S).cfg.rnd (renSetup σ κ S).gh = gradHessSum S.cfg.rnd S.gh := by
    unfold gradHessSum
    have : (renSetup σ κ S).gh.data.values = S.gh.data.values := by
      show (renTable κ id S.gh).data.values = _
      rw [values_ren, List.map_id]
    rw [this]; rfl
  rw [hsum]
  refine bind_ren (r := id) (by cases gradHessSum S.cfg.rnd S.gh <;> rfl) fun gh => ?_
  obtain ⟨g, h⟩ := gh
  refine bind_ren (r := id) (by
    show nodeWeight S.cfg.rnd S.cfg.regLambda g h = _
    cases nodeWeight S.cfg.rnd S.cfg.regLambda g h <;> rfl) fun w => ?_
  refine bind_ren (r := renTable κ (renDisp σ)) ?_ fun disp => ?_
  · exact DTable.mapValues_ren hκ (fv := id) (fw := renDisp σ) (f := fun _ => Disp.at 1 0)
      (fun _ => rfl) S.guest.data
  show Except.ok _ = Except.ok _
  simp [renState, renGrow, renNode, renSite, Node.fresh, renImps, renSetup, Function.comp_def]

theorem convert_ren (hσ : Function.Injective σ) (site : Site) (splits : List (List Rat))
    (mask : Dict Nat Int) : ∀ (tree : List Node) (acc : Dict Nat Rat),
    convert (renSite σ site) splits mask (tree.map (renNode σ)) acc = convert site splits mask tree acc
  | [], _ => rfl
  | n :: ns, acc => by
    simp only [List.map_cons, convert]
    have e1 : (renNode σ n).isLeaf = n.isLeaf := rfl
    have e2 : (renNode σ n).fid = n.fid := rfl
    have e3 : (renNode σ n).id = n.id := rfl
    have e5 : ((renNode σ n).site ≠ renSite σ site) = (n.site ≠ site) := by
      show (renSite σ n.site ≠ renSite σ site) = _
      rw [(renSite_inj hσ).ne_iff]
    simp only [e1, e2, e3, e5, convert_ren hσ site splits mask ns]

omit [DecidableEq K] [DecidableEq K'] in
theorem convertHosts_ren (hσ : Function.Injective σ) (κ : K → K') (tree : List Node) :
    ∀ (Hs : List (Party K)) (ms : List (Dict Nat Int)),
    convertHosts (tree.map (renNode σ)) (Hs.map (renParty σ κ)) ms = convertHosts tree Hs ms
  | [], _ => rfl
  | _ :: _, [] => rfl
  | H :: Hs, m :: ms => by
    simp only [List.map_cons, convertHosts]
    have e2 : Site.host (renParty σ κ H).idx = renSite σ (.host H.idx) := rfl
    have e3 : (renParty σ κ H).splits = H.splits := rfl
    rw [e2, e3, convert_ren hσ, convertHosts_ren hσ κ tree Hs ms]

/-- **A run under other names is the same run under other names.** -/
theorem fit_ren (hσ : Function.Injective σ) (hκ : Function.Injective κ) (S : Setup K α) :
    fit (renSetup σ κ S) = (fit S).map (renFitted σ κ) := by
  unfold fit
  refine bind_ren (r := renState σ κ) (initState_ren hκ S) fun st0 => ?_
  refine bind_ren (r := renState σ κ) (levels_ren hσ hκ S S.maxDepth 0 st0) fun st => ?_
  refine bind_ren (r := id) ?_ fun gm => ?_
  · have := convert_ren hσ .guest S.guest.splits st.grow.mask st.grow.tree []
    show convert (renSite σ .guest) S.guest.splits st.grow.mask (st.grow.tree.map (renNode σ)) [] = _
    rw [this]
    cases convert .guest S.guest.splits st.grow.mask st.grow.tree [] <;> rfl
  refine bind_ren (r := id) ?_ fun hm => ?_
  · show convertHosts (st.grow.tree.map (renNode σ)) (S.hosts.map (renParty σ κ)) st.masks = _
    rw [convertHosts_ren hσ]
    cases convertHosts st.grow.tree S.hosts st.masks <;> rfl
  rfl

end DTree
end Verif
