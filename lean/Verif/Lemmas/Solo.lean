import Verif.Model.Central
import Verif.Lemmas.RawRun
import Verif.Lemmas.PaillierRun

/-! # The centralised program is a run with one host that has no features -/

set_option autoImplicit false

namespace Verif
namespace DTree

open Spec
open Histogram (HCell Hist getAt getHistograms plain)
open Quantile (floatZero)
open Binning (Cell SparseVec)

variable {K : Type} [DecidableEq K]

/-- Numbers that are not encrypted. -/
def clearCipher : Cipher Rat := ⟨0, fun _ x => .ok x, .ok⟩

/-- The party of the centralised run as guest, with the host `D`. -/
def duo (C : Central K) (D : Party K) : Setup K Rat where
  cfg := C.cfg
  kind := C.kind
  maxDepth := C.maxDepth
  maxSplitNodes := C.maxSplitNodes
  arith := plain
  cipher := fun _ _ => clearCipher
  guest := C.party
  hosts := [D]
  gh := C.gh
  encGh := C.gh

instance {C : Central K} {D : Party K} [h : C.cfg.Exact] : (duo C D).cfg.Exact := h

theorem binLoopGuest_ge (cfg : Config) (fid : Nat) (tot : HCell Rat) :
    ∀ (bins : List (HCell Rat)) (bid : Nat) (best r : Best),
      binLoopGuest cfg fid tot bid bins best = .ok r → best.gain ≤ r.gain
  | [], bid, best, r, h => by
    unfold binLoopGuest at h
    cases h
    exact le_refl _
  | c :: cs, bid, best, r, h => by
    unfold binLoopGuest at h
    split at h
    · split at h
      · cases h
      · rename_i gain _
        split at h
        · rename_i hg
          exact le_trans (le_of_lt hg.2) (binLoopGuest_ge cfg fid tot cs _ _ r h)
        · exact binLoopGuest_ge cfg fid tot cs _ _ r h
    · exact binLoopGuest_ge cfg fid tot cs _ _ r h

theorem featLoopGuest_ge (cfg : Config) (valid : List Bool) :
    ∀ (hist : List (List (HCell Rat))) (fid : Nat) (best r : Best),
      featLoopGuest cfg valid fid hist best = .ok r → best.gain ≤ r.gain
  | [], fid, best, r, h => by
    unfold featLoopGuest at h
    cases h
    exact le_refl _
  | bins :: rest, fid, best, r, h => by
    unfold featLoopGuest at h
    split at h
    · cases h
    · exact featLoopGuest_ge cfg valid rest _ _ r h
    · split at h
      · exact featLoopGuest_ge cfg valid rest _ _ r h
      · split at h
        · cases h; exact le_refl _
        · split at h
          · cases h
          · rename_i b hb
            exact le_trans (binLoopGuest_ge cfg _ _ _ _ _ _ hb) (featLoopGuest_ge cfg valid rest _ _ r h)

theorem findSplit_ge (cfg : Config) (valid : List Bool) :
    ∀ (hists : Hist Rat) (gs : List (SplitInfo (Option Rat) Rat)),
      findSplit cfg valid hists = .ok gs → ∀ g ∈ gs, cfg.rnd (cfg.minImpurity - floatZero) ≤ g.gain
  | [], gs, h => by
    unfold findSplit evalList at h
    cases h
    simp
  | x :: xs, gs, h => by
    unfold findSplit evalList at h
    simp only [bind, Except.bind] at h
    split at h
    · cases h
    · rename_i y hy
      split at h
      · cases h
      · rename_i ys hys
        cases h
        intro g hg
        rcases List.mem_cons.mp hg with rfl | hg
        · unfold findSplitSingleGuest at hy
          simp only [bind, Except.bind] at hy
          split at hy
          · cases hy
          · rename_i b hb
            cases hy
            exact featLoopGuest_ge cfg valid _ _ _ _ hb
        · exact findSplit_ge cfg valid xs ys hys g hg

/-- A host without features has no candidates. -/
theorem featLoopHost_empty (cfg : Config) (site : Site) (hist : List (List (HCell Rat)))
    (cs : List (SplitInfo Rat Unit)) (h : featLoopHost cfg [] site 0 hist = .ok cs) : cs = [] := by
  cases hist with
  | nil => unfold featLoopHost at h; cases h; rfl
  | cons b r =>
    unfold featLoopHost at h
    simp [getAt] at h

theorem hostEval_empty (cfg : Config) (site : Site) :
    ∀ (hists : Hist Rat) (rs : List (List (SplitInfo Rat Unit) × List (Rat × Rat))),
      evalList (findSplitSingleHost cfg [] site) hists = .ok rs → ∀ r ∈ rs, r = ([], [])
  | [], rs, h => by unfold evalList at h; cases h; simp
  | x :: xs, rs, h => by
    unfold evalList at h
    simp only [bind, Except.bind] at h
    split at h
    · cases h
    · rename_i y hy
      split at h
      · cases h
      · rename_i ys hys
        cases h
        intro r hr
        rcases List.mem_cons.mp hr with rfl | hr
        · unfold findSplitSingleHost at hy
          simp only [bind, Except.bind] at hy
          split at hy
          · cases hy
          · rename_i cs hcs
            cases hy
            rw [featLoopHost_empty cfg site x cs hcs]
            rfl
        · exact hostEval_empty cfg site xs ys hys r hr

theorem bestForHost_empty (cfg : Config) (j : Nat) :
    ∀ (ns : List (Rat × Rat)) (i : Nat) (cs : List (List (Rat × Rat))) (bs : List (Int × Rat)),
      (∀ c ∈ cs, c = []) → bestForHost cfg clearCipher j i ns cs = .ok bs →
      ∀ b ∈ bs, b = (-1, cfg.rnd (cfg.minImpurity - floatZero))
  | [], i, cs, bs, _, h => by unfold bestForHost at h; cases h; simp
  | n :: ns, i, [], bs, _, h => by unfold bestForHost at h; cases h; simp
  | n :: ns, i, c :: cs, bs, hc, h => by
    have hc0 := hc c (by simp)
    subst hc0
    unfold bestForHost at h
    have e : findHostSplit cfg clearCipher (j, i) n [] = .ok (-1, cfg.rnd (cfg.minImpurity - floatZero)) := rfl
    simp only [bind, Except.bind, e] at h
    split at h
    · cases h
    · rename_i bs' hbs
      cases h
      intro b hb
      rcases List.mem_cons.mp hb with rfl | hb
      · rfl
      · exact bestForHost_empty cfg j ns (i + 1) cs bs' (fun c h => hc c (by simp [h])) hbs b hb

theorem finalSplits_empty (x : Rat) (site : Site) :
    ∀ (cs : List (List (SplitInfo Rat Unit))) (mask : Dict Nat Int) (ids : List Nat)
      (bs : List (Int × Rat)) (ss : List (SplitInfo Rat Rat)) (mask' : Dict Nat Int),
      (∀ b ∈ bs, b = (-1, x)) → finalSplits clearCipher site mask ids cs bs = .ok (ss, mask') →
      ∀ s ∈ ss, s.gain = x
  | [], mask, ids, bs, ss, mask', _, h => by unfold finalSplits at h; cases h; simp
  | c :: cs, mask, ids, [], ss, mask', _, h => by unfold finalSplits at h; cases h
  | c :: cs, mask, [], b :: bs, ss, mask', _, h => by unfold finalSplits at h; cases h
  | c :: cs, mask, nid :: ids, b :: bs, ss, mask', hb, h => by
    have hb0 := hb b (by simp)
    subst hb0
    unfold finalSplits at h
    simp only [finalSplit, ne_eq, not_true_eq_false, if_false, bind, Except.bind] at h
    split at h
    · cases h
    · rename_i r hr
      obtain ⟨ss', m'⟩ := r
      simp only [pure, Except.pure, Except.ok.injEq, Prod.mk.injEq] at h
      obtain ⟨rfl, rfl⟩ := h
      intro s hs
      rcases List.mem_cons.mp hs with rfl | hs
      · rfl
      · exact finalSplits_empty x site cs mask ids bs ss' m' (fun b h => hb b (by simp [h])) hr s hs

theorem hostBatch_empty (cfg : Config) (ids : List Nat) (sums : List (Rat × Rat)) (j : Nat)
    (H : HostSide Rat) (hv : H.valid = []) (ss : List (SplitInfo Rat Rat)) (m : Dict Nat Int)
    (h : hostBatch cfg clearCipher ids sums j H = .ok (ss, m)) :
    ∀ s ∈ ss, s.gain = cfg.rnd (cfg.minImpurity - floatZero) := by
  unfold hostBatch at h
  simp only [bind, Except.bind] at h
  split at h
  · cases h
  · rename_i r hr
    obtain ⟨infos, encs⟩ := r
    simp only at h
    split at h
    · cases h
    · rename_i bests hbests
      have henc : ∀ c ∈ encs, c = [] := by
        unfold findSplitHost at hr
        simp only [bind, Except.bind, hv] at hr
        split at hr
        · cases hr
        · rename_i rs hrs
          simp only [pure, Except.pure, Except.ok.injEq, Prod.mk.injEq] at hr
          obtain ⟨_, rfl⟩ := hr
          intro c hc
          obtain ⟨r, hr1, rfl⟩ := List.mem_map.mp hc
          rw [hostEval_empty cfg _ _ _ hrs r hr1]
      exact finalSplits_empty _ _ _ _ _ _ _ _
        (bestForHost_empty cfg j _ _ _ _ henc hbests) h

theorem mergeLoop_solo (x : Rat) (infos : List (SplitInfo Rat Rat)) (hi : ∀ s ∈ infos, s.gain = x) :
    ∀ (gs : List (SplitInfo (Option Rat) Rat)) (i : Nat) (bs : List (SplitInfo (Option Rat) Rat)),
      (∀ g ∈ gs, x ≤ g.gain) → mergeLoop id clearCipher [infos] i gs = .ok bs → bs = gs
  | [], i, bs, _, h => by unfold mergeLoop at h; cases h; rfl
  | g :: gs, i, bs, hg, h => by
    unfold mergeLoop at h
    simp only [bind, Except.bind] at h
    split at h
    · cases h
    · rename_i col hcol
      unfold column evalList at hcol
      simp only [bind, Except.bind, evalList] at hcol
      split at hcol
      · cases hcol
      · rename_i s hs
        cases hcol
        have hsm : s ∈ infos := by
          unfold getAt at hs
          split at hs
          · rename_i y hy
            cases hs
            exact List.mem_of_getElem? hy
          · cases hs
        have hx := hi s hsm
        have e : findBestGuestHost id clearCipher g [s] = .ok g := by
          have hgx := hg g (by simp)
          unfold findBestGuestHost
          simp only [clearCipher, bestHost, hx, lt_irrefl, if_false]
          rw [if_pos]
          unfold floatZero
          show x - _ ≤ g.gain
          linarith
        rw [e] at h
        simp only at h
        split at h
        · cases h
        · rename_i bs' hbs
          cases h
          rw [mergeLoop_solo x infos hi gs (i + 1) bs' (fun g h => hg g (by simp [h])) hbs]

theorem batch_solo {C : Central K} [C.cfg.Exact] {D : Party K} (hv : D.valid = []) {dep batch : Nat}
    {dataPos : DTable K (SparseVec Cell × Nat × Nat)} {pos : DTable K (Nat × Nat)} {nodes : List Node}
    {mk : Dict Nat Int} {ss : List (SplitInfo (Option Rat) Rat)} {ms : List (Dict Nat Int)}
    (h : batchSplits (duo C D) dep batch dataPos pos nodes [mk] = .ok (ss, ms)) :
    centralBatch C dataPos nodes = .ok ss ∧ ∃ mk', ms = [mk'] := by
  unfold batchSplits at h
  simp only [bind, Except.bind, duo] at h
  split at h
  · cases h
  · rename_i H hH
    split at h
    · cases h
    · rename_i hosts hhosts
      unfold hostSides at hhosts
      simp only [bind, Except.bind, hostSides] at hhosts
      split at hhosts
      · cases hhosts
      · split at hhosts
        · cases hhosts
        · rename_i E hE
          cases hhosts
          unfold splitBatch at h
          simp only [bind, Except.bind, hostsBatch] at h
          split at h
          · cases h
          · rename_i gs hgs
            split at h
            · cases h
            · rename_i rs hrs
              split at hrs
              · cases hrs
              · rename_i r hr
                cases hrs
                obtain ⟨infos, m⟩ := r
                simp only [List.map_cons, List.map_nil] at h
                split at h
                · cases h
                · rename_i best hbest
                  simp only [pure, Except.pure, Except.ok.injEq, Prod.mk.injEq] at h
                  obtain ⟨rfl, rfl⟩ := h
                  rw [Config.Exact.rnd_eq] at hbest
                  have := mergeLoop_solo _ infos (hostBatch_empty _ _ _ _ _ hv infos m hr) gs 0 best
                    (findSplit_ge _ _ _ _ hgs) hbest
                  subst this
                  refine ⟨?_, _, rfl⟩
                  unfold centralBatch
                  simp only [bind, Except.bind, hH, hgs]

theorem batches_solo {C : Central K} [C.cfg.Exact] {D : Party K} (hv : D.valid = []) {dep : Nat}
    {dataPos : DTable K (SparseVec Cell × Nat × Nat)} {pos : DTable K (Nat × Nat)} :
    ∀ (fuel batch : Nat) (nodes : List Node) (mk : Dict Nat Int)
      (ss : List (SplitInfo (Option Rat) Rat)) (ms : List (Dict Nat Int)),
      batchLoop (duo C D) dep dataPos pos fuel batch nodes [mk] = .ok (ss, ms) →
      centralBatches C dataPos fuel nodes = .ok ss ∧ ∃ mk', ms = [mk']
  | fuel, batch, [], mk, ss, ms, h => by
    unfold batchLoop at h
    simp only [Except.ok.injEq, Prod.mk.injEq] at h
    obtain ⟨rfl, rfl⟩ := h
    exact ⟨by cases fuel <;> rfl, mk, rfl⟩
  | 0, batch, n :: ns, mk, ss, ms, h => by
    unfold batchLoop at h
    simp only [Except.ok.injEq, Prod.mk.injEq] at h
    obtain ⟨rfl, rfl⟩ := h
    exact ⟨rfl, mk, rfl⟩
  | fuel + 1, batch, n :: ns, mk, ss, ms, h => by
    unfold batchLoop at h
    simp only [bind, Except.bind] at h
    split at h
    · cases h
    · rename_i r hr
      obtain ⟨s1, m1⟩ := r
      obtain ⟨a1, mk1, rfl⟩ := batch_solo hv hr
      simp only at h
      split at h
      · cases h
      · rename_i r2 hr2
        obtain ⟨s2, m2⟩ := r2
        obtain ⟨b1, mk2, rfl⟩ := batches_solo hv fuel (batch + 1) _ mk1 s2 m2 hr2
        simp only [pure, Except.pure, Except.ok.injEq, Prod.mk.injEq] at h
        obtain ⟨rfl, rfl⟩ := h
        refine ⟨?_, mk2, rfl⟩
        unfold centralBatches
        simp only [duo] at a1 b1
        simp only [bind, Except.bind, a1, b1]
        rfl

theorem unionLoop_disjoint {V : Type} (f : V → V → V) :
    ∀ (e d : Dict K V), (Dict.keys d ++ Dict.keys e).Nodup → DTable.unionLoop f d e = d ++ e
  | [], d, _ => by simp [DTable.unionLoop]
  | (k, v) :: e, d, h => by
    have hk : k ∉ Dict.keys d := by
      intro hc
      rw [List.nodup_append] at h
      exact h.2.2 k hc k (by simp) rfl
    unfold DTable.unionLoop
    rw [(Dict.get?_eq_none_iff d k).mpr hk]
    simp only
    rw [Dict.set_of_not_mem d k v hk, unionLoop_disjoint f e]
    · simp
    · simpa using h

theorem redispatch_solo {C : Central K} {D : Party K} {g : Grow} {mk : Dict Nat Int}
    {dataPos : DTable K (SparseVec Cell × Nat × Nat)} {weights : Option (DTable K Rat)}
    {disp : DTable K Disp} {w : Option (DTable K Rat)}
    (hs : ∀ n ∈ g.tree, n.isLeaf = false → n.site = .guest)
    (h : redispatch (duo C D) g [mk] dataPos weights = .ok (disp, w)) :
    centralRedispatch C g dataPos weights = .ok (disp, w) := by
  unfold redispatch at h
  simp only [bind, Except.bind, duo] at h
  split at h
  · cases h
  rename_i res hres
  split at h
  · cases h
  rename_i toHost hto
  split at h
  · cases h
  rename_i res2 hres2
  split at h
  · cases h
  rename_i leaf hleaf
  split at h
  · cases h
  rename_i leafW hleafW
  split at h
  · cases h
  rename_i w' hw'
  split at h
  · cases h
  rename_i res3 hres3
  split at h
  · cases h
  rename_i answers hans
  split at h
  · cases h
  rename_i fromHosts hcomb
  split at h
  · cases h
  rename_i d' hd'
  simp only [pure, Except.pure, Except.ok.injEq, Prod.mk.injEq] at h
  obtain ⟨rfl, rfl⟩ := h
  obtain ⟨hrwf, hrv⟩ := DTable.mapValuesM_inv hres
  have hnoask : ∀ k d, res.data.get? k = some d → d.isAsk = false := by
    intro k d hd
    obtain ⟨v, _, hv⟩ := (hrv k d).mp hd
    unfold dispatchNode at hv
    split at hv
    · cases hv
    · rename_i n hn
      split at hv
      · cases hv; rfl
      · rename_i hl
        have := hs n (List.mem_of_getElem? hn) (by simpa using hl)
        rw [this] at hv
        simp only [bind, Except.bind] at hv
        split at hv
        · cases hv
        · split at hv
          · cases hv
          · cases hv
            split <;> rfl
  have hto' : toHost = ⟨[]⟩ := by
    rw [DTable.filter_ok hrwf] at hto
    cases hto
    congr 1
    rw [List.filter_eq_nil_iff]
    rintro ⟨k, d⟩ hp
    simp [hnoask k d (Dict.get?_of_mem hrwf hp)]
  subst hto'
  have hans' : answers = [⟨[]⟩] := by
    unfold hostAnswers at hans
    simp only [bind, Except.bind, hostAnswers] at hans
    split at hans
    · cases hans
    · rename_i t ht
      cases hans
      unfold DTable.joinM at ht
      have : ∀ l : Dict K (SparseVec Cell), DTable.joinLoop ([] : Dict K Disp) Prod.mk l = [] := by
        intro l
        induction l with
        | nil => rfl
        | cons p l ih =>
          unfold DTable.joinLoop
          simpa [Dict.get?] using ih
      rw [this] at ht
      simp only [DTable.evalRecords, Except.bind] at ht
      cases ht
      rfl
  subst hans'
  simp only [combine, Except.ok.injEq] at hcomb
  subst hcomb
  have hr2wf : res2.WF := by
    exact (DTable.subtractByKey_inv hrwf hres2).1
  have hr3wf : res3.WF := (DTable.subtractByKey_inv hr2wf hres3).1
  have hd3 : d' = res3 := by
    simp only [addPositions, DTable.union] at hd'
    have := unionLoop_disjoint (fun v _ : Disp => v) res3.data [] (by simpa using (show res3.data.keys.Nodup from hr3wf))
    rw [this, List.nil_append] at hd'
    rw [DTable.ofPairs_ok hr3wf] at hd'
    cases hd'
    rfl
  subst hd3
  unfold centralRedispatch
  simp only [bind, Except.bind, hres, hto, hres2, hleaf, hleafW, hw', hres3]
  rfl

theorem level_solo {C : Central K} [C.cfg.Exact] {D : Party K} (hv : D.valid = []) {dep : Nat}
    {reach : Bool} {st st' : State K} {mk : Dict Nat Int} (hm : st.masks = [mk])
    (h : level (duo C D) dep reach st = .ok st')
    (hs : ∀ n ∈ st'.grow.tree, n.isLeaf = false → n.site = .guest) :
    centralLevel C reach ⟨st.grow, st.disp, st.weights⟩ = .ok ⟨st'.grow, st'.disp, st'.weights⟩ ∧
      ∃ mk', st'.masks = [mk'] := by
  unfold level at h
  simp only [bind, Except.bind] at h
  split at h
  · cases h
  rename_i pos hpos
  split at h
  · cases h
  rename_i dataPos hdp
  split at h
  · cases h
  rename_i hms
  split at h
  · cases h
  rename_i r hr
  obtain ⟨ss, masks⟩ := r
  simp only at h
  split at h
  · cases h
  rename_i g hg
  split at h
  · cases h
  rename_i r2 hr2
  obtain ⟨disp, w⟩ := r2
  simp only [pure, Except.pure, Except.ok.injEq] at h
  subst h
  rw [hm] at hr
  obtain ⟨b1, mk', rfl⟩ := batches_solo hv _ _ _ _ _ _ hr
  have hred := redispatch_solo hs hr2
  simp only [duo] at hdp hms hg
  refine ⟨?_, mk', rfl⟩
  unfold centralLevel
  simp only [bind, Except.bind, hpos, hdp, hms, if_false, b1, hg, hred]
  rfl

/-- The node's party cannot be the host without features. -/
theorem solo_site {C : Central K} {D : Party K} (hv : D.valid = []) {A : List K}
    {j : Option Nat} {f b : Nat} {l : Rat × Rat} {V : View K} (h : OfferWith (duo C D) V A j f b l) : j = none := by
  obtain ⟨P, sp, h1, h2, _⟩ := h
  cases j with
  | none => rfl
  | some j =>
    cases j with
    | zero =>
      simp only [partyAt, duo, List.getElem?_cons_zero, Option.some.injEq] at h1
      subst h1
      rw [hv] at h2
      simp at h2
    | succ j => simp [partyAt, duo] at h1

theorem greedy_sites {C : Central K} {D : Party K} {V : View K} (hv : D.valid = []) {δ : Rat} {dep : Nat}
    {lev : Nat → Nat} {mem : Nat → List K} {st : State K} (hg : Greedy (duo C D) (rulesOf (duo C D) V δ) dep lev mem st) :
    ∀ n ∈ st.grow.tree, n.isLeaf = false → n.site = .guest := by
  intro n hn hl
  rcases hg.done n hn with ⟨d1, _⟩ | ⟨_, j, P, mk, f, b, l, c, sp, c1, c2, c3, c4, c5, c6, _⟩
  · rw [hl] at d1; cases d1
  · have := solo_site hv c6.1
    subst this
    rw [c2]; rfl

theorem levels_solo {C : Central K} [C.cfg.Exact] {D : Party K} (hv : D.valid = []) {m : Rat}
    (hp : Prepared (duo C D)) (hu : Usual (duo C D) m) (hc : Chooses (duo C D) (exactView (duo C D)) 0) :
    ∀ (r dep : Nat) (lev : Nat → Nat) (mem : Nat → List K) (st st' : State K) (mk : Dict Nat Int),
      Greedy (duo C D) (rulesOf (duo C D) (exactView (duo C D)) 0) dep lev mem st → dep + r = C.maxDepth → st.masks = [mk] →
      levels (duo C D) r dep st = .ok st' →
      centralLevels C r ⟨st.grow, st.disp, st.weights⟩ = .ok ⟨st'.grow, st'.disp, st'.weights⟩
  | 0, dep, lev, mem, st, st', mk, hg, he, hm, h => by
    unfold levels at h
    cases h
    rfl
  | r + 1, dep, lev, mem, st, st', mk, hg, he, hm, h => by
    unfold levels at h
    unfold centralLevels
    by_cases hq : st.grow.queue.isEmpty = true
    · rw [if_pos hq] at h
      cases h
      simp only [hq, if_true]
    · rw [if_neg hq] at h
      simp only [hq]
      obtain ⟨st1, lev1, mem1, h1, h2⟩ := hg.step hp hu (hc.by (S := duo C D) le_rfl hp.wf) ((steady_exact hu).by hp)
        (show dep < C.maxDepth by omega) (decide (r = 0)) (by
        intro hr
        have : r = 0 := by simpa using hr
        show dep + 1 = C.maxDepth
        omega)
      rw [h1] at h
      simp only at h
      obtain ⟨c1, mk', c2⟩ := level_solo hv hm h1 (greedy_sites hv h2)
      rw [c1]
      exact levels_solo hv hp hu hc r (dep + 1) lev1 mem1 st1 st' mk' h2 (by omega) c2 h

theorem fit_solo {C : Central K} [C.cfg.Exact] {D : Party K} (hv : D.valid = []) {m : Rat}
    (hp : Prepared (duo C D)) (hu : Usual (duo C D) m) (hc : Chooses (duo C D) (exactView (duo C D)) 0) {F : Fitted K}
    (hf : fit (duo C D) = .ok F) : centralFit C = .ok ⟨F.tree, F.guestMask, F.weights, F.imps⟩ := by
  obtain ⟨st0, h1, g0⟩ := Greedy.init hp (Steady.by (δ := 0) hp (steady_exact hu))
  unfold fit at hf
  simp only [bind, Except.bind, h1] at hf
  split at hf
  · cases hf
  rename_i st hst
  split at hf
  · cases hf
  rename_i gm hgm
  split at hf
  · cases hf
  rename_i hm hhm
  cases hf
  have hmask : st0.masks = [[]] ∧ centralInit C = .ok ⟨st0.grow, st0.disp, st0.weights⟩ := by
    unfold initState at h1
    simp only [bind, Except.bind, duo] at h1
    split at h1
    · cases h1
    rename_i gh hgh
    obtain ⟨g, h⟩ := gh
    simp only at h1
    split at h1
    · cases h1
    rename_i w hw
    split at h1
    · cases h1
    rename_i disp hdisp
    cases h1
    refine ⟨rfl, ?_⟩
    unfold centralInit
    simp only [bind, Except.bind, hgh, hw, hdisp]
    rfl
  have hlev := levels_solo hv hp hu hc C.maxDepth 0 _ _ st0 st [] g0 (by omega) hmask.1 hst
  unfold centralFit
  simp only [bind, Except.bind, hmask.2, hlev]
  have hgm' : convert .guest C.party.splits st.grow.mask st.grow.tree [] = .ok gm := hgm
  rw [hgm']
  rfl

/-- Plain numbers are read exactly. -/
theorem duo_readers {C : Central K} {D : Party K} {m : Rat} (hp : Prepared (duo C D))
    (hu : Usual (duo C D) m) : Readers (duo C D) (exactView (duo C D)) 0
      (max (2 * gradSize (duo C D) 0 ^ 2 / m) |(duo C D).cfg.minImpurity - 1 / 10 ^ 6|) := by
  refine ⟨by norm_num, le_max_right _ _, fun d b => ⟨id, fun label x _ => ⟨x, rfl, rfl, by simp⟩⟩, rfl, ?_, ?_⟩
  · intro d b H ids Hp h1 h2
    refine ⟨Hp, h1, ?_⟩
    refine List.forall₂_same.mpr fun a _ => List.forall₂_same.mpr fun a _ => List.forall₂_same.mpr fun c _ => ?_
    exact ⟨rfl, fun _ => ⟨rfl, rfl⟩⟩
  · exact fun d A s j f b l hd hA hk hn ho => safe_exact hp hu hd hA hk hn ho

theorem duo_chooses {C : Central K} [C.cfg.Exact] {D : Party K} {m : Rat} (hp : Prepared (duo C D))
    (hu : Usual (duo C D) m) : Chooses (duo C D) (exactView (duo C D)) 0 := (duo_readers hp hu).chooses hp hu

end DTree
end Verif
