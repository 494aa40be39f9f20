import Verif.Lemmas.NearGreedy
import Verif.Examples.DemoPaillier

/-! # C51: the tree is the greedy one -/

set_option autoImplicit false

namespace Verif

open DTree Spec

variable {K : Type} [DecidableEq K]

/-- **The tree is the greedy one.**  Take the tree of a run without encoding errors and any node; let `A` be the
samples which come to the node when the tree is walked with the raw rows of all parties.  There
is such a sample; the node holds the exact gradient and hessian sums of `A` and the optimal weight
for them.  A leaf is at the depth limit, or no party has a split of `A` with a gain noticeably
above the minimum.  An inner node splits `A` at a threshold of a party, with a gain above the
minimum which no admissible split of any party exceeds noticeably. -/
theorem C51_greedy (p q : Nat) (sk : Paillier.PrivKey) (lo hi : Int) (m : Rat)
    (S : Setup K Histogram.Num) [S.cfg.Exact] (rows : Option Nat → DTable K (List Rat)) (hr : RawRun S rows)
    (hu : Usual S m) (hp : PaillierRun p q sk lo hi m 0 0 S) (F : Fitted K) (hf : fit S = .ok F)
    (i : Nat) (n : Node) (hn : F.tree[i]? = some n) (A : List K)
    (hA : Lists A fun k => k ∈ S.gh.data.keys ∧ Reaches S F rows k i) :
    A ≠ [] ∧ (n.sumGrad, n.sumHess) = sumKeys S.gh A ∧
    n.weight = -n.sumGrad / (S.cfg.regLambda + n.sumHess) ∧
    ∃ d, DepthAt F.tree i d ∧ d ≤ S.maxDepth ∧
      ((n.isLeaf = true ∧ (d = S.maxDepth ∨ NoSplit S (2 / 10 ^ 6 + 3 * gainError S m 0) A)) ∨
       (n.isLeaf = false ∧ d < S.maxDepth ∧ ∃ j P f b l sp t, partyAt S j = some P ∧
          P.splits[f]? = some sp ∧ sp[b]? = some t ∧ SplitAt S F i j f t ∧
          BestSplit S (1 / 10 ^ 6 + 2 * gainError S m 0) A j f b l)) := by
  obtain ⟨F', lev, mem, g⟩ := paillier_greedy hr hu hp
  have := g.fit
  rw [hf, Except.ok.injEq] at this
  subst this
  obtain ⟨lev', _, dep', _, hdep', _, hinv', hlast, _⟩ := fit_ready hu.depth hf
  have hmax : ∀ c < F.tree.length, ∀ d, DepthAt F.tree c d → d ≤ S.maxDepth := by
    intro c hc d hd
    have h1 := hinv'.depth c d hd
    have h2 := hlast F.tree[c] (List.getElem_mem hc)
    rw [hinv'.number.2 c _ (List.getElem?_eq_getElem hc), h1] at h2
    omega
  obtain ⟨sums, dep, num, hdep, hinv⟩ := g.inv
  obtain ⟨hlen, hnum⟩ := hinv.number
  have hid := hnum i n hn
  have hil : i < F.tree.length := by
    by_contra hge
    rw [List.getElem?_eq_none (by omega)] at hn; cases hn
  have hm := List.mem_of_getElem? hn
  have hperm : (mem i).Perm A := Lists.perm (g.lists i hil) hA fun _ => Iff.rfl
  obtain ⟨s1, s2⟩ := g.sums n hm
  rw [hid] at s1 s2
  obtain ⟨d, hd⟩ := depth_exists hinv.wellFormed i hil
  have hlev := hinv.depth i d hd
  have hw := hinv.weight n (by simpa using hm)
  refine ⟨?_, ?_, ?_, d, hd, ?_, ?_⟩
  · intro hc
    subst hc
    exact s1 hperm.eq_nil
  · rw [s2, sumKeys_perm hperm]
  · unfold nodeWeight div at hw
    split at hw
    · cases hw
    · simp only [Except.ok.injEq, Config.rnd_apply] at hw
      exact hw.symm
  · exact hmax i hil d hd
  · rcases g.nodes n hm with ⟨hl, hd'⟩ | ⟨hl, j, P, f, b, l, sp, t, h1, h2, h3, h4, h5⟩
    · left
      refine ⟨hl, hd'.imp (fun h => ?_) fun h => ?_⟩
      · rw [hid, hlev] at h; exact h
      · rw [hid] at h
        unfold NoSplit at h ⊢
        rw [offerAt_perm hperm, sumKeys_perm hperm] at h
        exact h
    · right
      refine ⟨hl, ?_, j, P, f, b, l, sp, t, h1, h2, h3, by rw [← hid]; exact h4, ?_⟩
      · rcases hinv.wellFormed.shape i n hn with ⟨hc, _⟩ | ⟨_, c, _, e1, _, _, _, _, e2, _⟩
        · rw [hl] at hc; cases hc
        · have := hmax c e2 (d + 1) (.child hd ⟨n, hn, Or.inl e1⟩)
          omega
      · rw [hid] at h5
        unfold BestSplit at h5 ⊢
        rw [offerAt_perm hperm, sumKeys_perm hperm] at h5
        exact h5

/-- **The tree is nearly the greedy one if encrypted numbers are off.**  Encrypted gradients and
hessians are off by at most `eg` and `eh`.  Then the node holds the sums of `A` up to a small error
and the optimal weight for the sums it holds.  A leaf is at the depth limit, or no party has a
split of `A` with a gain noticeably above the minimum.  An inner node splits `A` at a threshold of
a party, with a gain not noticeably below the minimum which no admissible split of any party
exceeds noticeably.  All gains are those of the true gradients and hessians. -/
theorem C51_greedy_encoded (p q : Nat) (sk : Paillier.PrivKey) (lo hi : Int) (m eg eh : Rat)
    (S : Setup K Histogram.Num) [S.cfg.Exact] (rows : Option Nat → DTable K (List Rat)) (hr : RawRun S rows)
    (hu : Usual S m) (hp : PaillierRun p q sk lo hi m eg eh S) (F : Fitted K) (hf : fit S = .ok F)
    (i : Nat) (n : Node) (hn : F.tree[i]? = some n) (A : List K)
    (hA : Lists A fun k => k ∈ S.gh.data.keys ∧ Reaches S F rows k i) :
    A ≠ [] ∧ |n.sumGrad - (sumKeys S.gh A).1| ≤ S.maxDepth * (S.gh.data.length * eg) ∧
    |n.sumHess - (sumKeys S.gh A).2| ≤ S.maxDepth * (S.gh.data.length * eh) ∧
    n.weight = -n.sumGrad / (S.cfg.regLambda + n.sumHess) ∧
    ∃ d, DepthAt F.tree i d ∧ d ≤ S.maxDepth ∧
      ((n.isLeaf = true ∧ (d = S.maxDepth ∨
          NoSplit S (2 / 10 ^ 6 + 3 * gainError S m eg + gainShift S m eg eh) A)) ∨
       (n.isLeaf = false ∧ d < S.maxDepth ∧ ∃ j P f b l sp t, partyAt S j = some P ∧
          P.splits[f]? = some sp ∧ sp[b]? = some t ∧ SplitAt S F i j f t ∧
          NearlyBest S (1 / 10 ^ 6 + 2 * gainError S m eg + 2 * gainShift S m eg eh)
            (gainShift S m eg eh) A j f b l)) := by
  obtain ⟨gh', hc, F', lev, mem, g⟩ := paillier_grown hr hu hp
  have := g.fit
  rw [hf, Except.ok.injEq] at this
  subst this
  have hprep := RawRun.prepared hr
  obtain ⟨sums, dep, num, hdep, hinv⟩ := g.inv
  obtain ⟨hlen, hnum⟩ := hinv.number
  have hid := hnum i n hn
  have hil : i < F.tree.length := by
    by_contra hge
    rw [List.getElem?_eq_none (by omega)] at hn; cases hn
  have hm := List.mem_of_getElem? hn
  have hperm : (mem i).Perm A := Lists.perm (g.lists i hil) hA fun _ => Iff.rfl
  have hmk : ∀ k ∈ mem i, k ∈ S.gh.data.keys := fun k hk => (((g.lists i hil).2 k).mp hk).1
  obtain ⟨s1, s2⟩ := g.sums n hm
  obtain ⟨n1, n2⟩ := g.near hu.depth hc.nonneg hm
  obtain ⟨d, hd⟩ := depth_exists hinv.wellFormed i hil
  have hlev := hinv.depth i d hd
  have hmax := g.lev_le hu.depth hm
  have hw := hinv.weight n (by simpa using hm)
  have hnodes := g.nodes n hm
  unfold LeafBy at hnodes
  rw [hid] at s1 s2 n1 n2 hmax hnodes
  refine ⟨?_, ?_, ?_, ?_, d, hd, by omega, ?_⟩
  · rintro rfl
    exact s1 hperm.eq_nil
  · rw [← sumKeys_perm hperm]; exact n1
  · rw [← sumKeys_perm hperm]; exact n2
  · unfold nodeWeight div at hw
    split at hw
    · cases hw
    · simp only [Except.ok.injEq, Config.rnd_apply] at hw
      exact hw.symm
  · rcases hnodes with ⟨hl, hd'⟩ | ⟨hl, j, P, f, b, l, sp, t, h1, h2, h3, h4, h5, h6, h7, _⟩
    · left
      refine ⟨hl, ?_⟩
      rcases Nat.lt_or_ge d S.maxDepth with hlt | hge
      · right
        have h := hd'.resolve_left (by omega)
        intro j f b l ho
        rw [← offerAt_perm hperm] at ho
        rw [← sumKeys_perm hperm]
        obtain ⟨l0, ho'⟩ := offerWith_of (encView S gh' _ _) ho
        have e1 := gainAt_near hprep hu hc hp.room (d := lev i - 1) (by omega) hmk s2 rfl ho' ho
        have e2 := h j f b l0 ho'
        rw [abs_le] at e1
        linarith
      · left; omega
    · right
      have hlt : d < S.maxDepth := by
        rcases hinv.wellFormed.shape i n hn with ⟨hc, _⟩ | ⟨_, c, _, e1, _, _, _, _, e2, _⟩
        · rw [hl] at hc; cases hc
        · have hc1 := hinv.depth c (d + 1) (.child hd ⟨n, hn, Or.inl e1⟩)
          have hc2 := g.lev_le hu.depth (List.getElem_mem e2)
          rw [hnum c _ (List.getElem?_eq_getElem e2)] at hc2
          omega
      obtain ⟨l0, ho0⟩ := offerAt_of h5
      have e1 := gainAt_near hprep hu hc hp.room (d := lev i - 1) (by omega) hmk s2 rfl h5 ho0
      rw [abs_le] at e1
      refine ⟨hl, hlt, j, P, f, b, l0, sp, t, h1, h2, h3, h4, ?_, ?_, ?_⟩
      · rw [← offerAt_perm hperm]; exact ho0
      · rw [← sumKeys_perm hperm]; linarith
      · intro j' f' b' l' ho
        rw [← offerAt_perm hperm] at ho
        rw [← sumKeys_perm hperm]
        obtain ⟨l1, ho'⟩ := offerWith_of (encView S gh' _ _) ho
        have e2 := gainAt_near hprep hu hc hp.room (d := lev i - 1) (by omega) hmk s2 rfl ho' ho
        have e3 := h7 j' f' b' l1 ho'
        rw [abs_le] at e2
        linarith

/-- A key for which a run over three parties meets the hypotheses. -/
example : ∃ p q sk lo hi m, ∃ S : Setup Nat Histogram.Num, RawRun S DemoRaw.rows ∧ Usual S m ∧
    PaillierRun p q sk lo hi m 0 0 S ∧ S.hosts.length = 2 := by
  obtain ⟨sk, h1, h2⟩ := DemoPaillier.key
  exact ⟨_, _, sk, 12, 13, 11 / 10, DemoPaillier.setup sk, DemoPaillier.raw sk,
    DemoPaillier.usual sk, DemoPaillier.run h1 h2, rfl⟩

end Verif
