import Verif.Lemmas.Track

/-! # What one level does to each node; success of the steps -/

set_option autoImplicit false

namespace Verif
namespace DTree

open Spec
open Quantile (floatZero)
open Binning (Cell SparseVec)

variable {K : Type} [DecidableEq K] {α : Type}

/-- The outcome for one node of the level. -/
def Outcome (cfg : Config) (reach : Bool) (g' : Grow) (n : Node) (s : SplitInfo (Option Rat) Rat) : Prop :=
  ({ n with isLeaf := true } ∈ g'.tree ∧ (reach = true ∨ s.gain ≤ cfg.rnd (cfg.minImpurity + floatZero))) ∨
  (reach = false ∧ ¬ s.gain ≤ cfg.rnd (cfg.minImpurity + floatZero) ∧
    ∃ (num : Nat) (gl hl wl wr : Rat) (bid : Option Int), s.sumGrad = some gl ∧ s.sumHess = some hl ∧
      ({ n with left := some (num + 1), right := some (num + 2),
                site := s.site, fid := s.fid, bid := bid } : Node) ∈ g'.tree ∧
      Node.fresh (num + 1) gl hl wl ∈ g'.queue ∧
      Node.fresh (num + 2) (cfg.rnd (n.sumGrad - gl)) (cfg.rnd (n.sumHess - hl)) wr ∈ g'.queue ∧
      (s.site = .guest → ∃ b, s.bid = some b ∧ Dict.get? g'.mask n.id = some b))

/-- Where a node of the next level comes from. -/
def Origin (rnd : Rat → Rat) (g : Grow) (rem : List Node) (ss : List (SplitInfo (Option Rat) Rat)) (g' : Grow) (q : Node) : Prop :=
  q ∈ g.queue ∨ ∃ (idx : Nat) (n : Node) (s : SplitInfo (Option Rat) Rat) (num : Nat) (gl hl w : Rat) (bid : Option Int),
    rem[idx]? = some n ∧ ss[idx]? = some s ∧ s.sumGrad = some gl ∧ s.sumHess = some hl ∧
    ({ n with left := some (num + 1), right := some (num + 2),
              site := s.site, fid := s.fid, bid := bid } : Node) ∈ g'.tree ∧
    (q = Node.fresh (num + 1) gl hl w ∨
     q = Node.fresh (num + 2) (rnd (n.sumGrad - gl)) (rnd (n.sumHess - hl)) w)

theorem updateLoop_grows {cfg : Config} {kind : ImpType} {reach : Bool} :
    ∀ (rem : List Node) (ss : List (SplitInfo (Option Rat) Rat)) (g g' : Grow),
    updateLoop cfg kind reach rem ss g = .ok g' →
    (∀ n ∈ g.tree, n ∈ g'.tree) ∧ (∀ n ∈ g.queue, n ∈ g'.queue)
  | [], _, g, g', hu => by unfold updateLoop at hu; cases hu; exact ⟨fun _ h => h, fun _ h => h⟩
  | n :: rem, ss, g, g', hu => by
    unfold updateLoop at hu
    by_cases hr : reach = true
    · rw [if_pos hr] at hu
      obtain ⟨a, b⟩ := updateLoop_grows rem _ _ g' hu
      exact ⟨fun m hm => a m (by simp [hm]), b⟩
    · rw [if_neg hr] at hu
      cases ss with
      | nil => cases hu
      | cons s ss =>
        simp only at hu
        by_cases hg : s.gain ≤ cfg.rnd (cfg.minImpurity + floatZero)
        · rw [if_pos hg] at hu
          obtain ⟨a, b⟩ := updateLoop_grows rem _ _ g' hu
          exact ⟨fun m hm => a m (by simp [hm]), b⟩
        · rw [if_neg hg] at hu
          cases h1 : splitNode cfg.rnd cfg.regLambda kind n s g with
          | error e => rw [h1] at hu; cases hu
          | ok g1 =>
            rw [h1] at hu
            obtain ⟨a, b⟩ := updateLoop_grows rem ss g1 g' hu
            obtain ⟨gl, hl, wl, wr, bid, imps, _, _, _, _, _, _, _, t, q, _⟩ := splitNode_inv h1
            exact ⟨fun m hm => a m (by rw [t]; simp [hm]), fun m hm => b m (by rw [q]; simp [hm])⟩

theorem updateLoop_detail {cfg : Config} {kind : ImpType} {reach : Bool} :
    ∀ (rem : List Node) (ss : List (SplitInfo (Option Rat) Rat)) (g g' : Grow),
    (rem.map Node.id).Nodup → ss.length = rem.length →
    updateLoop cfg kind reach rem ss g = .ok g' →
    (∀ (idx : Nat) n s, rem[idx]? = some n → ss[idx]? = some s → Outcome cfg reach g' n s) ∧
    ∀ q ∈ g'.queue, Origin cfg.rnd g rem ss g' q
  | [], _, g, g', _, _, hu => by
    unfold updateLoop at hu; cases hu
    exact ⟨by simp, fun q hq => .inl hq⟩
  | n :: rem, [], g, g', _, hlen, hu => by simp at hlen
  | n :: rem, s :: ss, g, g', hnd, hlen, hu => by
    rw [List.map_cons, List.nodup_cons] at hnd
    have hlen' : ss.length = rem.length := by simpa using hlen
    have lift : ∀ g1 : Grow, (∀ q ∈ g1.queue, q ∈ g.queue ∨ Origin cfg.rnd g (n :: rem) (s :: ss) g' q) →
        (∀ q ∈ g'.queue, Origin cfg.rnd g1 rem ss g' q) → ∀ q ∈ g'.queue, Origin cfg.rnd g (n :: rem) (s :: ss) g' q := by
      intro g1 h1 h2 q hq
      rcases h2 q hq with h | ⟨idx, n', s', num, gl, hl, w, bid, a1, a2, a3⟩
      · rcases h1 q h with h | h
        · exact .inl h
        · exact h
      · exact .inr ⟨idx + 1, n', s', num, gl, hl, w, bid, by simpa using a1, by simpa using a2, a3⟩
    have combine : ∀ (P : Outcome cfg reach g' n s)
        (Q : ∀ (idx : Nat) n s, rem[idx]? = some n → ss[idx]? = some s → Outcome cfg reach g' n s),
        ∀ (idx : Nat) n' s', (n :: rem)[idx]? = some n' → (s :: ss)[idx]? = some s' →
          Outcome cfg reach g' n' s' := by
      intro P Q idx n' s' h1 h2
      cases idx with
      | zero =>
        simp only [List.getElem?_cons_zero, Option.some.injEq] at h1 h2
        subst h1 h2; exact P
      | succ idx => exact Q idx n' s' (by simpa using h1) (by simpa using h2)
    unfold updateLoop at hu
    by_cases hr : reach = true
    · rw [if_pos hr] at hu
      simp only [List.tail_cons] at hu
      obtain ⟨a, b⟩ := updateLoop_detail rem ss _ g' hnd.2 hlen' hu
      obtain ⟨c, _⟩ := updateLoop_grows rem ss _ g' hu
      exact ⟨combine (.inl ⟨c _ (by simp), .inl hr⟩) a, lift _ (fun q hq => .inl hq) b⟩
    · rw [if_neg hr] at hu
      simp only at hu
      by_cases hg : s.gain ≤ cfg.rnd (cfg.minImpurity + floatZero)
      · rw [if_pos hg] at hu
        obtain ⟨a, b⟩ := updateLoop_detail rem ss _ g' hnd.2 hlen' hu
        obtain ⟨c, _⟩ := updateLoop_grows rem ss _ g' hu
        exact ⟨combine (.inl ⟨c _ (by simp), .inr hg⟩) a, lift _ (fun q hq => .inl hq) b⟩
      · rw [if_neg hg] at hu
        cases h1 : splitNode cfg.rnd cfg.regLambda kind n s g with
        | error e => rw [h1] at hu; cases hu
        | ok g1 =>
          rw [h1] at hu
          obtain ⟨a, b⟩ := updateLoop_detail rem ss g1 g' hnd.2 hlen' hu
          obtain ⟨c, d⟩ := updateLoop_grows rem ss g1 g' hu
          have hmask := updateLoop_mask rem ss g1 g' hu n.id hnd.1
          obtain ⟨gl, hl, wl, wr, bid, imps, e1, e2, e3, e4, _, m1, _, t, q, _⟩ := splitNode_inv h1
          have ht : ({ n with
              left := some (g.num + 1), right := some (g.num + 2), site := s.site, fid := s.fid,
              bid := bid } : Node) ∈ g'.tree :=
            c _ (by rw [t]; simp)
          refine ⟨combine (.inr ⟨by simpa using hr, hg, g.num, gl, hl, wl, wr, bid, e1, e2, ht,
            d _ (by rw [q]; simp), d _ (by rw [q]; simp), ?_⟩) a, lift g1 ?_ b⟩
          · intro hs
            obtain ⟨b, b1, _, b3⟩ := m1 hs
            refine ⟨b, b1, ?_⟩
            rw [hmask, b3, Dict.get?_set, if_pos rfl]
          · intro x hx
            rw [q, List.mem_append] at hx
            rcases hx with hx | hx
            · exact .inl hx
            · right
              simp only [List.mem_cons, List.not_mem_nil, or_false] at hx
              rcases hx with rfl | rfl
              · exact .inr ⟨0, n, s, g.num, gl, hl, wl, bid, rfl, rfl, e1, e2, ht, .inl rfl⟩
              · exact .inr ⟨0, n, s, g.num, gl, hl, wr, bid, rfl, rfl, e1, e2, ht, .inr rfl⟩

/-- The queue update succeeds if weights can be computed. -/
theorem splitNode_ok {rnd : Rat → Rat} {lam : Rat} {kind : ImpType} {n : Node} {s : SplitInfo (Option Rat) Rat} {g : Grow}
    (hk : kind ≠ .other) {gl hl wl wr : Rat} (h1 : s.sumGrad = some gl) (h2 : s.sumHess = some hl)
    (h3 : nodeWeight rnd lam gl hl = .ok wl)
    (h4 : nodeWeight rnd lam (rnd (n.sumGrad - gl)) (rnd (n.sumHess - hl)) = .ok wr)
    (h5 : s.site = .guest → ∃ b, s.bid = some b) : ∃ g', splitNode rnd lam kind n s g = .ok g' := by
  have himp : ∃ imps, updateImportance kind s g.imps = .ok imps := by
    unfold updateImportance
    cases kind with
    | split => exact ⟨_, rfl⟩
    | gain => exact ⟨_, rfl⟩
    | other => exact absurd rfl hk
  obtain ⟨imps, himp⟩ := himp
  unfold splitNode
  rw [h1, h2]
  simp only [bind, Except.bind, h3, h4]
  cases hs : s.site with
  | guest =>
    obtain ⟨b, hb⟩ := h5 hs
    rw [hb]
    simp only [himp]
    exact ⟨_, rfl⟩
  | host j =>
    simp only [himp]
    exact ⟨_, rfl⟩

theorem updateLoop_ok {cfg : Config} {kind : ImpType} {reach : Bool} (hk : kind ≠ .other) :
    ∀ (rem : List Node) (ss : List (SplitInfo (Option Rat) Rat)) (g : Grow), ss.length = rem.length →
    (∀ (idx : Nat) (n : Node) s, rem[idx]? = some n → ss[idx]? = some s →
      ¬ s.gain ≤ cfg.rnd (cfg.minImpurity + floatZero) → ∃ gl hl wl wr, s.sumGrad = some gl ∧ s.sumHess = some hl ∧
        nodeWeight cfg.rnd cfg.regLambda gl hl = .ok wl ∧
        nodeWeight cfg.rnd cfg.regLambda (cfg.rnd (n.sumGrad - gl)) (cfg.rnd (n.sumHess - hl)) = .ok wr ∧
        (s.site = .guest → ∃ b, s.bid = some b)) →
    ∃ g', updateLoop cfg kind reach rem ss g = .ok g'
  | [], _, g, _, _ => ⟨g, by unfold updateLoop; rfl⟩
  | n :: rem, [], g, hlen, _ => by simp at hlen
  | n :: rem, s :: ss, g, hlen, h => by
    have h' : ∀ (idx : Nat) (n : Node) s, rem[idx]? = some n → ss[idx]? = some s →
      ¬ s.gain ≤ cfg.rnd (cfg.minImpurity + floatZero) → ∃ gl hl wl wr, s.sumGrad = some gl ∧ s.sumHess = some hl ∧
        nodeWeight cfg.rnd cfg.regLambda gl hl = .ok wl ∧
        nodeWeight cfg.rnd cfg.regLambda (cfg.rnd (n.sumGrad - gl)) (cfg.rnd (n.sumHess - hl)) = .ok wr ∧
        (s.site = .guest → ∃ b, s.bid = some b) :=
      fun idx n s h1 h2 => h (idx + 1) n s (by simpa using h1) (by simpa using h2)
    have hlen' : ss.length = rem.length := by simpa using hlen
    unfold updateLoop
    by_cases hr : reach = true
    · rw [if_pos hr]
      exact updateLoop_ok hk rem ss _ hlen' h'
    · rw [if_neg hr]
      simp only
      by_cases hg : s.gain ≤ cfg.rnd (cfg.minImpurity + floatZero)
      · rw [if_pos hg]
        exact updateLoop_ok hk rem ss _ hlen' h'
      · rw [if_neg hg]
        obtain ⟨gl, hl, wl, wr, a1, a2, a3, a4, a5⟩ := h 0 n s rfl rfl hg
        obtain ⟨g1, hg1⟩ := splitNode_ok (g := g) hk a1 a2 a3 a4 a5
        rw [hg1]
        exact updateLoop_ok hk rem ss g1 hlen' h'

end DTree
end Verif
