import Verif.Lemmas.Talk

/-! # The programs of guest and hosts keep to messages without bins and weights -/

set_option autoImplicit false

namespace Verif

namespace DTable

variable {K V W X : Type} [DecidableEq K]

theorem mem_mapValues {t : DTable K V} {f : V → W} {r : DTable K W} (h : t.mapValues f = .ok r)
    {p : K × W} (hp : p ∈ r.data) : ∃ v, (p.1, v) ∈ t.data ∧ p.2 = f v := by
  rw [(ofPairs_inv h).1] at hp
  obtain ⟨q, hq, rfl⟩ := List.mem_map.mp hp
  exact ⟨q.2, hq, rfl⟩

omit [DecidableEq K] in
theorem mem_evalRecords {f : V → Except PyErr W} : ∀ {l : List (K × V)} {r : List (K × W)},
    evalRecords f l = .ok r → ∀ p ∈ r, ∃ v, (p.1, v) ∈ l ∧ f v = .ok p.2
  | [], r, h => by simp only [evalRecords] at h; cases h; simp
  | (k, v) :: rest, r, h => by
    simp only [evalRecords] at h
    split at h
    · cases h
    · rename_i w hw
      split at h
      · cases h
      · rename_i ws hws
        cases h
        intro p hp
        rcases List.mem_cons.mp hp with rfl | hp
        · exact ⟨v, by simp, hw⟩
        · obtain ⟨v', h1, h2⟩ := mem_evalRecords hws p hp
          exact ⟨v', by simp [h1], h2⟩

theorem mem_joinLoop {d : Dict K V} {f : V → W → X} : ∀ {l : List (K × W)} {p : K × X},
    p ∈ joinLoop d f l → ∃ v w, (p.1, v) ∈ d ∧ (p.1, w) ∈ l ∧ p.2 = f v w
  | [], p, h => by simp [joinLoop] at h
  | (k, w) :: rest, p, h => by
    simp only [joinLoop] at h
    split at h
    · rename_i v hv
      rcases List.mem_cons.mp h with rfl | h
      · exact ⟨v, w, Dict.get?_mem hv, by simp, rfl⟩
      · obtain ⟨v', w', h1, h2, h3⟩ := mem_joinLoop h
        exact ⟨v', w', h1, by simp [h2], h3⟩
    · obtain ⟨v', w', h1, h2, h3⟩ := mem_joinLoop h
      exact ⟨v', w', h1, by simp [h2], h3⟩

theorem mem_mapValuesM {t : DTable K V} {f : V → Except PyErr W} {r : DTable K W}
    (h : t.mapValuesM f = .ok r) {p : K × W} (hp : p ∈ r.data) :
    ∃ v, (p.1, v) ∈ t.data ∧ f v = .ok p.2 := by
  unfold mapValuesM at h
  cases hl : evalRecords f t.data with
  | error e => rw [hl] at h; cases h
  | ok l =>
    rw [hl] at h
    rw [(ofPairs_inv h).1] at hp
    exact mem_evalRecords hl p hp

theorem mem_join {t : DTable K V} {o : DTable K W} {f : V → W → X} {r : DTable K X}
    (h : t.join o f = .ok r) {p : K × X} (hp : p ∈ r.data) :
    ∃ v w, (p.1, v) ∈ t.data ∧ (p.1, w) ∈ o.data ∧ p.2 = f v w := by
  rw [(ofPairs_inv h).1] at hp
  exact mem_joinLoop hp

theorem mem_joinM {t : DTable K V} {o : DTable K W} {f : V → W → Except PyErr X} {r : DTable K X}
    (h : t.joinM o f = .ok r) {p : K × X} (hp : p ∈ r.data) :
    ∃ v w, (p.1, v) ∈ t.data ∧ (p.1, w) ∈ o.data ∧ f v w = .ok p.2 := by
  unfold joinM at h
  cases hl : evalRecords (fun p : V × W => f p.1 p.2) (joinLoop t.data Prod.mk o.data) with
  | error e => rw [hl] at h; cases h
  | ok l =>
    rw [hl] at h
    rw [(ofPairs_inv h).1] at hp
    obtain ⟨v, h1, h2⟩ := mem_evalRecords hl p hp
    obtain ⟨a, b, h3, h4, h5⟩ := mem_joinLoop h1
    simp only at h5
    subst h5
    exact ⟨a, b, h3, h4, h2⟩

theorem mem_filter {t : DTable K V} {f : K → V → Bool} {r : DTable K V} (h : t.filter f = .ok r)
    {p : K × V} : p ∈ r.data ↔ p ∈ t.data ∧ f p.1 p.2 = true := by
  rw [(ofPairs_inv h).1]
  simp

theorem mem_subtractByKey {t : DTable K V} {o : DTable K W} {r : DTable K V}
    (h : t.subtractByKey o = .ok r) {p : K × V} (hp : p ∈ r.data) :
    p ∈ t.data ∧ ∀ w, (p.1, w) ∉ o.data := by
  rw [(ofPairs_inv h).1] at hp
  obtain ⟨h1, h2⟩ := List.mem_filter.mp hp
  refine ⟨h1, fun w hw => ?_⟩
  have : o.data.has p.1 = true := by
    rw [Dict.has_iff]
    exact List.mem_map.mpr ⟨_, hw, rfl⟩
  simp [this] at h2

theorem mem_set {d : Dict K V} {k : K} {v : V} {p : K × V} (hp : p ∈ d.set k v) :
    p ∈ d ∨ p.2 = v := by
  induction d with
  | nil =>
    simp only [Dict.set, List.mem_singleton] at hp
    subst hp
    exact .inr rfl
  | cons q d ih =>
    obtain ⟨k', v'⟩ := q
    simp only [Dict.set] at hp
    split at hp
    · rcases List.mem_cons.mp hp with rfl | hp
      · exact .inr rfl
      · exact .inl (by simp [hp])
    · rcases List.mem_cons.mp hp with rfl | hp
      · exact .inl (by simp)
      · rcases ih hp with h | h
        · exact .inl (by simp [h])
        · exact .inr h

theorem mem_unionLoop : ∀ {l : List (K × V)} {d : Dict K V} {p : K × V},
    p ∈ unionLoop (fun v _ => v) d l → (∃ k, (k, p.2) ∈ d) ∨ ∃ k, (k, p.2) ∈ l
  | [], d, p, h => .inl ⟨p.1, h⟩
  | (k, v) :: rest, d, p, h => by
    simp only [unionLoop] at h
    split at h
    · rename_i old ho
      rcases mem_unionLoop h with ⟨k', hk⟩ | ⟨k', hk⟩
      · rcases mem_set hk with hk | hk
        · exact .inl ⟨_, hk⟩
        · simp only at hk
          exact .inl ⟨k, hk ▸ Dict.get?_mem ho⟩
      · exact .inr ⟨k', by simp [hk]⟩
    · rcases mem_unionLoop h with ⟨k', hk⟩ | ⟨k', hk⟩
      · rcases mem_set hk with hk | hk
        · exact .inl ⟨_, hk⟩
        · simp only at hk
          exact .inr ⟨k, by simp [hk]⟩
      · exact .inr ⟨k', by simp [hk]⟩

theorem mem_union {t o : DTable K V} {r : DTable K V} (h : t.union o = .ok r) {p : K × V}
    (hp : p ∈ r.data) : (∃ k, (k, p.2) ∈ t.data) ∨ ∃ k, (k, p.2) ∈ o.data := by
  rw [(ofPairs_inv h).1] at hp
  exact mem_unionLoop hp

end DTable

namespace Network

open DTree Spec Binning Histogram

variable {K : Type} [DecidableEq K] {α : Type} {E : α → Prop}

omit [DecidableEq K] in
theorem keeps_sendTo {q : Option Nat} {m : Msg K α} (h : Discreet E m) :
    Keeps (Discreet E) (fun _ => True) (sendTo q m) := .send q m _ h (.done () trivial)

omit [DecidableEq K] in
theorem keeps_recvAs {β : Type} {q : Option Nat} {dec : Msg K α → Except PyErr β} {T : β → Prop}
    (h : ∀ m, Discreet E m → ∀ v, dec m = .ok v → T v) : Keeps (Discreet E) T (recvAs q dec) :=
  .recv q _ fun m hm => Keeps.lift (h m hm)

omit [DecidableEq K] in
theorem keeps_sendAll {m : Msg K α} (h : Discreet E m) : ∀ is : List Nat,
    Keeps (Discreet E) (fun _ => True) (sendAll m is)
  | [] => Keeps.pure trivial
  | _ :: is => Keeps.bind (keeps_sendTo h) fun _ _ => keeps_sendAll h is

omit [DecidableEq K] in
theorem keeps_recvAll {β : Type} {dec : Msg K α → Except PyErr β} {T : β → Prop}
    (h : ∀ m, Discreet E m → ∀ v, dec m = .ok v → T v) : ∀ is : List Nat,
    Keeps (Discreet E) (fun vs => ∀ v ∈ vs, T v) (recvAll dec is)
  | [] => Keeps.pure (by simp)
  | i :: is => by
    refine Keeps.bind (keeps_recvAs h) fun v hv => ?_
    refine Keeps.bind (keeps_recvAll h is) fun vs hvs => ?_
    refine Keeps.pure ?_
    intro x hx
    rcases List.mem_cons.mp hx with rfl | hx
    · exact hv
    · exact hvs x hx

/-! ## Host -/

theorem finalSplit_noBin {C : Cipher α} {site : Site} {mask : Dict Nat Int} {nid : Nat}
    {cands : List (SplitInfo α Unit)} {best : Int × α} {r : SplitInfo α α × Dict Nat Int}
    (h : finalSplit C site mask nid cands best = .ok r) : NoBin r.1.bid := by
  unfold finalSplit at h
  split at h
  · split at h
    · cases h
    · split at h
      · cases h
      · split at h
        · cases h
        · cases h; exact .inl rfl
        · cases h; exact .inl rfl
  · cases h; exact .inr rfl

theorem finalSplits_noBin {C : Cipher α} {site : Site} : ∀ {mask : Dict Nat Int} {ids : List Nat}
    {cands : List (List (SplitInfo α Unit))} {bests : List (Int × α)}
    {r : List (SplitInfo α α) × Dict Nat Int}, finalSplits C site mask ids cands bests = .ok r →
    ∀ s ∈ r.1, NoBin s.bid
  | mask, ids, [], bests, r, h => by
    cases ids <;> (simp only [finalSplits] at h; cases h; simp)
  | _, [], _ :: _, [], _, h => by simp [finalSplits] at h
  | _, _ :: _, _ :: _, [], _, h => by simp [finalSplits] at h
  | _, [], _ :: _, _ :: _, _, h => by simp [finalSplits] at h
  | mask, nid :: ids, c :: cs, b :: bs, r, h => by
    simp only [finalSplits, bind, Except.bind] at h
    split at h
    · cases h
    · rename_i x hx
      split at h
      · cases h
      · rename_i y hy
        cases h
        intro s hs
        rcases List.mem_cons.mp hs with rfl | hs
        · exact finalSplit_noBin hx
        · exact finalSplits_noBin hy s hs

theorem keeps_hostBatches (P : HostIn K α) (egh : DTable K (α × α)) (dep : Nat)
    (data : DTable K (SparseVec Cell × Nat × Nat)) : ∀ (fuel batch : Nat) (ids : List Nat)
    (mask : Dict Nat Int),
    Keeps (Discreet E) (fun _ => True) (hostBatches P egh dep data fuel batch ids mask)
  | 0, _, [], _ => Keeps.pure trivial
  | _ + 1, _, [], _ => Keeps.pure trivial
  | 0, _, _ :: _, _ => Keeps.pure trivial
  | fuel + 1, batch, n :: ns, mask => by
    unfold hostBatches
    refine Keeps.bind (T := fun _ => True) ?_ fun m _ => keeps_hostBatches P egh dep data fuel _ _ m
    unfold hostBatchP
    refine Keeps.bind (T := fun _ => True) (Keeps.lift fun _ _ => trivial) fun H _ => ?_
    refine Keeps.bind (T := fun _ => True) (Keeps.lift fun _ _ => trivial) fun s _ => ?_
    refine Keeps.bind (keeps_sendTo trivial) fun _ _ => ?_
    refine Keeps.bind (T := fun _ => True) (keeps_recvAs fun _ _ _ _ => trivial) fun b _ => ?_
    refine Keeps.bind (T := fun f => ∀ s ∈ f.1, NoBin s.bid)
      (Keeps.lift fun _ h => finalSplits_noBin h) fun f hf => ?_
    exact Keeps.bind (keeps_sendTo hf) fun _ _ => Keeps.pure trivial

theorem dispatchHost_quiet {site : Site} {mask : Dict Nat Int} {sparse : Dict Nat Nat} {d r : Disp}
    {row : SparseVec Cell} (hd : QuietPlace d) (h : dispatchHost site mask sparse d row = .ok r) :
    QuietPlace r := by
  unfold dispatchHost at h
  split at h
  · split at h
    · cases h; exact hd
    · simp only [bind, Except.bind] at h
      split at h
      · cases h
      · cases h
        split <;> exact trivial
  · cases h

theorem keeps_hostLevels (P : HostIn K α) (egh : DTable K (α × α)) : ∀ (r dep : Nat)
    (mask : Dict Nat Int), Keeps (Discreet E) (fun _ => True) (hostLevels P egh r dep mask)
  | 0, _, _ => Keeps.pure trivial
  | r + 1, dep, mask => by
    unfold hostLevels
    refine Keeps.bind (T := fun _ => True) (keeps_recvAs fun _ _ _ _ => trivial) fun ids _ => ?_
    split
    · exact Keeps.pure trivial
    refine Keeps.bind (T := fun _ => True) ?_ fun m _ => keeps_hostLevels P egh r _ m
    unfold hostLevel
    refine Keeps.bind (T := fun _ => True) (keeps_recvAs fun _ _ _ _ => trivial) fun _ _ => ?_
    refine Keeps.bind (T := fun _ => True) (Keeps.lift fun _ _ => trivial) fun _ _ => ?_
    refine Keeps.bind (T := fun _ => True) (Keeps.lift fun _ _ => trivial) fun _ _ => ?_
    split
    · exact Keeps.lift fun _ _ => trivial
    refine Keeps.bind (keeps_hostBatches ..) fun m _ => ?_
    refine Keeps.bind (T := fun t : DTable K Disp => ∀ x ∈ t.data, QuietPlace x.2)
      (keeps_recvAs fun msg hm v hv => ?_) fun q hq => ?_
    · cases msg <;> simp only [Msg.asQuestions] at hv <;> cases hv
      exact hm
    refine Keeps.bind (T := fun t : DTable K Disp => ∀ x ∈ t.data, QuietPlace x.2) (Keeps.lift fun a ha x hx => ?_)
      fun a ha => Keeps.bind (keeps_sendTo (m := .answers a) ha) fun _ _ => Keeps.pure trivial
    obtain ⟨v, w, h1, _, h3⟩ := DTable.mem_joinM ha hx
    exact dispatchHost_quiet (hq _ h1) h3

theorem keeps_hostFit (P : HostIn K α) : Keeps (Discreet E) (fun _ => True) (hostFit P) := by
  unfold hostFit
  refine Keeps.bind (T := fun _ => True) (keeps_recvAs fun _ _ _ _ => trivial) fun _ _ => ?_
  refine Keeps.bind (keeps_hostLevels ..) fun _ _ => ?_
  refine Keeps.bind (T := fun _ => True) (keeps_recvAs fun _ _ _ _ => trivial) fun _ _ => ?_
  exact Keeps.bind (T := fun _ => True) (Keeps.lift fun _ _ => trivial) fun _ _ => Keeps.pure trivial

theorem keeps_hostTrees (B : HostBoost K α) (i : Nat) : ∀ (r t : Nat)
    (trees : List (List NodeParam × Dict Nat Rat)),
    Keeps (Discreet E) (fun _ => True) (hostTrees B i r t trees)
  | 0, _, _ => Keeps.pure trivial
  | r + 1, t, trees => by
    unfold hostTrees
    refine Keeps.bind (keeps_hostFit _) fun _ _ => ?_
    exact Keeps.bind (T := fun _ => True) (Keeps.lift fun _ _ => trivial) fun _ _ =>
      keeps_hostTrees B i r _ _

theorem keeps_hostLoop (B : HostBoost K α) (dim : Nat) : ∀ (r i : Nat)
    (trees : List (List NodeParam × Dict Nat Rat)),
    Keeps (Discreet E) (fun _ => True) (hostLoop B dim r i trees)
  | 0, _, _ => Keeps.pure trivial
  | r + 1, i, trees => by
    unfold hostLoop
    refine Keeps.bind (keeps_hostTrees ..) fun _ _ => ?_
    split
    · refine Keeps.bind (T := fun _ => True) (keeps_recvAs fun _ _ _ _ => trivial) fun _ _ => ?_
      split
      · exact Keeps.pure trivial
      · exact keeps_hostLoop B dim r _ _
    · exact keeps_hostLoop B dim r _ _

theorem keeps_hostBoost (B : HostBoost K α) : Keeps (Discreet E) (fun _ => True) (hostBoost B) := by
  unfold hostBoost
  refine Keeps.bind (T := fun _ => True) (keeps_recvAs fun _ _ _ _ => trivial) fun _ _ => ?_
  exact Keeps.bind (keeps_hostLoop ..) fun _ _ => Keeps.pure trivial

theorem walkHost_quiet {tree : List Node} {mask : Dict Nat Rat} {site : Site} {row : SparseVec Rat} :
    ∀ {fuel nid : Nat} {s : PState}, walkHost tree mask site row fuel nid = .ok s → QuietState s
  | 0, _, _, h => by cases h
  | fuel + 1, nid, s, h => by
    unfold walkHost at h
    split at h
    · cases h
    · split at h
      · cases h; exact trivial
      · simp only [bind, Except.bind] at h
        split at h
        · cases h
        · split at h
          · cases h
          · exact walkHost_quiet h

theorem traverseHost_quiet {tree : List Node} {mask : Dict Nat Rat} {site : Site} {fuel : Nat}
    {row : SparseVec Rat} {s s' : PState} (h : traverseHost tree mask site fuel s row = .ok s') :
    QuietState s' := by
  unfold traverseHost at h
  split at h
  · split at h
    · cases h
    · split at h
      · cases h; exact trivial
      · exact walkHost_quiet h
  · cases h

theorem keeps_hostPredictLoop (site : Site) (tree : List Node) (mask : Dict Nat Rat)
    (rows : DTable K (SparseVec Rat)) (fuel : Nat) : ∀ r : Nat,
    Keeps (Discreet E) (fun _ => True) (hostPredictLoop (α := α) site tree mask rows fuel r)
  | 0 => Keeps.lift fun _ _ => trivial
  | r + 1 => by
    unfold hostPredictLoop
    refine Keeps.bind (T := fun _ => True) (keeps_recvAs fun _ _ _ _ => trivial) fun _ _ => ?_
    split
    · exact Keeps.pure trivial
    refine Keeps.bind (T := fun _ => True) (keeps_recvAs fun _ _ _ _ => trivial) fun _ _ => ?_
    refine Keeps.bind (T := fun t : DTable K PState => ∀ x ∈ t.data, QuietState x.2) (Keeps.lift fun a ha x hx => ?_)
      fun a ha => Keeps.bind (keeps_sendTo (m := .walked a) ha) fun _ _ =>
        keeps_hostPredictLoop site tree mask rows fuel r
    obtain ⟨v, w, _, _, h3⟩ := DTable.mem_joinM ha hx
    exact traverseHost_quiet h3

theorem keeps_hostPredictRound (idx dim : Nat) (trees : List (List NodeParam × Dict Nat Rat))
    (rows : DTable K (SparseVec Rat)) (fuel i : Nat) : ∀ r t : Nat,
    Keeps (Discreet E) (fun _ => True) (hostPredictRound (α := α) idx dim trees rows fuel i r t)
  | 0, _ => Keeps.pure trivial
  | r + 1, t => by
    unfold hostPredictRound
    refine Keeps.bind (T := fun _ => True) (Keeps.lift fun _ _ => trivial) fun _ _ => ?_
    exact Keeps.bind (keeps_hostPredictLoop ..) fun _ _ => keeps_hostPredictRound idx dim trees rows fuel i r _

theorem keeps_hostPredictRounds (idx dim : Nat) (trees : List (List NodeParam × Dict Nat Rat))
    (rows : DTable K (SparseVec Rat)) (fuel : Nat) : ∀ r i : Nat,
    Keeps (Discreet E) (fun _ => True) (hostPredictRounds (α := α) idx dim trees rows fuel r i)
  | 0, _ => Keeps.pure trivial
  | r + 1, _ => Keeps.bind (keeps_hostPredictRound ..) fun _ _ =>
      keeps_hostPredictRounds idx dim trees rows fuel r _

theorem keeps_hostPredict (idx dim : Nat) (trees : List (List NodeParam × Dict Nat Rat))
    (table : DTable K (List Rat)) (fuel : Nat) :
    Keeps (Discreet E) (fun _ => True) (hostPredict (α := α) idx dim trees table fuel) := by
  unfold hostPredict
  refine Keeps.bind (T := fun _ => True) (Keeps.lift fun _ _ => trivial) fun _ _ => ?_
  split
  · exact Keeps.lift fun _ _ => trivial
  · exact keeps_hostPredictRounds ..

/-! ## Guest -/

/-- A split the guest may enter into its tree: its own, or one without a bin. -/
def Masked (s : SplitInfo (Option Rat) Rat) : Prop := s.site = .guest ∨ NoBin s.bid

omit [DecidableEq K] in
theorem keeps_answerHosts {cfg : Config} {C : Cipher α}
    (hC : ∀ label x c, C.enc label x = .ok c → E c) (sums : List (Rat × Rat)) :
    ∀ (es : List (List (List (α × α)))) (j : Nat),
    Keeps (Discreet E) (fun _ => True) (answerHosts (K := K) cfg C sums j es)
  | [], _ => Keeps.pure trivial
  | e :: es, j => by
    unfold answerHosts
    refine Keeps.bind (T := fun b : List (Int × α) => ∀ x ∈ b, E x.2) (Keeps.lift fun b hb => ?_) fun b hb =>
      Keeps.bind (keeps_sendTo (m := .bests b) hb) fun _ _ => keeps_answerHosts hC sums es _
    have : ∀ (ns : List (Rat × Rat)) (cs : List (List (α × α))) (i : Nat) (b : List (Int × α)),
        bestForHost cfg C j i ns cs = .ok b → ∀ x ∈ b, E x.2 := by
      intro ns
      induction ns with
      | nil => intro cs i b h; simp only [bestForHost] at h; cases h; simp
      | cons n ns ih =>
        intro cs i b h
        cases cs with
        | nil => simp only [bestForHost] at h; cases h; simp
        | cons c cs =>
          simp only [bestForHost, bind, Except.bind] at h
          split at h
          · cases h
          · rename_i v hv
            split at h
            · cases h
            · rename_i vs hvs
              cases h
              intro x hx
              rcases List.mem_cons.mp hx with rfl | hx
              · simp only [findHostSplit, bind, Except.bind] at hv
                split at hv
                · cases hv
                · split at hv
                  · cases hv
                  · rename_i g hg
                    cases hv
                    exact hC _ _ _ hg
              · exact ih _ _ _ hvs x hx
    exact this _ _ _ _ hb

theorem bestHost_mem {C : Cipher α} : ∀ {ss : List (SplitInfo α α)} {best r : Rat × SplitInfo α α},
    bestHost C ss best = .ok r → r.2 = best.2 ∨ r.2 ∈ ss
  | [], best, r, h => by simp only [bestHost] at h; cases h; exact .inl rfl
  | s :: ss, best, r, h => by
    simp only [bestHost] at h
    split at h
    · cases h
    · split at h
      · rcases bestHost_mem h with h | h
        · exact .inr (by simp [h])
        · exact .inr (by simp [h])
      · rcases bestHost_mem h with h | h
        · exact .inl h
        · exact .inr (by simp [h])

theorem findBestGuestHost_masked {rnd : Rat → Rat} {C : Cipher α} {guest r : SplitInfo (Option Rat) Rat}
    {hosts : List (SplitInfo α α)} (hg : guest.site = .guest) (hh : ∀ s ∈ hosts, NoBin s.bid)
    (h : findBestGuestHost rnd C guest hosts = .ok r) : Masked r := by
  unfold findBestGuestHost at h
  split at h
  · cases h
  · rename_i s ss
    split at h
    · cases h
    · split at h
      · cases h
      · rename_i bg best hb
        split at h
        · cases h; exact .inl hg
        · split at h
          · cases h
          · split at h
            · cases h
            · cases h
              refine .inr (hh best ?_)
              rcases bestHost_mem hb with h | h
              · simp only at h; simp [h]
              · exact h

theorem mergeLoop_masked {rnd : Rat → Rat} {C : Cipher α} {hosts : List (List (SplitInfo α α))}
    (hh : ∀ l ∈ hosts, ∀ s ∈ l, NoBin s.bid) : ∀ {gs : List (SplitInfo (Option Rat) Rat)} {i : Nat}
    {r : List (SplitInfo (Option Rat) Rat)}, (∀ s ∈ gs, s.site = .guest) →
    mergeLoop rnd C hosts i gs = .ok r → ∀ s ∈ r, Masked s
  | [], _, _, _, h => by simp only [mergeLoop] at h; cases h; simp
  | g :: gs, i, r, hg, h => by
    simp only [mergeLoop, bind, Except.bind] at h
    split at h
    · cases h
    · rename_i col hcol
      split at h
      · cases h
      · rename_i b hb
        split at h
        · cases h
        · rename_i bs hbs
          cases h
          intro s hs
          rcases List.mem_cons.mp hs with rfl | hs
          · refine findBestGuestHost_masked (hg g (by simp)) ?_ hb
            refine evalList_all (P := fun s : SplitInfo α α => NoBin s.bid) hosts col ?_ hcol
            intro l hl y hy
            unfold getAt at hy
            split at hy
            · rename_i x hx
              cases hy
              exact hh l hl _ (List.mem_of_getElem? hx)
            · cases hy
          · exact mergeLoop_masked hh (fun s hs => hg s (by simp [hs])) hbs s hs

/-- What the guest encrypts for one tree is in `E`. -/
structure EncIn (E : α → Prop) (G : GuestIn K α) : Prop where
  table : ∀ r ∈ G.encGh.data, E r.2.1 ∧ E r.2.2
  gain : ∀ dep batch label x c, (G.cipher dep batch).enc label x = .ok c → E c

theorem keeps_guestBatches {G : GuestIn K α} (hG : EncIn E G) (dep : Nat)
    (dataPos : DTable K (SparseVec Cell × Nat × Nat)) : ∀ (fuel batch : Nat) (nodes : List Node),
    Keeps (Discreet E) (fun ss => ∀ s ∈ ss, Masked s) (guestBatches G dep dataPos fuel batch nodes)
  | 0, _, [] => Keeps.pure (by simp)
  | _ + 1, _, [] => Keeps.pure (by simp)
  | 0, _, _ :: _ => Keeps.pure (by simp)
  | fuel + 1, batch, n :: ns => by
    unfold guestBatches
    refine Keeps.bind (T := fun ss => ∀ s ∈ ss, Masked s) ?_ fun ss hss =>
      Keeps.bind (keeps_guestBatches hG dep dataPos fuel _ _) fun rest hr => Keeps.pure ?_
    · unfold guestBatch
      refine Keeps.bind (T := fun _ => True) (Keeps.lift fun _ _ => trivial) fun H _ => ?_
      refine Keeps.bind (T := fun gs => ∀ s ∈ gs, s.site = .guest)
        (Keeps.lift fun gs h => findSplit_site h) fun gs hgs => ?_
      refine Keeps.bind (keeps_recvAll (T := fun _ => True) (fun _ _ _ _ => trivial) _) fun encs _ => ?_
      refine Keeps.bind (keeps_answerHosts (hG.gain dep batch) _ _ _) fun _ _ => ?_
      refine Keeps.bind (keeps_recvAll (T := fun l => ∀ s ∈ l, NoBin s.bid) (fun msg hm v hv => ?_) _)
        fun finals hf => Keeps.lift fun r hr => mergeLoop_masked hf hgs hr
      cases msg <;> simp only [Msg.asFinals] at hv <;> cases hv
      exact hm
    · intro s hs
      rcases List.mem_append.mp hs with hs | hs
      · exact hss s hs
      · exact hr s hs

/-- Nothing in the guest's tree or queue has a bin. -/
def NoBins (g : Grow) : Prop := (∀ n ∈ g.tree, NoBin n.bid) ∧ ∀ n ∈ g.queue, NoBin n.bid

theorem splitNode_noBins {rnd : Rat → Rat} {lam : Rat} {kind : ImpType} {node : Node} {s : SplitInfo (Option Rat) Rat}
    {g r : Grow} (hs : Masked s) (hg : NoBins g) (h : splitNode rnd lam kind node s g = .ok r) :
    NoBins r := by
  unfold splitNode at h
  split at h
  · simp only [bind, Except.bind] at h
    split at h
    · cases h
    split at h
    · cases h
    have key : ∀ (bid : Option Int) (mask : Dict Nat Int) (l r' : Node)
        (imps : Dict (Site × Option Int) Rat),
        NoBin bid → NoBin l.bid → NoBin r'.bid →
        NoBins ⟨g.tree ++ [{ node with left := some (g.num + 1), right := some (g.num + 2),
                                       site := s.site, fid := s.fid, bid := bid }],
          g.queue ++ [l, r'], g.num + 2, mask, imps⟩ := by
      intro bid mask l r' imps hb hl hr
      refine ⟨fun n hn => ?_, fun n hn => ?_⟩
      · rcases List.mem_append.mp hn with hn | hn
        · exact hg.1 n hn
        · simp only [List.mem_singleton] at hn
          subst hn
          exact hb
      · rcases List.mem_append.mp hn with hn | hn
        · exact hg.2 n hn
        · simp only [List.mem_cons, List.not_mem_nil, or_false] at hn
          rcases hn with rfl | rfl <;> assumption
    split at h
    · split at h
      · cases h
      · cases h
        exact key _ _ _ _ _ (.inl rfl) (.inl rfl) (.inl rfl)
    · cases h
    · rename_i hj
      split at h
      · cases h
      · cases h
        refine key _ _ _ _ _ ?_ (.inl rfl) (.inl rfl)
        rcases hs with hs | hs
        · rw [hj] at hs; cases hs
        · exact hs
  · cases h

theorem updateLoop_noBins {cfg : Config} {kind : ImpType} {reach : Bool} : ∀ {ns : List Node}
    {ss : List (SplitInfo (Option Rat) Rat)} {g r : Grow}, (∀ n ∈ ns, NoBin n.bid) →
    (∀ s ∈ ss, Masked s) → NoBins g → updateLoop cfg kind reach ns ss g = .ok r → NoBins r
  | [], _, _, _, _, _, hg, h => by simp only [updateLoop] at h; cases h; exact hg
  | n :: ns, ss, g, r, hn, hs, hg, h => by
    have leaf : NoBins { g with tree := g.tree ++ [{ n with isLeaf := true }] } := by
      refine ⟨fun m hm => ?_, hg.2⟩
      rcases List.mem_append.mp hm with hm | hm
      · exact hg.1 m hm
      · simp only [List.mem_singleton] at hm
        subst hm
        exact hn n (by simp)
    simp only [updateLoop] at h
    split at h
    · exact updateLoop_noBins (fun m hm => hn m (by simp [hm]))
        (fun s hs' => hs s (List.mem_of_mem_tail hs')) leaf h
    · split at h
      · cases h
      · rename_i s ss
        split at h
        · exact updateLoop_noBins (fun m hm => hn m (by simp [hm]))
            (fun s hs' => hs s (by simp [hs'])) leaf h
        · split at h
          · cases h
          · rename_i g' hg'
            exact updateLoop_noBins (fun m hm => hn m (by simp [hm]))
              (fun s hs' => hs s (by simp [hs'])) (splitNode_noBins (hs s (by simp)) hg hg') h

theorem dispatchNode_noBin {tree : List Node} {mask : Dict Nat Int} {sparse : Dict Nat Nat}
    {v : SparseVec Cell × Nat × Nat} {d : Disp} (ht : ∀ n ∈ tree, NoBin n.bid)
    (h : dispatchNode tree mask sparse v = .ok d) : d.isLeaf = true ∨ QuietPlace d := by
  unfold dispatchNode at h
  split at h
  · cases h
  · rename_i n hn
    split at h
    · cases h; exact .inl rfl
    · split at h
      · simp only [bind, Except.bind] at h
        split at h
        · cases h
        split at h
        · cases h
        cases h
        split <;> exact .inr trivial
      · simp only [bind, Except.bind] at h
        split at h
        · cases h
        cases h
        exact .inr (ht n (List.mem_of_getElem? hn))

theorem combine_quiet : ∀ {ts : List (DTable K Disp)} {acc r : Option (DTable K Disp)},
    (∀ t ∈ ts, ∀ x ∈ t.data, QuietPlace x.2) → (∀ t, acc = some t → ∀ x ∈ t.data, QuietPlace x.2) →
    combine acc ts = .ok r → ∀ t, r = some t → ∀ x ∈ t.data, QuietPlace x.2
  | [], _, _, _, ha, h => by simp only [combine] at h; cases h; exact ha
  | t :: ts, none, r, ht, _, h => by
    simp only [combine] at h
    refine combine_quiet (fun t' h' => ht t' (by simp [h'])) (fun t' h' => ?_) h
    cases h'
    exact ht t (by simp)
  | t :: ts, some a, r, ht, ha, h => by
    simp only [combine] at h
    split at h
    · cases h
    · rename_i b hb
      refine combine_quiet (fun t' h' => ht t' (by simp [h'])) (fun t' h' x hx => ?_) h
      cases h'
      obtain ⟨v, w, h1, h2, h3⟩ := DTable.mem_join hb hx
      rw [h3]
      split
      · exact ha a rfl _ h1
      · exact ht t (by simp) _ h2

/-- What the guest keeps between two levels says nothing. -/
structure Quiet (st : GuestState K) : Prop where
  grow : NoBins st.grow
  disp : ∀ x ∈ st.disp.data, QuietPlace x.2

theorem keeps_guestRedispatch {G : GuestIn K α} {g : Grow} (hg : NoBins g)
    (dataPos : DTable K (SparseVec Cell × Nat × Nat)) (weights : Option (DTable K Rat)) :
    Keeps (Discreet E) Quiet (guestRedispatch G g dataPos weights) := by
  unfold guestRedispatch
  refine Keeps.bind (T := fun t => ∀ x ∈ t.data, x.2.isLeaf = true ∨ QuietPlace x.2)
    (Keeps.lift fun t ht x hx => ?_) fun res hres => ?_
  · obtain ⟨v, _, h2⟩ := DTable.mem_mapValuesM ht hx
    exact dispatchNode_noBin hg.1 h2
  refine Keeps.bind (T := fun t : DTable K Disp => ∀ x ∈ t.data, QuietPlace x.2) (Keeps.lift fun t ht x hx => ?_)
    fun toHost hto => ?_
  · obtain ⟨h1, h2⟩ := (DTable.mem_filter ht).mp hx
    rcases hres x h1 with h | h
    · cases hd : x.2 <;> simp_all [Disp.isLeaf, Disp.isAsk]
    · exact h
  refine Keeps.bind (T := fun t => ∀ x ∈ t.data, x.2.isLeaf = true ∨ QuietPlace x.2)
    (Keeps.lift fun t ht x hx => hres x (DTable.mem_subtractByKey ht hx).1) fun res hres => ?_
  refine Keeps.bind (T := fun t => ∀ x, x ∈ t.data ↔ x ∈ res.data ∧ x.2.isLeaf = true)
    (Keeps.lift fun t ht x => DTable.mem_filter ht) fun leaf hleaf => ?_
  refine Keeps.bind (T := fun _ => True) (Keeps.lift fun _ _ => trivial) fun _ _ => ?_
  refine Keeps.bind (T := fun _ => True) (Keeps.lift fun _ _ => trivial) fun _ _ => ?_
  refine Keeps.bind (T := fun t : DTable K Disp => ∀ x ∈ t.data, QuietPlace x.2) (Keeps.lift fun t ht x hx => ?_)
    fun rest hrest => ?_
  · obtain ⟨h1, h2⟩ := DTable.mem_subtractByKey ht hx
    rcases hres x h1 with h | h
    · exact absurd ((hleaf x).mpr ⟨h1, h⟩) (h2 x.2)
    · exact h
  refine Keeps.bind (keeps_sendAll (E := E) (m := .questions _) hto _) fun _ _ => ?_
  refine Keeps.bind (keeps_recvAll (T := fun t => ∀ x ∈ t.data, QuietPlace x.2)
    (fun msg hm v hv => ?_) _) fun answers ha => ?_
  · cases msg <;> simp only [Msg.asAnswers] at hv <;> cases hv
    exact hm
  refine Keeps.bind (T := fun o => ∀ t, o = some t → ∀ x ∈ t.data, QuietPlace x.2)
    (Keeps.lift fun o ho => combine_quiet ha (by simp) ho) fun o ho => ?_
  refine Keeps.bind (T := fun t : DTable K Disp => ∀ x ∈ t.data, QuietPlace x.2) (Keeps.lift fun t ht x hx => ?_)
    fun disp hd => Keeps.pure ⟨hg, hd⟩
  cases o with
  | none => simp only [addPositions] at ht; cases ht; exact hrest x hx
  | some a =>
    simp only [addPositions] at ht
    rcases DTable.mem_union ht hx with ⟨k, hk⟩ | ⟨k, hk⟩
    · exact ho a rfl (k, x.2) hk
    · exact hrest (k, x.2) hk

theorem keeps_guestLevels {G : GuestIn K α} (hG : EncIn E G) : ∀ (r dep : Nat) (st : GuestState K),
    Quiet st → Keeps (Discreet E) Quiet (guestLevels G r dep st)
  | 0, _, _, h => Keeps.pure h
  | r + 1, dep, st, h => by
    unfold guestLevels
    refine Keeps.bind (keeps_sendAll (E := E) (m := .nodes _) trivial _) fun _ _ => ?_
    split
    · exact Keeps.pure h
    refine Keeps.bind (T := Quiet) ?_ fun st h => keeps_guestLevels hG r _ st h
    unfold guestLevel
    refine Keeps.bind (keeps_sendAll (E := E) (m := .positions _) h.disp _) fun _ _ => ?_
    refine Keeps.bind (T := fun _ => True) (Keeps.lift fun _ _ => trivial) fun _ _ => ?_
    refine Keeps.bind (T := fun _ => True) (Keeps.lift fun _ _ => trivial) fun _ _ => ?_
    split
    · exact Keeps.lift fun _ h => by cases h
    refine Keeps.bind (keeps_guestBatches hG dep _ _ _ _) fun ss hss => ?_
    refine Keeps.bind (T := NoBins) (Keeps.lift fun g hg => ?_) fun g hg => keeps_guestRedispatch hg _ _
    unfold updateQueue at hg
    refine updateLoop_noBins h.grow.2 hss ?_ hg
    exact ⟨h.grow.1, fun _ hn => absurd hn List.not_mem_nil⟩

theorem keeps_guestFit {G : GuestIn K α} (hG : EncIn E G) :
    Keeps (Discreet E) (fun _ => True) (guestFit G) := by
  unfold guestFit
  refine Keeps.bind (keeps_sendAll (E := E) (m := .gradHess _) hG.table _) fun _ _ => ?_
  refine Keeps.bind (T := Quiet) (Keeps.lift fun st hst => ?_) fun st hst => ?_
  · simp only [guestInit, bind, Except.bind] at hst
    split at hst
    · cases hst
    split at hst
    · cases hst
    split at hst
    · cases hst
    rename_i d hd
    cases hst
    refine ⟨⟨by simp, ?_⟩, fun x hx => ?_⟩
    · intro n hn
      simp only [List.mem_singleton] at hn
      subst hn
      exact .inl rfl
    · obtain ⟨v, _, h2⟩ := DTable.mem_mapValues hd hx
      rw [h2]
      exact trivial
  refine Keeps.bind (keeps_guestLevels hG _ _ st hst) fun st hst => ?_
  refine Keeps.bind (keeps_sendAll (E := E) (m := .tree _) hst.grow.1 _) fun _ _ => ?_
  exact Keeps.bind (T := fun _ => True) (Keeps.lift fun _ _ => trivial) fun _ _ => Keeps.pure trivial

variable {L : Type}

theorem keeps_guestTrees {B : GuestBoost K α L} (hB : Encrypts E B)
    (gh : DTable K (List Rat × List Rat)) (i : Nat) : ∀ (r t : Nat) (st : GuestBoostState K),
    Keeps (Discreet E) (fun _ => True) (guestTrees B gh i r t st)
  | 0, _, _ => Keeps.pure trivial
  | r + 1, t, st => by
    unfold guestTrees
    refine Keeps.bind (T := fun _ => True) ?_ fun st _ => keeps_guestTrees hB gh i r _ st
    unfold guestTree
    refine Keeps.bind (T := fun _ => True) (Keeps.lift fun _ _ => trivial) fun g _ => ?_
    refine Keeps.bind (T := fun e => ∀ r ∈ e.data, E r.2.1 ∧ E r.2.2)
      (Keeps.lift fun e he => hB.table i t g e he) fun e he => ?_
    refine Keeps.bind (keeps_guestFit ⟨he, hB.gain i t⟩) fun F _ => ?_
    refine Keeps.bind (T := fun _ => True) (Keeps.lift fun _ _ => trivial) fun _ _ => ?_
    exact Keeps.bind (T := fun _ => True) (Keeps.lift fun _ _ => trivial) fun _ _ => Keeps.pure trivial

theorem keeps_guestLoop {B : GuestBoost K α L} (hB : Encrypts E B) (y : DTable K L) :
    ∀ (r i : Nat) (st : GuestBoostState K), Keeps (Discreet E) (fun _ => True) (guestLoop B y r i st)
  | 0, _, _ => Keeps.pure trivial
  | r + 1, i, st => by
    unfold guestLoop
    refine Keeps.bind (T := fun _ => True) ?_ fun st _ => ?_
    · unfold guestRound
      refine Keeps.bind (T := fun _ => True) (Keeps.lift fun _ _ => trivial) fun _ _ => ?_
      refine Keeps.bind (keeps_guestTrees hB ..) fun _ _ => ?_
      exact Keeps.bind (T := fun _ => True) (Keeps.lift fun _ _ => trivial) fun _ _ => Keeps.pure trivial
    split
    · refine Keeps.bind (keeps_sendAll (E := E) (m := .stop _) trivial _) fun _ _ => ?_
      split
      · exact Keeps.pure trivial
      · exact keeps_guestLoop hB y r _ _
    · exact keeps_guestLoop hB y r _ _

theorem keeps_guestBoost {B : GuestBoost K α L} (hB : Encrypts E B) (init : List Rat)
    (y : DTable K L) : Keeps (Discreet E) (fun _ => True) (guestBoost B init y) := by
  unfold guestBoost
  refine Keeps.bind (T := fun _ => True) (Keeps.lift fun _ _ => trivial) fun _ _ => ?_
  refine Keeps.bind (keeps_sendAll (E := E) (m := .treeDim _) trivial _) fun _ _ => ?_
  exact keeps_guestLoop hB y _ _ _

theorem keeps_guestPredictLoop (conns : Nat) (tree : List Node) (mask : Dict Nat Rat)
    (rows : DTable K (SparseVec Rat)) (fuel : Nat) : ∀ (r : Nat) (todo : DTable K PState)
    (result : Option (DTable K Rat)),
    Keeps (Discreet E) (fun _ => True)
      (guestPredictLoop (α := α) conns tree mask rows fuel r todo result)
  | 0, _, _ => Keeps.lift fun _ _ => trivial
  | r + 1, todo, result => by
    unfold guestPredictLoop
    refine Keeps.bind (T := fun _ => True) (Keeps.lift fun _ _ => trivial) fun moved _ => ?_
    refine Keeps.bind (T := fun t => ∀ x, x ∈ t.data ↔ x ∈ moved.data ∧ x.2.isWeight = true)
      (Keeps.lift fun t ht x => DTable.mem_filter ht) fun leaf hleaf => ?_
    refine Keeps.bind (T := fun _ => True) (Keeps.lift fun _ _ => trivial) fun _ _ => ?_
    refine Keeps.bind (T := fun _ => True) (Keeps.lift fun _ _ => trivial) fun _ _ => ?_
    refine Keeps.bind (T := fun t : DTable K PState => ∀ x ∈ t.data, QuietState x.2) (Keeps.lift fun t ht x hx => ?_)
      fun todo htodo => ?_
    · obtain ⟨h1, h2⟩ := DTable.mem_subtractByKey ht hx
      cases hs : x.2 with
      | node nid tag => exact trivial
      | weight w => exact absurd ((hleaf x).mpr ⟨h1, by rw [hs]; rfl⟩) (h2 x.2)
    split
    · exact Keeps.bind (keeps_sendAll (E := E) (m := .finish _) trivial _) fun _ _ => Keeps.pure trivial
    refine Keeps.bind (keeps_sendAll (E := E) (m := .finish _) trivial _) fun _ _ => ?_
    refine Keeps.bind (keeps_sendAll (E := E) (m := .walking _) htodo _) fun _ _ => ?_
    refine Keeps.bind (keeps_recvAll (T := fun _ => True) (fun _ _ _ _ => trivial) _) fun _ _ => ?_
    exact Keeps.bind (T := fun _ => True) (Keeps.lift fun _ _ => trivial) fun _ _ =>
      keeps_guestPredictLoop conns tree mask rows fuel r _ _

theorem keeps_guestPredictRound (conns : Nat) (rate : Rate) (dim : Nat)
    (trees : List (List NodeParam × Dict Nat Rat)) (rows : DTable K (SparseVec Rat)) (fuel i : Nat) :
    ∀ (r t : Nat) (scores : DTable K (List Rat)), Keeps (Discreet E) (fun _ => True)
      (guestPredictRound (α := α) conns rate dim trees rows fuel i r t scores)
  | 0, _, _ => Keeps.pure trivial
  | r + 1, t, scores => by
    unfold guestPredictRound
    refine Keeps.bind (T := fun _ => True) (Keeps.lift fun _ _ => trivial) fun _ _ => ?_
    refine Keeps.bind (T := fun _ => True) ?_ fun _ _ => ?_
    · unfold guestPredictTree
      exact Keeps.bind (T := fun _ => True) (Keeps.lift fun _ _ => trivial) fun _ _ =>
        keeps_guestPredictLoop ..
    · exact Keeps.bind (T := fun _ => True) (Keeps.lift fun _ _ => trivial) fun _ _ =>
        keeps_guestPredictRound conns rate dim trees rows fuel i r _ _

theorem keeps_guestPredictRounds (conns : Nat) (rate : Rate) (dim : Nat)
    (trees : List (List NodeParam × Dict Nat Rat)) (rows : DTable K (SparseVec Rat)) (fuel : Nat) :
    ∀ (r i : Nat) (scores : DTable K (List Rat)), Keeps (Discreet E) (fun _ => True)
      (guestPredictRounds (α := α) conns rate dim trees rows fuel r i scores)
  | 0, _, _ => Keeps.pure trivial
  | r + 1, _, _ => Keeps.bind (keeps_guestPredictRound ..) fun _ _ =>
      keeps_guestPredictRounds conns rate dim trees rows fuel r _ _

theorem keeps_guestPredict (conns : Nat) (rate : Rate) (dim : Nat) (init : List Rat)
    (trees : List (List NodeParam × Dict Nat Rat)) (table : DTable K (List Rat)) (fuel : Nat) :
    Keeps (Discreet E) (fun _ => True)
      (guestPredict (α := α) conns rate dim init trees table fuel) := by
  unfold guestPredict
  refine Keeps.bind (T := fun _ => True) (Keeps.lift fun _ _ => trivial) fun _ _ => ?_
  refine Keeps.bind (T := fun _ => True) (Keeps.lift fun _ _ => trivial) fun _ _ => ?_
  split
  · exact Keeps.lift fun _ _ => trivial
  · exact keeps_guestPredictRounds ..

omit [DecidableEq K] in
/-- A system of such parties. -/
theorem keeps_system {G H : Type} {g : Prog K α G} {hs : List (Prog K α H)}
    (hg : Keeps (Discreet E) (fun _ => True) g)
    (hh : ∀ h ∈ hs, Keeps (Discreet E) (fun _ => True) h) {b : Bool} {n : Nat}
    {d : Net (Option Nat) (Msg K α) (Outcome G H)} (hr : Run b n (system g hs) d) :
    ∀ x, ∀ m ∈ d.chan x, Discreet E m := by
  refine keeps_run hr (fun p => ?_) fun x m hm => by simp [system, lock] at hm
  match p with
  | none => exact Keeps.bind hg fun _ _ => Keeps.pure trivial
  | some i =>
    simp only [system, lock, List.getElem?_map]
    cases hi : hs[i]? with
    | none => exact .done _ trivial
    | some h => exact Keeps.bind (hh h (List.mem_of_getElem? hi)) fun _ _ => Keeps.pure trivial

end Network
end Verif
