import Verif.Lemmas.ProtocolBreaks2

/-!
# Failing over the network: prediction
-/

set_option autoImplicit false

namespace Verif
namespace Network

open DTree Spec
open Histogram (getAt)
open Binning (Cell SparseVec)

variable {K : Type} [DecidableEq K] {α R X L : Type} {idle : R}

theorem hostWalks_of (tree : List Node) (fuel : Nat) (todo : DTable K PState) (q : X → PredHost K)
    (v : X → DTable K PState) (xs : List X)
    (h : ∀ x ∈ xs, todo.joinM (q x).rows (traverseHost tree (q x).mask (.host (q x).idx) fuel) = .ok (v x)) :
    hostWalks tree fuel todo (xs.map q) = .ok (xs.map v) := by
  induction xs with
  | nil => rfl
  | cons x xs ih =>
    simp only [List.map_cons, hostWalks, h x (by simp), ih fun y hy => h y (by simp [hy]), bind, Except.bind,
      pure, Except.pure]

theorem breaks_predictLoop (tree : List Node) (mask : Dict Nat Rat)
    (rows : DTable K (SparseVec Rat)) (q : X → PredHost K) (xs : List X) (fuel r : Nat)
    (todo : DTable K PState) (result : Option (DTable K Rat)) (e : PyErr)
    (h : predictLoop tree mask rows (xs.map q) fuel r todo result = .error e)
    (n : Nat) (hn : n = xs.length) (kg : DTable K Rat → Prog K α R) (kh : X → Prog K α R) :
    Breaks (lock idle (guestPredictLoop n tree mask rows fuel r todo result >>= kg)
        (xs.map fun x => hostPredictLoop (.host (q x).idx) tree (q x).mask (q x).rows fuel r >>= fun _ => kh x)) := by
  induction r generalizing todo result with
  | zero => exact breaks_guest .unfinished _
  | succ r ih =>
    simp only [guestPredictLoop, hostPredictLoop, bind_bind]
    refine breaks_lift fun moved h1 => ?_
    refine breaks_lift fun leaf h2 => ?_
    refine breaks_lift fun leafW h3 => ?_
    refine breaks_lift fun res h4 => ?_
    refine breaks_lift fun todo' h5 => ?_
    simp only [predictLoop, bind, Except.bind, h1, h2, h3, h4, h5] at h
    by_cases hc : todo'.count = 0
    · rw [if_pos hc] at h
      cases h
    simp only [if_neg hc, bind_bind]
    rw [if_neg hc] at h
    refine Breaks.of_leads (leads_sendAll xs (.finish false) false Msg.asFinish rfl _ (fun x tag => _) n hn) ?_
    simp only [Bool.false_eq_true, if_false, bind_bind]
    refine Breaks.of_leads (leads_sendAll xs (.walking todo') todo' Msg.asWalking rfl _ (fun x todo => _) n hn) ?_
    refine breaks_lifts todo' _ _ fun ha => ?_
    refine Breaks.of_leads (leads_recvAll xs (fun x => Msg.walked (α := α) (okOr todo' (todo'.joinM (q x).rows
              (traverseHost tree (q x).mask (.host (q x).idx) fuel)))) _ Msg.asWalked (fun x _ => rfl) _ _ n hn) ?_
    refine breaks_lift fun todo'' h7 => ?_
    have h6 := hostWalks_of tree fuel todo' q _ xs ha
    simp only [h6, h7] at h
    exact ih todo'' (some res) h

theorem breaks_predictTree (tree : List Node) (mask : Dict Nat Rat)
    (rows : DTable K (SparseVec Rat)) (q : X → PredHost K) (xs : List X) (fuel : Nat) (e : PyErr)
    (h : predictTree tree mask rows (xs.map q) fuel = .error e)
    (n : Nat) (hn : n = xs.length) (kg : DTable K Rat → Prog K α R) (kh : X → Prog K α R) :
    Breaks (lock idle (guestPredictTree n tree mask rows fuel >>= kg)
        (xs.map fun x => hostPredictLoop (.host (q x).idx) tree (q x).mask (q x).rows fuel fuel >>= fun _ => kh x)) := by
  simp only [guestPredictTree, bind_bind]
  refine breaks_lift fun todo h1 => ?_
  simp only [predictTree, bind, Except.bind, h1] at h
  exact breaks_predictLoop tree mask rows q xs fuel fuel todo none e h n hn kg kh

theorem getAt_map_error {β γ : Type} (f : β → γ) (l : List β) (i : Nat) (e : PyErr) (h : getAt l i = .error e) :
    ∃ e', getAt (l.map f) i = .error e' := by
  simp only [getAt] at h ⊢
  cases hi : l[i]? with
  | none => exact ⟨.indexError, by simp [hi]⟩
  | some b => simp [hi] at h

theorem breaks_predictRound (hosts : List (Party K)) (rate : Rate) (dim : Nat)
    (trees : List Saved) (rows : DTable K (SparseVec Rat)) (ts : List (DTable K (List Rat)))
    (v : DTable K (List Rat) → DTable K (SparseVec Rat)) (ht : ts.length = hosts.length)
    (hm : MasksOk hosts.length trees) (fuel i r t : Nat) (sc : DTable K (List Rat)) (e : PyErr)
    (h : predictRound hosts rate dim trees rows (ts.map v) fuel i r t sc = .error e)
    (kg : DTable K (List Rat) → Prog K α R)
    (kh : (Party K × Nat) × DTable K (List Rat) → Prog K α R) :
    Breaks (lock idle (guestPredictRound hosts.length rate dim (trees.map fun P => (P.nodes, P.guestMask)) rows
          fuel i r t sc >>= kg)
        ((hosts.zipIdx.zip ts).map fun z => hostPredictRound z.1.1.idx dim (hpart z.1.2 trees) (v z.2)
          fuel i r t >>= fun _ => kh z)) := by
  induction r generalizing t sc with
  | zero => simp [predictRound] at h
  | succ r ih =>
    simp only [predictRound, bind, Except.bind] at h
    split at h
    · rename_i x hx
      obtain ⟨e', he'⟩ := getAt_map_error (fun P : Saved => (P.nodes, P.guestMask)) trees _ x hx
      simp only [guestPredictRound, bind_bind, he']
      exact breaks_guest e' _
    rename_i P hP
    obtain ⟨p1, p2⟩ := getAt_map (fun P : Saved => (P.nodes, P.guestMask)) trees _ P hP
    have hlen : hosts.length = (hosts.zipIdx.zip ts).length := by simp [ht]
    have hg : (guestPredictRound (α := α) hosts.length rate dim (trees.map fun P => (P.nodes, P.guestMask)) rows
          fuel i (r + 1) t sc >>= kg)
        = guestPredictTree hosts.length (P.nodes.map loadNode) P.guestMask rows fuel >>= fun w =>
          lift (updateF rate t sc (some w)) >>= fun sc =>
          guestPredictRound hosts.length rate dim (trees.map fun P => (P.nodes, P.guestMask)) rows
          fuel i r (t + 1) sc >>= kg := by
      simp only [guestPredictRound, bind_bind, p1, lift_ok]
    have hh : ((hosts.zipIdx.zip ts).map fun z => hostPredictRound (α := α) z.1.1.idx dim (hpart z.1.2 trees) (v z.2)
          fuel i (r + 1) t >>= fun _ => kh z)
        = (hosts.zipIdx.zip ts).map fun z => hostPredictLoop (.host z.1.1.idx) (P.nodes.map loadNode)
            (P.hostMasks.getD z.1.2 []) (v z.2) fuel fuel >>= fun _ =>
            hostPredictRound z.1.1.idx dim (hpart z.1.2 trees) (v z.2) fuel i r (t + 1) >>= fun _ => kh z := by
      refine List.map_congr_left fun z _ => ?_
      have p3 := (getAt_map (hostTree z.1.2) trees _ P hP).1
      simp only [hostPredictRound, bind_bind]
      rw [show hpart z.1.2 trees = trees.map (hostTree z.1.2) from rfl, p3, lift_ok]
      rfl
    rw [hg, hh]
    have e1 : (load (K := K) P).hostMasks = P.hostMasks := rfl
    simp only [predictAdd, bind, Except.bind, e1, predHosts_eq hosts P.hostMasks ts v (hm P p2) ht] at h
    cases hw : predictTree (load (K := K) P).tree (load (K := K) P).guestMask rows
        ((hosts.zipIdx.zip ts).map fun z => (⟨z.1.1.idx, P.hostMasks.getD z.1.2 [], v z.2⟩ : PredHost K)) fuel with
    | error x =>
      exact breaks_predictTree (load (K := K) P).tree (load (K := K) P).guestMask rows
        (fun z => (⟨z.1.1.idx, P.hostMasks.getD z.1.2 [], v z.2⟩ : PredHost K)) _ fuel x hw hosts.length hlen _
        (fun z => hostPredictRound z.1.1.idx dim (hpart z.1.2 trees) (v z.2) fuel i r (t + 1) >>= fun _ => kh z)
    | ok w =>
      have c1 := leads_predictTree (idle := idle) _ _ _ _ _ _ w hw hosts.length hlen
        (fun w => lift (updateF rate t sc (some w)) >>= fun sc =>
          guestPredictRound hosts.length rate dim (trees.map fun P => (P.nodes, P.guestMask)) rows
            fuel i r (t + 1) sc >>= kg)
        (fun z => hostPredictRound z.1.1.idx dim (hpart z.1.2 trees) (v z.2) fuel i r (t + 1) >>= fun _ => kh z)
      refine Breaks.of_leads c1 ?_
      refine breaks_lift fun sc1 h1 => ?_
      simp only [hw, h1] at h
      exact ih (t + 1) sc1 h

theorem breaks_predictRounds (hosts : List (Party K)) (rate : Rate) (dim : Nat)
    (trees : List Saved) (rows : DTable K (SparseVec Rat)) (ts : List (DTable K (List Rat)))
    (v : DTable K (List Rat) → DTable K (SparseVec Rat)) (ht : ts.length = hosts.length)
    (hm : MasksOk hosts.length trees) (fuel r i : Nat) (sc : DTable K (List Rat)) (e : PyErr)
    (h : predictRounds hosts rate dim trees rows (ts.map v) fuel r i sc = .error e)
    (kg : DTable K (List Rat) → Prog K α R)
    (kh : (Party K × Nat) × DTable K (List Rat) → Prog K α R) :
    Breaks (lock idle (guestPredictRounds hosts.length rate dim (trees.map fun P => (P.nodes, P.guestMask)) rows
          fuel r i sc >>= kg)
        ((hosts.zipIdx.zip ts).map fun z => hostPredictRounds z.1.1.idx dim (hpart z.1.2 trees) (v z.2)
          fuel r i >>= fun _ => kh z)) := by
  induction r generalizing i sc with
  | zero => simp [predictRounds] at h
  | succ r ih =>
    simp only [predictRounds, bind, Except.bind] at h
    simp only [guestPredictRounds, hostPredictRounds, bind_bind]
    split at h
    · rename_i x hx
      exact breaks_predictRound hosts rate dim trees rows ts v ht hm fuel i dim 0 sc x hx _
        (fun z => hostPredictRounds z.1.1.idx dim (hpart z.1.2 trees) (v z.2) fuel r (i + 1) >>= fun _ => kh z)
    rename_i sc1 h1
    exact Breaks.of_leads (leads_predictRound hosts rate dim trees rows ts v ht hm fuel i dim 0 sc sc1 h1 _
        (fun z => hostPredictRounds z.1.1.idx dim (hpart z.1.2 trees) (v z.2) fuel r (i + 1) >>= fun _ => kh z))
      (ih (i + 1) sc1 h)

theorem alignAll_of (v : DTable K (List Rat) → DTable K (SparseVec Rat)) (ts : List (DTable K (List Rat)))
    (h : ∀ t ∈ ts, alignRows t = .ok (v t)) : alignAll ts = .ok (ts.map v) := by
  induction ts with
  | nil => rfl
  | cons t ts ih =>
    simp only [alignAll, h t (by simp), ih fun y hy => h y (by simp [hy]), bind, Except.bind, pure, Except.pure,
      List.map_cons]

theorem breaks_predict (hosts : List (Party K)) (rate : Rate) (dim : Nat) (init : List Rat)
    (trees : List Saved) (guest : DTable K (List Rat)) (ts : List (DTable K (List Rat)))
    (ht : ts.length = hosts.length) (hm : MasksOk hosts.length trees) (fuel : Nat) (e : PyErr)
    (h : predictScores hosts rate dim init trees guest ts fuel = .error e)
    (kg : DTable K (List Rat) → Prog K α R)
    (kh : (Party K × Nat) × DTable K (List Rat) → Prog K α R) :
    Breaks (lock idle (guestPredict hosts.length rate dim init (trees.map fun P => (P.nodes, P.guestMask)) guest
          fuel >>= kg)
        ((hosts.zipIdx.zip ts).map fun z => hostPredict z.1.1.idx dim (hpart z.1.2 trees) z.2
          fuel >>= fun _ => kh z)) := by
  simp only [guestPredict, hostPredict, bind_bind]
  refine breaks_lift fun g h1 => ?_
  refine breaks_lift fun sc h3 => ?_
  refine breaks_lifts g _ _ fun ha => ?_
  by_cases hd : dim = 0
  · simp only [if_pos hd]
    exact breaks_guest .zeroDivision _
  simp only [if_neg hd]
  have h2 := alignAll_of (fun t => okOr g (alignRows t)) ts (by
    intro t hmem
    have : t ∈ (hosts.zipIdx.zip ts).map Prod.snd := by rwa [List.map_snd_zip (by simp [ht])]
    obtain ⟨z, hz, rfl⟩ := List.mem_map.mp this
    exact ha z hz)
  simp only [predictScores, bind, Except.bind, h1, h2, h3, if_neg hd] at h
  have := breaks_predictRounds (idle := idle) hosts rate dim trees g ts _ ht hm fuel _ 0 sc e h kg kh
  simp only [hpart, List.length_map] at this ⊢
  exact this

end Network
end Verif
