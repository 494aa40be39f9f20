import Verif.Lemmas.Sites
import Verif.Examples.Demo

/-! # C26: a trained tree is a well-formed binary tree -/

set_option autoImplicit false

namespace Verif

open DTree Spec

variable {K : Type} [DecidableEq K] {α : Type}

/-- Whatever the data, the encryption and the parties' split decisions: a tree that training
returns is a well-formed binary tree. -/
theorem C26_well_formed (S : Setup K α) (hd : 1 ≤ S.maxDepth) (F : Fitted K) (h : fit S = .ok F) :
    WellFormed F.tree := by
  obtain ⟨lev, sums, dep, num, _, _, hi, _⟩ := fit_ready hd h
  exact hi.wellFormed

private theorem run_sites (S : Setup K α) (F : Fitted K) (h : fit S = .ok F) :
    ∃ st : State K, F.tree = st.grow.tree ∧ S.hosts.length = st.masks.length ∧
      (∀ n ∈ F.tree, SiteOk S.hosts n) ∧
      convert .guest S.guest.splits st.grow.mask F.tree [] = .ok F.guestMask ∧
      convertHosts F.tree S.hosts st.masks = .ok F.hostMasks := by
  obtain ⟨st0, st, h1, h2, h3, h4, ht, _⟩ := fit_inv h
  obtain ⟨g, hs, w, disp, a1, a2, a3, rfl⟩ := initState_inv h1
  obtain ⟨dep, _, b1, b2⟩ := levels_induct
    (fun _ st => S.hosts.length = st.masks.length ∧ ∀ n ∈ st.grow.tree, SiteOk S.hosts n)
    (by
      rintro dep reach st st' ⟨c1, c2⟩ _ hl
      obtain ⟨d1, d2, _⟩ := level_sites c1 c2 hl
      exact ⟨d1, d2⟩)
    _ 0 _ st ⟨by simp, by simp⟩ h2
  rw [← ht] at h3 h4 b2
  exact ⟨st, ht, b1, b2, h3, h4⟩

private theorem realValue_inv {splits : List (List Rat)} {fid : Option Int} {bid : Int} {x : Rat}
    (h : realValue splits fid bid = .ok x) :
    ∃ (f b : Nat) (sp : List Rat), fid = some (f : Int) ∧ bid = (b : Int) ∧ splits[f]? = some sp ∧
      sp[b]? = some x := by
  unfold realValue at h
  cases fid with
  | none => cases h
  | some f =>
    simp only at h
    split at h
    · cases h
    · rename_i hn
      push Not at hn
      split at h
      · cases h
      · rename_i sp hsp
        split at h
        · cases h
        · rename_i y hy
          cases h
          exact ⟨f.toNat, bid.toNat, sp, by rw [Int.toNat_of_nonneg hn.1], by omega, hsp, hy⟩

/-- Every node is decided: a leaf with the weight computed from its sums, or a split of one of the
parties on one of its features at one of that feature's split points. -/
theorem C26_decided (S : Setup K α) (hd : 1 ≤ S.maxDepth) (F : Fitted K) (h : fit S = .ok F)
    (i : Nat) (n : Node) (hn : F.tree[i]? = some n) :
    (n.isLeaf = true ∧ nodeWeight S.cfg.rnd S.cfg.regLambda n.sumGrad n.sumHess = .ok n.weight) ∨
    ∃ j P f sp t, partyAt S j = some P ∧ P.splits[f]? = some sp ∧ t ∈ sp ∧ SplitAt S F i j f t := by
  obtain ⟨lev, sums, dep, num, _, _, hi, _⟩ := fit_ready hd h
  have hmem := List.mem_of_getElem? hn
  have hid := hi.number.2 i n hn
  by_cases hl : n.isLeaf = true
  · exact Or.inl ⟨hl, hi.weight n (by simpa using hmem)⟩
  right
  have hl' : n.isLeaf = false := by simpa using hl
  obtain ⟨st, _, s1, s2, s3, s4⟩ := run_sites S F h
  have hnd : (F.tree.map Node.id).Nodup := by
    have := hi.ids
    simp only [List.append_nil] at this
    rw [this]; exact List.nodup_range
  rcases s2 n hmem with hc | hg | ⟨H, hH, hs⟩
  · exact absurd hc hl
  · obtain ⟨b, x, c1, c2, c3⟩ := (convert_inv F.tree [] _ hnd s3).1 n hmem hl' hg
    obtain ⟨f, b, sp, e1, e2, e3, e4⟩ := realValue_inv c2
    exact ⟨none, S.guest, f, sp, x, rfl, e3, List.mem_of_getElem? e4, n, S.guest, F.guestMask, hn, hl', e1,
      rfl, hg, rfl, by rw [← hid]; exact c3⟩
  · obtain ⟨j, hj⟩ := List.mem_iff_getElem?.mp hH
    have hjl : j < st.masks.length := by
      have := (List.getElem?_eq_some_iff.mp hj).1; omega
    obtain ⟨d, d1, d2⟩ := (convertHosts_inv _ _ _ s1 s4).2 j H _ hj (List.getElem?_eq_getElem hjl)
    obtain ⟨b, x, c1, c2, c3⟩ := (convert_inv F.tree [] _ hnd d2).1 n hmem hl' hs
    obtain ⟨f, b, sp, e1, e2, e3, e4⟩ := realValue_inv c2
    exact ⟨some j, H, f, sp, x, hj, e3, List.mem_of_getElem? e4, n, H, d, hn, hl', e1, hj, hs, d1,
      by rw [← hid]; exact c3⟩

/-- The run of `Demo` ends with inner nodes of the guest and both hosts. -/
example : ∃ F, fit Demo.setup = .ok F ∧ 1 ≤ Demo.setup.maxDepth ∧
    F.tree.map (fun n => (n.isLeaf, n.site)) = [(false, .host 2), (false, .guest), (true, .guest),
      (false, .host 1), (true, .guest), (true, .guest), (true, .guest)] :=
  ⟨Demo.fitted, Demo.fit_ok, by decide, by decide +kernel⟩

end Verif
