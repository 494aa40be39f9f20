import Verif.Lemmas.ProgramRun

/-! # What the programs train on -/

set_option autoImplicit false

namespace Verif
namespace Program

open Spec Labels DTree Histogram
open Data (Cell)

variable {P : Type} {p q : Nat} {sk : Paillier.PrivKey} {lo hi : Int} {m gmax hmax eg eh : Rat}
  {G : Rat × Rat → Prop} {S : Settings Num P}

theorem setup_ok {parse : Cell → Option Rat} {draw : Nat → Nat → Nat} {header : List Cell}
    {gs : List (Cell × Cell × List Rat)} {scaled : Nat → Rat} {hosts : List HostArgs}
    {files : List (List Cell × List (Cell × List Rat))}
    (hwidth : ∀ s ∈ gs, s.2.2.length = header.length)
    (hf : List.Forall₂ (HostFile parse gs.length scaled) hosts files)
    (hhead : HeaderOk S none header)
    (hheads : ∀ (j : Nat) f, files[j]? = some f → HeaderOk S (some j) f.1)
    (hidx : (hosts.map HostArgs.idx).Nodup) (hne : hosts ≠ [])
    (hcls : (gs.map (·.2.1)).dedup.length ≤ 1000)
    (hok : ProgramOk p q sk lo hi m gmax hmax eg eh G S gs.length)
    (htrne : trainPos gs.length (scaled gs.length) draw ≠ []) :
    let X : Features := ⟨gs.map (·.2.2), files.map fun f => f.2.map (·.2)⟩
    let labels := gs.map (·.2.1)
    let train := trainPos gs.length (scaled gs.length) draw
    ∃ guest parties R,
      prepareParty S 0 (header.map String.ofList) (numbered (entriesAt (gs.map guestInst) train)) = .ok guest ∧
      prepareHosts S hosts (List.zipWith (hostTablesOf draw) hosts files) = .ok parties ∧
      parties.map Party.idx = hosts.map HostArgs.idx ∧
      (numbered (entriesAt (gs.map guestInst) train)).mapValuesM givenLabel =
        .ok (numbered ((entriesAt labels train).map .str)) ∧
      checkLabel (numbered ((entriesAt labels train).map .str)) = .ok R ∧
      R.dim = components R.num ∧ R.classes.length = R.num ∧
      ClassesOf (entriesAt labels train) R.classes ∧
      R.y.data.keys = List.range train.length ∧
      (∀ i l, (entriesAt labels train)[i]? = some l → ∃ code, ∃ c : Nat, R.y.data.get? i = some code ∧
        code.value = (Label.int (T := Cell) c).value ∧ R.classes[c]? = some (.str l)) ∧
      parties.length = files.length ∧
      PaillierBoost p q sk lo hi m gmax hmax eg eh G (boostOf S guest parties R) R.y (X.at train) := by
  intro X labels train
  have htrain : train = trainPos gs.length (scaled gs.length) draw := rfl
  set n := gs.length with hn
  have hlt : ∀ p ∈ train, p < n := fun p hp => trainPos_lt hp
  have htn : train.length ≤ n := by
    have hplen := (pos_perm n (scaled n) draw).length_eq
    simp only [List.length_append, List.length_range] at hplen
    rw [htrain]; omega
  have hpk : ∀ {V W : Type} (l : List V) (f : V → W), l.length = n →
      (entriesAt (l.map f) train).length = train.length :=
    fun l f hl => pick_length fun p hp => by rw [List.length_map, hl]; exact hlt p hp
  -- the guest
  obtain ⟨guest, g1, g2, g3, g4⟩ := prepareParty_ok hok 0 hhead.nodup
    (insts := entriesAt (gs.map guestInst) train) (by
      intro h
      have := hpk gs guestInst rfl
      rw [h] at this
      exact htrne (List.length_eq_zero_iff.mp this.symm)) (by
      intro x hx
      obtain ⟨s, hs, rfl⟩ := List.mem_map.mp (pick_mem hx)
      exact hwidth s hs)
  rw [← pick_map, List.map_map] at g3
  -- the hosts
  have hnd : ∀ f ∈ files, f.1.Nodup := by
    intro f hf
    obtain ⟨j, hj⟩ := List.mem_iff_getElem?.mp hf
    exact (hheads j f hj).nodup
  obtain ⟨parties, q1, q2, q3⟩ := prepareHosts_ok (draw := draw) hok htrne hf hnd
  -- the labels
  have hlab : (entriesAt (gs.map guestInst) train).map Inst.label =
      (entriesAt labels train).map fun l => some (.str l) := by
    rw [← pick_map, ← pick_map, List.map_map, List.map_map]; rfl
  have hy := labels_ok _ _ hlab
  obtain ⟨R, r1, r2, r3, r4, r5, r6, r7⟩ := check_ok (entriesAt labels train)
    (le_trans (distinct_str_le (entriesAt labels train) labels.dedup
      fun l hl => List.mem_dedup.mpr (pick_mem hl)) hcls)
  rw [hpk gs (·.2.1) rfl] at r6
  -- the run
  have hplen' : parties.length = files.length := q3.length_eq
  have hrun : PaillierBoost p q sk lo hi m gmax hmax eg eh G (boostOf S guest parties R) R.y (X.at train) := by
    refine boostOf_ok hok (n := train.length) htn r5 r6 r2 ?_ ?_ ?_ ?_
    · intro i code hi
      have hi' : i < train.length := by
        have := Dict.mem_keys_of_get? hi
        rwa [r6, List.mem_range] at this
      have hi'' : i < (entriesAt labels train).length := by rw [hpk gs (·.2.1) rfl]; exact hi'
      obtain ⟨code', c, e1, e2, e3⟩ := r7 i _ (List.getElem?_eq_getElem hi'')
      rw [hi, Option.some.injEq] at e1
      subst e1
      exact ⟨c, by rw [← r3]; exact (List.getElem?_eq_some_iff.mp e3).1, e2⟩
    · intro j Q hQ
      match j with
      | none =>
        cases hQ
        refine ⟨g3, fun i t => by rw [hhead.flags, g4], by rw [g4]; exact hhead.short, ?_⟩
        show (numbered (entriesAt (gs.map (·.2.2)) train)).data.keys = _
        rw [numbered_keys, hpk gs (·.2.2) rfl]
      | some j =>
        have hQ : parties[j]? = some Q := hQ
        have hj : j < files.length := by
          rw [← hplen']; exact (List.getElem?_eq_some_iff.mp hQ).1
        have hfj := List.getElem?_eq_getElem hj
        have hb := (List.forall₂_iff_get.mp q3).2 j (by omega) hj
        simp only [List.get_eq_getElem] at hb
        rw [List.getElem?_eq_getElem (by omega), Option.some.injEq] at hQ
        rw [hQ] at hb
        have hX : (X.hosts[j]?).getD [] = files[j].2.map (·.2) := by
          show (((files.map fun f => f.2.map (·.2)))[j]?).getD [] = _
          rw [List.getElem?_map, hfj]; rfl
        have hfl : files[j].2.length = n := by
          have := (List.forall₂_iff_get.mp hf).2 j (by rw [hf.length_eq]; exact hj) hj
          exact this.length
        have hat : X.at train (some j) = numbered (entriesAt (files[j].2.map (·.2)) train) := by
          show numbered (entriesAt ((X.hosts[j]?).getD []) train) = _
          rw [hX]
        refine ⟨by rw [hat]; exact hb.1, fun i t => by rw [(hheads j _ hfj).flags, hb.2],
          by rw [hb.2]; exact (hheads j _ hfj).short, ?_⟩
        rw [hat, numbered_keys, hpk files[j].2 (·.2) hfl]
    · rw [q2]; exact hidx
    · intro h
      rw [h] at q2
      exact hne (by simpa using q2.symm)
  exact ⟨guest, parties, R, g1, q1, q2, hy, r1, r2, r3, r4, r6, r7, hplen', hrun⟩

end Program
end Verif
