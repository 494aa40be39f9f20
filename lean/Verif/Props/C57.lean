import Verif.Props.C56

/-! # C57: samples of different files are joined by position, not by identifier -/

set_option autoImplicit false

namespace Verif

open DTree Spec Program Labels Histogram
open Data (Cell)

variable {P : Type} [LinearOrder P] [One P] [Sub P]

/-- **The same line is the same sample** if the files list the same identifiers in the same order.  (Full
claim, refuted below: joined lines have the same identifier whatever the order of lines.)  Then
the rows the parties bring for one key of the training or test table have the same identifier. -/
theorem C57_same_id_partial (gs : List (Cell × Cell × List Rat))
    (files : List (List Cell × List (Cell × List Rat)))
    (hids : ∀ f ∈ files, f.2.map (·.1) = gs.map (·.1)) (pos : List Nat)
    (hpos : ∀ p ∈ pos, p < gs.length) (i j : Nat) (row : List Rat)
    (h : (Features.at ⟨gs.map (·.2.2), files.map fun f => f.2.map (·.2)⟩ pos (some j)).data.get? i =
      some row) :
    ∃ s f, s ∈ gs ∧ files[j]? = some f ∧ (s.1, row) ∈ f.2 ∧
      (Features.at ⟨gs.map (·.2.2), files.map fun f => f.2.map (·.2)⟩ pos none).data.get? i =
        some s.2.2 := by
  have h : (numbered (entriesAt (((files.map fun f => f.2.map (·.2))[j]?).getD []) pos)).data.get? i = some row := h
  show ∃ s f, s ∈ gs ∧ files[j]? = some f ∧ (s.1, row) ∈ f.2 ∧
    (numbered (entriesAt (gs.map (·.2.2)) pos)).data.get? i = some s.2.2
  rw [List.getElem?_map] at h
  cases hfj : files[j]? with
  | none => rw [hfj, numbered_get] at h; simp [entriesAt] at h
  | some f =>
    rw [hfj] at h
    simp only [Option.map_some, Option.getD_some] at h
    have hid := hids f (List.mem_of_getElem? hfj)
    have hlen : f.2.length = gs.length := by simpa using congrArg List.length hid
    rw [numbered_get, pick_get (by simpa [hlen] using hpos)] at h
    cases hp : pos[i]? with
    | none => rw [hp] at h; cases h
    | some p' =>
      rw [hp] at h
      simp only [Option.bind_some, List.getElem?_map, Option.map_eq_some_iff] at h
      obtain ⟨s', hs', rfl⟩ := h
      have hlt := hpos p' (List.mem_of_getElem? hp)
      have hs := List.getElem?_eq_getElem hlt
      refine ⟨gs[p'], f, List.getElem_mem hlt, rfl, ?_, ?_⟩
      · have := congrArg (fun l => l[p']?) hid
        simp only [List.getElem?_map, hs', hs, Option.map_some, Option.some.injEq] at this
        rw [← this]
        exact List.mem_of_getElem? hs'
      · rw [numbered_get, pick_get (by simpa using hpos), hp]
        simp [hs]

/-- The files of the example list the same identifiers in the same order. -/
example : ∀ f ∈ DemoProgram.files, f.2.map (·.1) = DemoProgram.samples.map (·.1) := by decide +kernel

/-- **Identifiers are never looked at.**  Whatever is written in the identifier columns, the outcome
is the same.  In particular, files that list the same samples in different orders are joined line by
line, without an error. -/
theorem C57_ids_ignored {α : Type} (S : Settings α P) (parse : Cell → Option Rat)
    (draw : Nat → Nat → Nat) (text text' : List Char) (header : List Cell)
    (gs gs' : List (Cell × Cell × List Rat)) (scaled : Nat → Rat) (hosts hosts' : List HostArgs)
    (files files' : List (List Cell × List (Cell × List Rat)))
    (hg : LabelledFile parse text header gs) (hg' : LabelledFile parse text' header gs')
    (hf : List.Forall₂ (fun h f => PlainFile parse h.text f.1 f.2) hosts files)
    (hf' : List.Forall₂ (fun h f => PlainFile parse h.text f.1 f.2) hosts' files')
    (hgs : gs.map (·.2) = gs'.map (·.2))
    (hh : List.Forall₂ (fun h h' => h.idx = h'.idx ∧ h.scaled = h'.scaled) hosts hosts')
    (hfs : List.Forall₂ (fun f f' => f.1 = f'.1 ∧ f.2.map (·.2) = f'.2.map (·.2)) files files') :
    program S parse draw text scaled hosts = program S parse draw text' scaled hosts' := by
  rw [program_eq S hg scaled hf, program_eq S hg' scaled hf', runTables_forget S hosts _ _ _ _ files,
    runTables_forget S hosts' _ _ _ _ files', guest_forget hgs, hosts_forget hfs,
    runTables_hosts hh]

/-- The lines of one host are written in the opposite order: the programs join other samples, and the
accuracy changes from 1 to 1/2. -/
theorem C57_order_matters :
    ∃ lines : List (Cell × List Rat), lines.Perm (DemoProgram.hostLines1.map fun r => (r.1, r.2.2)) ∧
      ∃ text, PlainFile DemoProgram.parse text ["c".toList] lines ∧
      (program DemoProgram.clear DemoProgram.parse DemoProgram.draw DemoProgram.guestText
        DemoProgram.scaled DemoProgram.hosts).map Outcome.accuracy = .ok (some 1) ∧
      (program DemoProgram.clear DemoProgram.parse DemoProgram.draw DemoProgram.guestText
        DemoProgram.scaled [⟨1, text, DemoProgram.scaled⟩, ⟨2, DemoProgram.hostText2, DemoProgram.scaled⟩]).map
          Outcome.accuracy = .ok (some (1 / 2)) := by
  refine ⟨_, (List.reverse_perm _), "id,c\nt,1\ns,9\nz,3\ny,7\nx,2\nw,8\nv,1\nu,9\n".toList,
    ⟨"id".toList, DemoProgram.hostLines1.reverse, by decide, by decide, by decide +kernel, by simp,
      by decide +kernel⟩, by decide +kernel, by decide +kernel⟩

end Verif
