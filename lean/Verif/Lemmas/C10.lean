import Verif.Lemmas.Paillier
import Verif.Spec.C10

set_option autoImplicit false

namespace Verif
open Paillier Spec

theorem aux10_good {p q : Nat} {sk : PrivKey} (h : KeyPair p q sk) :
    sk.pk = ⟨(p : Int) * q⟩ ∧ 6 ≤ sk.pk.n ∧ ∃ p' q', Good sk p' q' := by
  obtain ⟨hp, hq, hpq, hsk⟩ := h
  obtain ⟨sk', h1, h2, h3⟩ := new_ok hp hq hpq
  rw [hsk] at h1; cases h1
  have h6 := six_le hp hq hpq
  refine ⟨by cases hk : sk.pk; rw [hk] at h2; simp at h2; rw [h2], ?_, ?_⟩
  · rw [h2]; exact_mod_cast h6
  · rcases h3 with h | h
    · exact ⟨_, _, h⟩
    · exact ⟨_, _, h⟩


end Verif
