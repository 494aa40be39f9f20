import Verif.Spec.C60
import Verif.Lemmas.StrictEncrypt
import Verif.Lemmas.DTableM
import Verif.Props.C59
import Verif.Props.C41

/-!
# C60: encrypter objects
-/

set_option autoImplicit false

namespace Verif

open Paillier Spec Encrypter
open FP (Scalar)

theorem Encrypter.one_ok {p q : Nat} {sk : PrivKey} {h : Holder} (hk : HasKeys p q sk h) (v : Scalar)
    (hv : Encryptable sk.pk.n v) (draw : Int) (hd : Usable sk draw) :
    ∃ X t, h.encrypt v draw = .ok (some X) ∧ h.decrypt (some X) = .ok (some t) ∧ Returned v (some t) := by
  obtain ⟨hk, h1, h2⟩ := hk
  suffices hs : ∃ X t, Paillier.encrypt sk.pk v none draw = .ok X ∧ Paillier.decrypt sk X = .ok t ∧
      Returned v (some t) by
    obtain ⟨X, t, a, b, c⟩ := hs
    refine ⟨X, t, ?_, ?_, c⟩
    · unfold Holder.encrypt; rw [h1]; simp only [a, bind, Except.bind]
    · unfold Holder.decrypt; rw [h2]; simp only [b, bind, Except.bind]
  cases v with
  | other => exact hv.elim
  | float x =>
    obtain ⟨X, t, a, b, c⟩ := DTree.decrypt_float p q sk hk hv x draw hd
    exact ⟨X, t, a, b, t, rfl, c⟩
  | int z =>
    have hv : |z| ≤ sk.pk.n / 3 - 1 := hv
    have h0 : 0 ≤ |z| := abs_nonneg z
    obtain ⟨f, a1, a2, a3⟩ := C08_int_roundtrip z sk.pk.n (sk.pk.n / 3 - 1) (by omega) hv
    have := C10_decrypt_encrypt_partial p q sk hk (.int z) none draw hd (by simp)
    have a1' : FP.encode (.int z) sk.pk.n sk.pk.maxInt none = .ok f := a1
    rw [a1'] at this
    obtain ⟨X, b1, _, b3⟩ := this
    exact ⟨X, .int z, b1, by rw [b3, a3], rfl⟩

/-- **Lists**: encrypting a list and decrypting the result gives the numbers back, in the same
order. -/
theorem C60_lists (p q : Nat) (sk : PrivKey) (h : Holder) (hk : HasKeys p q sk h) (vs : List Scalar)
    (hv : ∀ v ∈ vs, Encryptable sk.pk.n v) (draw : Nat → Int) (hd : ∀ i, Usable sk (draw i)) :
    ∃ cs ts, h.encryptList vs draw = .ok cs ∧ h.decryptList cs = .ok ts ∧
      List.Forall₂ Returned vs ts := by
  unfold Holder.encryptList Holder.decryptList
  suffices hs : ∀ (vs : List Scalar) (k : Nat), (∀ v ∈ vs, Encryptable sk.pk.n v) →
      ∃ cs ts, mapList (fun p : Scalar × Nat => h.encrypt p.1 (draw p.2)) (vs.zipIdx k) = .ok cs ∧
        mapList h.decrypt cs = .ok ts ∧ List.Forall₂ Returned vs ts from hs vs 0 hv
  intro vs
  induction vs with
  | nil => intro _ _; exact ⟨[], [], rfl, rfl, .nil⟩
  | cons v vs ih =>
    intro k hv
    obtain ⟨cs, ts, a1, a2, a3⟩ := ih (k + 1) fun v hv' => hv v (by simp [hv'])
    obtain ⟨X, t, b1, b2, b3⟩ := one_ok hk v (hv v (by simp)) (draw k) (hd k)
    refine ⟨some X :: cs, some t :: ts, ?_, ?_, .cons b3 a3⟩
    · rw [List.zipIdx_cons]
      simp only [mapList, b1, a1, bind, Except.bind]
    · simp only [mapList, b2, a2, bind, Except.bind]

variable {K : Type} [DecidableEq K]

/-- **Tables**: encrypting a table and decrypting the result gives the numbers back, under the same
keys. -/
theorem C60_tables (p q : Nat) (sk : PrivKey) (h : Holder) (hk : HasKeys p q sk h) (t : DTable K Scalar)
    (hw : t.WF) (hv : ∀ x ∈ t.data, Encryptable sk.pk.n x.2) (draw : K → Int)
    (hd : ∀ k, Usable sk (draw k)) :
    ∃ c r, h.encryptTable t draw = .ok c ∧ h.decryptTable c = .ok r ∧
      List.Forall₂ (fun a b => a.1 = b.1 ∧ Returned a.2 b.2) t.data r.data := by
  have hs : ∀ (l : List (K × Scalar)), (∀ x ∈ l, Encryptable sk.pk.n x.2) →
      ∃ c r : List (K × _), DTable.evalRecords (fun p : Scalar × Int => h.encrypt p.1 p.2)
          (l.map fun p => (p.1, (p.2, draw p.1))) = .ok c ∧
        DTable.evalRecords h.decrypt c = .ok r ∧
        c.map Prod.fst = l.map Prod.fst ∧
        List.Forall₂ (fun a b => a.1 = b.1 ∧ Returned a.2 b.2) l r := by
    intro l
    induction l with
    | nil => intro _; exact ⟨[], [], rfl, rfl, rfl, .nil⟩
    | cons x l ih =>
      intro hl
      obtain ⟨c, r, a1, a2, a3, a4⟩ := ih fun y hy => hl y (by simp [hy])
      obtain ⟨X, t, b1, b2, b3⟩ := one_ok hk x.2 (hl x (by simp)) (draw x.1) (hd x.1)
      refine ⟨(x.1, some X) :: c, (x.1, some t) :: r, ?_, ?_, by simp [a3], .cons ⟨rfl, b3⟩ a4⟩
      · rw [List.map_cons, DTable.evalRecords]
        simp only [b1, a1]
      · rw [DTable.evalRecords]
        simp only [b2, a2]
  obtain ⟨c, r, a1, a2, a3, a4⟩ := hs t.data hv
  have hc : (c.map Prod.fst).Nodup := by rw [a3]; exact hw
  have hrk : r.map Prod.fst = t.data.map Prod.fst := by
    clear a1 a2 a3 hc hs hv hw
    generalize t.data = l at a4
    induction a4 with
    | nil => rfl
    | cons h _ ih => simp [h.1, ih]
  refine ⟨⟨c⟩, ⟨r⟩, ?_, ?_, a4⟩
  · unfold Holder.encryptTable DTable.mapValuesM
    rw [a1]
    simp only [Except.bind]
    exact DTable.ofPairs_ok hc
  · unfold Holder.decryptTable DTable.mapValuesM
    rw [a2]
    simp only [Except.bind]
    exact DTable.ofPairs_ok (by rw [hrk]; exact hw)

/-- **Keys that are handed over**: who was given the public key, whatever they held before, encrypts
for who was given the private key, whatever they held before. -/
theorem C60_handed_over (p q : Nat) (sk : PrivKey) (hk : KeyPair p q sk) (s t : Holder) (vs : List Scalar)
    (hv : ∀ v ∈ vs, Encryptable sk.pk.n v) (draw : Nat → Int) (hd : ∀ i, Usable sk (draw i)) :
    ∃ cs ts, (s.setPublic sk.pk).encryptList vs draw = .ok cs ∧ (t.setPrivate sk).decryptList cs = .ok ts ∧
      List.Forall₂ Returned vs ts := by
  obtain ⟨cs, ts, a1, a2, a3⟩ := C60_lists p q sk ⟨some sk.pk, some sk⟩ ⟨hk, rfl, rfl⟩ vs hv draw hd
  refine ⟨cs, ts, ?_, ?_, a3⟩
  · rw [← a1]; rfl
  · rw [← a2]; rfl

/-- **Setting one key keeps the other**: an object that was given both keys, in either order, encrypts and
decrypts. -/
theorem C60_both_keys (p q : Nat) (sk : PrivKey) (hk : KeyPair p q sk) (s : Holder) (vs : List Scalar)
    (hv : ∀ v ∈ vs, Encryptable sk.pk.n v) (draw : Nat → Int) (hd : ∀ i, Usable sk (draw i)) :
    ∀ t ∈ [(s.setPublic sk.pk).setPrivate sk, (s.setPrivate sk).setPublic sk.pk],
      ∃ cs ts, t.encryptList vs draw = .ok cs ∧ t.decryptList cs = .ok ts ∧ List.Forall₂ Returned vs ts := by
  intro t ht
  refine C60_lists p q sk t ?_ vs hv draw hd
  rcases List.mem_pair.mp ht with rfl | rfl
  · exact ⟨hk, rfl, rfl⟩
  · exact ⟨hk, rfl, rfl⟩

/-- **Who was only given the public key cannot decrypt**: whatever public keys were set, in whatever
order, decrypting any list of values returns `None` for each of them, without an exception. -/
theorem C60_public_only (pks : List PubKey) (values : List (Option EncNum)) :
    (pks.foldl Holder.setPublic Holder.init).decryptList values =
      .ok (List.replicate values.length none) := by
  have hp : ∀ (pks : List PubKey) (h : Holder), (pks.foldl Holder.setPublic h).priv = h.priv := by
    intro pks
    induction pks with
    | nil => intro _; rfl
    | cons _ _ ih => intro h; rw [List.foldl_cons, ih]; rfl
  have h0 : ∀ x, (pks.foldl Holder.setPublic Holder.init).decrypt x = .ok none := by
    intro x
    unfold Holder.decrypt
    rw [hp]
    rfl
  unfold Holder.decryptList
  induction values with
  | nil => rfl
  | cons x xs ih =>
    simp only [mapList, h0, bind, Except.bind] at ih ⊢
    rw [ih]; rfl

/-- **Without a public key nothing is encrypted, and nothing is passed on in the clear**: the result
is `None` for each value, without an exception. -/
theorem C60_no_key (h : Holder) (hn : h.pub = none) (values : List Scalar) (draw : Nat → Int) :
    h.encryptList values draw = .ok (List.replicate values.length none) := by
  have h0 : ∀ v d, h.encrypt v d = .ok none := by
    intro v d
    unfold Holder.encrypt
    rw [hn]
  unfold Holder.encryptList
  generalize 0 = k
  induction values generalizing k with
  | nil => rfl
  | cons x xs ih =>
    rw [List.zipIdx_cons]
    simp only [mapList, ih, bind, Except.bind]
    rw [h0]; rfl

/-- **The guest never trains without encryption**: it gets an encrypter only for the method
`Paillier`, and then one with a matching pair of keys of the requested length; every other method is
refused. -/
theorem C60_guest (method : PyVal) (keyLength : Int) (draws : List Nat) (hl : 2 ≤ keyLength)
    (hr : ∀ r ∈ draws, r < 2 ^ (keyLength / 2).toNat) :
    (method ≠ .str "Paillier" ∧ generateEncrypter method keyLength draws = .error .exception) ∨
    (method = .str "Paillier" ∧ (generateEncrypter method keyLength draws = .error .unfinished ∨
      ∃ h p q sk, generateEncrypter method keyLength draws = .ok h ∧ HasKeys p q sk h ∧
        (sk.pk.n.toNat.size : Int) = keyLength)) := by
  have hiff : method.isStr "Paillier" = true ↔ method = .str "Paillier" := by
    cases method <;> simp [PyVal.isStr]
  unfold generateEncrypter
  by_cases hm : method = .str "Paillier"
  · rw [if_pos (hiff.mpr hm)]
    refine Or.inr ⟨hm, ?_⟩
    unfold Holder.generateKey
    rcases C59_key_partial keyLength hl draws hr with h | ⟨p, q, sk, a1, a2, a3, a4, _⟩
    · rw [h]; exact Or.inl rfl
    · rw [a1]
      refine Or.inr ⟨⟨some sk.pk, some sk⟩, p, q, sk, rfl, ⟨a2, rfl, rfl⟩, ?_⟩
      rw [a3, ← Int.natCast_mul, Int.toNat_natCast]
      exact a4
  · rw [if_neg fun h => hm (hiff.mp h)]
    exact Or.inl ⟨hm, rfl⟩

/-- Such other methods pass the check of the parameters: it accepts every string. -/
theorem C60_method_refuted (lower : String → String) (s : String) (hs : lower s ≠ "paillier")
    (hp : s ≠ "Paillier") (draws : List Nat) :
    ∃ e, Params.checkEncrypt lower ⟨.str s, .int 1024⟩ = .ok e ∧
      generateEncrypter e.method 1024 draws = .error .exception := by
  refine ⟨⟨.str s, .int 1024⟩, ?_, ?_⟩
  · simp [Params.checkEncrypt, Params.checkMethod, hs, bind, Except.bind]
    rfl
  · unfold generateEncrypter
    rw [if_neg (by simpa [PyVal.isStr] using hp)]

/-- Keys, numbers and random numbers that meet the hypotheses: the key `5 * 7`, integers up to 10. -/
example : ∃ sk, HasKeys 5 7 sk ⟨some sk.pk, some sk⟩ ∧ (∀ v ∈ [Scalar.int 4, .int (-10)], Encryptable sk.pk.n v) ∧
    Usable sk 4 := by
  refine ⟨⟨⟨35⟩, 5, 7, 3, 2, 4⟩, ⟨⟨by norm_num, by norm_num, by norm_num, by decide +kernel⟩, rfl, rfl⟩, ?_,
    ⟨9, -1, by norm_num⟩⟩
  intro v hv
  simp only [List.mem_cons, List.not_mem_nil, or_false] at hv
  rcases hv with rfl | rfl <;> norm_num [Encryptable]

end Verif
