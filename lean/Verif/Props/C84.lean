import Verif.Spec.C84
import Verif.Props.C60

/-!
# C84: Encrypting and decrypting arrays of any dimension

`recursive_decrypt` gives the numbers of an array of ciphertexts back.  `recursive_encrypt` never
gives an array of ciphertexts: it makes them, and then fails to store them as floats.
-/

set_option autoImplicit false

namespace Verif

open Paillier Spec Encrypter
open FP (Scalar)

section mapList
variable {α β : Type}

private theorem mapList_forall {f : α → Except PyErr β} {R : α → β → Prop} : ∀ {l : List α},
    (∀ a ∈ l, ∃ b, f a = .ok b ∧ R a b) → ∃ r, mapList f l = .ok r ∧ List.Forall₂ R l r
  | [], _ => ⟨[], rfl, .nil⟩
  | a :: l, h => by
    obtain ⟨b, h1, h2⟩ := h a (by simp)
    obtain ⟨r, h3, h4⟩ := mapList_forall (l := l) fun x hx => h x (by simp [hx])
    exact ⟨b :: r, by simp only [mapList, h1, h3, bind, Except.bind], .cons h2 h4⟩

private theorem mapList_ok {f : α → Except PyErr β} : ∀ {l : List α} {r : List β}, mapList f l = .ok r →
    List.Forall₂ (fun a b => f a = .ok b) l r
  | [], r, h => by
    unfold mapList at h
    cases h
    exact .nil
  | a :: l, r, h => by
    unfold mapList at h
    simp only [bind, Except.bind] at h
    split at h
    · cases h
    rename_i b hb
    split at h
    · cases h
    rename_i r' hr
    cases h
    exact .cons hb (mapList_ok hr)

private theorem mapList_origin {f : α → Except PyErr β} {e : PyErr} : ∀ {l : List α}, mapList f l = .error e →
    ∃ a ∈ l, f a = .error e
  | [], h => by cases h
  | a :: l, h => by
    unfold mapList at h
    simp only [bind, Except.bind] at h
    split at h
    · rename_i hb
      cases h
      exact ⟨a, by simp, hb⟩
    · split at h
      · rename_i hr
        cases h
        obtain ⟨x, hx, h⟩ := mapList_origin hr
        exact ⟨x, by simp [hx], h⟩
      · cases h

private theorem forall₂_zipIdx {R : α → β → Prop} : ∀ {l : List α} {r : List β} (k : Nat),
    List.Forall₂ (fun p b => R p.1 b) (l.zipIdx k) r → List.Forall₂ R l r
  | [], _, _, h => by cases h; exact .nil
  | a :: l, _, k, h => by
    rw [List.zipIdx_cons] at h
    cases h with
    | cons h1 h2 => exact .cons h1 (forall₂_zipIdx (k + 1) h2)

end mapList

private theorem rowwise_ok {α β : Type} {f : List Nat → List α → Except PyErr (List β)}
    {conv : β → Except PyErr (Option Rat)} {P : α → Prop} {Q : α → Option Rat → Prop}
    (hf : ∀ path row, (∀ a ∈ row, P a) → ∃ r, f path row = .ok r ∧
      ∃ s, mapList conv r = .ok s ∧ List.Forall₂ Q row s) :
    ∀ (n : Nat) (path : List Nat) (A : Nd α (n + 1)), (∀ a ∈ elements (n + 1) A, P a) →
      ∃ B, rowwise f conv n path A = .ok B ∧ Elementwise Q (n + 1) A B
  | 0, path, A, h => by
    obtain ⟨rows, h1, h2⟩ := mapList_forall (f := fun p : List α × Nat => f (path ++ [p.2]) p.1)
      (R := fun p r => ∃ s, mapList conv r = .ok s ∧ List.Forall₂ Q p.1 s) (l := List.zipIdx (α := List α) A)
      (fun p hp => hf _ _ fun a ha => h a (List.mem_flatMap.mpr ⟨p.1, (List.mem_zipIdx' hp).2 ▸ List.getElem_mem _, ha⟩))
    have h3 := forall₂_zipIdx (R := fun row r => ∃ s, mapList conv r = .ok s ∧ List.Forall₂ Q row s) 0 h2
    have h4 : ∃ B, mapList (mapList conv) rows = .ok B ∧ List.Forall₂ (List.Forall₂ Q) (A : List (List α)) B := by
      clear h1 h2 h hf
      induction h3 with
      | nil => exact ⟨[], rfl, .nil⟩
      | cons hx _ ih =>
        obtain ⟨s, s1, s2⟩ := hx
        obtain ⟨B, b1, b2⟩ := ih
        exact ⟨s :: B, by simp only [mapList, s1, b1, bind, Except.bind], .cons s2 b2⟩
    obtain ⟨B, b1, b2⟩ := h4
    refine ⟨B, ?_, b2⟩
    unfold rowwise
    simp only [h1, bind, Except.bind]
    exact b1
  | n + 1, path, A, h => by
    obtain ⟨B, h1, h2⟩ := mapList_forall
      (f := fun p : Nd α (n + 1) × Nat => rowwise f conv n (path ++ [p.2]) p.1)
      (R := fun p r => Elementwise Q (n + 1) p.1 r) (l := List.zipIdx (α := Nd α (n + 1)) A)
      (fun p hp => rowwise_ok hf n _ p.1 fun a ha => h a
        (List.mem_flatMap.mpr ⟨p.1, (List.mem_zipIdx' hp).2 ▸ List.getElem_mem _, ha⟩))
    exact ⟨B, h1, forall₂_zipIdx (R := Elementwise Q (n + 1)) 0 h2⟩


private theorem decode_ne_other {f : FP.Num} {t : Scalar} (h : FP.decode f = .ok t) : t ≠ .other := by
  unfold FP.decode at h
  simp only [bind, Except.bind] at h
  split at h
  · cases h
  · cases h
    unfold FP.scale
    repeat' split
    all_goals simp

private theorem decrypt_ne_other {sk : PrivKey} {x : EncNum} {t : Scalar} (h : Paillier.decrypt sk x = .ok t) :
    t ≠ .other := by
  unfold Paillier.decrypt at h
  split at h
  · cases h
  · exact decode_ne_other h

private theorem elements_expand {α : Type} : ∀ (n : Nat) (A : Nd α n),
    elements (n - 1 + 1) (expand n A) = elements n A
  | 0, A => by
    show List.flatMap (elements 0) [A] = elements 0 A
    simp
  | _ + 1, _ => rfl

private theorem elementwise_expand {α β : Type} {R : α → β → Prop} : ∀ (n : Nat) {A : Nd α n} {B : Nd β n},
    Elementwise R n A B → Elementwise R (n - 1 + 1) (expand n A) (expand n B)
  | 0, _, _, h => List.Forall₂.cons h .nil
  | _ + 1, _, _, h => h

private theorem forall₂_mem_right {α β : Type} {R : α → β → Prop} {l : List α} {r : List β}
    (h : List.Forall₂ R l r) : ∀ b ∈ r, ∃ a ∈ l, R a b := by
  induction h with
  | nil => simp
  | cons h1 _ ih =>
    intro b hb
    rcases List.mem_cons.mp hb with rfl | hb
    · exact ⟨_, by simp, h1⟩
    · obtain ⟨a, ha, h2⟩ := ih b hb
      exact ⟨a, by simp [ha], h2⟩

private theorem elementwise_mem {α β : Type} {R : α → β → Prop} : ∀ (n : Nat) {A : Nd α n} {B : Nd β n},
    Elementwise R n A B → ∀ b ∈ elements n B, ∃ a ∈ elements n A, R a b
  | 0, _, _, h => forall₂_mem_right h
  | n + 1, A, B, h => by
    intro b hb
    obtain ⟨y, hy, hb⟩ := List.mem_flatMap.mp hb
    obtain ⟨x, hx, h1⟩ := forall₂_mem_right h y hy
    obtain ⟨a, ha, h2⟩ := elementwise_mem n h1 b hb
    exact ⟨a, List.mem_flatMap.mpr ⟨x, hx, ha⟩, h2⟩

private theorem forall₂_comp {α β γ : Type} {R : α → β → Prop} {T : β → γ → Prop} {U : α → γ → Prop} :
    ∀ {l : List α} {m : List β} {r : List γ}, (∀ a b c, a ∈ l → R a b → T b c → U a c) →
      List.Forall₂ R l m → List.Forall₂ T m r → List.Forall₂ U l r
  | [], _, _, _, h1, h2 => by cases h1; cases h2; exact .nil
  | a :: l, _, _, hu, h1, h2 => by
    cases h1 with
    | cons h3 h4 =>
      cases h2 with
      | cons h5 h6 =>
        exact .cons (hu _ _ _ (by simp) h3 h5) (forall₂_comp (fun a b c ha => hu a b c (by simp [ha])) h4 h6)

private theorem elementwise_comp {α β γ : Type} {R : α → β → Prop} {T : β → γ → Prop} {U : α → γ → Prop} :
    ∀ (n : Nat) {A : Nd α n} {B : Nd β n} {C : Nd γ n},
      (∀ a b c, a ∈ elements n A → R a b → T b c → U a c) → Elementwise R n A B → Elementwise T n B C →
      Elementwise U n A C
  | 0, _, _, _, hu, h1, h2 => forall₂_comp hu h1 h2
  | n + 1, _, _, _, hu, h1, h2 =>
    forall₂_comp (R := Elementwise R n) (T := Elementwise T n) (U := Elementwise U n) (fun x _ _ hx hr ht => elementwise_comp n
      (fun a b c ha => hu a b c (List.mem_flatMap.mpr ⟨x, hx, ha⟩)) hr ht) h1 h2

set_option exponentiation.threshold 2000 in
private theorem float_of {rnd : Int → Rat} {v : Scalar} {t : Scalar} (hm : InFloatRange v)
    (ht : t ≠ .other) (h : Returned v (some t)) :
    ∃ y, floatOfPlain rnd (some t) = .ok y ∧ ReturnedFloat rnd v y := by
  unfold InFloatRange at hm
  cases v with
  | other => exact h.elim
  | int z =>
    cases h
    refine ⟨some (rnd z), ?_, rfl⟩
    have hz : |z| ≤ 2 ^ 1023 := by
      have hm : |(z : Rat)| ≤ 2 ^ 1023 := hm
      exact_mod_cast hm
    refine if_pos ?_
    refine lt_of_le_of_lt hz ?_
    norm_num
  | float x =>
    obtain ⟨y, h1, h2⟩ := h
    cases h1
    have hm : |x| ≤ 2 ^ 1023 := hm
    cases t with
    | other => exact absurd rfl ht
    | float w => exact ⟨some w, rfl, w, h2, Or.inl rfl⟩
    | int z =>
      refine ⟨some (rnd z), ?_, z, h2, Or.inr ⟨z, rfl, rfl⟩⟩
      refine if_pos ?_
      have h2 : |(z : Rat) - x| ≤ |x| / 2 ^ 50 + FP.tiny := h2
      have ht : FP.tiny ≤ 1 := by unfold FP.tiny; norm_num
      have h3 : |(z : Rat)| ≤ |x| + (|x| / 2 ^ 50 + 1) := by
        have := abs_sub_abs_le_abs_sub (z : Rat) x
        linarith
      have h4 : |(z : Rat)| < 2 ^ 1024 - 2 ^ 970 := by
        refine lt_of_le_of_lt (h3.trans (add_le_add hm (add_le_add (div_le_div_of_nonneg_right hm (by positivity)) le_rfl))) ?_
        norm_num
      exact_mod_cast h4

/-- **Decryption**: an array of ciphertexts, of any shape, is decrypted to an array of this shape (with
a second dimension if it has only one) that holds the numbers as floats. -/
theorem C84_decrypt (p q : Nat) (sk : PrivKey) (hk : KeyPair p q sk) (h : Holder) (hs : h.priv = some sk)
    (rnd : Int → Rat) (n : Nat) (V : Nd Scalar n) (C : Nd (Option EncNum) n)
    (hv : ∀ v ∈ elements n V, Encryptable sk.pk.n v ∧ InFloatRange v)
    (hc : Elementwise (Made sk.pk (Usable sk)) n V C) :
    ∃ B, h.recursiveDecrypt rnd n C = .ok B ∧
      Elementwise (ReturnedFloat rnd) (n - 1 + 1) (expand n V) B := by
  have hone : ∀ v c, Encryptable sk.pk.n v → Made sk.pk (Usable sk) v c →
      ∃ t, h.decrypt c = .ok (some t) ∧ t ≠ .other ∧ Returned v (some t) := by
    rintro v c he ⟨draw, hd, hm⟩
    obtain ⟨X, t, a1, a2, a3⟩ := one_ok (h := ⟨some sk.pk, some sk⟩) ⟨hk, rfl, rfl⟩ v he draw hd
    have : (Holder.init.setPublic sk.pk).encrypt v draw = .ok (some X) := a1
    rw [hm, Except.ok.injEq] at this
    subst this
    refine ⟨t, ?_, ?_, a3⟩
    · rw [← a2]; unfold Holder.decrypt; rw [hs]
    · unfold Holder.decrypt at a2
      simp only [bind, Except.bind] at a2
      split at a2
      · cases a2
      · rename_i t' ht'
        cases a2
        exact decrypt_ne_other ht'
  obtain ⟨B, h1, h2⟩ := rowwise_ok (f := fun _ row => h.decryptList row) (conv := floatOfPlain rnd)
    (P := fun c => ∃ v, Encryptable sk.pk.n v ∧ InFloatRange v ∧ Made sk.pk (Usable sk) v c)
    (Q := fun c y => ∀ v, Encryptable sk.pk.n v → InFloatRange v → Made sk.pk (Usable sk) v c →
      ReturnedFloat rnd v y) (fun _ row hrow => by
      obtain ⟨r, r1, r2⟩ := mapList_forall (f := h.decrypt) (R := fun c t => h.decrypt c = .ok t ∧
          ∃ v, Encryptable sk.pk.n v ∧ InFloatRange v ∧ Made sk.pk (Usable sk) v c) (l := row)
        (fun c hc' => by
          obtain ⟨v, v1, v2, v3⟩ := hrow c hc'
          obtain ⟨t, t1, _⟩ := hone v c v1 v3
          exact ⟨some t, t1, t1, v, v1, v2, v3⟩)
      refine ⟨r, r1, ?_⟩
      clear r1 hrow
      induction r2 with
      | nil => exact ⟨[], rfl, .nil⟩
      | @cons c t _ _ hx _ ih =>
        obtain ⟨t1, v, v1, v2, v3⟩ := hx
        obtain ⟨s, s1, s2⟩ := ih
        obtain ⟨t', e1, e2, e3⟩ := hone v c v1 v3
        rw [t1, Except.ok.injEq] at e1
        subst e1
        obtain ⟨y, y1, _⟩ := float_of (rnd := rnd) v2 e2 e3
        refine ⟨y :: s, by simp only [mapList, y1, s1, bind, Except.bind], .cons ?_ s2⟩
        intro v' w1 w2 w3
        obtain ⟨t2, f1, f2, f3⟩ := hone v' c w1 w3
        rw [t1, Except.ok.injEq, Option.some.injEq] at f1
        subst f1
        obtain ⟨y', y1', y2'⟩ := float_of (rnd := rnd) w2 f2 f3
        rw [y1, Except.ok.injEq] at y1'
        subst y1'
        exact y2') (n - 1) [] (expand n C) (fun c hc' => by
      rw [elements_expand] at hc'
      obtain ⟨v, v1, v2⟩ := elementwise_mem n hc c hc'
      exact ⟨v, (hv v v1).1, (hv v v1).2, v2⟩)
  refine ⟨B, h1, elementwise_comp _ (fun v c y hv' hm hq => ?_) (elementwise_expand n hc) h2⟩
  rw [elements_expand] at hv'
  exact hq v (hv v hv').1 (hv v hv').2 hm

/-- For tables: the values are decrypted as one row. -/
theorem C84_decrypt_table {K : Type} [DecidableEq K] (p q : Nat) (sk : PrivKey) (hk : KeyPair p q sk) (h : Holder)
    (hs : h.priv = some sk) (rnd : Int → Rat) (V : List Scalar) (t : DTable K (Option EncNum))
    (hv : ∀ v ∈ V, Encryptable sk.pk.n v ∧ InFloatRange v)
    (hc : List.Forall₂ (Made sk.pk (Usable sk)) V t.data.values) :
    ∃ row, h.recursiveDecryptTable rnd t = .ok ([row] : List (List (Option Rat))) ∧
      List.Forall₂ (ReturnedFloat rnd) V row := by
  obtain ⟨B, h1, h2⟩ := C84_decrypt p q sk hk h hs rnd 0 V t.data.values hv hc
  have h2 : List.Forall₂ (List.Forall₂ (ReturnedFloat rnd)) [V] B := h2
  cases h2 with
  | cons h3 h4 =>
    cases h4
    exact ⟨_, h1, h3⟩

private theorem rowwise_empty {α β : Type} {f : List Nat → List α → Except PyErr (List β)}
    {conv : β → Except PyErr (Option Rat)}
    (hf : ∀ path row r s, f path row = .ok r → mapList conv r = .ok s → row = []) :
    ∀ (n : Nat) (path : List Nat) (A : Nd α (n + 1)) (B : Nd (Option Rat) (n + 1)),
      rowwise f conv n path A = .ok B → elements (n + 1) A = []
  | 0, path, A, B, h => by
    unfold rowwise at h
    simp only [bind, Except.bind] at h
    split at h
    · cases h
    rename_i rows hr
    have h1 := mapList_ok hr
    have h2 := mapList_ok h
    have h3 := forall₂_comp (R := fun (p : List α × Nat) r => f (path ++ [p.2]) p.1 = .ok r)
      (T := fun r s => mapList conv r = .ok s) (U := fun (p : List α × Nat) _ => p.1 = [])
      (fun p r s _ e1 e2 => hf _ _ _ _ e1 e2) h1 h2
    have h4 := forall₂_zipIdx (R := fun (row : List α) _ => row = []) 0 h3
    refine List.flatMap_eq_nil_iff.mpr ?_
    clear * - h4
    have : ∀ {l : List (List α)} {r : List (List (Option Rat))}, List.Forall₂ (fun row _ => row = []) l r →
        ∀ x ∈ l, x = [] := by
      intro l r hl
      induction hl with
      | nil => simp
      | cons h _ ih => intro x hx; rcases List.mem_cons.mp hx with rfl | hx; exact h; exact ih x hx
    exact this h4
  | n + 1, path, A, B, h => by
    have h1 := mapList_ok h
    have h4 := forall₂_zipIdx (R := fun (x : Nd α (n + 1)) _ => elements (n + 1) x = []) (r := B) 0
      (h1.imp fun p b e => rowwise_empty hf n _ _ _ e)
    refine List.flatMap_eq_nil_iff.mpr ?_
    clear * - h4
    have : ∀ {l : List (Nd α (n + 1))} {r : List (Nd (Option Rat) (n + 1))},
        List.Forall₂ (fun x _ => elements (n + 1) x = []) l r → ∀ x ∈ l, elements (n + 1) x = [] := by
      intro l r hl
      induction hl with
      | nil => simp
      | cons h _ ih => intro x hx; rcases List.mem_cons.mp hx with rfl | hx; exact h; exact ih x hx
    exact this h4

private theorem rowwise_origin {α β : Type} {f : List Nat → List α → Except PyErr (List β)}
    {conv : β → Except PyErr (Option Rat)} {P : α → Prop} {e0 : PyErr}
    (hf : ∀ path row, (∀ a ∈ row, P a) → ∃ r, f path row = .ok r) (hc : ∀ b e, conv b = .error e → e = e0) :
    ∀ (n : Nat) (path : List Nat) (A : Nd α (n + 1)) (e : PyErr), (∀ a ∈ elements (n + 1) A, P a) →
      rowwise f conv n path A = .error e → e = e0
  | 0, path, A, e, hp, h => by
    unfold rowwise at h
    simp only [bind, Except.bind] at h
    split at h
    · rename_i hr
      cases h
      obtain ⟨p, hp', h⟩ := mapList_origin hr
      obtain ⟨r, hr'⟩ := hf (path ++ [p.2]) p.1 fun a ha => hp a
        (List.mem_flatMap.mpr ⟨p.1, (List.mem_zipIdx' hp').2 ▸ List.getElem_mem _, ha⟩)
      rw [hr'] at h
      cases h
    · obtain ⟨row, _, h⟩ := mapList_origin h
      obtain ⟨b, _, h⟩ := mapList_origin h
      exact hc b e h
  | n + 1, path, A, e, hp, h => by
    obtain ⟨p, hp', h⟩ := mapList_origin h
    exact rowwise_origin hf hc n _ _ e (fun a ha => hp a
      (List.mem_flatMap.mpr ⟨p.1, (List.mem_zipIdx' hp').2 ▸ List.getElem_mem _, ha⟩)) h

/-- **Encryption never succeeds**: with a public key, every array that has an element is refused with
an exception; if all numbers can be encrypted it is a `TypeError`, after the ciphertexts have been made.
A table is always refused. -/
theorem C84_encrypt_refuted (h : Holder) (hp : h.pub ≠ none) (draw : List Nat → Nat → Int) (n : Nat)
    (A : Nd Scalar n) (hA : elements n A ≠ []) :
    (∃ e, h.recursiveEncrypt draw n A = .error e) ∧
    (∀ p q sk, HasKeys p q sk h → (∀ v ∈ elements n A, Encryptable sk.pk.n v) →
      (∀ path i, Usable sk (draw path i)) → h.recursiveEncrypt draw n A = .error .typeError) ∧
    ∀ (K : Type) (t : DTable K Scalar), h.recursiveEncryptTable t = .error .typeError := by
  have hex : ∃ e, h.recursiveEncrypt draw n A = .error e := by
    cases hr : h.recursiveEncrypt draw n A with
    | error e => exact ⟨e, rfl⟩
    | ok B =>
      refine absurd ?_ hA
      rw [← elements_expand]
      refine rowwise_empty (fun path row r s h1 h2 => ?_) _ _ _ _ hr
      cases row with
      | nil => rfl
      | cons v row =>
        exfalso
        simp only [Holder.encryptList] at h1
        have h1 := mapList_ok h1
        have h2 := mapList_ok h2
        rw [List.zipIdx_cons] at h1
        cases h1 with
        | cons a _ =>
          cases h2 with
          | cons b _ =>
            unfold Holder.encrypt at a
            split at a
            · simp only [bind, Except.bind] at a
              split at a
              · cases a
              · cases a
                cases b
            · rename_i hn
              exact hp hn
  refine ⟨hex, fun p q sk hk hv hd => ?_, fun _ _ => rfl⟩
  obtain ⟨e, he⟩ := hex
  have : e = .typeError := rowwise_origin (P := Encryptable sk.pk.n) (fun path row hrow => by
      obtain ⟨cs, _, h1, _⟩ := C60_lists p q sk h hk row hrow (draw path) (hd path)
      exact ⟨cs, h1⟩)
    (fun b e hb => by cases b <;> cases hb; rfl) _ _ _ e (by rw [elements_expand]; exact hv) he
  rw [he, this]

/-- **Without a public key** the numbers are replaced by NaN, without an exception. -/
theorem C84_no_key (h : Holder) (hp : h.pub = none) (draw : List Nat → Nat → Int) (n : Nat) (A : Nd Scalar n) :
    ∃ B, h.recursiveEncrypt draw n A = .ok B ∧
      Elementwise (fun _ y => y = none) (n - 1 + 1) (expand n A) B := by
  refine rowwise_ok (P := fun _ => True) (fun path row _ => ⟨_, C60_no_key h hp row (draw path), ?_⟩) _ _ _
    fun _ _ => trivial
  clear * -
  induction row with
  | nil => exact ⟨[], rfl, .nil⟩
  | cons v row ih =>
    obtain ⟨s, s1, s2⟩ := ih
    refine ⟨none :: s, ?_, .cons rfl s2⟩
    rw [List.length_cons, List.replicate_succ]
    simp only [mapList, s1, bind, Except.bind, floatOfCipher]

set_option exponentiation.threshold 2000 in
/-- Keys, and an array with two dimensions of numbers with their ciphertexts, that meet the
hypotheses: the key `5 * 7`, integers up to 10. -/
example : ∃ sk, KeyPair 5 7 sk ∧ ∃ (V : Nd Scalar 1) (C : Nd (Option EncNum) 1),
    elements 1 V = [.int 4, .int (-10)] ∧ (∀ v ∈ elements 1 V, Encryptable sk.pk.n v ∧ InFloatRange v) ∧
    Elementwise (Made sk.pk (Usable sk)) 1 V C := by
  have hk : KeyPair 5 7 ⟨⟨35⟩, 5, 7, 3, 2, 4⟩ := ⟨by norm_num, by norm_num, by norm_num, by decide +kernel⟩
  have hu : Usable ⟨⟨35⟩, 5, 7, 3, 2, 4⟩ 4 := ⟨9, -1, by norm_num⟩
  have hmade : ∀ z : Int, |z| ≤ 10 → ∃ c, Made ⟨35⟩ (Usable ⟨⟨35⟩, 5, 7, 3, 2, 4⟩) (.int z) c := by
    intro z hz
    obtain ⟨X, t, a1, _⟩ := one_ok (h := ⟨some ⟨35⟩, some ⟨⟨35⟩, 5, 7, 3, 2, 4⟩⟩) ⟨hk, rfl, rfl⟩ (.int z) hz 4 hu
    exact ⟨some X, 4, hu, a1⟩
  obtain ⟨c, hc⟩ := hmade 4 (by norm_num)
  obtain ⟨d, hd⟩ := hmade (-10) (by norm_num)
  refine ⟨_, hk, ([[.int 4], [.int (-10)]] : List (List Scalar)), ([[c], [d]] : List (List (Option EncNum))), rfl, ?_,
    List.Forall₂.cons (List.Forall₂.cons hc .nil) (.cons (List.Forall₂.cons hd .nil) .nil)⟩
  intro v hv
  have hv : v ∈ [Scalar.int 4, .int (-10)] := hv
  simp only [List.mem_cons, List.not_mem_nil, or_false] at hv
  rcases hv with rfl | rfl <;> norm_num [Encryptable, InFloatRange, Scalar.val]

end Verif
