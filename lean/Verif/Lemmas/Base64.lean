import Verif.Model.Base64
import Verif.Spec.Base64
import Verif.Lemmas.Frames

/-!
# Lemmas about base64
-/

namespace WS

open Spec

theorem fin64_forall {P : Nat → Prop} (h : ∀ n : Fin 64, P n) {v : Nat} (hv : v < 64) : P v :=
  h ⟨v, hv⟩

theorem b64Val_char {v : Nat} (hv : v < 64) : b64Val (b64Char v) = some v :=
  fin64_forall (P := fun v => b64Val (b64Char v) = some v) (by decide +kernel) hv

theorem b64Char_ne {v : Nat} (hv : v < 64) : b64Char v ≠ 61 :=
  fin64_forall (P := fun v => b64Char v ≠ 61) (by decide +kernel) hv

theorem b64Char_alphabet {v : Nat} (hv : v < 64) : b64Char v = b64Alphabet.getD v 0 :=
  fin64_forall (P := fun v => b64Char v = b64Alphabet.getD v 0) (by decide +kernel) hv

theorem ofNat_parts (a : UInt8) (x : Nat) (h : x = a.toNat) : UInt8.ofNat x = a := by
  subst h; simp

theorem a2b_encode (b : Bytes) : a2bLoop 0 0 0 (b64encode b) = .ok b := by
  induction b using b64encode.induct with
  | case1 => rfl
  | case2 a =>
    have ha := a.toNat_lt
    have e1 := b64Val_char (v := a.toNat / 4) (by omega)
    have n1 := b64Char_ne (v := a.toNat / 4) (by omega)
    have e2 := b64Val_char (v := a.toNat % 4 * 16) (by omega)
    have n2 := b64Char_ne (v := a.toNat % 4 * 16) (by omega)
    simp only [b64encode, a2bLoop, e1, n1, e2, n2, if_false, if_true]
    rw [ofNat_parts a _ (by omega)]
    simp
  | case3 a b =>
    have ha := a.toNat_lt
    have hb := b.toNat_lt
    have e1 := b64Val_char (v := a.toNat / 4) (by omega)
    have n1 := b64Char_ne (v := a.toNat / 4) (by omega)
    have e2 := b64Val_char (v := a.toNat % 4 * 16 + b.toNat / 16) (by omega)
    have n2 := b64Char_ne (v := a.toNat % 4 * 16 + b.toNat / 16) (by omega)
    have e3 := b64Val_char (v := b.toNat % 16 * 4) (by omega)
    have n3 := b64Char_ne (v := b.toNat % 16 * 4) (by omega)
    simp only [b64encode, a2bLoop, e1, n1, e2, n2, e3, n3, if_false, if_true]
    rw [ofNat_parts b _ (by omega), ofNat_parts a _ (by omega)]
    simp
  | case4 a b c rest ih =>
    have ha := a.toNat_lt
    have hb := b.toNat_lt
    have hc := c.toNat_lt
    have e1 := b64Val_char (v := a.toNat / 4) (by omega)
    have n1 := b64Char_ne (v := a.toNat / 4) (by omega)
    have e2 := b64Val_char (v := a.toNat % 4 * 16 + b.toNat / 16) (by omega)
    have n2 := b64Char_ne (v := a.toNat % 4 * 16 + b.toNat / 16) (by omega)
    have e3 := b64Val_char (v := b.toNat % 16 * 4 + c.toNat / 64) (by omega)
    have n3 := b64Char_ne (v := b.toNat % 16 * 4 + c.toNat / 64) (by omega)
    have e4 := b64Val_char (v := c.toNat % 64) (by omega)
    have n4 := b64Char_ne (v := c.toNat % 64) (by omega)
    simp only [b64encode, a2bLoop, e1, n1, e2, n2, e3, n3, e4, n4, if_false, ih]
    rw [ofNat_parts a _ (by omega), ofNat_parts b _ (by omega), ofNat_parts c _ (by omega)]

theorem b64encode_split (b : Bytes) : ∃ chars pads, b64encode b = chars ++ pads ∧
    (∀ c ∈ chars, (b64Val c).isSome = true) ∧ (pads = [] ∨ pads = [61] ∨ pads = [61, 61]) ∧
    (b ≠ [] → chars ≠ []) := by
  have key : ∀ v, v < 64 → (b64Val (b64Char v)).isSome = true := by
    intro v hv; rw [b64Val_char hv]; rfl
  induction b using b64encode.induct with
  | case1 => exact ⟨[], [], rfl, by simp, .inl rfl, by simp⟩
  | case2 a =>
    have ha := a.toNat_lt
    refine ⟨[_, _], [61, 61], rfl, ?_, .inr (.inr rfl), by simp⟩
    intro c hc
    simp only [List.mem_cons, List.not_mem_nil, or_false] at hc
    rcases hc with rfl | rfl <;> exact key _ (by omega)
  | case3 a b =>
    have ha := a.toNat_lt
    have hb := b.toNat_lt
    refine ⟨[_, _, _], [61], rfl, ?_, .inr (.inl rfl), by simp⟩
    intro c hc
    simp only [List.mem_cons, List.not_mem_nil, or_false] at hc
    rcases hc with rfl | rfl | rfl <;> exact key _ (by omega)
  | case4 a b c rest ih =>
    have ha := a.toNat_lt
    have hb := b.toNat_lt
    have hc := c.toNat_lt
    obtain ⟨chars, pads, e, h1, h2, _⟩ := ih
    refine ⟨_ :: _ :: _ :: _ :: chars, pads, by rw [b64encode, e]; rfl, ?_, h2, by simp⟩
    intro d hd
    simp only [List.mem_cons] at hd
    rcases hd with rfl | rfl | rfl | rfl | hd
    · exact key _ (by omega)
    · exact key _ (by omega)
    · exact key _ (by omega)
    · exact key _ (by omega)
    · exact h1 d hd

theorem b64Val_61 : (b64Val 61).isSome = false := by decide

theorem b64Valid_encode (b : Bytes) : b64Valid (b64encode b) = true := by
  obtain ⟨chars, pads, e, h1, h2, h3⟩ := b64encode_split b
  clear h3
  have : (b64encode b).dropWhile (fun c => (b64Val c).isSome) = pads := by
    rw [e]
    clear e
    induction chars with
    | nil => rcases h2 with rfl | rfl | rfl <;> simp [List.dropWhile, b64Val_61]
    | cons c cs ih =>
      simp only [List.cons_append, List.dropWhile, h1 c (by simp)]
      exact ih fun d hd => h1 d (by simp [hd])
  unfold b64Valid
  rw [this]
  rcases h2 with rfl | rfl | rfl <;> simp

theorem ofBits_append (l m : List Bool) : ofBits (l ++ m) = ofBits l * 2 ^ m.length + ofBits m := by
  have key : ∀ (m : List Bool) n, m.foldl (fun n b => 2 * n + b.toNat) n = n * 2 ^ m.length + ofBits m := by
    intro m
    induction m with
    | nil => intro n; simp [ofBits]
    | cons b m ih =>
      intro n
      have e : ofBits (b :: m) = b.toNat * 2 ^ m.length + ofBits m := by
        rw [ofBits, List.foldl_cons, ih]; simp
      rw [List.foldl_cons, ih, e, List.length_cons, Nat.pow_succ, Nat.add_mul]
      have : 2 * n * 2 ^ m.length = n * (2 ^ m.length * 2) := by
        rw [Nat.mul_comm 2 n, Nat.mul_assoc, Nat.mul_comm 2]
      omega
  unfold ofBits
  rw [List.foldl_append, key]
  rfl

/-- The bits of a byte, one by one. -/
def bit (b : UInt8) (i : Nat) : Bool := b.toNat.testBit i

theorem byteBits_eq (b : UInt8) : byteBits b =
    [bit b 7, bit b 6, bit b 5, bit b 4, bit b 3, bit b 2, bit b 1, bit b 0] := rfl

theorem bits_hi6 (b : UInt8) : ofBits [bit b 7, bit b 6, bit b 5, bit b 4, bit b 3, bit b 2] = b.toNat / 4 :=
  u8_forall (P := fun b => ofBits [bit b 7, bit b 6, bit b 5, bit b 4, bit b 3, bit b 2] = b.toNat / 4)
    (by decide +kernel) b

theorem bits_lo2 (b : UInt8) : ofBits [bit b 1, bit b 0] = b.toNat % 4 :=
  u8_forall (P := fun b => ofBits [bit b 1, bit b 0] = b.toNat % 4) (by decide +kernel) b

theorem bits_hi4 (b : UInt8) : ofBits [bit b 7, bit b 6, bit b 5, bit b 4] = b.toNat / 16 :=
  u8_forall (P := fun b => ofBits [bit b 7, bit b 6, bit b 5, bit b 4] = b.toNat / 16)
    (by decide +kernel) b

theorem bits_lo4 (b : UInt8) : ofBits [bit b 3, bit b 2, bit b 1, bit b 0] = b.toNat % 16 :=
  u8_forall (P := fun b => ofBits [bit b 3, bit b 2, bit b 1, bit b 0] = b.toNat % 16)
    (by decide +kernel) b

theorem bits_hi2 (b : UInt8) : ofBits [bit b 7, bit b 6] = b.toNat / 64 :=
  u8_forall (P := fun b => ofBits [bit b 7, bit b 6] = b.toNat / 64) (by decide +kernel) b

theorem bits_lo6 (b : UInt8) : ofBits [bit b 5, bit b 4, bit b 3, bit b 2, bit b 1, bit b 0] = b.toNat % 64 :=
  u8_forall (P := fun b => ofBits [bit b 5, bit b 4, bit b 3, bit b 2, bit b 1, bit b 0] = b.toNat % 64)
    (by decide +kernel) b

theorem bits_2_4 (a b : UInt8) : ofBits [bit a 1, bit a 0, bit b 7, bit b 6, bit b 5, bit b 4] =
    a.toNat % 4 * 16 + b.toNat / 16 := by
  have := ofBits_append [bit a 1, bit a 0] [bit b 7, bit b 6, bit b 5, bit b 4]
  rw [bits_lo2, bits_hi4] at this
  exact this

theorem bits_4_2 (a b : UInt8) : ofBits [bit a 3, bit a 2, bit a 1, bit a 0, bit b 7, bit b 6] =
    a.toNat % 16 * 4 + b.toNat / 64 := by
  have := ofBits_append [bit a 3, bit a 2, bit a 1, bit a 0] [bit b 7, bit b 6]
  rw [bits_lo4, bits_hi2] at this
  exact this

theorem bits_2_0 (a : UInt8) : ofBits [bit a 1, bit a 0, false, false, false, false] = a.toNat % 4 * 16 := by
  have := ofBits_append [bit a 1, bit a 0] [false, false, false, false]
  rw [bits_lo2] at this
  exact this

theorem bits_4_0 (a : UInt8) : ofBits [bit a 3, bit a 2, bit a 1, bit a 0, false, false] = a.toNat % 16 * 4 := by
  have := ofBits_append [bit a 3, bit a 2, bit a 1, bit a 0] [false, false]
  rw [bits_lo4] at this
  exact this

theorem b64encode_eq (b : Bytes) : b64encode b = base64 b := by
  induction b using b64encode.induct with
  | case1 => rfl
  | case2 a =>
    have ha := a.toNat_lt
    simp only [base64, List.map_cons, List.map_nil, byteBits_eq, List.flatten_cons, List.flatten_nil,
      List.append_nil, sextets, List.length_cons, List.length_nil, List.replicate, List.cons_append,
      List.nil_append, bits_hi6, bits_2_0, b64encode, ← b64Char_alphabet (show a.toNat / 4 < 64 by omega),
      ← b64Char_alphabet (show a.toNat % 4 * 16 < 64 by omega)]
  | case3 a b =>
    have ha := a.toNat_lt
    have hb := b.toNat_lt
    simp only [base64, List.map_cons, List.map_nil, byteBits_eq, List.flatten_cons, List.flatten_nil,
      List.append_nil, sextets, List.length_cons, List.length_nil, List.replicate, List.cons_append,
      List.nil_append, bits_hi6, bits_2_4, bits_4_0, b64encode,
      ← b64Char_alphabet (show a.toNat / 4 < 64 by omega),
      ← b64Char_alphabet (show a.toNat % 4 * 16 + b.toNat / 16 < 64 by omega),
      ← b64Char_alphabet (show b.toNat % 16 * 4 < 64 by omega)]
  | case4 a b c rest ih =>
    have ha := a.toNat_lt
    have hb := b.toNat_lt
    have hc := c.toNat_lt
    rw [b64encode, ih]
    simp only [base64, List.map_cons, byteBits_eq, List.flatten_cons, List.cons_append,
      List.nil_append, sextets, List.length_cons, bits_hi6, bits_2_4, bits_4_2, bits_lo6,
      ← b64Char_alphabet (show a.toNat / 4 < 64 by omega),
      ← b64Char_alphabet (show a.toNat % 4 * 16 + b.toNat / 16 < 64 by omega),
      ← b64Char_alphabet (show b.toNat % 16 * 4 + c.toNat / 64 < 64 by omega),
      ← b64Char_alphabet (show c.toNat % 64 < 64 by omega)]
    congr 5
    congr 1
    rw [show ∀ n : Nat, n + 1 + 1 + 1 + 1 = n + 4 from fun _ => rfl, Nat.add_mod_right]

theorem b64encode_length (b : Bytes) : (b64encode b).length = (b.length + 2) / 3 * 4 := by
  induction b using b64encode.induct with
  | case1 => rfl
  | case2 a => simp [b64encode]
  | case3 a b => simp [b64encode]
  | case4 a b c rest ih => simp only [b64encode, List.length_cons, ih]; omega

end WS
