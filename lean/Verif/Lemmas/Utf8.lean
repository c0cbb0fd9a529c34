import Verif.Model.Utf8
import Verif.Spec.Utf8

/-! Helper lemmas on the UTF-8 codec. -/

namespace WS

theorem u8_ofNat_toNat {n : Nat} (h : n < 256) : (UInt8.ofNat n).toNat = n := by
  simp; omega

theorem utf8EncodeCp_ne_nil {c : Nat} {enc : Bytes} (h : utf8EncodeCp c = some enc) :
    enc ≠ [] ∧ enc.length ≤ 4 := by
  unfold utf8EncodeCp at h
  grind

theorem utf8First_encode {c : Nat} {enc rest : Bytes} (h : utf8EncodeCp c = some enc) :
    utf8First (enc ++ rest) = .ok (c, enc.length) := by
  unfold utf8EncodeCp at h
  split at h
  · cases h
    have e : (UInt8.ofNat c).toNat = c := u8_ofNat_toNat (by omega)
    simp only [List.cons_append, utf8First, e]
    rw [if_pos (by omega)]; rfl
  split at h
  · cases h
    have e0 : (UInt8.ofNat (0xC0 + c / 64)).toNat = 0xC0 + c / 64 := u8_ofNat_toNat (by omega)
    have e1 : (UInt8.ofNat (0x80 + c % 64)).toNat = 0x80 + c % 64 := u8_ofNat_toNat (by omega)
    simp only [List.cons_append, utf8First, e0, e1, isCont]
    rw [if_neg (by omega), if_neg (by omega), if_pos (by omega), if_pos (by simp; omega)]
    simp; omega
  split at h
  · split at h
    · cases h
    · cases h
      have e0 : (UInt8.ofNat (0xE0 + c / 4096)).toNat = 0xE0 + c / 4096 := u8_ofNat_toNat (by omega)
      have e1 : (UInt8.ofNat (0x80 + c / 64 % 64)).toNat = 0x80 + c / 64 % 64 := u8_ofNat_toNat (by omega)
      have e2 : (UInt8.ofNat (0x80 + c % 64)).toNat = 0x80 + c % 64 := u8_ofNat_toNat (by omega)
      simp only [List.cons_append, utf8First, e0, e1, e2, isCont]
      rw [if_neg (by omega), if_neg (by omega), if_neg (by omega), if_pos (by omega),
        if_neg (by simp; omega), if_pos (by simp; omega)]
      simp; omega
  split at h
  · cases h
    have e0 : (UInt8.ofNat (0xF0 + c / 262144)).toNat = 0xF0 + c / 262144 := u8_ofNat_toNat (by omega)
    have e1 : (UInt8.ofNat (0x80 + c / 4096 % 64)).toNat = 0x80 + c / 4096 % 64 := u8_ofNat_toNat (by omega)
    have e2 : (UInt8.ofNat (0x80 + c / 64 % 64)).toNat = 0x80 + c / 64 % 64 := u8_ofNat_toNat (by omega)
    have e3 : (UInt8.ofNat (0x80 + c % 64)).toNat = 0x80 + c % 64 := u8_ofNat_toNat (by omega)
    simp only [List.cons_append, utf8First, e0, e1, e2, e3, isCont]
    rw [if_neg (by omega), if_neg (by omega), if_neg (by omega), if_neg (by omega),
      if_pos (by omega), if_neg (by simp; omega), if_neg (by simp; omega), if_pos (by simp; omega)]
    simp; omega
  · cases h

theorem u8_eq_ofNat {b : UInt8} {n : Nat} (h : b.toNat = n) : b = UInt8.ofNat n := by
  rw [← h, UInt8.ofNat_toNat]

theorem utf8First_ok {bs : Bytes} {c n : Nat} (h : utf8First bs = .ok (c, n)) :
    ∃ enc rest, bs = enc ++ rest ∧ utf8EncodeCp c = some enc ∧ enc.length = n := by
  cases bs with
  | nil => simp [utf8First] at h
  | cons b0 rest =>
    have hb0 := b0.toNat_lt
    simp only [utf8First] at h
    split at h
    · cases h
      refine ⟨[b0], rest, rfl, ?_, rfl⟩
      simp only [utf8EncodeCp]
      rw [if_pos (by omega)]; simp
    split at h
    · cases h
    split at h
    · cases rest with
      | nil => cases h
      | cons b1 rest =>
        have hb1 := b1.toNat_lt
        simp only at h
        split at h
        · rename_i hc
          simp [isCont] at hc
          simp only [Except.ok.injEq, Prod.mk.injEq] at h
          obtain ⟨rfl, rfl⟩ := h
          refine ⟨[b0, b1], rest, rfl, ?_, rfl⟩
          simp only [utf8EncodeCp]
          rw [if_neg (by omega), if_pos (by omega)]
          rw [← u8_eq_ofNat (b := b0) (by omega), ← u8_eq_ofNat (b := b1) (by omega)]
        · cases h
    split at h
    · cases rest with
      | nil => cases h
      | cons b1 rest =>
        have hb1 := b1.toNat_lt
        simp only at h
        split at h
        · cases h
        · rename_i hc1
          simp [isCont] at hc1
          cases rest with
          | nil => cases h
          | cons b2 rest =>
            have hb2 := b2.toNat_lt
            simp only at h
            split at h
            · rename_i hc2
              simp [isCont] at hc2
              simp only [Except.ok.injEq, Prod.mk.injEq] at h
              obtain ⟨rfl, rfl⟩ := h
              refine ⟨[b0, b1, b2], rest, rfl, ?_, rfl⟩
              simp only [utf8EncodeCp]
              rw [if_neg (by omega), if_neg (by omega), if_pos (by omega), if_neg (by omega)]
              rw [← u8_eq_ofNat (b := b0) (by omega), ← u8_eq_ofNat (b := b1) (by omega),
                ← u8_eq_ofNat (b := b2) (by omega)]
            · cases h
    split at h
    · cases rest with
      | nil => cases h
      | cons b1 rest =>
        have hb1 := b1.toNat_lt
        simp only at h
        split at h
        · cases h
        · rename_i hc1
          simp [isCont] at hc1
          cases rest with
          | nil => cases h
          | cons b2 rest =>
            have hb2 := b2.toNat_lt
            simp only at h
            split at h
            · cases h
            · rename_i hc2
              simp [isCont] at hc2
              cases rest with
              | nil => cases h
              | cons b3 rest =>
                have hb3 := b3.toNat_lt
                simp only at h
                split at h
                · rename_i hc3
                  simp [isCont] at hc3
                  simp only [Except.ok.injEq, Prod.mk.injEq] at h
                  obtain ⟨rfl, rfl⟩ := h
                  refine ⟨[b0, b1, b2, b3], rest, rfl, ?_, rfl⟩
                  simp only [utf8EncodeCp]
                  rw [if_neg (by omega), if_neg (by omega), if_neg (by omega), if_pos (by omega)]
                  rw [← u8_eq_ofNat (b := b0) (by omega), ← u8_eq_ofNat (b := b1) (by omega),
                    ← u8_eq_ofNat (b := b2) (by omega), ← u8_eq_ofNat (b := b3) (by omega)]
                · cases h
    · cases h

/-- Relation form of the encoder. -/
theorem utf8Encode_cons_ok {c : Nat} {s : PyStr} {b : Bytes} :
    utf8Encode (c :: s) = .ok b ↔
      ∃ e bs, utf8EncodeCp c = some e ∧ utf8Encode s = .ok bs ∧ b = e ++ bs := by
  simp only [utf8Encode]
  cases h : utf8EncodeCp c with
  | none => simp
  | some e =>
    cases h2 : utf8Encode s with
    | error x => simp
    | ok bs => simp; exact eq_comm

theorem utf8Scan_complete {s : PyStr} {b : Bytes} (h : utf8Encode s = .ok b) (fuel : Nat)
    (hf : b.length ≤ fuel) : utf8Scan fuel b = (s, b.length, none) := by
  induction s generalizing b fuel with
  | nil =>
    cases h
    cases fuel <;> rfl
  | cons c s ih =>
    obtain ⟨e, bs, he, hbs, rfl⟩ := utf8Encode_cons_ok.1 h
    obtain ⟨hne, _⟩ := utf8EncodeCp_ne_nil he
    cases e with
    | nil => exact absurd rfl hne
    | cons e0 e' =>
      cases fuel with
      | zero => simp at hf
      | succ fuel =>
        have h1 := utf8First_encode (rest := bs) he
        simp only [List.cons_append] at h1 ⊢
        simp only [utf8Scan, h1]
        have hd : (e0 :: (e' ++ bs)).drop (e0 :: e').length = bs := by simp
        rw [hd, ih hbs fuel (by simp at hf; omega)]
        simp; omega

theorem utf8Scan_sound {fuel : Nat} {b : Bytes} {s : PyStr} {pos : Nat} {err : Option Utf8Err}
    (h : utf8Scan fuel b = (s, pos, err)) (hf : b.length ≤ fuel) :
    ∃ b1 b2, b = b1 ++ b2 ∧ utf8Encode s = .ok b1 ∧ b1.length = pos ∧
      (err = none → b2 = []) ∧ (∀ e, err = some e → b2 ≠ [] ∧ utf8First b2 = .error e) := by
  induction fuel generalizing b s pos err with
  | zero =>
    simp only [utf8Scan] at h
    cases h
    cases b with
    | nil => exact ⟨[], [], by simp [utf8Encode]⟩
    | cons x xs => simp at hf
  | succ fuel ih =>
    cases b with
    | nil =>
      simp only [utf8Scan] at h
      cases h
      exact ⟨[], [], by simp [utf8Encode]⟩
    | cons x xs =>
      simp only [utf8Scan] at h
      cases h1 : utf8First (x :: xs) with
      | error e =>
        simp only [h1] at h
        cases h
        refine ⟨[], x :: xs, rfl, rfl, rfl, by simp, ?_⟩
        intro e' he'
        cases he'
        exact ⟨by simp, h1⟩
      | ok cn =>
        obtain ⟨c, n⟩ := cn
        simp only [h1] at h
        obtain ⟨enc, rest, hbs, henc, hn⟩ := utf8First_ok h1
        have hne := (utf8EncodeCp_ne_nil henc).1
        have hpos : 0 < enc.length := List.length_pos_iff.2 hne
        have hdrop : (x :: xs).drop n = rest := by
          rw [hbs, ← hn]; simp
        rw [hdrop] at h
        have hlen := congrArg List.length hbs
        simp at hlen hf
        cases hr : utf8Scan fuel rest with
        | mk s' r =>
          obtain ⟨pos', err'⟩ := r
          rw [hr] at h
          cases h
          obtain ⟨b1, b2, e1, e2, e3, e4, e5⟩ := ih hr (by omega)
          refine ⟨enc ++ b1, b2, ?_, ?_, ?_, e4, e5⟩
          · rw [hbs, e1, List.append_assoc]
          · exact utf8Encode_cons_ok.2 ⟨enc, b1, henc, e2, rfl⟩
          · simp [hn, e3]

theorem utf8Decode_iff_encode {b : Bytes} {s : PyStr} :
    utf8Decode b = .ok s ↔ utf8Encode s = .ok b := by
  constructor
  · intro h
    unfold utf8Decode at h
    cases hr : utf8Scan b.length b with
    | mk s' r =>
      obtain ⟨pos, err⟩ := r
      rw [hr] at h
      cases err with
      | some e => simp at h
      | none =>
        simp at h
        subst h
        obtain ⟨b1, b2, e1, e2, e3, e4, e5⟩ := utf8Scan_sound hr (Nat.le_refl _)
        have := e4 rfl
        subst this
        simp at e1
        rw [e1, e2]
  · intro h
    unfold utf8Decode
    rw [utf8Scan_complete h _ (Nat.le_refl _)]

theorem utf8EncodeCp_char (c : Char) : utf8EncodeCp c.toNat = some (String.utf8EncodeChar c) := by
  have hv : c.toNat < 0xD800 ∨ (0xDFFF < c.toNat ∧ c.toNat < 0x110000) := c.valid
  have hc : c.val.toNat = c.toNat := rfl
  simp only [utf8EncodeCp, String.utf8EncodeChar, hc]
  generalize c.toNat = v at hv
  by_cases h1 : v < 0x80
  · rw [if_pos h1, if_pos (show v ≤ 127 by omega)]
  rw [if_neg h1, if_neg (show ¬ v ≤ 127 by omega)]
  by_cases h2 : v < 0x800
  · rw [if_pos h2, if_pos (show v ≤ 2047 by omega)]
    have e1 : 0xC0 + v / 64 = v / 64 % 32 + 192 := by omega
    have e3 : 0x80 + v % 64 = v % 64 + 128 := by omega
    rw [e1, e3]
  rw [if_neg h2, if_neg (show ¬ v ≤ 2047 by omega)]
  by_cases h3 : v < 0x10000
  · rw [if_pos h3, if_pos (show v ≤ 65535 by omega),
      if_neg (show ¬ (0xD800 ≤ v ∧ v < 0xE000) by omega)]
    have e1 : 0xE0 + v / 4096 = v / 4096 % 16 + 224 := by omega
    have e2 : 0x80 + v / 64 % 64 = v / 64 % 64 + 128 := by omega
    have e3 : 0x80 + v % 64 = v % 64 + 128 := by omega
    rw [e1, e2, e3]
  · rw [if_neg h3, if_neg (show ¬ v ≤ 65535 by omega), if_pos (show v < 0x110000 by omega)]
    have e1 : 0xF0 + v / 262144 = v / 262144 % 8 + 240 := by omega
    have e2 : 0x80 + v / 64 % 64 = v / 64 % 64 + 128 := by omega
    have e3 : 0x80 + v % 64 = v % 64 + 128 := by omega
    have e4 : 0x80 + v / 4096 % 64 = v / 4096 % 64 + 128 := by omega
    rw [e1, e2, e3, e4]

theorem utf8EncodeCp_isSome {c : Nat} {e : Bytes} (h : utf8EncodeCp c = some e) :
    ∃ ch : Char, c = ch.toNat := by
  have hs : c < 0xD800 ∨ (0xDFFF < c ∧ c < 0x110000) := by
    unfold utf8EncodeCp at h
    grind
  have hv : c.isValidChar := hs
  refine ⟨Char.ofNat c, ?_⟩
  have : (Char.ofNat c).toNat = c := by
    rw [Char.ofNat, dif_pos hv]
    simp [Char.toNat, Char.ofNatAux]
  exact this.symm

theorem utf8Encode_iff_spec {b : Bytes} {s : PyStr} :
    utf8Encode s = .ok b ↔ Spec.IsUtf8 b s := by
  induction s generalizing b with
  | nil =>
    constructor
    · intro h; cases h; exact ⟨[], by simp⟩
    · rintro ⟨cs, h1, h2⟩
      simp at h1
      subst h1
      simp [h2, utf8Encode]
  | cons c s ih =>
    rw [utf8Encode_cons_ok]
    constructor
    · rintro ⟨e, bs, he, hbs, rfl⟩
      obtain ⟨cs, h1, h2⟩ := ih.1 hbs
      obtain ⟨ch, rfl⟩ := utf8EncodeCp_isSome he
      rw [utf8EncodeCp_char] at he
      cases he
      exact ⟨ch :: cs, by simp [h1], by simp [h2]⟩
    · rintro ⟨cs, h1, h2⟩
      cases cs with
      | nil => simp at h1
      | cons ch cs =>
        simp at h1
        obtain ⟨rfl, rfl⟩ := h1
        exact ⟨_, cs.flatMap String.utf8EncodeChar, utf8EncodeCp_char ch, ih.2 ⟨cs, rfl, rfl⟩, by simp [h2]⟩

theorem utf8Encode_append {s t : PyStr} {a b : Bytes} (hs : utf8Encode s = .ok a)
    (ht : utf8Encode t = .ok b) : utf8Encode (s ++ t) = .ok (a ++ b) := by
  induction s generalizing a with
  | nil => cases hs; simpa using ht
  | cons c s ih =>
    obtain ⟨e, bs, he, hbs, rfl⟩ := utf8Encode_cons_ok.1 hs
    rw [List.cons_append]
    exact utf8Encode_cons_ok.2 ⟨e, bs ++ b, he, ih hbs, by simp⟩

end WS
