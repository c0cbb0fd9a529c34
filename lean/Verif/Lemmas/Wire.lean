import Verif.Lemmas.Frames

/-! The bytes written for a frame are its minimal RFC 6455 wire encoding. -/

namespace WS

open Spec

theorem packH_of_bytes (b1 b0 : UInt8) : packH (b1.toNat * 256 + b0.toNat) = [b1, b0] := by
  have h1 := b1.toNat_lt
  have h0 := b0.toNat_lt
  simp only [packH]
  rw [← u8_eq_ofNat (b := b1) (by omega), ← u8_eq_ofNat (b := b0) (by omega)]

theorem packQ_of_bytes (b7 b6 b5 b4 b3 b2 b1 b0 : UInt8) :
    packQ (b7.toNat * 2 ^ 56 + b6.toNat * 2 ^ 48 + b5.toNat * 2 ^ 40 + b4.toNat * 2 ^ 32 +
          b3.toNat * 2 ^ 24 + b2.toNat * 2 ^ 16 + b1.toNat * 2 ^ 8 + b0.toNat) =
      [b7, b6, b5, b4, b3, b2, b1, b0] := by
  have h0 := b0.toNat_lt
  have h1 := b1.toNat_lt
  have h2 := b2.toNat_lt
  have h3 := b3.toNat_lt
  have h4 := b4.toNat_lt
  have h5 := b5.toNat_lt
  have h6 := b6.toNat_lt
  have h7 := b7.toNat_lt
  simp only [packQ]
  rw [← u8_eq_ofNat (b := b7) (by omega), ← u8_eq_ofNat (b := b6) (by omega),
    ← u8_eq_ofNat (b := b5) (by omega), ← u8_eq_ofNat (b := b4) (by omega),
    ← u8_eq_ofNat (b := b3) (by omega), ← u8_eq_ofNat (b := b2) (by omega),
    ← u8_eq_ofNat (b := b1) (by omega), ← u8_eq_ofNat (b := b0) (by omega)]

theorem head2_or (masked : Bool) (n : Nat) (h : n < 128) :
    (if masked then (0b10000000 : UInt8) else 0) ||| UInt8.ofNat n =
      UInt8.ofNat (128 * bit masked + n) := by
  have : ∀ m : Fin 128, ∀ masked : Bool,
      (if masked then (0b10000000 : UInt8) else 0) ||| UInt8.ofNat m.val =
      UInt8.ofNat (128 * bit masked + m.val) := by decide +kernel
  exact this ⟨n, h⟩ masked

theorem Frame.wire_iff (f : Frame) (key : Option Bytes) (w : Bytes) :
    f.wire key = .ok w ↔ f.data.length < 2 ^ 64 ∧ WireWith true key f w := by
  unfold Frame.wire
  by_cases hlen : f.data.length < 2 ^ 64
  · rw [if_pos hlen]
    -- the header produced by the code
    generalize hhd : (if f.data.length < 126 then
        [f.head1, (if key.isSome then (0b10000000 : UInt8) else 0) ||| UInt8.ofNat f.data.length]
      else if f.data.length < 65536 then
        [f.head1, (if key.isSome then (0b10000000 : UInt8) else 0) ||| 126] ++ packH f.data.length
      else
        [f.head1, (if key.isSome then (0b10000000 : UInt8) else 0) ||| 127] ++ packQ f.data.length) = hd
    have keyfact : ∀ (h1 h2 : UInt8) (len7 : Nat) (ext : Bytes),
        (h1.toNat = 128 * bit f.fin + 64 * bit f.rsv1 + 32 * bit f.rsv2 + 16 * bit f.rsv3 +
          opcodeNumber f.opcode ∧ h2.toNat = 128 * bit key.isSome + len7 ∧
          LengthField f.data.length len7 ext ∧ MinimalLength f.data.length len7) ↔
        ([h1, h2] ++ ext = hd ∧ h2.toNat = 128 * bit key.isSome + len7 ∧ len7 < 128) := by
      intro h1 h2 len7 ext
      constructor
      · rintro ⟨a, b, c, d⟩
        have e1 : h1 = f.head1 := by rw [← UInt8.toNat_inj, a, head1_spec]
        have hb : 128 * bit key.isSome + len7 < 256 := by
          have := c.lt
          cases key <;> simp [bit] <;> omega
        have e2 : h2 = UInt8.ofNat (128 * bit key.isSome + len7) := u8_eq_ofNat b
        refine ⟨?_, b, c.lt⟩
        rw [← hhd]
        cases c with
        | short hlt =>
          rw [if_pos hlt, head2_or _ _ (by omega), e1, e2]; rfl
        | medium b1 b0 hn =>
          have m := d.1 rfl
          have x1 := b1.toNat_lt
          have x0 := b0.toNat_lt
          rw [if_neg (by omega), if_pos (by omega)]
          have := head2_or key.isSome 126 (by omega)
          simp only [show UInt8.ofNat 126 = 126 from rfl] at this
          rw [this, hn, packH_of_bytes, e1, e2]
        | long b7 b6 b5 b4 b3 b2 b1 b0 hn =>
          have m := d.2 rfl
          rw [if_neg (by omega), if_neg (by omega)]
          have := head2_or key.isSome 127 (by omega)
          simp only [show UInt8.ofNat 127 = 127 from rfl] at this
          rw [this, hn, packQ_of_bytes, e1, e2]
      · rintro ⟨a, b, c⟩
        have hb : 128 * bit key.isSome + len7 < 256 := by
          cases key <;> simp [bit] <;> omega
        have e2 : h2 = UInt8.ofNat (128 * bit key.isSome + len7) := u8_eq_ofNat b
        have inj : ∀ n, n < 128 → UInt8.ofNat (128 * bit key.isSome + len7) =
            UInt8.ofNat (128 * bit key.isSome + n) → len7 = n := by
          intro n hn he
          have := congrArg UInt8.toNat he
          rw [u8_ofNat_toNat hb, u8_ofNat_toNat (by cases key <;> simp [bit] <;> omega)] at this
          omega
        rw [← hhd] at a
        split at a
        · rename_i hlt
          rw [head2_or _ _ (by omega), e2] at a
          simp only [List.cons_append, List.nil_append, List.cons.injEq] at a
          obtain ⟨a1, a2, a3⟩ := a
          have := inj _ (by omega) a2
          subst this a3 a1
          exact ⟨head1_spec f, b, .short hlt, by constructor <;> omega⟩
        · split at a
          · rename_i hge hlt
            have := head2_or key.isSome 126 (by omega)
            simp only [show UInt8.ofNat 126 = 126 from rfl] at this
            rw [this, e2] at a
            simp only [List.cons_append, List.nil_append, List.cons.injEq] at a
            obtain ⟨a1, a2, a3⟩ := a
            have := inj _ (by omega) a2
            subst this a3 a1
            refine ⟨head1_spec f, b, ?_, by constructor <;> omega⟩
            have := lengthField_medium (d := packH f.data.length) rfl
            rwa [unpackBE_packH hlt] at this
          · rename_i hge hlt
            have := head2_or key.isSome 127 (by omega)
            simp only [show UInt8.ofNat 127 = 127 from rfl] at this
            rw [this, e2] at a
            simp only [List.cons_append, List.nil_append, List.cons.injEq] at a
            obtain ⟨a1, a2, a3⟩ := a
            have := inj _ (by omega) a2
            subst this a3 a1
            refine ⟨head1_spec f, b, ?_, by constructor <;> omega⟩
            have := lengthField_long (d := packQ f.data.length) rfl
            rwa [unpackBE_packQ hlen] at this
    -- the header exists
    have hex : ∃ h1 h2 len7 ext, [h1, h2] ++ ext = hd ∧
        h2.toNat = 128 * bit key.isSome + len7 ∧ len7 < 128 := by
      rw [← hhd]
      have ht : ∀ n, n < 128 → (UInt8.ofNat (128 * bit key.isSome + n)).toNat =
          128 * bit key.isSome + n := fun n hn =>
        u8_ofNat_toNat (by cases key <;> simp [bit] <;> omega)
      split
      · exact ⟨_, _, f.data.length, [], rfl, by rw [head2_or _ _ (by omega)]; exact ht _ (by omega),
          by omega⟩
      · split
        · refine ⟨_, _, 126, packH f.data.length, rfl, ?_, by omega⟩
          have := head2_or key.isSome 126 (by omega)
          simp only [show UInt8.ofNat 126 = 126 from rfl] at this
          rw [this]; exact ht _ (by omega)
        · refine ⟨_, _, 127, packQ f.data.length, rfl, ?_, by omega⟩
          have := head2_or key.isSome 127 (by omega)
          simp only [show UInt8.ofNat 127 = 127 from rfl] at this
          rw [this]; exact ht _ (by omega)
    have hwith : WireWith true key f w ↔
        match key with
        | some k => k.length = 4 ∧ w = hd ++ k ++ maskOctets k f.data
        | none => w = hd ++ f.data := by
      constructor
      · rintro ⟨h1, h2, len7, ext, a, b, c, d, e⟩
        have := (keyfact h1 h2 len7 ext).1 ⟨a, b, c, d rfl⟩
        cases key with
        | none => simp only at e ⊢; rw [e, ← this.1]
        | some k => exact ⟨e.1, by rw [e.2, ← this.1]⟩
      · intro e
        obtain ⟨h1, h2, len7, ext, x, y, z⟩ := hex
        have := (keyfact h1 h2 len7 ext).2 ⟨x, y, z⟩
        refine ⟨h1, h2, len7, ext, this.1, this.2.1, this.2.2.1, fun _ => this.2.2.2, ?_⟩
        cases key with
        | none => simp only at e ⊢; rw [e, ← x]
        | some k => exact ⟨e.1, by rw [e.2, ← x]⟩
    rw [hwith]
    cases key with
    | none => simp only [hlen, true_and, Except.ok.injEq]; exact eq_comm
    | some k =>
      simp only [hlen, true_and]
      by_cases hk : k.length = 4
      · rw [applyMask_eq hk]
        simp only [hk, true_and, Except.ok.injEq]; exact eq_comm
      · have : applyMask f.data k = .error (.valueError p!"mask must contain 4 bytes") := by
          simp only [applyMask]; rw [if_pos hk]
        rw [this]
        simp [hk]
  · rw [if_neg hlen]
    simp [hlen]

end WS
