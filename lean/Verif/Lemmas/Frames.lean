import Verif.Model.Frames
import Verif.Spec.Wire
import Verif.Lemmas.Streams
import Verif.Lemmas.Mask
import Verif.Lemmas.Utf8

/-! Helper lemmas on frames. -/

namespace WS

open Spec

theorem u8_forall {P : UInt8 → Prop} (h : ∀ n : Fin 256, P (UInt8.ofFin n)) (b : UInt8) : P b :=
  h b.toFin

theorem head1_decode (f : Frame) :
    (f.head1 &&& 0b10000000 != 0) = f.fin ∧ (f.head1 &&& 0b01000000 != 0) = f.rsv1 ∧
    (f.head1 &&& 0b00100000 != 0) = f.rsv2 ∧ (f.head1 &&& 0b00010000 != 0) = f.rsv3 ∧
    Opcode.ofNat? (f.head1 &&& 0b00001111).toNat = some f.opcode := by
  have e : f.head1 = ({ f with data := [] } : Frame).head1 := rfl
  rw [e]
  obtain ⟨fin, op, data, r1, r2, r3⟩ := f
  clear e
  revert fin op r1 r2 r3
  simp only
  clear data
  intro fin op r1 r2 r3
  cases fin <;> cases op <;> cases r1 <;> cases r2 <;> cases r3 <;> decide

theorem head1_spec (f : Frame) :
    f.head1.toNat = 128 * bit f.fin + 64 * bit f.rsv1 + 32 * bit f.rsv2 + 16 * bit f.rsv3 +
      opcodeNumber f.opcode := by
  have e : f.head1 = ({ f with data := [] } : Frame).head1 := rfl
  rw [e]
  obtain ⟨fin, op, data, r1, r2, r3⟩ := f
  clear e
  revert fin op r1 r2 r3
  simp only
  clear data
  intro fin op r1 r2 r3
  cases fin <;> cases op <;> cases r1 <;> cases r2 <;> cases r3 <;> decide

/-- The first header byte is determined by the fields decoded from it. -/
theorem head1_inv (h1 : UInt8) : ∀ op, Opcode.ofNat? (h1 &&& 0b00001111).toNat = some op →
    h1.toNat = 128 * bit (h1 &&& 0b10000000 != 0) + 64 * bit (h1 &&& 0b01000000 != 0) +
      32 * bit (h1 &&& 0b00100000 != 0) + 16 * bit (h1 &&& 0b00010000 != 0) + opcodeNumber op := by
  revert h1
  apply u8_forall
  intro n op h
  revert h
  cases op <;> revert n <;> decide +kernel

theorem head2_inv (h2 : UInt8) :
    h2.toNat = 128 * bit (h2 &&& 0b10000000 != 0) + (h2 &&& 0b01111111).toNat ∧
    (h2 &&& 0b01111111).toNat < 128 := by
  revert h2
  apply u8_forall
  decide +kernel

theorem head2_decode (masked : Bool) (len7 : Nat) (h : len7 < 128) (h2 : UInt8)
    (e : h2.toNat = 128 * bit masked + len7) :
    (h2 &&& 0b10000000 != 0) = masked ∧ (h2 &&& 0b01111111).toNat = len7 := by
  obtain ⟨a, b⟩ := head2_inv h2
  rw [e] at a
  generalize (h2 &&& 0b10000000 != 0) = x at *
  cases masked <;> cases x <;> simp [bit] at * <;> omega

theorem Frame.check_ok_iff (f : Frame) : f.check = .ok () ↔ ValidFrame f := by
  obtain ⟨fin, op, data, r1, r2, r3⟩ := f
  simp only [Frame.check, ValidFrame, IsControl]
  cases r1 <;> cases r2 <;> cases r3 <;> simp
  cases op <;> simp [Opcode.isCtrl] <;> by_cases h : 125 < data.length <;> cases fin <;> simp [h] <;> omega

theorem Frame.check_cases (f : Frame) :
    f.check = .ok () ∨ ∃ m, f.check = .error (.protocolError m) := by
  unfold Frame.check
  split
  · exact .inr ⟨_, rfl⟩
  split
  · split
    · exact .inr ⟨_, rfl⟩
    split
    · exact .inr ⟨_, rfl⟩
    · exact .inl rfl
  · exact .inl rfl

theorem exceeds_none_iff (n : Nat) (l : Option Int) : exceeds n l = none ↔ Within n l := by
  cases l with
  | none => simp [exceeds, Within]
  | some m =>
    simp only [exceeds, Within, gt_iff_lt, Option.some.injEq, forall_eq']
    split <;> simp <;> omega

theorem unpackBE_two (a b : UInt8) : unpackBE [a, b] = a.toNat * 256 + b.toNat := by
  simp [unpackBE]

theorem unpackBE_packH {n : Nat} (h : n < 65536) : unpackBE (packH n) = n := by
  simp only [packH, unpackBE_two]
  rw [u8_ofNat_toNat (by omega), u8_ofNat_toNat (by omega)]
  omega

theorem unpackBE_eight (b7 b6 b5 b4 b3 b2 b1 b0 : UInt8) :
    unpackBE [b7, b6, b5, b4, b3, b2, b1, b0] =
      b7.toNat * 2 ^ 56 + b6.toNat * 2 ^ 48 + b5.toNat * 2 ^ 40 + b4.toNat * 2 ^ 32 +
          b3.toNat * 2 ^ 24 + b2.toNat * 2 ^ 16 + b1.toNat * 2 ^ 8 + b0.toNat := by
  simp [unpackBE]
  omega

theorem unpackBE_packQ {n : Nat} (h : n < 2 ^ 64) : unpackBE (packQ n) = n := by
  simp only [packQ, unpackBE_eight]
  repeat rw [u8_ofNat_toNat (by omega)]
  omega

/-- Length field of a list read by the parser. -/
theorem lengthField_medium {d : Bytes} (h : d.length = 2) : LengthField (unpackBE d) 126 d := by
  match d, h with
  | [a, b], _ => exact .medium a b (unpackBE_two a b)

theorem lengthField_long {d : Bytes} (h : d.length = 8) : LengthField (unpackBE d) 127 d := by
  match d, h with
  | [b7, b6, b5, b4, b3, b2, b1, b0], _ => exact .long _ _ _ _ _ _ _ _ (unpackBE_eight ..)

theorem Spec.LengthField.lt {n l7 : Nat} {ext : Bytes} (h : LengthField n l7 ext) : l7 < 128 := by
  cases h <;> omega

theorem Coro.run_exact_bind {α : Type} (n : Nat) (f : Bytes → Coro α) (r : Reader) :
    ((Coro.exact n).bind f).run r =
      if r.buf.length < n then
        if r.eof then .raised .eofError r else .blocked ((Coro.exact n).bind f) r
      else (f (r.buf.take n)).run { r with buf := r.buf.drop n } := by
  simp only [Coro.exact, Coro.bind, Coro.run, Coro.ofExcept]

/-- Masking key (if any) and payload as they appear on the wire. -/
def keyPayload (key : Option Bytes) (data : Bytes) : Bytes :=
  match key with
  | some k => k ++ maskOctets k data
  | none => data

/-- The parser on a complete wire encoding. -/
theorem Frame.parseBody_wire (masked : Bool) (limit : Option Int) (f : Frame) (key : Option Bytes)
    (hk : key.isSome = masked) (hlim : Within f.data.length limit) (hkl : ∀ k, key = some k → k.length = 4)
    (rest : Bytes) (eof : Bool) :
    (Frame.parseBody masked limit f.fin f.rsv1 f.rsv2 f.rsv3 f.opcode f.data.length).run
      ⟨keyPayload key f.data ++ rest, eof⟩ = .done f ⟨rest, eof⟩ := by
  unfold Frame.parseBody
  rw [(exceeds_none_iff _ _).2 hlim]
  cases key with
  | none =>
    simp at hk
    subst hk
    simp only [Bool.false_eq_true, if_false, keyPayload]
    rw [Coro.run_exact_append _ _ _ _ _ rfl]
    rfl
  | some k =>
    simp at hk
    subst hk
    have := hkl k rfl
    simp only [if_true, keyPayload]
    rw [List.append_assoc, Coro.run_exact_append _ _ _ _ _ this,
      Coro.run_exact_append _ _ _ _ _ (by simp), applyMask_eq this]
    simp [Coro.run, maskOctets_involutive]

theorem Frame.parseRaw_wire {masked : Bool} {limit : Option Int} {f : Frame} {bytes : Bytes}
    (hw : Wire masked f bytes) (hlim : Within f.data.length limit) (rest : Bytes) (eof : Bool) :
    (Frame.parseRaw masked limit).run ⟨bytes ++ rest, eof⟩ = .done f ⟨rest, eof⟩ := by
  obtain ⟨key, hk, h1, h2, len7, ext, e1, e2, hl, _, hb⟩ := hw
  have hh1 : h1 = f.head1 := by
    rw [← UInt8.toNat_inj, e1, head1_spec]
  subst hh1
  obtain ⟨d1, d2, d3, d4, d5⟩ := head1_decode f
  obtain ⟨m1, m2⟩ := head2_decode key.isSome len7 hl.lt h2 e2
  have hbytes : bytes = [f.head1, h2] ++ (ext ++ keyPayload key f.data) := by
    cases key with
    | none => simp [hb, keyPayload]
    | some k => simp [hb.2, keyPayload]
  have hkl : ∀ k, key = some k → k.length = 4 := by
    intro k hk'
    subst hk'
    exact hb.1
  rw [hbytes]
  unfold Frame.parseRaw
  rw [List.append_assoc, Coro.run_exact_append 2 _ [f.head1, h2] _ _ rfl]
  simp only [d1, d2, d3, d4, d5, m1, m2, hk]
  have hne : (masked != masked) = false := by simp
  simp only [hne, Bool.false_eq_true, if_false]
  have body := fun n (h : n = f.data.length) => Frame.parseBody_wire masked limit f key hk hlim hkl rest eof
  cases hl with
  | short hlt =>
    rw [if_neg (by omega), if_neg (by omega)]
    exact body _ rfl
  | medium b1 b0 hn =>
    rw [if_pos rfl, List.append_assoc, Coro.run_exact_append 2 _ [b1, b0] _ _ rfl, unpackBE_two, ← hn]
    exact body _ rfl
  | long b7 b6 b5 b4 b3 b2 b1 b0 hn =>
    rw [if_neg (by omega), if_pos rfl, List.append_assoc, Coro.run_exact_append 8 _ [b7, b6, b5, b4, b3, b2, b1, b0] _ _ rfl,
      unpackBE_eight, ← hn]
    exact body _ rfl

/-- Body of a frame: inversion of a successful run. -/
theorem Frame.parseBody_done {masked : Bool} {limit : Option Int} {fin r1 r2 r3 : Bool}
    {op : Opcode} {n : Nat} {r r' : Reader} {f : Frame}
    (h : (Frame.parseBody masked limit fin r1 r2 r3 op n).run r = .done f r') :
    Within n limit ∧ f.fin = fin ∧ f.opcode = op ∧ f.rsv1 = r1 ∧ f.rsv2 = r2 ∧ f.rsv3 = r3 ∧
    f.data.length = n ∧ r'.eof = r.eof ∧
    ∃ key : Option Bytes, key.isSome = masked ∧ (∀ k, key = some k → k.length = 4) ∧
      r.buf = keyPayload key f.data ++ r'.buf := by
  unfold Frame.parseBody at h
  cases he : exceeds n limit with
  | some m => simp [he, Coro.run] at h
  | none =>
    have hw := (exceeds_none_iff _ _).1 he
    simp only [he] at h
    cases masked with
    | false =>
      simp only [Bool.false_eq_true, if_false, Coro.run_exact_bind] at h
      split at h
      · split at h <;> simp at h
      · simp only [Coro.run, Outcome.done.injEq] at h
        obtain ⟨rfl, rfl⟩ := h
        refine ⟨hw, rfl, rfl, rfl, rfl, rfl, by simp; omega, rfl, none, rfl, by simp, by simp [keyPayload]⟩
    | true =>
      simp only [if_true, Coro.run_exact_bind] at h
      split at h
      · split at h <;> simp at h
      · split at h
        · split at h <;> simp at h
        · rename_i h4 hn
          have hk : (r.buf.take 4).length = 4 := by simp; omega
          simp only [applyMask_eq hk, Coro.run, Outcome.done.injEq] at h
          obtain ⟨rfl, rfl⟩ := h
          refine ⟨hw, rfl, rfl, rfl, rfl, rfl, by simp at hn ⊢; omega, rfl, some (r.buf.take 4), rfl, by simp; omega, ?_⟩
          simp only [maskOctets_involutive, keyPayload]
          rw [List.append_assoc, List.take_append_drop, List.take_append_drop]

theorem Frame.parseRaw_done {masked : Bool} {limit : Option Int} {r r' : Reader} {f : Frame}
    (h : (Frame.parseRaw masked limit).run r = .done f r') :
    ∃ bytes, r.buf = bytes ++ r'.buf ∧ r'.eof = r.eof ∧ Wire masked f bytes ∧
      Within f.data.length limit := by
  unfold Frame.parseRaw at h
  rw [Coro.run_exact_bind] at h
  split at h
  · split at h <;> simp at h
  · rename_i h2
    obtain ⟨b0, b1, rest, hb⟩ : ∃ b0 b1 rest, r.buf = b0 :: b1 :: rest := by
      match hb : r.buf with
      | [] => simp [hb] at h2
      | [_] => simp [hb] at h2
      | b0 :: b1 :: rest => exact ⟨b0, b1, rest, rfl⟩
    · rw [hb] at h ⊢
      simp only [List.take_succ_cons, List.take_zero, List.drop_succ_cons, List.drop_zero] at h
      cases hop : Opcode.ofNat? (b0 &&& 0b00001111).toNat with
      | none => simp only [hop, Coro.run, reduceCtorEq] at h
      | some op =>
        simp only [hop] at h
        have e1 := head1_inv b0 op hop
        obtain ⟨e2, e3⟩ := head2_inv b1
        by_cases hm : (b1 &&& 0b10000000 != 0) = masked
        · have hne : ((b1 &&& 0b10000000 != 0) != masked) = false := by simp [hm]
          simp only [hne, Bool.false_eq_true, if_false] at h
          rw [hm] at e2
          -- common end of the three length cases
          have fin : ∀ (n : Nat) (ext : Bytes) (r0 : Reader) ,
              LengthField n (b1 &&& 0b01111111).toNat ext → r0.eof = r.eof →
              rest = ext ++ r0.buf →
              (Frame.parseBody masked limit (b0 &&& 0b10000000 != 0) (b0 &&& 0b01000000 != 0)
                (b0 &&& 0b00100000 != 0) (b0 &&& 0b00010000 != 0) op n).run r0 = .done f r' →
              ∃ bytes, b0 :: b1 :: rest = bytes ++ r'.buf ∧ r'.eof = r.eof ∧ Wire masked f bytes ∧
                Within f.data.length limit := by
            intro n ext r0 hl he hrest hrun
            obtain ⟨w, f1, f2, f3, f4, f5, f6, f7, key, k1, k2, k3⟩ := Frame.parseBody_done hrun
            refine ⟨[b0, b1] ++ ext ++ keyPayload key f.data, ?_, ?_, ⟨key, k1, b0, b1, (b1 &&& 0b01111111).toNat, ext, ?_, ?_, ?_, by simp, ?_⟩, ?_⟩
            · rw [hrest, k3]; simp
            · rw [f7, he]
            · rw [f1, f3, f4, f5, f2]; exact e1
            · rw [k1]; exact e2
            · rw [f6]; exact hl
            · cases key with
              | none => rfl
              | some k => exact ⟨k2 k rfl, by simp [keyPayload]⟩
            · rw [f6]; exact w
          split at h
          · rename_i h126
            rw [Coro.run_exact_bind] at h
            split at h
            · split at h <;> simp at h
            · rename_i hlen
              simp only at hlen
              refine fin _ (rest.take 2) ⟨rest.drop 2, r.eof⟩ ?_ rfl ?_ h
              · rw [h126]; exact lengthField_medium (by simp; omega)
              · simp
          · split at h
            · rename_i h127
              rw [Coro.run_exact_bind] at h
              split at h
              · split at h <;> simp at h
              · rename_i hlen
                simp only at hlen
                refine fin _ (rest.take 8) ⟨rest.drop 8, r.eof⟩ ?_ rfl ?_ h
                · rw [h127]; exact lengthField_long (by simp; omega)
                · simp
            · exact fin _ [] ⟨rest, r.eof⟩ (.short (by omega)) rfl rfl h
        · have hne : ((b1 &&& 0b10000000 != 0) != masked) = true := by simpa using hm
          simp [hne, Coro.run] at h

theorem Frame.parse_run (masked : Bool) (limit : Option Int) (r : Reader) :
    (Frame.parse masked limit).run r =
      match (Frame.parseRaw masked limit).run r with
      | .done raw r' =>
        match raw.check with
        | .error e => .raised e r'
        | .ok () => .done raw r'
      | .raised e r' => .raised e r'
      | .blocked c r' => .blocked (c.bind fun raw =>
          match raw.check with
          | .error e => .raise e
          | .ok () => .ret raw) r' := by
  rw [Frame.parse, Coro.run_bind]
  cases (Frame.parseRaw masked limit).run r with
  | done raw r' =>
    simp only [Outcome.bind]
    cases raw.check <;> rfl
  | raised e r' => rfl
  | blocked c r' => rfl

/-- Every frame takes at least two bytes. -/
theorem Frame.parseRaw_consumes {masked : Bool} {limit : Option Int} {r r' : Reader} {f : Frame}
    (h : (Frame.parseRaw masked limit).run r = .done f r') : r'.buf.length + 2 ≤ r.buf.length := by
  obtain ⟨bytes, hb, _, ⟨key, _, h1, h2, l7, ext, _, _, _, _, hm⟩, _⟩ := Frame.parseRaw_done h
  rw [hb]
  cases key with
  | none => rw [hm]; simp; omega
  | some k => rw [hm.2]; simp; omega

theorem Frame.parseBody_fresh (mask : Bool) (maxSize : Option Int) (fin rsv1 rsv2 rsv3 : Bool)
    (opcode : Opcode) (length : Nat) :
    (Frame.parseBody mask maxSize fin rsv1 rsv2 rsv3 opcode length).Fresh := by
  unfold Frame.parseBody
  split
  · exact .raise _
  · split
    · refine (Coro.fresh_exact _).bind fun _ => (Coro.fresh_exact _).bind fun _ => ?_
      split
      · exact .raise _
      · exact .ret _
    · exact (Coro.fresh_exact _).bind fun _ => .ret _

theorem Frame.parseRaw_fresh (mask : Bool) (maxSize : Option Int) :
    (Frame.parseRaw mask maxSize).Fresh := by
  unfold Frame.parseRaw
  refine (Coro.fresh_exact _).bind fun d => ?_
  split
  · simp only
    split
    · exact .raise _
    · split
      · exact .raise _
      · split
        · exact (Coro.fresh_exact _).bind fun _ => Frame.parseBody_fresh ..
        · split
          · exact (Coro.fresh_exact _).bind fun _ => Frame.parseBody_fresh ..
          · exact Frame.parseBody_fresh ..
  · exact .raise _

/-- The only errors of the raw frame parser. -/
def FrameErr (eof : Bool) (e : Exc) : Prop :=
  (∃ m, e = .protocolError m) ∨ (∃ m, e = .payloadTooBig m) ∨ (e = .eofError ∧ eof = true)

end WS
