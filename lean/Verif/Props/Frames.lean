import Verif.Lemmas.Wire

/-!
# Properties of frames.py, utils.py, speedups.c: C01 - C07
-/

namespace WS

open Spec

/-! ## C02: wire format -/

/-- **C02.** Serialization succeeds with result `w` exactly when the frame is valid, its payload
fits in a 64-bit length, and `w` is the RFC 6455 wire encoding of the frame with the minimal
length encoding (and the masking key has 4 bytes). -/
theorem C02_serialize_iff_wire (f : Frame) (key : Option Bytes) (w : Bytes) :
    f.serialize key = .ok w ↔
      ValidFrame f ∧ f.data.length < 2 ^ 64 ∧ WireWith true key f w := by
  have hval := Frame.check_ok_iff f
  have hwire := Frame.wire_iff f key w
  unfold Frame.serialize
  rcases Frame.check_cases f with h | ⟨m, h⟩
  · rw [h]
    simp only
    rw [hwire]
    have := hval.1 h
    simp [this]
  · rw [h]
    simp only [reduceCtorEq, false_iff, not_and]
    intro hv
    rw [hval.2 hv] at h
    cases h

/-- Example: a masked 300-byte binary frame satisfies the right-hand side. -/
example (d : Bytes) (h : d.length = 300) :
    ∃ w, (Frame.mk true .binary d false false false).serialize (some [1, 2, 3, 4]) = .ok w := by
  simp [Frame.serialize, Frame.check, Opcode.isCtrl, Frame.wire, h, applyMask_eq]

/-! ## C01: round-trip -/

/-- **C01.** For every frame that passes `check` with a payload shorter than `2^64` bytes, every
masking key, any further input and any limit not below the payload length, serialization
succeeds, and parsing its output followed by further input returns the same frame and leaves
exactly the further input. -/
theorem C01_frame_roundtrip (f : Frame) (key : Option Bytes) (limit : Option Int)
    (rest : Bytes) (eof : Bool) (hv : f.check = .ok ()) (hlen : f.data.length < 2 ^ 64)
    (hkey : ∀ k, key = some k → k.length = 4) (hlim : Within f.data.length limit) :
    ∃ w, f.serialize key = .ok w ∧
      (Frame.parse key.isSome limit).run ⟨w ++ rest, eof⟩ = .done f ⟨rest, eof⟩ := by
  obtain ⟨w, hw⟩ : ∃ w, f.serialize key = .ok w := by
    unfold Frame.serialize
    rw [hv]
    simp only [Frame.wire, if_pos hlen]
    cases key with
    | none => exact ⟨_, rfl⟩
    | some k => simp only [applyMask_eq (hkey k rfl)]; exact ⟨_, rfl⟩
  refine ⟨w, hw, ?_⟩
  obtain ⟨_, _, h⟩ := (C02_serialize_iff_wire f key w).1 hw
  have hwire : Wire key.isSome f w := by
    obtain ⟨h1, h2, l7, ext, a, b, c, d, e⟩ := h
    exact ⟨key, rfl, h1, h2, l7, ext, a, b, c, by simp, e⟩
  rw [Frame.parse_run, Frame.parseRaw_wire hwire hlim]
  simp only [hv]

example : ∃ w, (Frame.mk true .ping [104, 105] false false false).serialize (some [9, 8, 7, 6]) =
    .ok w ∧ (Frame.parse true (some 2)).run ⟨w ++ [255, 0], false⟩ =
      .done (Frame.mk true .ping [104, 105] false false false) ⟨[255, 0], false⟩ :=
  C01_frame_roundtrip _ (some [9, 8, 7, 6]) _ _ _ rfl (by decide) (by simp) (by simp [Within])

/-! ## C03: the parser accepts exactly the valid wire frames -/

/-- **C03, acceptance.** On any buffer, the frame parser returns frame `f` leaving reader `r'`
if and only if the buffer starts with an RFC 6455 wire encoding of `f` with the expected MASK
bit, `f` is valid and within the limit, and `r'` holds the rest of the buffer. -/
theorem C03_parse_done_iff (masked : Bool) (limit : Option Int) (r r' : Reader) (f : Frame) :
    (Frame.parse masked limit).run r = .done f r' ↔
      ∃ bytes, r.buf = bytes ++ r'.buf ∧ r'.eof = r.eof ∧ Wire masked f bytes ∧
        ValidFrame f ∧ Within f.data.length limit := by
  constructor
  · intro h
    rw [Frame.parse_run] at h
    cases hr : (Frame.parseRaw masked limit).run r with
    | blocked c r1 => rw [hr] at h; cases h
    | raised e r1 => rw [hr] at h; cases h
    | done raw r1 =>
      rw [hr] at h
      simp only at h
      rcases Frame.check_cases raw with hc | ⟨m, hc⟩
      · rw [hc] at h
        simp only [Outcome.done.injEq] at h
        obtain ⟨rfl, rfl⟩ := h
        obtain ⟨bytes, a, b, c, d⟩ := Frame.parseRaw_done hr
        exact ⟨bytes, a, b, c, (Frame.check_ok_iff _).1 hc, d⟩
      · rw [hc] at h; cases h
  · rintro ⟨bytes, a, b, c, d, e⟩
    have := Frame.parseRaw_wire c e r'.buf r.eof
    have hr : r = ⟨bytes ++ r'.buf, r.eof⟩ := by rw [← a]
    rw [hr, Frame.parse_run, this]
    simp only [(Frame.check_ok_iff f).2 d]
    rw [← b]

/-- Example: a masked text frame "Hi" followed by one byte. -/
example : (Frame.parse true none).run ⟨[0x81, 0x82, 1, 2, 3, 4, 0x49, 0x6B, 0xFF], false⟩ =
    .done ⟨true, .text, [0x48, 0x69], false, false, false⟩ ⟨[0xFF], false⟩ := by rfl

theorem Frame.parseBody_raised {masked : Bool} {limit : Option Int} {fin r1 r2 r3 : Bool}
    {op : Opcode} {n : Nat} {r r' : Reader} {e : Exc}
    (h : (Frame.parseBody masked limit fin r1 r2 r3 op n).run r = .raised e r') :
    FrameErr r.eof e := by
  unfold Frame.parseBody at h
  cases he : exceeds n limit with
  | some m =>
    simp only [he, Coro.run, Outcome.raised.injEq] at h
    exact .inr (.inl ⟨_, h.1.symm⟩)
  | none =>
    simp only [he] at h
    cases masked with
    | false =>
      simp only [Bool.false_eq_true, if_false, Coro.run_exact_bind] at h
      split at h
      · split at h
        · rename_i heof
          simp only [Outcome.raised.injEq] at h
          exact .inr (.inr ⟨h.1.symm, heof⟩)
        · cases h
      · cases h
    | true =>
      simp only [if_true, Coro.run_exact_bind] at h
      split at h
      · split at h
        · rename_i heof
          simp only [Outcome.raised.injEq] at h
          exact .inr (.inr ⟨h.1.symm, heof⟩)
        · cases h
      · rename_i h4
        split at h
        · split at h
          · rename_i heof
            simp only [Outcome.raised.injEq] at h
            exact .inr (.inr ⟨h.1.symm, heof⟩)
          · cases h
        · have hk : (r.buf.take 4).length = 4 := by simp; omega
          simp only [applyMask_eq hk] at h
          cases h

theorem Frame.parseRaw_raised {masked : Bool} {limit : Option Int} {r r' : Reader} {e : Exc}
    (h : (Frame.parseRaw masked limit).run r = .raised e r') : FrameErr r.eof e := by
  unfold Frame.parseRaw at h
  rw [Coro.run_exact_bind] at h
  split at h
  · split at h
    · rename_i heof
      simp only [Outcome.raised.injEq] at h
      exact .inr (.inr ⟨h.1.symm, heof⟩)
    · cases h
  · rename_i h2
    obtain ⟨b0, b1, rest, hb⟩ : ∃ b0 b1 rest, r.buf = b0 :: b1 :: rest := by
      match hb : r.buf with
      | [] => simp [hb] at h2
      | [_] => simp [hb] at h2
      | b0 :: b1 :: rest => exact ⟨b0, b1, rest, rfl⟩
    rw [hb] at h
    simp only [List.take_succ_cons, List.take_zero, List.drop_succ_cons, List.drop_zero] at h
    cases hop : Opcode.ofNat? (b0 &&& 0b00001111).toNat with
    | none =>
      simp only [hop, Coro.run, Outcome.raised.injEq] at h
      exact .inl ⟨_, h.1.symm⟩
    | some op =>
      simp only [hop] at h
      split at h
      · simp only [Coro.run, Outcome.raised.injEq] at h
        exact .inl ⟨_, h.1.symm⟩
      · split at h
        · rw [Coro.run_exact_bind] at h
          split at h
          · split at h
            · rename_i heof
              simp only [Outcome.raised.injEq] at h
              exact .inr (.inr ⟨h.1.symm, heof⟩)
            · cases h
          · exact Frame.parseBody_raised (r := ⟨rest.drop 2, r.eof⟩) h
        · split at h
          · rw [Coro.run_exact_bind] at h
            split at h
            · split at h
              · rename_i heof
                simp only [Outcome.raised.injEq] at h
                exact .inr (.inr ⟨h.1.symm, heof⟩)
              · cases h
            · exact Frame.parseBody_raised (r := ⟨rest.drop 8, r.eof⟩) h
          · exact Frame.parseBody_raised (r := ⟨rest, r.eof⟩) h

/-- **C03, errors.** The frame parser only ever raises a protocol error, a size error, or (when
the stream has ended) an end-of-file error. -/
theorem C03_parse_raised (masked : Bool) (limit : Option Int) (r r' : Reader) (e : Exc)
    (h : (Frame.parse masked limit).run r = .raised e r') :
    (∃ m, e = .protocolError m) ∨ (∃ m, e = .payloadTooBig m) ∨ (e = .eofError ∧ r.eof = true) := by
  rw [Frame.parse_run] at h
  cases hr : (Frame.parseRaw masked limit).run r with
  | blocked c r1 => rw [hr] at h; cases h
  | raised e1 r1 =>
    rw [hr] at h
    simp only [Outcome.raised.injEq] at h
    rw [← h.1]
    exact Frame.parseRaw_raised hr
  | done raw r1 =>
    rw [hr] at h
    simp only at h
    rcases Frame.check_cases raw with hc | ⟨m, hc⟩
    · rw [hc] at h; cases h
    · rw [hc] at h
      simp only [Outcome.raised.injEq] at h
      exact .inl ⟨m, h.1.symm⟩

/-- **C03, rejection is final.** If the parser raises on the bytes received so far, then no
continuation of the stream starts with an acceptable frame. -/
theorem C03_reject_final (masked : Bool) (limit : Option Int) (buf : Bytes) (e : Exc) (r' : Reader)
    (h : (Frame.parse masked limit).run ⟨buf, false⟩ = .raised e r') (more : Bytes) :
    ¬ ∃ bytes rest f, buf ++ more = bytes ++ rest ∧ Wire masked f bytes ∧ ValidFrame f ∧
      Within f.data.length limit := by
  rintro ⟨bytes, rest, f, a, b, c, d⟩
  have hfresh : (Frame.parse masked limit).Fresh := by
    unfold Frame.parse
    refine (Frame.parseRaw_fresh _ _).bind fun raw => ?_
    split
    · exact .raise _
    · exact .ret _
  have h1 := Coro.run_push (r := ⟨buf, false⟩) rfl (.fresh hfresh) more
  rw [h] at h1
  have h2 := (C03_parse_done_iff masked limit ⟨buf ++ more, false⟩ ⟨rest, false⟩ f).2
    ⟨bytes, a, rfl, b, c, d⟩
  have h3 : (Reader.push ⟨buf, false⟩ more) = ⟨buf ++ more, false⟩ := rfl
  rw [h3, h2] at h1
  cases h1

/-- **C03, waiting.** If the parser waits for more bytes, the stream has not ended and what was
received does not contain a complete acceptable frame at its start. -/
theorem C03_blocked (masked : Bool) (limit : Option Int) (r r' : Reader) (c : Coro Frame)
    (h : (Frame.parse masked limit).run r = .blocked c r') :
    r.eof = false ∧ ¬ ∃ bytes rest f, r.buf = bytes ++ rest ∧ Wire masked f bytes ∧ ValidFrame f ∧
      Within f.data.length limit := by
  have hfresh : (Frame.parse masked limit).Fresh := by
    unfold Frame.parse
    refine (Frame.parseRaw_fresh _ _).bind fun raw => ?_
    split
    · exact .raise _
    · exact .ret _
  refine ⟨(Coro.run_ready (.fresh hfresh) h).2.2, ?_⟩
  rintro ⟨bytes, rest, f, a, b, c, d⟩
  have := (C03_parse_done_iff masked limit r ⟨rest, r.eof⟩ f).2 ⟨bytes, a, rfl, b, c, d⟩
  rw [this] at h
  cases h

/-! ## C04: size limit from the header alone -/

/-- **C04.** When the header of a frame (first two bytes and extended length, with a known
opcode and the expected MASK bit) announces more than `limit` bytes, the parser raises
`PayloadTooBig` whatever follows - in particular when nothing has followed yet. -/
theorem C04_too_big_from_header (masked : Bool) (limit : Int) (h1 h2 : UInt8) (len7 n : Nat)
    (ext rest : Bytes) (eof : Bool) (op : Opcode)
    (hop : h1.toNat % 16 = opcodeNumber op)
    (hm : h2.toNat = 128 * bit masked + len7) (hl : LengthField n len7 ext)
    (hbig : limit < (n : Int)) :
    ∃ m, (Frame.parse masked (some limit)).run ⟨[h1, h2] ++ ext ++ rest, eof⟩ =
      .raised (.payloadTooBig m) ⟨rest, eof⟩ := by
  have hop' : Opcode.ofNat? (h1 &&& 0b00001111).toNat = some op := by
    have e : (h1 &&& 0b00001111).toNat = h1.toNat % 16 := by
      revert h1
      intro h1 _
      rw [UInt8.toNat_and]
      exact Nat.and_two_pow_sub_one_eq_mod h1.toNat 4
    rw [e, hop]
    cases op <;> rfl
  obtain ⟨m1, m2⟩ := head2_decode masked len7 hl.lt h2 hm
  have body : ∀ a b c d, (Frame.parseBody masked (some limit) a b c d op n).run ⟨rest, eof⟩ =
      .raised (.payloadTooBig (tooBigMsg n limit)) ⟨rest, eof⟩ := by
    intro a b c d
    unfold Frame.parseBody
    simp only [exceeds, gt_iff_lt, hbig, if_true, Coro.run]
  refine ⟨tooBigMsg n limit, ?_⟩
  rw [Frame.parse_run]
  have : (Frame.parseRaw masked (some limit)).run ⟨[h1, h2] ++ ext ++ rest, eof⟩ =
      .raised (.payloadTooBig (tooBigMsg n limit)) ⟨rest, eof⟩ := by
    unfold Frame.parseRaw
    rw [List.append_assoc, Coro.run_exact_append 2 _ [h1, h2] _ _ rfl]
    simp only [hop', m1, m2]
    have hne : (masked != masked) = false := by simp
    simp only [hne, Bool.false_eq_true, if_false]
    cases hl with
    | short hlt =>
      rw [if_neg (by omega), if_neg (by omega)]
      exact body ..
    | medium b1 b0 hn =>
      rw [if_pos rfl, Coro.run_exact_append 2 _ [b1, b0] _ _ rfl, unpackBE_two, ← hn]
      exact body ..
    | long b7 b6 b5 b4 b3 b2 b1 b0 hn =>
      rw [if_neg (by omega), if_pos rfl,
        Coro.run_exact_append 8 _ [b7, b6, b5, b4, b3, b2, b1, b0] _ _ rfl, unpackBE_eight, ← hn]
      exact body ..
  rw [this]

/-- Example: a header announcing 2^64 - 1 bytes against a limit of 2^20. -/
example : ∃ m, (Frame.parse true (some (2 ^ 20))).run
    ⟨[0x82, 0xFF] ++ [255, 255, 255, 255, 255, 255, 255, 255] ++ [], false⟩ =
      .raised (.payloadTooBig m) ⟨[], false⟩ :=
  C04_too_big_from_header true (2 ^ 20) 0x82 0xFF 127 (2 ^ 64 - 1) _ [] false .binary rfl rfl
    (.long _ _ _ _ _ _ _ _ (by decide)) (by decide)

/-! ## C05: masking -/

/-- **C05.** With a 4-byte mask, `apply_mask` computes the RFC transformation, preserves the
length and is its own inverse. -/
theorem C05_apply_mask (data mask : Bytes) (h : mask.length = 4) :
    ∃ out, applyMask data mask = .ok out ∧ out = maskOctets mask data ∧
      out.length = data.length ∧ applyMask out mask = .ok data :=
  ⟨_, applyMask_eq h, rfl, by simp, by rw [applyMask_eq h, maskOctets_involutive]⟩

/-- **C05.** The C implementation, in each of its compiled forms, returns the same result as the
Python implementation on every input, including masks of a wrong length. -/
theorem C05_c_eq_python (t : C.Target) (data mask : Bytes) :
    C.applyMask t data mask = applyMask data mask := by
  by_cases h : mask.length = 4
  · rw [applyMask_eq h]
    cases t with
    | sse2 =>
      simp only [C.applyMask, ne_eq, h, not_true_eq_false, if_false]
      rw [C.body_eq (by rfl) (fun block i hb hi => C.block128_eq h hb i hi)]
    | word64le =>
      simp only [C.applyMask, ne_eq, h, not_true_eq_false, if_false]
      rw [C.body_eq (by rfl) (fun block i hb hi => C.block64_eq h hb i hi)]
    | word64be =>
      simp only [C.applyMask, ne_eq, h, not_true_eq_false, if_false]
      rw [C.body_eq (by rfl) (fun block i hb hi => C.block64_eq h hb i hi)]
  · simp [C.applyMask, applyMask, h]

/-- Example: 21 bytes, so that the 16-byte loop, and the remainder, both run. -/
example : C.applyMask .sse2 (List.replicate 21 0) [1, 2, 3, 4] =
    .ok [1, 2, 3, 4, 1, 2, 3, 4, 1, 2, 3, 4, 1, 2, 3, 4, 1, 2, 3, 4, 1] := by rfl

/-! ## C06: close payloads -/

/-- RFC 6455 section 7.4 (with the codes registered with IANA up to 1014): codes that may
appear in a close frame. -/
def Spec.CloseCode (c : Int) : Prop :=
  (1000 ≤ c ∧ c ≤ 1003) ∨ (1007 ≤ c ∧ c ≤ 1014) ∨ (3000 ≤ c ∧ c ≤ 4999)

theorem closeCodeOk_iff (c : Int) : closeCodeOk c = true ↔ CloseCode c := by
  simp only [closeCodeOk, CloseCode, List.contains_eq_mem, Bool.or_eq_true, decide_eq_true_eq,
    Bool.and_eq_true]
  simp only [List.mem_cons, List.not_mem_nil, or_false]
  omega

/-- **C06.** Serialization of a close payload succeeds exactly for permitted codes and reasons
that can be encoded, and yields the code in network order followed by the UTF-8 reason. -/
theorem C06_serialize_close_iff (code : Int) (reason : PyStr) (data : Bytes) :
    serializeClose code reason = .ok data ↔
      CloseCode code ∧ ∃ hi lo rb, data = [hi, lo] ++ rb ∧
        code = (hi.toNat : Int) * 256 + lo.toNat ∧ IsUtf8 rb reason := by
  unfold serializeClose checkClose
  by_cases hc : closeCodeOk code
  · have hcc := (closeCodeOk_iff code).1 hc
    obtain ⟨n, rfl⟩ : ∃ n : Nat, code = n := by
      refine ⟨code.toNat, ?_⟩
      simp only [CloseCode] at hcc
      omega
    have hn : n < 65536 := by simp only [CloseCode] at hcc; omega
    simp only [hc, Bool.not_true, Bool.false_eq_true, if_false, hcc, true_and, Int.toNat_natCast]
    constructor
    · intro h
      cases hu : utf8Encode reason with
      | error e => rw [hu] at h; cases h
      | ok rb =>
        rw [hu] at h
        simp only [Except.ok.injEq] at h
        refine ⟨UInt8.ofNat (n / 256), UInt8.ofNat (n % 256), rb, ?_, ?_, ?_⟩
        · rw [← h]; rfl
        · rw [u8_ofNat_toNat (by omega), u8_ofNat_toNat (by omega)]; omega
        · exact utf8Encode_iff_spec.1 hu
    · rintro ⟨hi, lo, rb, rfl, e, h⟩
      rw [utf8Encode_iff_spec.2 h]
      have : n = hi.toNat * 256 + lo.toNat := by omega
      simp [this, packH_of_bytes]
  · have hcc : ¬ CloseCode code := fun h => hc ((closeCodeOk_iff code).2 h)
    simp [hc, hcc]

/-- **C06.** A close payload is accepted exactly when it is empty (code 1005, no reason) or
consists of a permitted code followed by well-formed UTF-8. -/
theorem C06_parse_close_iff (data : Bytes) (code : Int) (reason : PyStr) :
    parseClose data = .ok (code, reason) ↔
      (data = [] ∧ code = 1005 ∧ reason = []) ∨
      (CloseCode code ∧ ∃ hi lo rb, data = [hi, lo] ++ rb ∧
        code = (hi.toNat : Int) * 256 + lo.toNat ∧ IsUtf8 rb reason) := by
  match data with
  | [] =>
    simp only [parseClose, Except.ok.injEq, Prod.mk.injEq]
    constructor
    · rintro ⟨rfl, rfl⟩
      exact .inl ⟨trivial, rfl, rfl⟩
    · rintro (⟨_, rfl, rfl⟩ | ⟨_, hi, lo, rb, h, _⟩)
      · exact ⟨rfl, rfl⟩
      · simp at h
  | [a] => simp [parseClose]
  | a :: b :: rest =>
    simp only [parseClose, checkClose, unpackBE_two]
    constructor
    · intro h
      split at h
      · cases h
      · rename_i hc
        split at hc
        · cases hc
        · rename_i hck
          simp at hck
          split at h
          · cases h
          · rename_i r hr
            simp only [Except.ok.injEq, Prod.mk.injEq] at h
            obtain ⟨rfl, rfl⟩ := h
            refine .inr ⟨(closeCodeOk_iff _).1 (by simpa using hck), a, b, rest, rfl, by simp, ?_⟩
            exact utf8Encode_iff_spec.1 (utf8Decode_iff_encode.1 hr)
    · rintro (h | ⟨hc, hi, lo, rb, e, rfl, hu⟩)
      · simp at h
      · simp only [List.cons_append, List.nil_append, List.cons.injEq] at e
        obtain ⟨rfl, rfl, rfl⟩ := e
        have := (closeCodeOk_iff _).2 hc
        have h2 := utf8Decode_iff_encode.2 (utf8Encode_iff_spec.2 hu)
        rw [show (((a.toNat * 256 + b.toNat : Nat) : Int)) = (a.toNat : Int) * 256 + b.toNat by simp]
        simp [this, h2]

/-- **C06.** `parse_close` and `serialize_close` are inverse of each other. -/
theorem C06_close_roundtrip (code : Int) (reason : PyStr) (data : Bytes) :
    serializeClose code reason = .ok data ↔
      parseClose data = .ok (code, reason) ∧ data ≠ [] := by
  rw [C06_serialize_close_iff, C06_parse_close_iff]
  constructor
  · rintro h
    refine ⟨.inr h, ?_⟩
    obtain ⟨_, hi, lo, rb, rfl, _⟩ := h
    simp
  · rintro ⟨h | h, hne⟩
    · exact absurd h.1 hne
    · exact h

example : serializeClose 1001 p!"bye é" = .ok ([3, 233] ++ b!"bye é") := by rfl
example : serializeClose 1006 [] = .error (.protocolError p!"invalid status code") := by rfl

/-- **C06.** Reserved codes never parse and never serialize. -/
theorem C06_reserved_rejected (code : Int) (h : code ∈ [1004, 1005, 1006, 1015]) (reason : PyStr) :
    serializeClose code reason = .error (.protocolError p!"invalid status code") ∧
    ∀ data r, data ≠ [] → parseClose data ≠ .ok (code, r) := by
  constructor
  · simp only [List.mem_cons, List.not_mem_nil, or_false] at h
    rcases h with rfl | rfl | rfl | rfl <;> rfl
  · intro data r hne hp
    rw [C06_parse_close_iff] at hp
    rcases hp with hp | ⟨hc, _⟩
    · exact hne hp.1
    · simp only [CloseCode] at hc
      simp only [List.mem_cons, List.not_mem_nil, or_false] at h
      omega

/-! ## C07: UTF-8 -/

/-- **C07.** A byte string decodes to text `s` exactly when it is the UTF-8 encoding of `s`. -/
theorem C07_decode_iff (b : Bytes) (s : PyStr) : utf8Decode b = .ok s ↔ IsUtf8 b s := by
  rw [utf8Decode_iff_encode, utf8Encode_iff_spec]

/-- **C07.** Text is encoded to exactly its UTF-8 encoding; texts with lone surrogates cannot be
encoded. -/
theorem C07_encode_iff (b : Bytes) (s : PyStr) : utf8Encode s = .ok b ↔ IsUtf8 b s :=
  utf8Encode_iff_spec

/-- **C07.** Two byte strings that decode to the same text are equal: no overlong forms. -/
theorem C07_unique (a b : Bytes) (s : PyStr) (ha : utf8Decode a = .ok s)
    (hb : utf8Decode b = .ok s) : a = b := by
  rw [utf8Decode_iff_encode] at ha hb
  rw [ha] at hb
  exact Except.ok.inj hb

/-- **C07.** Sent text always decodes to itself; binary data is sent unchanged. -/
theorem C07_prepare_data (d : PyStr ⊕ Bytes) (op : Opcode) (b : Bytes)
    (h : prepareData d = .ok (op, b)) :
    (∃ s, d = .inl s ∧ op = .text ∧ utf8Decode b = .ok s) ∨ (d = .inr b ∧ op = .binary) := by
  cases d with
  | inl s =>
    simp only [prepareData] at h
    split at h
    · cases h
    · rename_i b' hb
      simp only [Except.ok.injEq, Prod.mk.injEq] at h
      obtain ⟨rfl, rfl⟩ := h
      exact .inl ⟨s, rfl, rfl, utf8Decode_iff_encode.2 hb⟩
  | inr x =>
    simp only [prepareData, Except.ok.injEq, Prod.mk.injEq] at h
    obtain ⟨rfl, rfl⟩ := h
    exact .inr ⟨rfl, rfl⟩

example : utf8Decode [0xE2, 0x82, 0xAC] = .ok [0x20AC] := by rfl
example : utf8Decode [0xC0, 0x80] = .error (.unicodeDecodeError p!"invalid start byte" 0) := by rfl
example : utf8Encode [0xDC80] = .error .unicodeEncodeError := by rfl

/-- The meaning of a close payload: an empty one means code 1005 and no reason, otherwise the
code is the first two bytes and the reason the UTF-8 text that follows. -/
def Spec.ClosePayload (data : Bytes) (code : Int) (reason : PyStr) : Prop :=
  (data = [] ∧ code = 1005 ∧ reason = []) ∨
  (CloseCode code ∧ ∃ hi lo rb, data = [hi, lo] ++ rb ∧
    code = (hi.toNat : Int) * 256 + lo.toNat ∧ IsUtf8 rb reason)

end WS
