import Verif.Lemmas.HttpInt
import Verif.Props.Headers

/-!
# Properties of http11.py: C26, C27, C28, C29, C30
-/

namespace WS

open Spec

theorem noBody_iff (code : Int) : noBody code = true ↔ BodyLess code := by
  simp [noBody, BodyLess, or_assoc]

/-- The headers of a message, as `str`. -/
def Spec.strs (hs : List (Bytes × Bytes)) : List (PyStr × PyStr) :=
  hs.map fun p => (asStr p.1, asStr p.2)

/-- The body of a response: what follows the headers, `before`, is made of the body and
`after`. -/
inductive Spec.Body (code : Int) (hs : List (PyStr × PyStr)) (eof : Bool) :
    Bytes → Option Bytes → Bytes → Prop where
  | none {after} : BodyLess code → Spec.Body code hs eof after none after
  | length {v body after} : ¬ BodyLess code → valuesOf pyLower hs p!"Content-Length" = [v] →
      IntLiteral v (body.length : Int) → Spec.Body code hs eof (body ++ after) (some body) after
  | toEof {body} : ¬ BodyLess code → valuesOf pyLower hs p!"Content-Length" = [] → eof = true →
      Spec.Body code hs eof body (some body) []

theorem Response.parseBody_iff {code : Int} {reason : PyStr} {hs : List (PyStr × PyStr)}
    {r r' : Reader} {p : Response} :
    (Response.parseBody code reason (Headers.ofList hs)).run r = .done p r' ↔
      valuesOf pyLower hs p!"Transfer-Encoding" = [] ∧
      ∃ body, Spec.Body code hs r.eof r.buf body r'.buf ∧ r'.eof = r.eof ∧
        p = ⟨code, reason, Headers.ofList hs, body, none⟩ := by
  obtain ⟨hok, hlist⟩ := Headers.ofList_ok hs
  obtain ⟨-, t2, -⟩ := hok.lookup p!"Transfer-Encoding"
  obtain ⟨-, -, c3⟩ := hok.lookup p!"Content-Length"
  rw [hlist] at t2 c3
  unfold Response.parseBody
  by_cases ht : (Headers.ofList hs).contains p!"Transfer-Encoding" = true
  · rw [if_pos ht]
    simp only [Coro.raise_done_iff, false_iff, not_and]
    intro h; exact absurd h (t2.1 ht)
  · rw [if_neg ht]
    have ht' : valuesOf pyLower hs p!"Transfer-Encoding" = [] := by
      apply Classical.byContradiction
      intro h; exact ht (t2.2 h)
    simp only [ht', true_and]
    obtain ⟨b0, e0⟩ := r
    obtain ⟨b1, e1⟩ := r'
    simp only
    by_cases hn : noBody code = true
    · rw [if_pos hn, Coro.ret_done_iff]
      have hn' := (noBody_iff code).1 hn
      constructor
      · rintro ⟨rfl, h⟩
        simp only [Reader.mk.injEq] at h
        obtain ⟨rfl, rfl⟩ := h
        exact ⟨none, .none hn', rfl, rfl⟩
      · rintro ⟨body, h1, rfl, rfl⟩
        cases h1 with
        | none _ => exact ⟨rfl, rfl⟩
        | length h _ _ => exact absurd hn' h
        | toEof h _ _ => exact absurd hn' h
    · rw [if_neg hn]
      have hn' : ¬ BodyLess code := fun h => hn ((noBody_iff code).2 h)
      rw [c3]
      cases hv : valuesOf pyLower hs p!"Content-Length" with
      | nil =>
        simp only
        rw [Coro.bind_done_iff]
        constructor
        · rintro ⟨body, r1, h1, h2⟩
          rw [Coro.ret_done_iff] at h2
          obtain ⟨rfl, rfl⟩ := h2
          rw [C10_read_to_eof] at h1
          obtain ⟨g1, g2, g3⟩ := h1
          simp only [Reader.mk.injEq] at g1 g2 g3
          obtain ⟨g3, g4⟩ := g3
          subst g1 g2 g3 g4
          exact ⟨some body, .toEof hn' hv rfl, rfl, rfl⟩
        · rintro ⟨body, h1, h2, rfl⟩
          cases h1 with
          | none h => exact absurd h hn'
          | length _ h _ => rw [hv] at h; cases h
          | toEof _ _ he =>
            subst he h2
            exact ⟨b0, ⟨[], true⟩, C10_read_to_eof.2 ⟨rfl, rfl, rfl⟩, rfl⟩
      | cons v vs =>
        cases vs with
        | cons w ws =>
          simp only [Coro.raise_done_iff, false_iff]
          rintro ⟨body, h1, h2⟩
          cases h1 with
          | none h => exact absurd h hn'
          | length _ h _ => rw [hv] at h; simp at h
          | toEof _ h _ => rw [hv] at h; cases h
        | nil =>
          simp only
          cases hp : pyInt v with
          | none =>
            simp only [Coro.raise_done_iff, false_iff]
            rintro ⟨body, h1, h2⟩
            cases h1 with
            | none h => exact absurd h hn'
            | length _ h hi =>
              rw [hv] at h
              simp only [List.cons.injEq, and_true] at h
              subst h
              rw [(pyInt_iff _ _).2 hi] at hp
              cases hp
            | toEof _ h _ => rw [hv] at h; cases h
          | some n =>
            simp only
            have hi := (pyInt_iff _ _).1 hp
            by_cases hneg : n < 0
            · rw [if_pos hneg]
              simp only [Coro.raise_done_iff, false_iff]
              rintro ⟨body, h1, h2⟩
              cases h1 with
              | none h => exact absurd h hn'
              | length _ h hi =>
                rw [hv] at h
                simp only [List.cons.injEq, and_true] at h
                subst h
                rw [(pyInt_iff _ _).2 hi] at hp
                simp only [Option.some.injEq] at hp
                omega
              | toEof _ h _ => rw [hv] at h; cases h
            · rw [if_neg hneg, Coro.bind_done_iff]
              constructor
              · rintro ⟨body, r1, h1, h2⟩
                rw [Coro.ret_done_iff] at h2
                obtain ⟨rfl, rfl⟩ := h2
                obtain ⟨g1, g2, g3⟩ := C10_read_exact.1 h1
                simp only at g2 g3
                subst g2 g3
                refine ⟨some body, .length hn' hv ?_, rfl, rfl⟩
                rw [g1, Int.toNat_of_nonneg (by omega)]
                exact hi
              · rintro ⟨body, h1, h2, rfl⟩
                cases h1 with
                | none h => exact absurd h hn'
                | toEof _ h _ => rw [hv] at h; cases h
                | @length _ body _ _ h hi =>
                  rw [hv] at h
                  simp only [List.cons.injEq, and_true] at h
                  subst h
                  rw [(pyInt_iff _ _).2 hi] at hp
                  simp only [Option.some.injEq] at hp
                  subst hp h2
                  exact ⟨body, ⟨b1, e1⟩, C10_read_exact.2 ⟨by simp, rfl, rfl⟩, rfl⟩

theorem Response.parse_iff {r r' : Reader} {p : Response} :
    Response.parse.run r = .done p r' ↔
      ∃ head code reason s hs rest body, ResponseHead head code reason hs ∧
        utf8Decode reason = .ok s ∧ valuesOf pyLower (strs hs) p!"Transfer-Encoding" = [] ∧
        r.buf = head ++ rest ∧ Spec.Body code (strs hs) r.eof rest body r'.buf ∧
        r'.eof = r.eof ∧ p = ⟨code, s, Headers.ofList (strs hs), body, none⟩ := by
  unfold Response.parse
  rw [Coro.bind_done_iff]
  constructor
  · rintro ⟨line, r1, h1, h2⟩
    obtain ⟨e1, e2, e3, e4⟩ := parseLine_iff.1 h1
    split at h2
    · simp [Coro.run] at h2
    · rename_i v st rs hsp
      obtain ⟨s1, s2, s3⟩ := (split3_iff _ _ _ _ _).1 hsp
      split at h2
      · simp [Coro.run] at h2
      · rename_i hv
        simp only [ne_eq, Decidable.not_not] at hv
        split at h2
        · simp [Coro.run] at h2
        · rename_i code hcode
          split at h2
          · simp [Coro.run] at h2
          · rename_i hrange
            simp only [Decidable.not_not] at hrange
            split at h2
            · simp [Coro.run] at h2
            · rename_i hval
              simp only [Bool.not_eq_true, Bool.not_eq_false'] at hval
              split at h2
              · simp [Coro.run] at h2
              · rename_i s hs'
                rw [Coro.bind_done_iff] at h2
                obtain ⟨hd, r2, h3, h4⟩ := h2
                obtain ⟨block, hs, g1, g2, g3, g4, rfl⟩ := parseHeaders_iff.1 h3
                rw [HeaderBlock.tokens g1] at h4
                obtain ⟨k1, body, k2, k3, k4⟩ := Response.parseBody_iff.1 h4
                refine ⟨_, code, rs, s, hs, r2.buf, body, ⟨st, block, rfl, s3, ?_,
                  (isValue_iff _).1 hval, ?_, (pyInt_iff _ _).1 hcode, hrange.1, hrange.2, g1, g2⟩, hs',
                  k1, ?_, by rw [← e4, ← g4]; exact k2, by rw [k3, g4, e4], k4⟩
                · intro h; exact e2 (by rw [s1]; simp [h])
                · rw [s1, hv] at e3; simp at e3; omega
                · rw [e1, s1, hv, g3]; simp
  · rintro ⟨head, code, reason, s, hs, rest, body, ⟨st, block, rfl, h1, h2, h3, h4, h5, h6, h7, h8, h9⟩,
      g1, g2, g3, g4, g5, g6⟩
    have hlf : (10 : UInt8) ∉ reason := by
      intro h
      have := h3 _ h
      revert this
      simp [ValueByte]
    refine ⟨b!"HTTP/1.1 " ++ st ++ b!" " ++ reason, ⟨block ++ rest, r.eof⟩, parseLine_iff.2
      ⟨by rw [g3]; simp, by simp [h2, hlf], by simp; omega, rfl⟩, ?_⟩
    rw [(split3_iff 32 _ b!"HTTP/1.1" st reason).2 ⟨by simp, by decide, h1⟩]
    simp only [ne_eq, not_true_eq_false, if_false, (pyInt_iff _ _).2 h5, h6, h7, and_self,
      (isValue_iff _).2 h3, Bool.not_true, Bool.false_eq_true, g1]
    rw [Coro.bind_done_iff]
    refine ⟨_, ⟨rest, r.eof⟩, parseHeaders_iff.2 ⟨block, hs, h8, h9, rfl, rfl, rfl⟩, ?_⟩
    rw [HeaderBlock.tokens h8]
    exact Response.parseBody_iff.2 ⟨g2, body, g4, g5, g6⟩

/-! ## C26 -/

/-- The ASCII encoding. -/
def Spec.ascii (s : PyStr) : Bytes := s.map UInt8.ofNat

theorem utf8Encode_asciiBytes {s : PyStr} (h : ∀ c ∈ s, c < 128) : utf8Encode s = .ok (ascii s) := by
  induction s with
  | nil => rfl
  | cons c s ih =>
    rw [utf8Encode_cons_ok]
    refine ⟨[UInt8.ofNat c], ascii s, ?_, ih fun x hx => h x (by simp [hx]), rfl⟩
    unfold utf8EncodeCp
    rw [if_pos (h c (by simp))]

theorem asStr_ascii {s : PyStr} (h : ∀ c ∈ s, c < 128) : asStr (ascii s) = s := by
  unfold asStr ascii
  rw [List.map_map]
  conv => rhs; rw [← List.map_id s]
  apply List.map_congr_left
  intro c hc
  have := h c hc
  simp only [Function.comp_apply, id]
  rw [u8_ofNat_toNat (by omega), if_pos (by omega)]

theorem mem_ascii {s : PyStr} (h : ∀ c ∈ s, c < 128) {b : UInt8} (hb : b ∈ ascii s) :
    b.toNat ∈ s := by
  obtain ⟨c, hc, rfl⟩ := List.mem_map.1 hb
  rwa [u8_ofNat_toNat (by have := h c hc; omega)]

theorem Spec.GoodHeader.ascii {p : PyStr × PyStr} (h : GoodHeader p) :
    (∀ c ∈ p.1, c < 128) ∧ (∀ c ∈ p.2, c < 128) := by
  refine ⟨fun c hc => ?_, fun c hc => ?_⟩
  · have := (h.name c hc).ascii; omega
  · have := h.value c hc; omega

theorem Spec.GoodHeader.line {p : PyStr × PyStr} (h : GoodHeader p) :
    HeaderLine (Spec.ascii (p.1 ++ p!": " ++ p.2)) (Spec.ascii p.1) (Spec.ascii p.2) := by
  obtain ⟨h1, h2⟩ := h.ascii
  refine ⟨b!" ", [], by simp [Spec.ascii], by simp [Blank], by simp, ⟨?_, ?_⟩, ?_, ?_, ?_⟩
  · simp [Spec.ascii, h.name_ne]
  · intro c hc; exact h.name _ (mem_ascii h1 hc)
  · intro c hc
    have := h.value _ (mem_ascii h2 hc)
    unfold ValueByte; omega
  · intro c hc
    unfold Spec.ascii at hc
    rw [List.head?_map] at hc
    obtain ⟨d, hd, rfl⟩ := Option.map_eq_some_iff.1 hc
    have g1 := h.first d hd
    have g2 := h2 d (List.mem_of_mem_head? hd)
    rintro (e | e) <;>
    · have := congrArg UInt8.toNat e
      rw [u8_ofNat_toNat (by omega)] at this
      simp at this; omega
  · intro c hc
    unfold Spec.ascii at hc
    rw [List.getLast?_map] at hc
    obtain ⟨d, hd, rfl⟩ := Option.map_eq_some_iff.1 hc
    have g1 := h.last d hd
    have g2 := h2 d (List.mem_of_getLast? hd)
    rintro (e | e) <;>
    · have := congrArg UInt8.toNat e
      rw [u8_ofNat_toNat (by omega)] at this
      simp at this; omega

theorem Headers.serialize_good (hs : List (PyStr × PyStr)) (h : ∀ p ∈ hs, GoodHeader p) :
    ∃ block, (Headers.ofList hs).serialize = .ok block ∧
      HeaderBlock block (hs.map fun p => (Spec.ascii p.1, Spec.ascii p.2)) := by
  refine ⟨Spec.ascii (Headers.ofList hs).toStr, ?_, ?_⟩
  · apply utf8Encode_asciiBytes
    unfold Headers.toStr
    rw [(Headers.ofList_ok hs).2]
    intro c hc
    simp only [List.mem_append, List.mem_flatten, List.mem_map] at hc
    rcases hc with ⟨l, ⟨p, hp, rfl⟩, hc⟩ | hc
    · obtain ⟨g1, g2⟩ := (h p hp).ascii
      simp only [List.mem_append, List.mem_cons, List.not_mem_nil, or_false] at hc
      rcases hc with ((hc | hc) | hc) | hc
      · exact g1 c hc
      · omega
      · exact g2 c hc
      · omega
    · simp at hc; omega
  · unfold Headers.toStr
    rw [(Headers.ofList_ok hs).2]
    induction hs with
    | nil => exact .nil
    | cons p hs ih =>
      have hp := h p (by simp)
      have := HeaderBlock.cons hp.line (by
        have := hp.length
        simp [Spec.ascii]; omega) (ih fun q hq => h q (by simp [hq]))
      simpa [Spec.ascii, crlf] using this

theorem strs_ascii (hs : List (PyStr × PyStr)) (h : ∀ p ∈ hs, GoodHeader p) :
    (hs.map fun p => (Spec.ascii p.1, Spec.ascii p.2)).map (fun p => (asStr p.1, asStr p.2)) = hs := by
  rw [List.map_map]
  conv => rhs; rw [← List.map_id hs]
  apply List.map_congr_left
  intro p hp
  obtain ⟨g1, g2⟩ := (h p hp).ascii
  simp only [Function.comp_apply, id, asStr_ascii g1, asStr_ascii g2]

/-- **C26.** A request with a path made of printable ASCII characters without blanks and up to 256
headers that can be sent is serialized; parsing the result, whatever follows in the stream,
returns the same path and the same headers in the same order, and leaves what follows in the
stream. -/
theorem C26_request_roundtrip_partial (path : PyStr) (hs : List (PyStr × PyStr))
    (hpath : ∀ c ∈ path, 0x21 ≤ c ∧ c ≤ 0x7E) (hlen : path.length + 15 ≤ 4110)
    (hhs : ∀ p ∈ hs, GoodHeader p) (hn : hs.length ≤ 256) :
    ∃ bytes, (Request.mk path (Headers.ofList hs)).serialize = .ok bytes ∧
      ∀ rest eof, Request.parse.run ⟨bytes ++ rest, eof⟩ =
        .done ⟨path, Headers.ofList hs⟩ ⟨rest, eof⟩ := by
  obtain ⟨block, hb1, hb2⟩ := Headers.serialize_good hs hhs
  have hp : ∀ c ∈ path, c < 128 := fun c hc => by have := hpath c hc; omega
  have hline : utf8Encode (p!"GET " ++ path ++ p!" HTTP/1.1" ++ [13, 10]) =
      .ok (ascii (p!"GET " ++ path ++ p!" HTTP/1.1" ++ [13, 10])) := by
    apply utf8Encode_asciiBytes
    intro c hc
    simp only [List.mem_append, List.mem_cons, List.not_mem_nil, or_false] at hc
    rcases hc with ((hc | hc) | hc) | hc
    · omega
    · exact hp c hc
    · omega
    · omega
  refine ⟨_, by simp only [Request.serialize, hline, hb1]; rfl, ?_⟩
  intro rest eof
  refine Request.parse_iff.2 ⟨_, ascii path, _, ⟨block, rfl, ?_, ?_, ?_, hb2, by simpa using hn⟩, ?_, rfl, ?_⟩
  · intro h; have := hpath _ (mem_ascii hp h); simp at this
  · intro h; have := hpath _ (mem_ascii hp h); simp at this
  · simpa [ascii] using hlen
  · simp [ascii, crlf]
  · rw [asStr_ascii hp, strs_ascii hs hhs]

theorem mem_utf8 {s : PyStr} {b : Bytes} (h : utf8Encode s = .ok b) {x : UInt8} (hx : x ∈ b)
    (hlt : x.toNat < 128) : x.toNat ∈ s := by
  induction s generalizing b with
  | nil => cases h; simp at hx
  | cons c s ih =>
    obtain ⟨e, bs, h1, h2, rfl⟩ := utf8Encode_cons_ok.1 h
    rcases List.mem_append.1 hx with hx | hx
    · have : x.toNat = c := by
        unfold utf8EncodeCp at h1
        repeat' split at h1
        all_goals first
          | cases h1
          | skip
        all_goals
          simp only [List.mem_cons, List.not_mem_nil, or_false] at hx
          rcases hx with rfl | hx
          all_goals first
            | (simp at hlt ⊢; omega)
            | (rcases hx with rfl | rfl | rfl <;> simp at hlt ⊢ <;> omega)
            | (rcases hx with rfl | rfl <;> simp at hlt ⊢ <;> omega)
            | (subst hx; simp at hlt ⊢; omega)
      simp [this]
    · exact List.mem_cons_of_mem _ (ih h2 hx)

/-- **C26.** What is read, whatever the path, as long as it contains no space or line feed: the bytes
of its UTF-8 encoding, as ASCII characters and surrogates. -/
theorem C26_any_path (path : PyStr) (pb : Bytes) (hs : List (PyStr × PyStr))
    (hpb : IsUtf8 pb path) (hpath : 0x20 ∉ path ∧ 0x0A ∉ path) (hlen : pb.length + 15 ≤ 4110)
    (hhs : ∀ p ∈ hs, GoodHeader p) (hn : hs.length ≤ 256) :
    ∃ bytes, (Request.mk path (Headers.ofList hs)).serialize = .ok bytes ∧
      ∀ rest eof, Request.parse.run ⟨bytes ++ rest, eof⟩ =
        .done ⟨asStr pb, Headers.ofList hs⟩ ⟨rest, eof⟩ := by
  have hp := utf8Encode_iff_spec.2 hpb
  obtain ⟨block, hb1, hb2⟩ := Headers.serialize_good hs hhs
  have hline : utf8Encode (p!"GET " ++ path ++ p!" HTTP/1.1" ++ [13, 10]) =
      .ok (b!"GET " ++ pb ++ b!" HTTP/1.1" ++ [13, 10]) :=
    utf8Encode_append (utf8Encode_append (utf8Encode_append rfl hp) rfl) rfl
  refine ⟨_, by simp only [Request.serialize, hline, hb1]; rfl, ?_⟩
  intro rest eof
  refine Request.parse_iff.2 ⟨_, pb, _, ⟨block, rfl, ?_, ?_, hlen, hb2, by simpa using hn⟩, ?_, rfl, ?_⟩
  · intro h; exact hpath.1 (mem_utf8 hp h (by decide))
  · intro h; exact hpath.2 (mem_utf8 hp h (by decide))
  · simp [crlf]
  · rw [strs_ascii hs hhs]

/-- **C26.** The full claim is false: the path `/é` is sent as UTF-8 and read as two surrogates. -/
theorem C26_non_ascii_false :
    ∃ (path : PyStr) (bytes : Bytes) (q : Request), (∀ c ∈ path, 0x20 < c ∧ c ≠ 0x7F) ∧
      (Request.mk path (Headers.ofList [])).serialize = .ok bytes ∧
      Request.parse.run ⟨bytes, false⟩ = .done q ⟨[], false⟩ ∧
      path = [0x2F, 0xE9] ∧ q.path = [0x2F, 0xDCC3, 0xDCA9] := by
  obtain ⟨bytes, h1, h2⟩ := C26_any_path [0x2F, 0xE9] [0x2F, 0xC3, 0xA9] []
    (utf8Encode_iff_spec.1 rfl) (by decide) (by decide) (by simp) (by decide)
  exact ⟨_, bytes, _, by decide, h1, by simpa using h2 [] false, rfl, by decide⟩

example : ∀ c ∈ p!"/chat?room=1", 0x21 ≤ c ∧ c ≤ 0x7E := by decide

example : GoodHeader (p!"User-Agent", p!"Python/3.9 websockets/9.1") :=
  ⟨by decide, by
    intro c hc
    rw [← isTokenChar_iff]
    revert c hc
    decide +kernel, by decide, by decide, by decide, by decide⟩

/-! ## C27 -/

/-- A character of a reason phrase. -/
def Spec.ReasonChar (c : Nat) : Prop := c = 9 ∨ (0x20 ≤ c ∧ c ≤ 0x7E) ∨ 0x80 ≤ c

theorem utf8Encode_reason {s : PyStr} {b : Bytes} (h : utf8Encode s = .ok b)
    (hs : ∀ c ∈ s, ReasonChar c) : ∀ x ∈ b, ValueByte x := by
  induction s generalizing b with
  | nil => simp only [utf8Encode, Except.ok.injEq] at h; subst h; simp
  | cons c s ih =>
    obtain ⟨e, es, h1, h2, rfl⟩ := utf8Encode_cons_ok.1 h
    intro x hx
    rcases List.mem_append.1 hx with hx | hx
    · have hc := hs c (by simp)
      unfold ReasonChar at hc
      unfold utf8EncodeCp at h1
      unfold ValueByte
      split at h1
      · simp only [Option.some.injEq] at h1
        subst h1
        simp only [List.mem_singleton] at hx
        subst hx
        rw [u8_ofNat_toNat (by omega)]
        omega
      · split at h1
        · simp only [Option.some.injEq] at h1
          subst h1
          simp only [List.mem_cons, List.not_mem_nil, or_false] at hx
          rcases hx with rfl | rfl <;> rw [u8_ofNat_toNat (by omega)] <;> omega
        · split at h1
          · split at h1
            · cases h1
            · simp only [Option.some.injEq] at h1
              subst h1
              simp only [List.mem_cons, List.not_mem_nil, or_false] at hx
              rcases hx with rfl | rfl | rfl <;> rw [u8_ofNat_toNat (by omega)] <;> omega
          · split at h1
            · simp only [Option.some.injEq] at h1
              subst h1
              simp only [List.mem_cons, List.not_mem_nil, or_false] at hx
              rcases hx with rfl | rfl | rfl | rfl <;> rw [u8_ofNat_toNat (by omega)] <;> omega
            · cases h1
    · exact ih h2 (fun c hc => hs c (by simp [hc])) x hx

theorem decStr_digits (n : Nat) : ∀ c ∈ decStr n, 48 ≤ c ∧ c ≤ 57 := by
  induction n using Nat.strongRecOn with
  | ind n ih =>
    unfold decStr
    split
    · intro c hc; simp at hc; omega
    · intro c hc
      rcases List.mem_append.1 hc with hc | hc
      · exact ih (n / 10) (by omega) c hc
      · simp at hc; omega

/-- **C27.** A response whose reason phrase is any encodable string without control characters,
with up to 256 headers that can be sent, none of them Transfer-Encoding, is serialized.  Parsing
the result returns the same response: when the status excludes a body and there is none; when a
single Content-Length header is the length of the body (in any form accepted by `int`); when there
is no Content-Length header and the stream ends after the body.  In the first two cases, anything
that follows is left in the stream. -/
theorem C27_response_roundtrip (code : Nat) (reason : PyStr) (hs : List (PyStr × PyStr))
    (body : Option Bytes) (hcode : 100 ≤ code ∧ code < 1000)
    (hreason : ∀ c ∈ reason, ReasonChar c) {rb : Bytes} (hrb : utf8Encode reason = .ok rb)
    (hlen : rb.length + 15 ≤ 4110)
    (hhs : ∀ p ∈ hs, GoodHeader p) (hn : hs.length ≤ 256)
    (hte : valuesOf pyLower hs p!"Transfer-Encoding" = []) :
    ∃ bytes, (Response.mk code reason (Headers.ofList hs) body none).serialize = .ok bytes ∧
      (BodyLess code → body = none → ∀ rest eof, Response.parse.run ⟨bytes ++ rest, eof⟩ =
        .done ⟨code, reason, Headers.ofList hs, body, none⟩ ⟨rest, eof⟩) ∧
      (¬ BodyLess code → ∀ b v, body = some b → valuesOf pyLower hs p!"Content-Length" = [v] →
        IntLiteral v (b.length : Int) → ∀ rest eof, Response.parse.run ⟨bytes ++ rest, eof⟩ =
        .done ⟨code, reason, Headers.ofList hs, body, none⟩ ⟨rest, eof⟩) ∧
      (¬ BodyLess code → ∀ b, body = some b → valuesOf pyLower hs p!"Content-Length" = [] →
        Response.parse.run ⟨bytes, true⟩ =
        .done ⟨code, reason, Headers.ofList hs, body, none⟩ ⟨[], true⟩) := by
  obtain ⟨block, hb1, hb2⟩ := Headers.serialize_good hs hhs
  have hd : ∀ c ∈ decStr code, c < 128 := fun c hc => by have := decStr_digits code c hc; omega
  have h10 : ∀ c ∈ (p!"HTTP/1.1 " ++ decStr code ++ p!" "), c < 128 := by
    intro c hc
    simp only [List.mem_append, List.mem_cons, List.not_mem_nil, or_false] at hc
    rcases hc with (hc | hc) | hc
    · omega
    · exact hd c hc
    · omega
  have hline : utf8Encode (p!"HTTP/1.1 " ++ intStr code ++ p!" " ++ reason ++ [13, 10]) =
      .ok (b!"HTTP/1.1 " ++ ascii (decStr code) ++ b!" " ++ rb ++ crlf) := by
    have := utf8Encode_append (utf8Encode_append (utf8Encode_asciiBytes h10) hrb)
      (utf8Encode_asciiBytes (s := [13, 10]) (by simp))
    simpa [ascii, crlf, intStr] using this
  have h3 : (decStr code).length ≤ 3 := by
    unfold decStr
    split
    · simp
    · unfold decStr
      split
      · simp
      · unfold decStr
        split
        · simp
        · omega
  have hhead : ResponseHead (b!"HTTP/1.1 " ++ ascii (decStr code) ++ b!" " ++ rb ++ crlf ++ block) code
      rb (hs.map fun p => (Spec.ascii p.1, Spec.ascii p.2)) := by
    refine ⟨ascii (decStr code), block, rfl, ?_, ?_, utf8Encode_reason hrb hreason, ?_, ?_, by omega,
      by omega, hb2, by simpa using hn⟩
    · intro h; have := decStr_digits _ _ (mem_ascii hd h); simp at this
    · intro h; have := decStr_digits _ _ (mem_ascii hd h); simp at this
    · simp [ascii]; omega
    · have : (ascii (decStr code)).map UInt8.toNat = decStr code := by
        unfold ascii
        rw [List.map_map]
        conv => rhs; rw [← List.map_id (decStr code)]
        apply List.map_congr_left
        intro c hc
        simp only [Function.comp_apply, id]
        exact u8_ofNat_toNat (by have := hd c hc; omega)
      rw [this]
      exact intLiteral_decStr code
  have hstrs : strs (hs.map fun p => (Spec.ascii p.1, Spec.ascii p.2)) = hs := strs_ascii hs hhs
  have hdec : utf8Decode rb = .ok reason := utf8Decode_iff_encode.2 hrb
  refine ⟨_, by simp only [Response.serialize, hline, hb1]; rfl, ?_, ?_, ?_⟩
  · rintro h1 rfl rest eof
    exact Response.parse_iff.2 ⟨_, code, rb, reason, _, rest, none, hhead, hdec, by rw [hstrs]; exact hte,
      by simp, .none h1, rfl, by rw [hstrs]⟩
  · rintro h1 b v rfl h2 h4 rest eof
    exact Response.parse_iff.2 ⟨_, code, rb, reason, _, b ++ rest, some b, hhead, hdec,
      by rw [hstrs]; exact hte, by simp, .length h1 (by rw [hstrs]; exact h2) h4, rfl, by rw [hstrs]⟩
  · rintro h1 b rfl h2
    exact Response.parse_iff.2 ⟨_, code, rb, reason, _, b, some b, hhead, hdec,
      by rw [hstrs]; exact hte, by simp, .toEof h1 (by rw [hstrs]; exact h2) rfl, rfl, by rw [hstrs]⟩

-- The hypotheses are met by a typical error response.
example : valuesOf pyLower [(p!"Date", p!"x"), (p!"Content-Length", p!"3")] p!"content-length" = [p!"3"] ∧
    valuesOf pyLower [(p!"Date", p!"x"), (p!"Content-Length", p!"3")] p!"Transfer-Encoding" = [] ∧
    ¬ BodyLess 404 ∧ IntLiteral p!"3" 3 ∧ (∀ c ∈ p!"Not Found", ReasonChar c) := by
  refine ⟨by decide, by decide, by unfold BodyLess; omega, ?_, ?_⟩
  · have := intLiteral_decStr 3
    have e : decStr 3 = p!"3" := by unfold decStr; rfl
    rwa [e] at this
  unfold ReasonChar; decide

/-! ## C28 and C30 -/

theorem Spec.HeaderBlock.lines {block : Bytes} {hs : List (Bytes × Bytes)} (h : HeaderBlock block hs) :
    ∃ lines, block = ofLines lines ∧ lines.length = hs.length + 1 ∧
      ∀ l ∈ lines, l.length + 2 ≤ 4110 ∧ 10 ∉ l := by
  induction h with
  | nil => exact ⟨[[]], by simp [ofLines], by simp, by simp⟩
  | cons hl hlen _ ih =>
    obtain ⟨lines, h1, h2, h3⟩ := ih
    refine ⟨_ :: lines, by rw [h1]; simp only [ofLines, List.map_cons, List.flatten_cons]; rfl,
      by simp [h2], ?_⟩
    intro l hm
    rcases List.mem_cons.1 hm with rfl | hm
    · exact ⟨hlen, hl.noLF.1⟩
    · exact h3 l hm

/-- **C28.** Whatever the stream, a request that is parsed has at most 256 headers, and what was
taken from the stream is a sequence of at most 258 lines, none longer than 4110 bytes. -/
theorem C28_request_limits {r r' : Reader} {q : Request}
    (h : Request.parse.run r = .done q r') :
    q.headers.rawItems.length ≤ 256 ∧
    ∃ lines, r.buf = ofLines lines ++ r'.buf ∧ lines.length ≤ 258 ∧
      ∀ l ∈ lines, l.length + 2 ≤ 4110 ∧ 10 ∉ l := by
  obtain ⟨bytes, path, hs, ⟨block, rfl, h1, h2, h3, h4, h5⟩, h6, h7, rfl⟩ := Request.parse_iff.1 h
  refine ⟨?_, ?_⟩
  · unfold Headers.rawItems
    rw [(Headers.ofList_ok _).2]
    simpa using h5
  · obtain ⟨lines, g1, g2, g3⟩ := h4.lines
    refine ⟨(b!"GET " ++ path ++ b!" HTTP/1.1") :: lines, ?_, by simp; omega, ?_⟩
    · rw [h6, g1]; simp [ofLines]
    · intro l hm
      rcases List.mem_cons.1 hm with rfl | hm
      · refine ⟨by simp; omega, by simp [h2]⟩
      · exact g3 l hm

/-- **C28.** Whatever the stream, a response that is parsed has at most 256 headers, and what was
taken from the stream is a sequence of at most 258 lines, none longer than 4110 bytes, and the
body. -/
theorem C28_response_limits {r r' : Reader} {p : Response}
    (h : Response.parse.run r = .done p r') :
    p.headers.rawItems.length ≤ 256 ∧
    ∃ lines, r.buf = ofLines lines ++ p.body.getD [] ++ r'.buf ∧ lines.length ≤ 258 ∧
      ∀ l ∈ lines, l.length + 2 ≤ 4110 ∧ 10 ∉ l := by
  obtain ⟨head, code, reason, s, hs, rest, body, ⟨st, block, rfl, h1, h2, h3, h4, h5, h6, h7, h8, h9⟩,
      g1, g2, g3, g4, g5, rfl⟩ := Response.parse_iff.1 h
  refine ⟨?_, ?_⟩
  · unfold Headers.rawItems
    rw [(Headers.ofList_ok _).2]
    simpa [strs] using h9
  · obtain ⟨lines, k1, k2, k3⟩ := h8.lines
    refine ⟨(b!"HTTP/1.1 " ++ st ++ b!" " ++ reason) :: lines, ?_, by simp; omega, ?_⟩
    · rw [g3, k1]
      generalize r'.buf = after at g4
      cases g4 <;> simp [ofLines]
    · intro l hm
      rcases List.mem_cons.1 hm with rfl | hm
      · refine ⟨by simp; omega, ?_⟩
        have hlf : (10 : UInt8) ∉ reason := by
          intro h
          have := h3 _ h
          revert this
          simp [ValueByte]
        simp [h2, hlf]
      · exact k3 l hm

/-- A parsed header: a token, and a value without control characters other than tabs nor blanks
around.  Bytes outside ASCII are surrogate escapes. -/
structure Spec.CleanHeader (p : PyStr × PyStr) : Prop where
  name_ne : p.1 ≠ []
  name : ∀ c ∈ p.1, TokenChar c
  value : ∀ c ∈ p.2, c = 9 ∨ (0x20 ≤ c ∧ c ≤ 0x7E) ∨ (0xDC80 ≤ c ∧ c ≤ 0xDCFF)
  first : ∀ c, p.2.head? = some c → c ≠ 9 ∧ c ≠ 0x20
  last : ∀ c, p.2.getLast? = some c → c ≠ 9 ∧ c ≠ 0x20

theorem Spec.HeaderLine.clean {line name value : Bytes} (h : HeaderLine line name value) :
    CleanHeader (asStr name, asStr value) := by
  obtain ⟨o1, o2, -, -, -, h3, h4, h5⟩ := h
  refine ⟨by simp [asStr, h3.1], ?_, ?_, ?_, ?_⟩
  · rw [← h3.asStr]
    intro c hc
    obtain ⟨b, hb, rfl⟩ := List.mem_map.1 hc
    exact h3.2 b hb
  · intro c hc
    obtain ⟨b, hb, rfl⟩ := List.mem_map.1 hc
    have h1 := h4 b hb
    have h2 := b.toNat_lt
    unfold ValueByte at h1
    split <;> omega
  · intro c hc
    simp only [asStr, List.head?_map, Option.map_eq_some_iff] at hc
    obtain ⟨b, hb, rfl⟩ := hc
    have h1 := h5.1 b hb
    simp only [Blank, not_or, ← UInt8.toNat_inj, UInt8.reduceToNat] at h1
    split <;> omega
  · intro c hc
    simp only [asStr, List.getLast?_map, Option.map_eq_some_iff] at hc
    obtain ⟨b, hb, rfl⟩ := hc
    have h1 := h5.2 b hb
    simp only [Blank, not_or, ← UInt8.toNat_inj, UInt8.reduceToNat] at h1
    split <;> omega

theorem Spec.HeaderBlock.clean {block : Bytes} {hs : List (Bytes × Bytes)} (h : HeaderBlock block hs) :
    ∀ p ∈ strs hs, CleanHeader p := by
  induction h with
  | nil => intro p hp; cases hp
  | cons hl _ _ ih =>
    intro p hp
    simp only [strs, List.map_cons, List.mem_cons] at hp
    rcases hp with rfl | hp
    · exact hl.clean
    · exact ih p hp

/-- **C30.** The headers of a parsed request are clean, and its path contains neither a space nor a
line feed. -/
theorem C30_request_clean {r r' : Reader} {q : Request} (h : Request.parse.run r = .done q r') :
    (∀ p ∈ q.headers.rawItems, CleanHeader p) ∧ 32 ∉ q.path ∧ 10 ∉ q.path := by
  obtain ⟨bytes, path, hs, ⟨block, rfl, h1, h2, h3, h4, h5⟩, h6, h7, rfl⟩ := Request.parse_iff.1 h
  refine ⟨?_, ?_⟩
  · unfold Headers.rawItems
    rw [(Headers.ofList_ok _).2]
    exact h4.clean
  · have key : ∀ n : Nat, n < 128 → UInt8.ofNat n ∉ path → n ∉ asStr path := by
      intro n hn hp hm
      obtain ⟨b, hb, e⟩ := List.mem_map.1 hm
      have := b.toNat_lt
      split at e
      · exact hp (by rw [← u8_eq_ofNat e]; exact hb)
      · omega
    exact ⟨key 32 (by omega) h1, key 10 (by omega) h2⟩

/-- **C30.** The headers of a parsed response are clean, and its reason phrase contains no control
characters other than tabs. -/
theorem C30_response_clean {r r' : Reader} {p : Response}
    (h : Response.parse.run r = .done p r') :
    (∀ h ∈ p.headers.rawItems, CleanHeader h) ∧ ∀ c ∈ p.reason, ReasonChar c := by
  obtain ⟨head, code, reason, s, hs, rest, body, ⟨st, block, rfl, h1, h2, h3, h4, h5, h6, h7, h8, h9⟩,
      g1, g2, g3, g4, g5, rfl⟩ := Response.parse_iff.1 h
  refine ⟨?_, ?_⟩
  · unfold Headers.rawItems
    rw [(Headers.ofList_ok _).2]
    exact h8.clean
  · have he := utf8Decode_iff_encode.1 g1
    have : ∀ (s : PyStr) (b : Bytes), utf8Encode s = .ok b → (∀ x ∈ b, ValueByte x) →
        ∀ c ∈ s, ReasonChar c := by
      intro s
      induction s with
      | nil => intro b _ _ c hc; cases hc
      | cons d s ih =>
        intro b hb hv c hc
        obtain ⟨e, es, k1, k2, rfl⟩ := utf8Encode_cons_ok.1 hb
        rcases List.mem_cons.1 hc with rfl | hc
        · unfold utf8EncodeCp at k1
          split at k1
          · simp only [Option.some.injEq] at k1
            subst k1
            have := hv (UInt8.ofNat c) (by simp)
            unfold ValueByte at this
            rw [u8_ofNat_toNat (by omega)] at this
            unfold ReasonChar; omega
          · unfold ReasonChar; omega
        · exact ih es k2 (fun x hx => hv x (by simp [hx])) c hc
    exact this s reason he h3

/-! ## C29 -/

theorem parseLine_waits (data : Bytes) (h : 10 ∉ data) {α : Type} (f : Bytes → Coro α) :
    ∃ c, (parseLine.bind f).run ⟨data, false⟩ = .blocked c ⟨data, false⟩ := by
  have hf : findLF data 0 = none := by
    unfold findLF
    simp only [List.drop_zero, Option.map_eq_none_iff, List.findIdx?_eq_none_iff]
    intro x hx
    simp only [beq_eq_false_iff_ne, ne_eq]
    rintro rfl
    exact h hx
  exact ⟨_, by simp only [parseLine, Coro.line, Coro.bind, Coro.run, hf]; rfl⟩

/-- **C29 is false.** Whatever the number of bytes, an endpoint that receives that many bytes
without a line feed keeps waiting, with all of them buffered. -/
theorem C29_bounded_false (n : Nat) : ∃ data : Bytes, data.length = n ∧
    (∃ c, Request.parse.run ⟨data, false⟩ = .blocked c ⟨data, false⟩) ∧
    ∃ c, Response.parse.run ⟨data, false⟩ = .blocked c ⟨data, false⟩ := by
  refine ⟨List.replicate n 97, by simp, ?_, ?_⟩ <;>
  · exact parseLine_waits _ (by simp [List.mem_replicate]) _

/-- **C29, partial.** As soon as a line longer than 4110 bytes is complete, it is refused.
(Missing: bytes after the limit and before the end of the line, which the parser doesn't look at
until the line is complete.) -/
theorem C29_long_line_partial (line rest : Bytes) (eof : Bool) (h : 10 ∉ line)
    (hlen : 4110 < line.length + 1) {α : Type} (f : Bytes → Coro α) :
    (parseLine.bind f).run ⟨line ++ [10] ++ rest, eof⟩ =
      .raised (.securityError p!"line too long") ⟨rest, eof⟩ := by
  have h1 : Coro.line.run ⟨line ++ [10] ++ rest, eof⟩ = .done (line ++ [10]) ⟨rest, eof⟩ :=
    C10_read_line.2 ⟨line, rfl, fun b hb e => h (e ▸ hb), by simp, rfl⟩
  unfold parseLine
  rw [Coro.run_bind, Coro.run_bind, h1]
  simp only [Outcome.bind]
  rw [if_pos (by simp [maxLine]; omega)]
  rfl

/-- **C29, partial.** The same for requests: after a request line and complete headers, a line that
is too long is refused. -/
theorem C29_request_partial (path block line rest : Bytes) (hs : List (Bytes × Bytes)) (eof : Bool)
    (hp : 32 ∉ path ∧ 10 ∉ path ∧ path.length + 15 ≤ 4110)
    (hb : HeaderBlock (block ++ crlf) hs) (hn : hs.length ≤ 256) (h : 10 ∉ line)
    (hlen : 4110 < line.length + 1) :
    Request.parse.run ⟨b!"GET " ++ path ++ b!" HTTP/1.1" ++ crlf ++ block ++ line ++ [10] ++ rest, eof⟩ =
      .raised (.securityError p!"line too long") ⟨rest, eof⟩ := by
  have loop : ∀ (b : Bytes) (hs : List (Bytes × Bytes)), HeaderBlock b hs → ∀ block n hd, b = block ++ crlf →
      hs.length < n →
      (parseHeadersLoop n hd).run ⟨block ++ (line ++ [10] ++ rest), eof⟩ =
        .raised (.securityError p!"line too long") ⟨rest, eof⟩ := by
    intro b hs hb
    induction hb with
    | nil =>
      intro block n hd e hn
      have : block = [] := by
        have := congrArg List.length e
        simp only [List.length_append] at this
        exact List.length_eq_zero_iff.1 (by omega)
      subst this
      cases n with
      | zero => omega
      | succ n =>
        unfold parseHeadersLoop
        exact C29_long_line_partial line rest eof h hlen _
    | @cons l name value rest' hs hl hlen' hb' ih =>
      intro block n hd e hn
      cases n with
      | zero => omega
      | succ n =>
        have hb2 : ∃ b2, rest' = b2 ++ crlf := by
          cases hb' with
          | nil => exact ⟨[], rfl⟩
          | @cons l2 n2 v2 r2 h2 _ _ hb3 =>
            have : ∀ (b : Bytes) (hs : List (Bytes × Bytes)), HeaderBlock b hs → ∃ b2, b = b2 ++ crlf := by
              intro b hs hb
              induction hb with
              | nil => exact ⟨[], rfl⟩
              | cons _ _ _ ih => obtain ⟨b2, rfl⟩ := ih; exact ⟨_, by rw [← List.append_assoc]⟩
            obtain ⟨b3, rfl⟩ := this _ _ hb3
            exact ⟨_, by rw [← List.append_assoc]⟩
        obtain ⟨b2, rfl⟩ := hb2
        have hblock : block = l ++ crlf ++ b2 := by
          rw [← List.append_assoc] at e
          exact (List.append_cancel_right e).symm
        subst hblock
        unfold parseHeadersLoop
        have h1 : parseLine.run ⟨l ++ crlf ++ b2 ++ (line ++ [10] ++ rest), eof⟩ =
            .done l ⟨b2 ++ (line ++ [10] ++ rest), eof⟩ :=
          parseLine_iff.2 ⟨by simp, hl.noLF.1, hlen', rfl⟩
        rw [Coro.run_bind, h1]
        simp only [Outcome.bind]
        rw [if_neg hl.noLF.2]
        obtain ⟨raw, g1, g2, g3, g4⟩ := (headerLine_iff _ _ _).1 hl
        rw [g1]
        simp only [g2, Bool.not_true, Bool.false_eq_true, if_false, g3, g4]
        exact ih b2 n _ rfl (by simp at hn; omega)
  unfold Request.parse
  have h1 : parseLine.run ⟨b!"GET " ++ path ++ b!" HTTP/1.1" ++ crlf ++ block ++ line ++ [10] ++ rest, eof⟩ =
      .done (b!"GET " ++ path ++ b!" HTTP/1.1") ⟨block ++ (line ++ [10] ++ rest), eof⟩ :=
    parseLine_iff.2 ⟨by simp, by simp [hp.2.1], by simp; omega, rfl⟩
  rw [Coro.run_bind, h1]
  simp only [Outcome.bind]
  rw [(split3_iff 32 _ b!"GET" path b!"HTTP/1.1").2 ⟨by simp, by decide, hp.1⟩]
  simp only [ne_eq, not_true_eq_false, if_false]
  rw [Coro.run_bind]
  unfold parseHeaders
  rw [loop _ _ hb block _ _ rfl (by simp only [maxHeaders]; omega)]
  rfl

-- The hypotheses can be met.
example : 10 ∉ List.replicate 5000 (97 : UInt8) ∧ 4110 < (List.replicate 5000 (97 : UInt8)).length + 1 ∧
    HeaderBlock (b!"Host: a" ++ crlf ++ crlf) [(b!"Host", b!"a")] := by
  refine ⟨fun h => absurd (List.mem_replicate.1 h).2 (by decide), by rw [List.length_replicate]; decide, ?_⟩
  exact .cons ⟨b!" ", [], by decide, by simp [Blank], by simp,
    (isToken_iff _).1 (by decide), (isValue_iff _).1 (by decide), by simp [Trimmed, Blank]⟩ (by decide) .nil

end WS
