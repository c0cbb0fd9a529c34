import Verif.Model.Http11
import Verif.Spec.Http
import Verif.Lemmas.Frames
import Verif.Props.Streams

/-!
# Lemmas about HTTP parsing
-/

namespace WS

open Spec

theorem Coro.bind_done_iff {α β : Type} {c : Coro α} {f : α → Coro β} {r r' : Reader} {b : β} :
    (c.bind f).run r = .done b r' ↔ ∃ a r1, c.run r = .done a r1 ∧ (f a).run r1 = .done b r' := by
  rw [Coro.run_bind]
  cases c.run r with
  | done a r1 =>
    simp only [Outcome.bind, Outcome.done.injEq]
    exact ⟨fun h => ⟨a, r1, ⟨rfl, rfl⟩, h⟩, fun ⟨_, _, ⟨h1, h2⟩, h⟩ => by subst h1 h2; exact h⟩
  | raised e r1 => simp [Outcome.bind]
  | blocked c r1 => simp [Outcome.bind]

theorem Coro.ret_done_iff {α : Type} {a b : α} {r r' : Reader} :
    (Coro.ret a).run r = .done b r' ↔ a = b ∧ r = r' := by
  simp [Coro.run]

theorem Coro.raise_done_iff {α : Type} {b : α} {e : Exc} {r r' : Reader} :
    (Coro.raise e).run r = .done b r' ↔ False := by
  simp [Coro.run]

theorem parseLine_iff {r r' : Reader} {line : Bytes} :
    parseLine.run r = .done line r' ↔
      r.buf = line ++ crlf ++ r'.buf ∧ 10 ∉ line ∧ line.length + 2 ≤ 4110 ∧ r'.eof = r.eof := by
  unfold parseLine
  rw [Coro.bind_done_iff]
  constructor
  · rintro ⟨l, r1, h1, h2⟩
    obtain ⟨s, rfl, h3, h4, h5⟩ := C10_read_line.1 h1
    split at h2
    · simp [Coro.run] at h2
    · rename_i hlen
      split at h2
      · simp [Coro.run] at h2
      · rename_i hsuf
        rw [Coro.ret_done_iff] at h2
        obtain ⟨h2, rfl⟩ := h2
        simp only [Decidable.not_not] at hsuf
        obtain ⟨t, ht⟩ := hsuf
        have hs : s = t ++ [13] := by
          have : t ++ [13] ++ [10] = s ++ [10] := by simpa using ht
          exact (List.append_cancel_right this).symm
        subst hs
        have hl : line = t := by
          rw [← h2]
          have : (t ++ [13] ++ [10]).length - 2 = t.length := by simp
          rw [this, List.append_assoc, List.take_left]
        subst hl
        refine ⟨by rw [h4]; simp [crlf], fun h => h3 10 (by simp [h]) rfl, ?_, h5⟩
        simp only [maxLine, List.length_append, List.length_cons, List.length_nil] at hlen
        omega
  · rintro ⟨h1, h2, h3, h4⟩
    refine ⟨line ++ [13] ++ [10], r', C10_read_line.2 ⟨line ++ [13], rfl, ?_, ?_, h4⟩, ?_⟩
    · intro b hb
      simp only [List.mem_append, List.mem_cons, List.not_mem_nil, or_false] at hb
      rcases hb with hb | rfl
      · rintro rfl; exact h2 hb
      · decide
    · rw [h1]; simp [crlf]
    · rw [if_neg (by simp [maxLine]; omega), if_neg, Coro.ret_done_iff]
      · refine ⟨?_, rfl⟩
        have : (line ++ [13] ++ [10]).length - 2 = line.length := by simp
        rw [this, List.append_assoc, List.take_left]
      · simp only [Decidable.not_not]
        exact ⟨line, by simp⟩

theorem isTokenChar_iff (c : Nat) : isTokenChar c = true ↔ TokenChar c := by
  simp only [isTokenChar, TokenChar, Bool.or_eq_true, Bool.and_eq_true, decide_eq_true_eq,
    List.contains_eq_mem]
  constructor
  · rintro (((h | h) | h) | h)
    · left
      simp only [List.mem_cons, List.not_mem_nil, or_false] at h ⊢
      omega
    · exact .inr (.inl h)
    · exact .inr (.inr (.inr h))
    · exact .inr (.inr (.inl h))
  · rintro (h | h | h | h)
    · left; left; left
      simp only [List.mem_cons, List.not_mem_nil, or_false] at h ⊢
      omega
    · exact .inl (.inl (.inr h))
    · exact .inr h
    · exact .inl (.inr h)

theorem isToken_iff (b : Bytes) : isToken b = true ↔ Token b := by
  unfold isToken Token
  simp only [Bool.and_eq_true, List.all_eq_true, isTokenChar_iff]
  cases b <;> simp

theorem isValue_iff (b : Bytes) : isValue b = true ↔ ∀ c ∈ b, ValueByte c := by
  unfold isValue
  simp only [List.all_eq_true]
  refine ⟨fun h c hc => ?_, fun h c hc => ?_⟩ <;>
  · have h1 := h c hc
    have h2 := c.toNat_lt
    simp only [isValueChar, ValueByte, Bool.or_eq_true, Bool.and_eq_true, decide_eq_true_eq,
      beq_iff_eq] at h1 ⊢
    omega

theorem Spec.TokenChar.ascii {c : Nat} (h : TokenChar c) : 33 ≤ c ∧ c ≤ 126 ∧ c ≠ 58 ∧ c ≠ 44 ∧ c ≠ 34 ∧
    c ≠ 59 ∧ c ≠ 61 ∧ c ≠ 47 ∧ c ≠ 92 := by
  rcases h with h | h | h | h
  · simp only [List.mem_cons, List.not_mem_nil, or_false] at h
    omega
  · omega
  · omega
  · omega

theorem splitAt1_iff (sep : UInt8) (b x y : Bytes) :
    splitAt1 sep b = some (x, y) ↔ b = x ++ sep :: y ∧ sep ∉ x := by
  induction b generalizing x with
  | nil => simp [splitAt1]
  | cons c cs ih =>
    unfold splitAt1
    by_cases hc : c = sep
    · subst hc
      simp only [if_true, Option.some.injEq, Prod.mk.injEq]
      constructor
      · rintro ⟨rfl, rfl⟩; exact ⟨rfl, by simp⟩
      · rintro ⟨h1, h2⟩
        cases x with
        | nil => simp at h1; exact ⟨rfl, h1⟩
        | cons d ds =>
          simp only [List.cons_append, List.cons.injEq] at h1
          exact absurd (by simp [h1.1]) h2
    · simp only [hc, if_false]
      constructor
      · intro h
        cases hs : splitAt1 sep cs with
        | none => rw [hs] at h; cases h
        | some p =>
          obtain ⟨a, b⟩ := p
          rw [hs] at h
          simp only [Option.some.injEq, Prod.mk.injEq] at h
          obtain ⟨rfl, rfl⟩ := h
          obtain ⟨h1, h2⟩ := (ih a).1 hs
          refine ⟨by rw [h1]; rfl, ?_⟩
          simp only [List.mem_cons, not_or]
          exact ⟨fun h => hc h.symm, h2⟩
      · rintro ⟨h1, h2⟩
        cases x with
        | nil => simp only [List.nil_append, List.cons.injEq] at h1; exact absurd h1.1 hc
        | cons d ds =>
          simp only [List.cons_append, List.cons.injEq] at h1
          obtain ⟨rfl, h1⟩ := h1
          rw [(ih ds).2 ⟨h1, fun h => h2 (by simp [h])⟩]

theorem split3_iff (sep : UInt8) (b x y z : Bytes) :
    split3 sep b = some (x, y, z) ↔ b = x ++ sep :: (y ++ sep :: z) ∧ sep ∉ x ∧ sep ∉ y := by
  unfold split3
  constructor
  · intro h
    cases h1 : splitAt1 sep b with
    | none => rw [h1] at h; cases h
    | some p =>
      obtain ⟨a, r⟩ := p
      rw [h1] at h
      simp only at h
      cases h2 : splitAt1 sep r with
      | none => rw [h2] at h; cases h
      | some q =>
        obtain ⟨c, d⟩ := q
        rw [h2] at h
        simp only [Option.some.injEq, Prod.mk.injEq] at h
        obtain ⟨rfl, rfl, rfl⟩ := h
        obtain ⟨e1, e2⟩ := (splitAt1_iff _ _ _ _).1 h1
        obtain ⟨e3, e4⟩ := (splitAt1_iff _ _ _ _).1 h2
        exact ⟨by rw [e1, e3], e2, e4⟩
  · rintro ⟨h1, h2, h3⟩
    rw [(splitAt1_iff sep b x _).2 ⟨h1, h2⟩]
    simp only
    rw [(splitAt1_iff sep _ y z).2 ⟨rfl, h3⟩]

theorem isBlank_iff (c : UInt8) : isBlank c = true ↔ Blank c := by
  simp [isBlank, Blank]

theorem dropWhile_eq {α : Type} {p : α → Bool} {a b : List α} (ha : ∀ x ∈ a, p x = true)
    (hb : ∀ x, b.head? = some x → p x = false) : (a ++ b).dropWhile p = b := by
  induction a with
  | nil =>
    cases b with
    | nil => rfl
    | cons x xs => simp [List.dropWhile, hb x rfl]
  | cons x xs ih =>
    have := ha x (by simp)
    simp only [List.cons_append, List.dropWhile, this]
    exact ih fun y hy => ha y (by simp [hy])

theorem dropWhile_split {α : Type} (p : α → Bool) (l : List α) :
    ∃ a, l = a ++ l.dropWhile p ∧ (∀ x ∈ a, p x = true) ∧
      ∀ x, (l.dropWhile p).head? = some x → p x = false := by
  induction l with
  | nil => exact ⟨[], rfl, by simp, by simp⟩
  | cons x xs ih =>
    cases hp : p x with
    | false =>
      refine ⟨[], by simp [List.dropWhile, hp], by simp, ?_⟩
      intro y hy
      simp only [List.dropWhile, hp, List.head?_cons, Option.some.injEq] at hy
      rw [← hy]; exact hp
    | true =>
      obtain ⟨a, h1, h2, h3⟩ := ih
      refine ⟨x :: a, ?_, ?_, ?_⟩
      · simp only [List.dropWhile, hp, List.cons_append, ← h1]
      · intro y hy
        simp only [List.mem_cons] at hy
        rcases hy with rfl | hy
        · exact hp
        · exact h2 y hy
      · simpa only [List.dropWhile, hp] using h3

/-- Stripping both ends. -/
theorem strip_iff {α : Type} (p : α → Bool) (l v : List α) :
    ((l.dropWhile p).reverse.dropWhile p).reverse = v ↔
      ∃ a b, l = a ++ v ++ b ∧ (∀ x ∈ a, p x = true) ∧ (∀ x ∈ b, p x = true) ∧
        (∀ x, v.head? = some x → p x = false) ∧ (∀ x, v.getLast? = some x → p x = false) := by
  constructor
  · intro h
    obtain ⟨a, h1, h2, h3⟩ := dropWhile_split p l
    obtain ⟨b, g1, g2, g3⟩ := dropWhile_split p (l.dropWhile p).reverse
    have hv : (l.dropWhile p).reverse.dropWhile p = v.reverse := by rw [← h, List.reverse_reverse]
    rw [hv] at g1 g3
    have e : l.dropWhile p = v ++ b.reverse := by
      have := congrArg List.reverse g1
      simpa using this
    refine ⟨a, b.reverse, by rw [List.append_assoc, ← e]; exact h1, h2, ?_, ?_, ?_⟩
    · intro x hx; exact g2 x (by simpa using hx)
    · intro x hx
      refine h3 x ?_
      rw [e]
      cases v with
      | nil => cases hx
      | cons y ys => exact hx
    · intro x hx
      refine g3 x ?_
      rw [List.head?_reverse]; exact hx
  · rintro ⟨a, b, rfl, h1, h2, h3, h4⟩
    have key : (a ++ v ++ b).dropWhile p = v ++ b ∨ (v = [] ∧ ((a ++ v ++ b).dropWhile p) = []) := by
      cases v with
      | nil =>
        right
        refine ⟨rfl, ?_⟩
        have := dropWhile_eq (p := p) (a := a ++ b) (b := [])
          (by intro x hx; rcases List.mem_append.1 hx with h | h
              · exact h1 x h
              · exact h2 x h) (by simp)
        simpa using this
      | cons y ys =>
        left
        rw [List.append_assoc]
        exact dropWhile_eq h1 (by
          intro x hx
          exact h3 x (by simpa using hx))
    rcases key with h | ⟨rfl, h⟩
    · rw [h, List.reverse_append, dropWhile_eq (by simpa using h2)]
      · simp
      · intro x hx
        rw [List.head?_reverse] at hx
        exact h4 x hx
    · rw [h]; rfl

theorem stripBlank_iff (l v : Bytes) :
    stripBlank l = v ↔ ∃ a b, l = a ++ v ++ b ∧ (∀ x ∈ a, Blank x) ∧ (∀ x ∈ b, Blank x) ∧
      Trimmed v := by
  unfold stripBlank Trimmed
  rw [strip_iff]
  have : ∀ x, isBlank x = false ↔ ¬ Blank x := by
    intro x; rw [← isBlank_iff]; simp
  simp only [isBlank_iff, this]

theorem headerLine_iff (line name value : Bytes) :
    HeaderLine line name value ↔ ∃ raw, splitAt1 58 line = some (name, raw) ∧
      isToken name = true ∧ stripBlank raw = value ∧ isValue value = true := by
  constructor
  · rintro ⟨o1, o2, rfl, h1, h2, h3, h4, h5⟩
    refine ⟨o1 ++ value ++ o2, ?_, (isToken_iff _).2 h3, (stripBlank_iff _ _).2
      ⟨o1, o2, rfl, h1, h2, h5⟩, (isValue_iff _).2 h4⟩
    rw [splitAt1_iff]
    refine ⟨by simp, fun h => ?_⟩
    exact (h3.2 _ h).ascii.2.2.1 rfl
  · rintro ⟨raw, h1, h2, h3, h4⟩
    obtain ⟨e1, e2⟩ := (splitAt1_iff _ _ _ _).1 h1
    obtain ⟨a, b, g1, g2, g3, g4⟩ := (stripBlank_iff _ _).1 h3
    refine ⟨a, b, ?_, g2, g3, (isToken_iff _).1 h2, (isValue_iff _).1 h4, g4⟩
    rw [e1, g1]; simp

theorem Spec.HeaderLine.noLF {line name value : Bytes} (h : HeaderLine line name value) :
    10 ∉ line ∧ line ≠ [] := by
  obtain ⟨o1, o2, rfl, h1, h2, h3, h4, h5⟩ := h
  refine ⟨?_, by simp⟩
  simp only [List.mem_append, not_or]
  refine ⟨⟨⟨⟨fun h => ?_, by simp⟩, fun h => ?_⟩, fun h => ?_⟩, fun h => ?_⟩
  · exact absurd (h3.2 _ h).ascii.1 (by decide)
  · rcases h1 _ h with h | h <;> exact absurd h (by decide)
  · have := h4 _ h
    revert this
    simp [ValueByte]
  · rcases h2 _ h with h | h <;> exact absurd h (by decide)

/-- The `str` names and values of parsed headers. -/
def headerStrs (hs : List (Bytes × Bytes)) : List (PyStr × PyStr) :=
  hs.map fun p => (p.1.map UInt8.toNat, surrogateEscape p.2)

theorem parseHeadersLoop_iff {n : Nat} {h h' : Headers} {r r' : Reader} :
    (parseHeadersLoop n h).run r = .done h' r' ↔
      ∃ block hs, HeaderBlock block hs ∧ hs.length < n ∧ r.buf = block ++ r'.buf ∧
        r'.eof = r.eof ∧ h' = (headerStrs hs).foldl (fun h p => h.set p.1 p.2) h := by
  induction n generalizing h r with
  | zero => simp [parseHeadersLoop, Coro.run]
  | succ n ih =>
    unfold parseHeadersLoop
    rw [Coro.bind_done_iff]
    constructor
    · rintro ⟨line, r1, h1, h2⟩
      obtain ⟨e1, e2, e3, e4⟩ := parseLine_iff.1 h1
      split at h2
      · rename_i hl
        rw [Coro.ret_done_iff] at h2
        obtain ⟨rfl, rfl⟩ := h2
        subst hl
        exact ⟨_, [], .nil, by simp, by simpa using e1, e4, rfl⟩
      · rename_i hl
        split at h2
        · simp [Coro.run] at h2
        · rename_i name raw hsp
          split at h2
          · simp [Coro.run] at h2
          · rename_i ht
            simp only at h2
            split at h2
            · simp [Coro.run] at h2
            · rename_i hv
              obtain ⟨block, hs, g1, g2, g3, g4, g5⟩ := ih.1 h2
              refine ⟨line ++ crlf ++ block, (name, stripBlank raw) :: hs,
                .cons ?_ e3 g1, by simp; omega, ?_, by rw [g4, e4], ?_⟩
              · rw [headerLine_iff]
                exact ⟨raw, hsp, by simpa using ht, rfl, by simpa using hv⟩
              · rw [e1, g3]; simp
              · rw [g5]; rfl
    · rintro ⟨block, hs, h1, h2, h3, h4, h5⟩
      cases h1 with
      | nil =>
        refine ⟨[], r', parseLine_iff.2 ⟨by simpa using h3, by simp, by simp, h4⟩, ?_⟩
        rw [if_pos rfl, Coro.ret_done_iff]
        exact ⟨h5.symm, rfl⟩
      | @cons line name value rest hs hl hlen hb =>
        refine ⟨line, ⟨rest ++ r'.buf, r.eof⟩, parseLine_iff.2 ⟨by rw [h3]; simp, hl.noLF.1, hlen, rfl⟩, ?_⟩
        rw [if_neg hl.noLF.2]
        obtain ⟨raw, g1, g2, g3, g4⟩ := (headerLine_iff _ _ _).1 hl
        rw [g1]
        simp only [g2, Bool.not_true, Bool.false_eq_true, if_false, g3, g4]
        rw [ih]
        exact ⟨rest, hs, hb, by simp at h2; omega, rfl, h4, h5⟩

theorem parseHeaders_iff {h : Headers} {r r' : Reader} :
    parseHeaders.run r = .done h r' ↔
      ∃ block hs, HeaderBlock block hs ∧ hs.length ≤ 256 ∧ r.buf = block ++ r'.buf ∧
        r'.eof = r.eof ∧ h = Headers.ofList (headerStrs hs) := by
  unfold parseHeaders
  rw [parseHeadersLoop_iff]
  constructor
  · rintro ⟨a, b, h1, h2, h3⟩
    exact ⟨a, b, h1, by simp only [maxHeaders] at h2; omega, h3⟩
  · rintro ⟨a, b, h1, h2, h3⟩
    exact ⟨a, b, h1, by simp only [maxHeaders]; omega, h3⟩

theorem surrogateEscape_eq (b : Bytes) : surrogateEscape b = asStr b := by
  unfold surrogateEscape asStr
  apply List.map_congr_left
  intro c _
  by_cases h : c.toNat < 128
  · rw [if_pos h, if_pos (by omega)]
  · rw [if_neg h, if_neg (by omega)]

theorem Spec.Token.asStr {b : Bytes} (h : Token b) : b.map UInt8.toNat = Spec.asStr b := by
  unfold Spec.asStr
  apply List.map_congr_left
  intro c hc
  rw [if_pos]
  have := (h.2 c hc).ascii
  omega

theorem Spec.HeaderBlock.tokens {block : Bytes} {hs : List (Bytes × Bytes)} (h : HeaderBlock block hs) :
    headerStrs hs = hs.map fun p => (Spec.asStr p.1, Spec.asStr p.2) := by
  induction h with
  | nil => rfl
  | cons hl _ _ ih =>
    obtain ⟨_, _, _, _, _, ht, _⟩ := hl
    simp only [headerStrs, List.map_cons, List.cons.injEq] at ih ⊢
    exact ⟨by rw [ht.asStr, surrogateEscape_eq], ih⟩

theorem Request.parse_iff {r r' : Reader} {q : Request} :
    Request.parse.run r = .done q r' ↔
      ∃ bytes path hs, RequestText bytes path hs ∧ r.buf = bytes ++ r'.buf ∧ r'.eof = r.eof ∧
        q = ⟨asStr path, Headers.ofList (hs.map fun p => (asStr p.1, asStr p.2))⟩ := by
  unfold Request.parse
  rw [Coro.bind_done_iff]
  constructor
  · rintro ⟨line, r1, h1, h2⟩
    obtain ⟨e1, e2, e3, e4⟩ := parseLine_iff.1 h1
    split at h2
    · simp [Coro.run] at h2
    · rename_i m p v hsp
      obtain ⟨s1, s2, s3⟩ := (split3_iff _ _ _ _ _).1 hsp
      split at h2
      · simp [Coro.run] at h2
      · rename_i hm
        split at h2
        · simp [Coro.run] at h2
        · rename_i hv
          simp only [ne_eq, Decidable.not_not] at hm hv
          rw [Coro.bind_done_iff] at h2
          obtain ⟨hd, r2, h3, h4⟩ := h2
          rw [Coro.ret_done_iff] at h4
          obtain ⟨rfl, rfl⟩ := h4
          obtain ⟨block, hs, g1, g2, g3, g4, g5⟩ := parseHeaders_iff.1 h3
          refine ⟨_, p, hs, ⟨block, rfl, s3, ?_, ?_, g1, g2⟩, ?_, by rw [g4, e4], ?_⟩
          · intro h; exact e2 (by rw [s1]; simp [h])
          · rw [s1, hm, hv] at e3; simp at e3; omega
          · rw [e1, s1, hm, hv, g3]; simp
          · rw [g5, surrogateEscape_eq, HeaderBlock.tokens g1]
  · rintro ⟨bytes, path, hs, ⟨block, rfl, h1, h2, h3, h4, h5⟩, h6, h7, rfl⟩
    refine ⟨b!"GET " ++ path ++ b!" HTTP/1.1", ⟨block ++ r'.buf, r.eof⟩, parseLine_iff.2
      ⟨by rw [h6]; simp, ?_, by simp; omega, rfl⟩, ?_⟩
    · simp [h2]
    · rw [(split3_iff 32 _ b!"GET" path b!"HTTP/1.1").2 ⟨by simp, by decide, h1⟩]
      simp only [ne_eq, not_true_eq_false, if_false]
      rw [Coro.bind_done_iff]
      refine ⟨_, _, parseHeaders_iff.2 ⟨block, hs, h4, h5, rfl, h7, rfl⟩, ?_⟩
      rw [Coro.ret_done_iff, surrogateEscape_eq, HeaderBlock.tokens h4]
      exact ⟨rfl, rfl⟩

end WS
