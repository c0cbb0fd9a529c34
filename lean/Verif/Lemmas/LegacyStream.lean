import Verif.Model.LegacyStream
import Verif.Lemmas.Streams

/-!
# Lemmas: reading from `asyncio.StreamReader` and from `websockets.streams.StreamReader`
-/

namespace WS.Legacy

open Coro

/-- Coroutines that give up when a read fails, when a line is too long, and when a line doesn't end
with LF. -/
inductive Careful {α : Type} : Coro α → Prop where
  | ret (a) : Careful (ret a)
  | raise (e) : Careful (raise e)
  | readLine (p k) : (∀ x, Careful (k x)) → (∀ e, ∃ e', k (.error e) = raise e') →
      (∀ l : Bytes, l.length > maxLine → ∃ e, k (.ok l) = raise e) →
      (∀ l : Bytes, ¬ [10] <:+ l → ∃ e, k (.ok l) = raise e) → Careful (Coro.readLine p k)
  | readExact (n k) : (∀ x, Careful (k x)) → (∀ e, ∃ e', k (.error e) = raise e') →
      Careful (readExact n k)

theorem careful_ofExcept {α : Type} (x : Except Exc α) : Careful (Coro.ofExcept x) := by
  cases x <;> constructor

theorem Careful.exact {α : Type} (n : Nat) {f : Bytes → Coro α} (hf : ∀ l, Careful (f l)) :
    Careful ((Coro.exact n).bind f) := by
  refine .readExact _ _ (fun x => ?_) fun e => ⟨e, rfl⟩
  cases x with
  | error e => exact .raise e
  | ok l => exact hf l

theorem Careful.line {α : Type} {f : Bytes → Coro α} (hf : ∀ l, Careful (f l)) :
    Careful (Legacy.readLine.bind f) := by
  refine .readLine _ _ (fun x => ?_) (fun e => ⟨e, rfl⟩) (fun l hl => ?_) fun l hl => ?_
  · cases x with
    | error e => exact .raise e
    | ok l =>
      simp only [Coro.ofExcept, Coro.bind]
      split
      · exact .raise _
      · split
        · exact .raise _
        · exact hf _
  · simp only [Coro.ofExcept, Coro.bind]
    rw [if_pos hl]
    exact ⟨_, rfl⟩
  · simp only [Coro.ofExcept, Coro.bind]
    split
    · exact ⟨_, rfl⟩
    · rw [if_pos]
      · exact ⟨_, rfl⟩
      · intro h
        exact hl ((List.suffix_cons 13 [10]).trans h)

theorem findLF_some' {buf : Bytes} {p i : Nat} (h : findLF buf p = some i) :
    p ≤ i ∧ i < buf.length ∧ buf[i]? = some 10 := by
  unfold findLF at h
  simp only [Option.map_eq_some_iff] at h
  obtain ⟨j, hj, rfl⟩ := h
  have := List.findIdx?_eq_some_iff_getElem.1 hj
  obtain ⟨hlt, h1, _⟩ := this
  rw [List.length_drop] at hlt
  refine ⟨by omega, by omega, ?_⟩
  simp only [List.getElem_drop, beq_iff_eq] at h1
  rw [List.getElem?_eq_getElem (by omega)]
  simp only [Option.some.injEq]
  rw [← h1]
  congr 1
  omega

theorem findLF_append {buf d : Bytes} {p i : Nat} (h : findLF buf p = some i) :
    findLF (buf ++ d) p = some i := by
  have hi := findLF_some' h
  unfold findLF at h ⊢
  simp only [Option.map_eq_some_iff] at h ⊢
  obtain ⟨j, hj, rfl⟩ := h
  refine ⟨j, ?_, rfl⟩
  rw [List.drop_append_of_le_length (by omega), List.findIdx?_append, hj]
  rfl

theorem findLF_append_none {buf d : Bytes} {p i : Nat} (h : findLF buf p = none)
    (h' : findLF (buf ++ d) p = some i) : buf.length ≤ i := by
  have hi := findLF_some' h'
  rcases Nat.lt_or_ge i buf.length with hlt | hge
  · exfalso
    have h10 : buf[i]? = some 10 := by rw [← hi.2.2, List.getElem?_append_left hlt]
    unfold findLF at h
    simp only [Option.map_eq_none_iff, List.findIdx?_eq_none_iff] at h
    have hm : (10 : UInt8) ∈ buf.drop p := by
      apply List.mem_of_getElem? (i := i - p)
      rw [List.getElem?_drop, ← h10]
      congr 1
      omega
    have := h _ hm
    simp at this
  · exact hge

/-- The bytes that a stream reader holds. -/
def AReader.plain (r : AReader) : Reader := ⟨r.buf, r.eof⟩

@[simp] theorem AReader.plain_maybeResume (r : AReader) : r.maybeResume.plain = r.plain := by
  unfold AReader.maybeResume; split <;> rfl

@[simp] theorem AReader.limit_maybeResume (r : AReader) : r.maybeResume.limit = r.limit := by
  unfold AReader.maybeResume; split <;> rfl

@[simp] theorem AReader.buf_maybeResume (r : AReader) : r.maybeResume.buf = r.buf := by
  unfold AReader.maybeResume; split <;> rfl

@[simp] theorem AReader.eof_maybeResume (r : AReader) : r.maybeResume.eof = r.eof := by
  unfold AReader.maybeResume; split <;> rfl

/-- A reader that received more data, and maybe the end of the stream. -/
def _root_.WS.Reader.more (r : Reader) (d : Bytes) (eof : Bool) : Reader := ⟨r.buf ++ d, eof⟩

/-- No data and nothing else arrives after the end of the stream. -/
def Later (eof : Bool) (d : Bytes) (eof' : Bool) : Prop := eof = true → d = [] ∧ eof' = true

/-- The coroutine doesn't return, whatever arrives later. -/
def Never {α : Type} (c : Coro α) (r : Reader) : Prop :=
  ∀ d eof, Later r.eof d eof → ∀ a q, c.run (r.more d eof) ≠ .done a q

/-- How a run on `asyncio.StreamReader` compares with a run on the same bytes in the Sans-I/O
layer. -/
def Agrees {α : Type} (c : Coro α) (r : AReader) : AOutcome α → Prop
  | .done a r' => c.run r.plain = .done a r'.plain ∧ r'.limit = r.limit ∧ r'.eof = r.eof
  | .blocked c' r' =>
    c.run r.plain = .blocked c' r'.plain ∧ Careful c' ∧ r'.limit = r.limit ∧ r'.eof = r.eof
  | .raised _ r' => Never c r.plain ∧ r'.limit = r.limit ∧ r'.eof = r.eof

/-- The first step of the coroutine, on any later reader, is the same. -/
theorem Agrees.shift {α : Type} {c c1 : Coro α} {r r1 : AReader} (hl : r1.limit = r.limit)
    (he : r1.eof = r.eof)
    (h : ∀ d eof, Later r.eof d eof → c.run (r.plain.more d eof) = c1.run (r1.plain.more d eof))
    {o : AOutcome α} (ho : Agrees c1 r1 o) : Agrees c r o := by
  have h0 : c.run r.plain = c1.run r1.plain := by
    have := h [] r.eof (fun h => ⟨rfl, h⟩)
    simp only [Reader.more, AReader.plain, List.append_nil] at this
    rw [← he] at this
    simp only [AReader.plain]
    rw [← he]
    exact this
  cases o with
  | done a r' => exact ⟨by rw [h0]; exact ho.1, ho.2.1.trans hl, ho.2.2.trans he⟩
  | blocked c' r' =>
    exact ⟨by rw [h0]; exact ho.1, ho.2.1, ho.2.2.1.trans hl, ho.2.2.2.trans he⟩
  | raised e r' =>
    refine ⟨fun d eof hd a q hq => ?_, ho.2.1.trans hl, ho.2.2.trans he⟩
    rw [h d eof hd] at hq
    refine ho.1 d eof ?_ a q hq
    simpa [AReader.plain, he] using hd

theorem arun_agrees {α : Type} {c : Coro α} (hc : Careful c) (r : AReader)
    (hl : maxLine ≤ r.limit + 1) (hr : c.Ready r.plain) : Agrees c r (c.arun r) := by
  induction hc generalizing r with
  | ret a => exact ⟨rfl, rfl, rfl⟩
  | raise e => exact ⟨fun d eof _ a q hq => by simp [Coro.run] at hq, rfl, rfl⟩
  | readLine p k hk he hlong hlf ih =>
    obtain ⟨hp, hn, hf⟩ := hr.line_inv
    simp only [Coro.arun]
    cases h0 : findLF r.buf p with
    | some i =>
      have hi := findLF_some' h0
      have hsame : ∀ d eof, (Coro.readLine p k).run (r.plain.more d eof) =
          (k (.ok (r.buf.take (i + 1)))).run ⟨r.buf.drop (i + 1) ++ d, eof⟩ := by
        intro d eof
        simp only [Coro.run, Reader.more, AReader.plain, findLF_append h0]
        rw [List.take_append_of_le_length (by omega), List.drop_append_of_le_length (by omega)]
      simp only
      split
      · rename_i hgt
        obtain ⟨e', he'⟩ := he (.valueError p!"Separator is found, but chunk is longer than limit")
        rw [he']
        refine ⟨fun d eof _ a q hq => ?_, by simp, by simp⟩
        rw [hsame d eof] at hq
        obtain ⟨e2, he2⟩ := hlong (r.buf.take (i + 1)) (by
          rw [List.length_take]; omega)
        rw [he2] at hq
        simp [Coro.run] at hq
      · refine Agrees.shift (by simp) (by simp) ?_ (ih _ _ (by simpa using hl) (.fresh (hf _)))
        intro d eof _
        rw [hsame d eof]
        simp only [AReader.plain_maybeResume]
        rfl
    | none =>
      simp only
      split
      · rename_i hgt
        obtain ⟨e', he'⟩ :=
          he (.valueError p!"Separator is not found, and chunk exceed the limit")
        rw [he']
        refine ⟨fun d eof _ a q hq => ?_, by simp, by simp⟩
        simp only [Coro.run, Reader.more, AReader.plain] at hq
        cases h1 : findLF (r.buf ++ d) p with
        | none =>
          simp only [h1] at hq
          split at hq
          · obtain ⟨e2, he2⟩ := he .eofError
            rw [he2] at hq
            simp [Coro.run] at hq
          · cases hq
        | some i =>
          have hge := findLF_append_none h0 h1
          have hi := findLF_some' h1
          simp only [h1] at hq
          obtain ⟨e2, he2⟩ := hlong ((r.buf ++ d).take (i + 1)) (by
            rw [List.length_take]; omega)
          rw [he2] at hq
          simp [Coro.run] at hq
      · split
        · rename_i heof
          have hall : ∀ b ∈ r.buf, b ≠ 10 := by
            have := findLF_eq_zero hp hn
            simp only [AReader.plain] at this
            rw [← findLF_none_iff, ← this]
            exact h0
          obtain ⟨e3, he3⟩ := hlf r.buf (fun h => hall 10 (h.subset (by simp)) rfl)
          have hnever : Never (Coro.readLine p k) r.plain := by
            intro d eof hd a q hq
            obtain ⟨rfl, rfl⟩ := hd heof
            simp only [Coro.run, Reader.more, AReader.plain, List.append_nil, h0] at hq
            obtain ⟨e2, he2⟩ := he .eofError
            simp only [he2, if_true] at hq
            cases hq
          rw [he3]
          exact ⟨hnever, rfl, rfl⟩
        · rename_i heof
          refine ⟨?_, .readLine _ _ hk he hlong hlf, rfl, rfl⟩
          simp only [Coro.run, AReader.plain, AReader.await, h0]
          simp [heof]
  | readExact n k hk he ih =>
    have hf : ∀ x, Fresh (k x) := by
      cases hr with
      | fresh h => cases h with
        | readExact _ _ hk => exact hk
    simp only [Coro.arun]
    split
    · rename_i hlt
      split
      · rename_i heof
        obtain ⟨e2, he2⟩ := he .eofError
        rw [he2]
        refine ⟨fun d eof hd a q hq => ?_, rfl, rfl⟩
        obtain ⟨rfl, rfl⟩ := hd heof
        simp only [Coro.run, Reader.more, AReader.plain, List.append_nil, hlt, if_true, he2] at hq
        cases hq
      · rename_i heof
        refine ⟨?_, .readExact _ _ hk he, rfl, rfl⟩
        simp only [Coro.run, AReader.plain, AReader.await, hlt]
        simp [heof]
    · rename_i hge
      refine Agrees.shift (by simp) (by simp) ?_ (ih _ _ (by simpa using hl) (.fresh (hf _)))
      intro d eof _
      have : ¬ (r.buf ++ d).length < n := by simp; omega
      rw [AReader.plain_maybeResume]
      simp only [Coro.run, Reader.more, AReader.plain, this, if_false]
      rw [List.take_append_of_le_length (by omega), List.drop_append_of_le_length (by omega)]

/-- What an outcome becomes when more data arrives, and maybe the end of the stream: a blocked
coroutine is resumed. -/
def _root_.WS.Outcome.more {α : Type} (o : WS.Outcome α) (d : Bytes) (eof : Bool) : WS.Outcome α :=
  match o with
  | .done a r => .done a (r.more d eof)
  | .raised e r => .raised e (r.more d eof)
  | .blocked c r => c.run (r.more d eof)

theorem _root_.WS.Coro.run_more {α : Type} {c : Coro α} {r : Reader} (heof : r.eof = false)
    (h : c.Ready r) (d : Bytes) (eof : Bool) : c.run (r.more d eof) = (c.run r).more d eof := by
  induction c generalizing r with
  | ret a => simp [Coro.run, Outcome.more]
  | raise e => simp [Coro.run, Outcome.more]
  | readLine p k ih =>
    obtain ⟨hp, hn, hk⟩ := h.line_inv
    cases h0 : findLF r.buf p with
    | some i =>
      have hi := findLF_some' h0
      simp only [Coro.run, Reader.more, h0, findLF_append h0]
      rw [List.take_append_of_le_length (by omega), List.drop_append_of_le_length (by omega)]
      exact ih _ (r := { r with buf := r.buf.drop (i + 1) }) heof (.fresh (hk _))
    | none =>
      have e2 := findLF_eq_zero hp hn
      have h00 : findLF r.buf 0 = none := by rw [← e2]; exact h0
      have hall := findLF_none_iff.1 h00
      have e1 : findLF (r.buf ++ d) p = findLF (r.buf ++ d) 0 :=
        findLF_eq_zero (by simp; omega) (by
          intro b hb
          rw [List.take_append_of_le_length hp] at hb
          exact hn b hb)
      have e3 : findLF (r.buf ++ d) r.buf.length = findLF (r.buf ++ d) 0 :=
        findLF_eq_zero (by simp) (by
          intro b hb
          rw [List.take_append_of_le_length (Nat.le_refl _)] at hb
          exact noLF_length hall b hb)
      simp only [Coro.run, Reader.more, h0, heof, Outcome.more, Bool.false_eq_true, if_false, e1, e3]
  | readExact n k ih =>
    have hk : ∀ x, Fresh (k x) := by
      cases h with
      | fresh h => cases h with
        | readExact _ _ hk => exact hk
    by_cases hlt : r.buf.length < n
    · simp [Coro.run, hlt, heof, Outcome.more]
    · have hlt' : ¬ (r.buf ++ d).length < n := by simp; omega
      simp only [Coro.run, Reader.more, hlt, hlt', if_false]
      rw [List.take_append_of_le_length (by omega), List.drop_append_of_le_length (by omega)]
      exact ih _ (r := { r with buf := r.buf.drop n }) heof (.fresh (hk _))
  | readToEof k ih =>
    simp [Coro.run, heof, Outcome.more]

/-- Coroutines that only read exact numbers of bytes and give up when that fails. -/
inductive Exacting {α : Type} : Coro α → Prop where
  | ret (a) : Exacting (ret a)
  | raise (e) : Exacting (raise e)
  | readExact (n k) : (∀ x, Exacting (k x)) → (∀ e, k (.error e) = raise e) →
      Exacting (readExact n k)

theorem Exacting.careful {α : Type} {c : Coro α} (h : Exacting c) : Careful c := by
  induction h with
  | ret a => exact .ret a
  | raise e => exact .raise e
  | readExact n k _ he ih => exact .readExact n k ih fun e => ⟨e, he e⟩

theorem Exacting.fresh {α : Type} {c : Coro α} (h : Exacting c) : Fresh c := by
  induction h with
  | ret a => exact .ret a
  | raise e => exact .raise e
  | readExact n k _ he ih => exact .readExact n k ih

theorem Exacting.exact {α : Type} (n : Nat) {f : Bytes → Coro α} (hf : ∀ l, Exacting (f l)) :
    Exacting ((Coro.exact n).bind f) := by
  refine .readExact _ _ (fun x => ?_) fun e => rfl
  cases x with
  | error e => exact .raise e
  | ok l => exact hf l

/-- With exact reads, the limit doesn't matter. -/
theorem arun_agrees_exact {α : Type} {c : Coro α} (hc : Exacting c) (r : AReader) :
    Agrees c r (c.arun r) := by
  induction hc generalizing r with
  | ret a => exact ⟨rfl, rfl, rfl⟩
  | raise e => exact ⟨fun d eof _ a q hq => by simp [Coro.run] at hq, rfl, rfl⟩
  | readExact n k hk he ih =>
    simp only [Coro.arun]
    split
    · rename_i hlt
      split
      · rename_i heof
        rw [he]
        refine ⟨fun d eof hd a q hq => ?_, rfl, rfl⟩
        obtain ⟨rfl, rfl⟩ := hd heof
        simp only [Coro.run, Reader.more, AReader.plain, List.append_nil, hlt, if_true, he] at hq
        cases hq
      · rename_i heof
        refine ⟨?_, (Exacting.readExact n k hk he).careful, rfl, rfl⟩
        simp only [Coro.run, AReader.plain, AReader.await, hlt]
        simp [heof]
    · rename_i hge
      refine Agrees.shift (by simp) (by simp) ?_ (ih _ _)
      intro d eof _
      have : ¬ (r.buf ++ d).length < n := by simp; omega
      rw [AReader.plain_maybeResume]
      simp only [Coro.run, Reader.more, AReader.plain, this, if_false]
      rw [List.take_append_of_le_length (by omega), List.drop_append_of_le_length (by omega)]

/-- With exact reads, exceptions are the same too. -/
theorem arun_exacting {α : Type} {c : Coro α} (hc : Exacting c) (r : AReader) {x : Exc}
    {r' : AReader} (h : c.arun r = .raised x r') : ∃ q, c.run r.plain = .raised x q := by
  induction hc generalizing r with
  | ret a => simp [Coro.arun] at h
  | raise e =>
    simp only [Coro.arun, AOutcome.raised.injEq] at h
    exact ⟨r.plain, by simp [Coro.run, h.1]⟩
  | readExact n k hk he ih =>
    simp only [Coro.arun] at h
    split at h
    · rename_i hlt
      split at h
      · rename_i heof
        rw [he] at h
        simp only [Coro.arun, AOutcome.raised.injEq] at h
        refine ⟨r.plain, ?_⟩
        simp only [Coro.run, AReader.plain, hlt, if_true, heof, he, h.1]
      · cases h
    · rename_i hge
      obtain ⟨q, hq⟩ := ih _ _ h
      refine ⟨q, ?_⟩
      rw [← hq, AReader.plain_maybeResume]
      simp only [Coro.run, AReader.plain, hge, if_false]

theorem Exacting.blocked {α : Type} {c : Coro α} (hc : Exacting c) (r : AReader) {c' : Coro α}
    {r' : AReader} (h : c.arun r = .blocked c' r') : Exacting c' := by
  induction hc generalizing r with
  | ret a => simp [Coro.arun] at h
  | raise e => simp [Coro.arun] at h
  | readExact n k hk he ih =>
    simp only [Coro.arun] at h
    split at h
    · split at h
      · rw [he] at h
        simp [Coro.arun] at h
      · simp only [AOutcome.blocked.injEq] at h
        rw [← h.1]
        exact .readExact n k hk he
    · exact ih _ _ h

end WS.Legacy
