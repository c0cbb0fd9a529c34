import Verif.Lemmas.Streams

/-!
# Properties of streams.py: C10

The history of a reader is the sequence of calls made on it.  The specification talks about the
concatenation of everything fed and everything returned by reads.
-/

namespace WS

/-- What the successive reads performed by one resumption of a coroutine return (exceptions
return nothing). -/
def Coro.returned {α : Type} : Coro α → Reader → List Bytes
  | .ret _, _ => []
  | .raise _, _ => []
  | .readLine p k, r =>
    match findLF r.buf p with
    | some i => r.buf.take (i + 1) ::
        (k (.ok (r.buf.take (i + 1)))).returned { r with buf := r.buf.drop (i + 1) }
    | none => if r.eof then (k (.error .eofError)).returned r else []
  | .readExact n k, r =>
    if r.buf.length < n then
      if r.eof then (k (.error .eofError)).returned r else []
    else r.buf.take n :: (k (.ok (r.buf.take n))).returned { r with buf := r.buf.drop n }
  | .readToEof k, r =>
    if r.eof then r.buf :: (k r.buf).returned { r with buf := [] } else []

theorem Coro.returned_append {α : Type} (c : Coro α) (r : Reader) :
    (c.returned r).flatten ++ (c.run r).reader.buf = r.buf := by
  induction c generalizing r with
  | ret a => rfl
  | raise e => rfl
  | readLine p k ih =>
    simp only [Coro.returned, Coro.run]
    cases h0 : findLF r.buf p with
    | some i =>
      have := ih (.ok (r.buf.take (i+1))) { r with buf := r.buf.drop (i + 1) }
      simp only [List.flatten_cons, List.append_assoc, this, List.take_append_drop]
    | none =>
      simp only
      split
      · exact ih _ r
      · rfl
  | readExact n k ih =>
    simp only [Coro.returned, Coro.run]
    split
    · split
      · exact ih _ r
      · rfl
    · have := ih (.ok (r.buf.take n)) { r with buf := r.buf.drop n }
      simp only [List.flatten_cons, List.append_assoc, this, List.take_append_drop]
  | readToEof k ih =>
    simp only [Coro.returned, Coro.run]
    split
    · have := ih r.buf { r with buf := [] }
      simp only [List.flatten_cons, List.append_assoc, this, List.append_nil]
    · rfl

/-- Feed a coroutine with successive chunks, stepping it after each as long as it is suspended.
Yields everything returned by its reads, and the final outcome. -/
def Coro.feedAll {α : Type} : Outcome α → List Bytes → List Bytes × Outcome α
  | o, [] => ([], o)
  | .blocked c r, d :: ds =>
    let (out, o) := feedAll (c.run (r.push d)) ds
    (c.returned (r.push d) ++ out, o)
  | .done a r, d :: ds => feedAll (.done a (r.push d)) ds
  | .raised e r, d :: ds => feedAll (.raised e (r.push d)) ds

theorem Coro.feedAll_append {α : Type} (o : Outcome α) (ds : List Bytes) :
    (Coro.feedAll o ds).1.flatten ++ (Coro.feedAll o ds).2.reader.buf =
      o.reader.buf ++ ds.flatten := by
  induction ds generalizing o with
  | nil => simp [Coro.feedAll]
  | cons d ds ih =>
    cases o with
    | done a r =>
      simp only [Coro.feedAll, ih]
      simp [Outcome.reader]
    | raised e r =>
      simp only [Coro.feedAll, ih]
      simp [Outcome.reader]
    | blocked c r =>
      have h1 := ih (c.run (r.push d))
      have h2 := c.returned_append (r.push d)
      simp only [Coro.feedAll, List.flatten_append, List.append_assoc, List.flatten_cons, h1]
      rw [← List.append_assoc, h2]
      simp [Outcome.reader]

/-- **C10.** For any reading coroutine and any sequence of chunks, the bytes returned by its
reads, in order, followed by the unread buffer, are exactly the bytes fed. -/
theorem C10_no_loss {α : Type} (c : Coro α) (ds : List Bytes) :
    (c.returned .init ++ (Coro.feedAll (c.run .init) ds).1).flatten ++
      (Coro.feedAll (c.run .init) ds).2.reader.buf = ds.flatten := by
  rw [List.flatten_append, List.append_assoc, Coro.feedAll_append, ← List.append_assoc,
    Coro.returned_append]
  rfl

/-- **C10.** `read_line` returns exactly the shortest LF-terminated prefix of the buffer, if
there is one. -/
theorem C10_read_line {r r' : Reader} {l : Bytes} :
    Coro.line.run r = .done l r' ↔
      ∃ s, l = s ++ [10] ∧ (∀ b ∈ s, b ≠ 10) ∧ r.buf = l ++ r'.buf ∧ r'.eof = r.eof := by
  constructor
  · intro h
    simp only [Coro.line, Coro.run] at h
    cases h0 : findLF r.buf 0 with
    | none =>
      simp only [h0] at h
      split at h <;> simp [Coro.run, Coro.ofExcept] at h
    | some i =>
      simp only [h0, Coro.ofExcept, Coro.run, Outcome.done.injEq] at h
      obtain ⟨rfl, rfl⟩ := h
      obtain ⟨hi, h1, h2⟩ := findLF_some h0
      refine ⟨r.buf.take i, ?_, h2, by simp, rfl⟩
      rw [List.take_add_one, h1]
      rfl
  · rintro ⟨s, rfl, hs, hb, he⟩
    have := Coro.run_line_append (α := Bytes) .ret s r'.buf r.eof hs
    have hr : r = ⟨s ++ 10 :: r'.buf, r.eof⟩ := by
      cases r; simp at hb ⊢; exact hb
    have h2 : Coro.line.bind .ret = Coro.line := by
      simp only [Coro.line, Coro.bind]
      congr 1
      funext x
      cases x <;> rfl
    rw [h2] at this
    rw [hr, this, Coro.run, ← he]

/-- **C10.** `read_exact n` returns exactly the first `n` bytes. -/
theorem C10_read_exact {n : Nat} {r r' : Reader} {d : Bytes} :
    (Coro.exact n).run r = .done d r' ↔
      d.length = n ∧ r.buf = d ++ r'.buf ∧ r'.eof = r.eof := by
  constructor
  · intro h
    simp only [Coro.exact, Coro.run] at h
    split at h
    · split at h <;> simp [Coro.run, Coro.ofExcept] at h
    · simp only [Coro.ofExcept, Coro.run, Outcome.done.injEq] at h
      obtain ⟨rfl, rfl⟩ := h
      refine ⟨by simp; omega, by simp, rfl⟩
  · rintro ⟨rfl, hb, he⟩
    have : ¬ (d ++ r'.buf).length < d.length := by simp
    simp only [Coro.exact, Coro.run, hb, this, if_false, Coro.ofExcept]
    simp [← he]

/-- **C10.** `read_to_eof` returns everything, once the stream has ended. -/
theorem C10_read_to_eof {r r' : Reader} {d : Bytes} :
    Coro.toEof.run r = .done d r' ↔ r.eof = true ∧ d = r.buf ∧ r' = ⟨[], true⟩ := by
  cases r with
  | mk b e => cases e <;> simp [Coro.toEof, Coro.run, eq_comm]

/-- **C10.** A read raises end-of-file only on a stream that has ended, and then consumes
nothing; it waits only on a stream that has not ended, and consumes nothing while waiting. -/
theorem C10_read_fail_keeps (c : Coro Bytes) (hc : c = Coro.line ∨ ∃ n, c = Coro.exact n)
    (r : Reader) :
    (∃ d r', c.run r = .done d r') ∨
    (c.run r = .raised .eofError r ∧ r.eof = true) ∨
    (∃ c', c.run r = .blocked c' r ∧ r.eof = false) := by
  rcases hc with rfl | ⟨n, rfl⟩
  · simp only [Coro.line, Coro.run]
    cases h0 : findLF r.buf 0 with
    | some i => exact .inl ⟨_, _, rfl⟩
    | none =>
      cases he : r.eof with
      | true => exact .inr (.inl ⟨by simp [Coro.run, Coro.ofExcept], rfl⟩)
      | false => exact .inr (.inr ⟨_, by simp; rfl, rfl⟩)
  · simp only [Coro.exact, Coro.run]
    split
    · cases he : r.eof with
      | true => exact .inr (.inl ⟨by simp [Coro.run, Coro.ofExcept], rfl⟩)
      | false => exact .inr (.inr ⟨_, by simp; rfl, rfl⟩)
    · exact .inl ⟨_, _, rfl⟩

/-- **C10.** Waiting and being resumed with more data is the same as having had all the data
from the start: the position reached while scanning for LF never skips one. -/
theorem C10_resume {α : Type} (c : Coro α) (h : c.Fresh) (r : Reader) (he : r.eof = false)
    (d : Bytes) : (c.run r).resume d = c.run (r.push d) :=
  (Coro.run_push he (.fresh h) d).symm

/-- Example: a line arriving in three chunks, followed by an exact read. -/
example : (Coro.feedAll ((Coro.line.bind fun l => (Coro.exact 2).bind fun d =>
      .ret (l, d)).run .init) [[65], [66, 10, 1], [2, 3]]).2.reader.buf = [3] := by
  decide

end WS
