import Verif.Model.Streams

/-! Helper lemmas on `findLF`, `Coro.run`, `Coro.bind`. -/

namespace WS

/-- Append newly received data to a reader. -/
def Reader.push (r : Reader) (d : Bytes) : Reader := { r with buf := r.buf ++ d }

@[simp] theorem Reader.push_buf (r : Reader) (d : Bytes) : (r.push d).buf = r.buf ++ d := rfl
@[simp] theorem Reader.push_eof (r : Reader) (d : Bytes) : (r.push d).eof = r.eof := rfl

theorem Reader.push_push (r : Reader) (a b : Bytes) : (r.push a).push b = r.push (a ++ b) := by
  simp [Reader.push]

@[simp] theorem Reader.push_nil (r : Reader) : r.push [] = r := by simp [Reader.push]

/-- No LF among the first `p` bytes. -/
def NoLF (buf : Bytes) (p : Nat) : Prop := ∀ b ∈ buf.take p, b ≠ 10

theorem findIdx?_append_noLF (a b : Bytes) (h : ∀ x ∈ a, x ≠ 10) :
    (a ++ b).findIdx? (· == (10 : UInt8)) =
      (b.findIdx? (· == (10 : UInt8))).map (· + a.length) := by
  induction a with
  | nil => simp
  | cons x xs ih =>
    have hx : x ≠ 10 := h x (by simp)
    have ih' := ih (fun y hy => h y (by simp [hy]))
    simp only [List.cons_append, List.findIdx?_cons, List.length_cons]
    simp only [beq_iff_eq, hx, if_false, ih', Option.map_map]
    congr 1

theorem findLF_eq_zero {buf : Bytes} {p : Nat} (hp : p ≤ buf.length) (h : NoLF buf p) :
    findLF buf p = findLF buf 0 := by
  unfold findLF
  have := findIdx?_append_noLF (buf.take p) (buf.drop p) h
  rw [List.take_append_drop] at this
  simp [this, List.length_take, Nat.min_eq_left hp, Function.comp_def]

theorem findLF_none_iff {buf : Bytes} : findLF buf 0 = none ↔ ∀ b ∈ buf, b ≠ 10 := by
  simp [findLF, List.findIdx?_eq_none_iff]

theorem findLF_none_noLF {buf : Bytes} {p : Nat} (h : findLF buf p = none) :
    ∀ b ∈ buf.drop p, b ≠ 10 := by
  simpa [findLF, List.findIdx?_eq_none_iff] using h

theorem findLF_some {buf : Bytes} {i : Nat} (h : findLF buf 0 = some i) :
    i < buf.length ∧ buf[i]? = some 10 ∧ ∀ b ∈ buf.take i, b ≠ 10 := by
  simp only [findLF, List.drop_zero, Nat.add_zero, Option.map_id', List.findIdx?_eq_some_iff_getElem] at h
  obtain ⟨hi, h1, h2⟩ := h
  refine ⟨hi, ?_, ?_⟩
  · simp at h1; simp [List.getElem?_eq_getElem hi, h1]
  · intro b hb
    obtain ⟨j, hj, rfl⟩ := List.mem_iff_getElem.1 hb
    have := h2 j (by simp at hj; omega)
    simpa using this

theorem findLF_append_of_some {buf d : Bytes} {i : Nat} (h : findLF buf 0 = some i) :
    findLF (buf ++ d) 0 = some i := by
  simp only [findLF, List.drop_zero, Nat.add_zero, Option.map_id', List.findIdx?_append] at *
  simp [h]

/-- `line ++ [LF] ++ rest`: the first LF is found after `line`. -/
theorem findLF_line (l rest : Bytes) (h : ∀ b ∈ l, b ≠ 10) :
    findLF (l ++ 10 :: rest) 0 = some l.length := by
  simp only [findLF, List.drop_zero, Nat.add_zero, Option.map_id']
  rw [findIdx?_append_noLF l _ h]
  simp [List.findIdx?_cons]

namespace Coro

/-- Every `read_line` in the coroutine is a fresh call (`p = 0`). -/
inductive Fresh {α : Type} : Coro α → Prop where
  | ret (a) : Fresh (ret a)
  | raise (e) : Fresh (raise e)
  | readLine (k) : (∀ x, Fresh (k x)) → Fresh (readLine 0 k)
  | readExact (n k) : (∀ x, Fresh (k x)) → Fresh (readExact n k)
  | readToEof (k) : (∀ x, Fresh (k x)) → Fresh (readToEof k)

/-- A coroutine suspended on reader `r`: only the outermost `read_line` may have made
progress, over bytes that contain no LF. -/
inductive Ready {α : Type} (r : Reader) : Coro α → Prop where
  | fresh {c} : Fresh c → Ready r c
  | line (p k) : p ≤ r.buf.length → NoLF r.buf p → (∀ x, Fresh (k x)) → Ready r (readLine p k)

theorem Fresh.bind {α β : Type} {c : Coro α} {f : α → Coro β} (hc : Fresh c)
    (hf : ∀ a, Fresh (f a)) : Fresh (c.bind f) := by
  induction hc with
  | ret a => exact hf a
  | raise e => exact .raise e
  | readLine k _ ih => exact .readLine _ ih
  | readExact n k _ ih => exact .readExact _ _ ih
  | readToEof k _ ih => exact .readToEof _ ih

theorem Fresh.tryCatch {α : Type} {c : Coro α} {h : Exc → Coro α} (hc : Fresh c)
    (hf : ∀ a, Fresh (h a)) : Fresh (c.tryCatch h) := by
  induction hc with
  | ret a => exact .ret a
  | raise e => exact hf e
  | readLine k _ ih => exact .readLine _ ih
  | readExact n k _ ih => exact .readExact _ _ ih
  | readToEof k _ ih => exact .readToEof _ ih

theorem fresh_ofExcept {α : Type} (x : Except Exc α) : Fresh (ofExcept x) := by
  cases x <;> constructor

theorem fresh_line : Fresh line := .readLine _ fresh_ofExcept
theorem fresh_exact (n : Nat) : Fresh (exact n) := .readExact _ _ fresh_ofExcept
theorem fresh_toEof : Fresh toEof := .readToEof _ .ret

theorem Ready.push {α : Type} {r : Reader} {c : Coro α} (h : Ready r c) (d : Bytes) :
    Ready (r.push d) c := by
  cases h with
  | fresh h => exact .fresh h
  | line p k hp hn hk =>
    refine .line p k (by simp; omega) ?_ hk
    intro b hb
    rw [Reader.push_buf, List.take_append_of_le_length hp] at hb
    exact hn b hb

theorem Ready.line_inv {α : Type} {r : Reader} {p : Nat} {k : Except Exc Bytes → Coro α}
    (h : Ready r (.readLine p k)) :
    p ≤ r.buf.length ∧ NoLF r.buf p ∧ ∀ x, Fresh (k x) := by
  cases h with
  | fresh h => cases h with
    | readLine k hk => exact ⟨by simp, by simp [NoLF], hk⟩
  | line p k hp hn hk => exact ⟨hp, hn, hk⟩

theorem noLF_length {buf : Bytes} (h : ∀ b ∈ buf, b ≠ 10) : NoLF buf buf.length := by
  intro b hb
  rw [List.take_length] at hb
  exact h b hb

end Coro

/-- What an outcome becomes when more data arrives: a blocked coroutine is resumed. -/
def Outcome.resume {α : Type} (o : Outcome α) (d : Bytes) : Outcome α :=
  match o with
  | .done a r => .done a (r.push d)
  | .raised e r => .raised e (r.push d)
  | .blocked c r => c.run (r.push d)

/-- Running on more data is the same as running, then resuming with the additional data. -/
theorem Coro.run_push {α : Type} {c : Coro α} {r : Reader} (heof : r.eof = false)
    (h : c.Ready r) (d : Bytes) : c.run (r.push d) = (c.run r).resume d := by
  induction c generalizing r with
  | ret a => simp [Coro.run, Outcome.resume]
  | raise e => simp [Coro.run, Outcome.resume]
  | readLine p k ih =>
    obtain ⟨hp, hn, hk⟩ := h.line_inv
    have hn' : NoLF (r.push d).buf p := by
      intro b hb
      rw [Reader.push_buf, List.take_append_of_le_length hp] at hb
      exact hn b hb
    have e1 : findLF (r.push d).buf p = findLF (r.push d).buf 0 :=
      findLF_eq_zero (by simp; omega) hn'
    have e2 := findLF_eq_zero hp hn
    cases h0 : findLF r.buf 0 with
    | some i =>
      have h1 : findLF (r.push d).buf 0 = some i := findLF_append_of_some h0
      have hi := (findLF_some h0).1
      simp only [Coro.run, e1, e2, h0, h1]
      have ht : (r.push d).buf.take (i + 1) = r.buf.take (i + 1) := by
        rw [Reader.push_buf, List.take_append_of_le_length (by omega)]
      have hd : ({ r.push d with buf := (r.push d).buf.drop (i + 1) } : Reader) =
          ({ r with buf := r.buf.drop (i + 1) } : Reader).push d := by
        simp only [Reader.push]
        rw [List.drop_append_of_le_length (by omega)]
      rw [ht, hd]
      exact ih _ heof (.fresh (hk _))
    | none =>
      have hall := findLF_none_iff.1 h0
      simp only [Coro.run, e2, h0, heof, Outcome.resume]
      have e3 : findLF (r.push d).buf r.buf.length = findLF (r.push d).buf 0 :=
        findLF_eq_zero (by simp) (by
          intro b hb
          rw [Reader.push_buf, List.take_append_of_le_length (Nat.le_refl _)] at hb
          exact noLF_length hall b hb)
      simp only [Bool.false_eq_true, if_false, Coro.run, e1, e3]
  | readExact n k ih =>
    have hk : ∀ x, Fresh (k x) := by
      cases h with
      | fresh h => cases h with
        | readExact _ _ hk => exact hk
    by_cases hlt : r.buf.length < n
    · simp [Coro.run, hlt, heof, Outcome.resume]
    · have hlt' : ¬ (r.push d).buf.length < n := by simp; omega
      simp only [Coro.run, hlt, hlt', if_false]
      have ht : (r.push d).buf.take n = r.buf.take n := by
        rw [Reader.push_buf, List.take_append_of_le_length (by omega)]
      have hd : ({ r.push d with buf := (r.push d).buf.drop n } : Reader) =
          ({ r with buf := r.buf.drop n } : Reader).push d := by
        simp only [Reader.push]
        rw [List.drop_append_of_le_length (by omega)]
      rw [ht, hd]
      exact ih _ heof (.fresh (hk _))
  | readToEof k ih =>
    simp [Coro.run, heof, Outcome.resume]

/-- A coroutine blocked by `run` is ready to be resumed, on the same end-of-file status. -/
theorem Coro.run_ready {α : Type} {c : Coro α} {r : Reader} (h : c.Ready r) {c' : Coro α}
    {r' : Reader} (hb : c.run r = .blocked c' r') :
    c'.Ready r' ∧ r'.eof = r.eof ∧ r.eof = false := by
  induction c generalizing r with
  | ret a => simp [Coro.run] at hb
  | raise e => simp [Coro.run] at hb
  | readLine p k ih =>
    obtain ⟨hp, hn, hk⟩ := h.line_inv
    simp only [Coro.run, findLF_eq_zero hp hn] at hb
    cases h0 : findLF r.buf 0 with
    | some i =>
      simp only [h0] at hb
      exact ih _ (r := { r with buf := r.buf.drop (i + 1) }) (.fresh (hk _)) hb
    | none =>
      simp only [h0] at hb
      cases he : r.eof with
      | true =>
        simp only [he, if_true] at hb
        have := ih _ (.fresh (hk _)) hb
        simp [he] at this
      | false =>
        simp [he] at hb
        obtain ⟨rfl, rfl⟩ := hb
        exact ⟨.line _ _ (Nat.le_refl _) (noLF_length (findLF_none_iff.1 h0)) hk, by simp [he], rfl⟩
  | readExact n k ih =>
    have hk : ∀ x, Fresh (k x) := by
      cases h with
      | fresh h => cases h with
        | readExact _ _ hk => exact hk
    simp only [Coro.run] at hb
    split at hb
    · cases he : r.eof with
      | true =>
        simp only [he, if_true] at hb
        have := ih _ (.fresh (hk _)) hb
        simp [he] at this
      | false =>
        simp [he] at hb
        obtain ⟨rfl, rfl⟩ := hb
        exact ⟨h, by simp [he], rfl⟩
    · exact ih _ (r := { r with buf := r.buf.drop n }) (.fresh (hk _)) hb
  | readToEof k ih =>
    have hk : ∀ x, Fresh (k x) := by
      cases h with
      | fresh h => cases h with
        | readToEof _ hk => exact hk
    simp only [Coro.run] at hb
    cases he : r.eof with
    | true =>
      simp only [he, if_true] at hb
      have := ih _ (.fresh (hk _)) hb
      simp [he] at this
    | false =>
      simp [he] at hb
      obtain ⟨rfl, rfl⟩ := hb
      exact ⟨h, by simp [he], rfl⟩

/-- The reader left by an outcome. -/
def Outcome.reader {α : Type} : Outcome α → Reader
  | .done _ r | .raised _ r | .blocked _ r => r

/-- Running a coroutine removes a prefix of the buffer and keeps the end-of-file flag. -/
theorem Coro.run_suffix {α : Type} (c : Coro α) (r : Reader) :
    ∃ p, r.buf = p ++ (c.run r).reader.buf ∧ (c.run r).reader.eof = r.eof := by
  induction c generalizing r with
  | ret a => exact ⟨[], by simp [Coro.run, Outcome.reader]⟩
  | raise e => exact ⟨[], by simp [Coro.run, Outcome.reader]⟩
  | readLine p k ih =>
    simp only [Coro.run]
    cases h0 : findLF r.buf p with
    | some i =>
      obtain ⟨q, hq, he⟩ := ih (.ok (r.buf.take (i+1))) { r with buf := r.buf.drop (i + 1) }
      refine ⟨r.buf.take (i + 1) ++ q, ?_, he⟩
      rw [List.append_assoc, ← hq, List.take_append_drop]
    | none =>
      simp only
      split
      · exact ih _ r
      · exact ⟨[], by simp [Outcome.reader]⟩
  | readExact n k ih =>
    simp only [Coro.run]
    split
    · split
      · exact ih _ r
      · exact ⟨[], by simp [Outcome.reader]⟩
    · obtain ⟨q, hq, he⟩ := ih (.ok (r.buf.take n)) { r with buf := r.buf.drop n }
      refine ⟨r.buf.take n ++ q, ?_, he⟩
      rw [List.append_assoc, ← hq, List.take_append_drop]
  | readToEof k ih =>
    simp only [Coro.run]
    split
    · obtain ⟨q, hq, he⟩ := ih r.buf { r with buf := [] }
      refine ⟨r.buf, ?_, he⟩
      simp at hq
      simp [hq.2]
    · exact ⟨[], by simp [Outcome.reader]⟩

theorem Coro.run_length_le {α : Type} (c : Coro α) (r : Reader) :
    (c.run r).reader.buf.length ≤ r.buf.length := by
  obtain ⟨p, hp, _⟩ := c.run_suffix r
  have := congrArg List.length hp
  simp at this
  omega

/-- Running a sequence: run the first part, then the second on what is left. -/
def Outcome.bind {α β : Type} (o : Outcome α) (f : α → Coro β) : Outcome β :=
  match o with
  | .done a r => (f a).run r
  | .raised e r => .raised e r
  | .blocked c r => .blocked (c.bind f) r

theorem Coro.run_bind {α β : Type} (c : Coro α) (f : α → Coro β) (r : Reader) :
    (c.bind f).run r = (c.run r).bind f := by
  induction c generalizing r with
  | ret a => rfl
  | raise e => rfl
  | readLine p k ih =>
    simp only [Coro.bind, Coro.run]
    cases h0 : findLF r.buf p with
    | some i => simp only; exact ih _ _
    | none =>
      simp only
      split
      · exact ih _ _
      · rfl
  | readExact n k ih =>
    simp only [Coro.bind, Coro.run]
    split
    · split
      · exact ih _ _
      · rfl
    · exact ih _ _
  | readToEof k ih =>
    simp only [Coro.bind, Coro.run]
    split
    · exact ih _ _
    · rfl

theorem Coro.bind_assoc {α β γ : Type} (c : Coro α) (f : α → Coro β) (g : β → Coro γ) :
    (c.bind f).bind g = c.bind fun a => (f a).bind g := by
  induction c with
  | ret a => rfl
  | raise e => rfl
  | readLine p k ih => simp [Coro.bind, ih]
  | readExact n k ih => simp [Coro.bind, ih]
  | readToEof k ih => simp [Coro.bind, ih]

/-- An exact read on a buffer that starts with the wanted bytes. -/
theorem Coro.run_exact_append {α : Type} (n : Nat) (f : Bytes → Coro α) (d rest : Bytes)
    (eof : Bool) (h : d.length = n) :
    ((Coro.exact n).bind f).run ⟨d ++ rest, eof⟩ = (f d).run ⟨rest, eof⟩ := by
  subst h
  have hn : ¬ (d ++ rest).length < d.length := by simp
  simp only [Coro.exact, Coro.bind, Coro.run, Coro.ofExcept, hn, if_false]
  simp

/-- A line read on a buffer that starts with a LF-terminated line. -/
theorem Coro.run_line_append {α : Type} (f : Bytes → Coro α) (l rest : Bytes)
    (eof : Bool) (h : ∀ b ∈ l, b ≠ 10) :
    (Coro.line.bind f).run ⟨l ++ 10 :: rest, eof⟩ = (f (l ++ [10])).run ⟨rest, eof⟩ := by
  simp only [Coro.line, Coro.bind, Coro.run, findLF_line l rest h, Coro.ofExcept]
  congr 1
  · congr 1
    rw [List.take_append, List.take_of_length_le (by omega)]
    simp
  · congr 1
    rw [List.drop_append, List.drop_of_length_le (by omega)]
    simp

end WS
