import Verif.Lemmas.ConnChunk

/-!
# C09, C21, C22: chunking independence, inertness after a failure, progress
-/

namespace WS

variable {X E H : Type}

/-- Feed successive chunks to a connection with `receive_data()`; collects the exceptions. -/
def Conn.feedAll (env : Env X E H) : Conn X E → List Bytes → List (Option Exc) × Conn X E
  | k, [] => ([], k)
  | k, d :: ds =>
    let r := k.receiveData env d
    let (es, k') := Conn.feedAll env r.2 ds
    (r.1 :: es, k')

/-- The first exception, if any. -/
def firstExc (l : List (Option Exc)) : Option Exc := l.findSome? id

theorem Conn.receiveData_append (env : Env X E H) (k : Conn X E) (h : k.Settled) (a b : Bytes) :
    ((k.receiveData env a).2.receiveData env b).2 = (k.receiveData env (a ++ b)).2 ∧
    firstExc [(k.receiveData env a).1, ((k.receiveData env a).2.receiveData env b).1] =
      (k.receiveData env (a ++ b)).1 := by
  cases he : k.reader.eof with
  | true => simp [Conn.receiveData_eq, he, firstExc]
  | false =>
    have hr := (h.ready he).push a
    have hs := Conn.step_settled env (k.push a) hr
    have hp := Conn.step_push env (k.push a) (by simpa using he) hr b
    have e1 : (Conn.step env (k.push a)).2.reader.eof = false := by rw [hs.2.1]; simpa using he
    have hex : ∃ o k1, Conn.step env (k.push a) = (o, k1) := ⟨_, _, rfl⟩
    obtain ⟨o, k1, hx⟩ := hex
    rw [hx] at e1 hp hs
    simp only at e1
    simp only [Conn.receiveData_eq, he, hx, e1, Bool.false_eq_true, if_false]
    rw [Conn.push_push] at hp
    rw [hp]
    cases o with
    | none => simp [firstExc]
    | some e =>
      have hd : (k1.push b).pstate = .dead := hs.2.2 (by simp)
      simp only [Conn.step_dead env _ hd]
      simp [firstExc]

theorem Conn.receiveData_nil (env : Env X E H) (k : Conn X E) (h : k.Settled) :
    (k.receiveData env []).2 = k := by
  rw [Conn.receiveData_eq]
  split
  · rfl
  · rename_i he
    simp only [Bool.not_eq_true] at he
    rw [Conn.push_nil]
    rcases h with ⟨a, _⟩ | ⟨_, a⟩ | ⟨_, hd, _, a⟩
    · rw [he] at a; cases a
    · rw [Conn.step_dead env k a]
    · rw [Conn.step_alive env k hd, Conn.resume_stuck env k he a]

/-- **C09.** From any state reachable between API calls (client or server, during the handshake
or not, with any extensions), feeding a byte stream in any sequence of chunks leads to the same
connection - same events, same data to send, same negotiated parameters, same buffered data -
as feeding it in one piece. -/
theorem C09_chunking (env : Env X E H) (k : Conn X E) (h : k.Settled) (ds : List Bytes) :
    (k.feedAll env ds).2 = (k.receiveData env ds.flatten).2 := by
  induction ds generalizing k with
  | nil => simp [Conn.feedAll, Conn.receiveData_nil env k h]
  | cons d ds ih =>
    have hs : (k.receiveData env d).2.Settled := Conn.apply_settled env h (.receiveData d)
    simp only [Conn.feedAll, List.flatten_cons, ih _ hs]
    exact (Conn.receiveData_append env k h d ds.flatten).1

/-- **C09.** The first error reported is the same too. -/
theorem C09_chunking_error (env : Env X E H) (k : Conn X E) (h : k.Settled) (d : Bytes)
    (ds : List Bytes) :
    firstExc (k.feedAll env (d :: ds)).1 = (k.receiveData env (d :: ds).flatten).1 := by
  induction ds generalizing k d with
  | nil =>
    simp only [Conn.feedAll, List.flatten_cons, List.flatten_nil, List.append_nil, firstExc]
    cases (k.receiveData env d).1 <;> rfl
  | cons d2 ds ih =>
    have hs : (k.receiveData env d).2.Settled := Conn.apply_settled env h (.receiveData d)
    have := ih _ hs d2
    have h2 := (Conn.receiveData_append env k h d (d2 :: ds).flatten).2
    rw [List.flatten_cons, ← h2, ← this]
    rw [Conn.feedAll]
    have aux : ∀ (o : Option Exc) (l : List (Option Exc)),
        firstExc (o :: l) = firstExc [o, firstExc l] := by
      intro o l
      cases o with
      | some e => rfl
      | none =>
        show firstExc l = firstExc [firstExc l]
        cases firstExc l <;> rfl
    exact aux _ _

/-- **C09.** Two chunkings of the same stream lead to the same connection, after any prior
history of API calls on a new connection. -/
theorem C09_any_two_chunkings (env : Env X E H) (side : Side) (state : State) (m : Option Int)
    (history : List (Op H)) (ds es : List Bytes) (h : ds.flatten = es.flatten) :
    let k := ((Conn.init side state m).exec env history).2
    (k.feedAll env ds).2 = (k.feedAll env es).2 := by
  intro k
  have hk : k.Settled := Conn.exec_settled env (Conn.init_settled side state m) history
  rw [C09_chunking env k hk, C09_chunking env k hk, h]

/-- Example: a masked "Hi" text frame and a ping, whole and byte by byte, on an open server. -/
example : let env := Env.plain (fun _ => [0, 0, 0, 0]) (fun _ => rfl)
    let bs : Bytes := [0x81, 0x82, 1, 2, 3, 4, 0x49, 0x6B, 0x89, 0x80, 0, 0, 0, 0]
    let k := (Conn.feedAll env (.init .server .opened none) (bs.map fun b => [b])).2
    k.core.writes = [[0x8A, 0x00]] ∧ k.core.events.length = 2 := by
  decide +kernel

/-! ## C21 -/

/-- A connection whose parser has failed. -/
def Conn.Failed (k : Conn X E) : Prop := k.pstate = .dead

/-- **C21.** An error raised while receiving always leaves a failed connection. -/
theorem C21_error_fails (env : Env X E H) (k : Conn X E) (h : k.Settled)
    (he : k.reader.eof = false) (d : Bytes) :
    ((k.receiveData env d).1 ≠ none → (k.receiveData env d).2.Failed) ∧
    ((k.receiveEof env).1 ≠ none → (k.receiveEof env).2.Failed) := by
  rw [Conn.receiveData_eq, Conn.receiveEof_eq]
  simp only [he, Bool.false_eq_true, if_false]
  exact ⟨(Conn.step_settled env _ ((h.ready he).push d)).2.2,
    (Conn.step_settled env _ ((h.ready he).setEof true)).2.2⟩

/-- **C21.** On a failed connection, receiving data or the end of the stream reports an error,
produces no event and no outgoing data, changes nothing else in the connection, and leaves it
failed. -/
theorem C21_failed_inert (env : Env X E H) (k : Conn X E) (hf : k.Failed) (d : Bytes) :
    ((k.receiveData env d).1 ≠ none ∧ (k.receiveData env d).2.core = k.core ∧
      (k.receiveData env d).2.Failed) ∧
    ((k.receiveEof env).1 ≠ none ∧ (k.receiveEof env).2.core = k.core ∧
      (k.receiveEof env).2.Failed) := by
  rw [Conn.receiveData_eq, Conn.receiveEof_eq]
  refine ⟨?_, ?_⟩
  · split
    · exact ⟨by simp, rfl, hf⟩
    · rw [Conn.step_dead env (k.push d) hf]
      refine ⟨?_, rfl, hf⟩
      split <;> simp
  · split
    · exact ⟨by simp, rfl, hf⟩
    · rw [Conn.step_dead env _ (by exact hf)]
      refine ⟨?_, rfl, hf⟩
      split <;> simp

/-- Example: invalid opcode 3 on an open client. -/
example : let env := Env.plain (fun _ => [0, 0, 0, 0]) (fun _ => rfl)
    ((Conn.init .client .opened none : Conn Empty Empty).receiveData env [0x83, 0x00]).2.Failed :=
  rfl

/-! ## C22 -/

/-- **C22.** After any received data, the parser does not hold a complete frame in its buffer: a
live connection between frames has consumed everything, and a connection inside a frame is
waiting for bytes that have not arrived (resuming it changes nothing). -/
theorem C22_progress (env : Env X E H) (side : Side) (state : State) (m : Option Int)
    (history : List (Op H)) :
    let k := ((Conn.init side state m).exec env history).2
    k.Failed ∨ k.reader.eof = true ∨
      (k.pstate = .top ∧ k.reader.buf = []) ∨
      (∃ co lim stale, k.pstate = .inFrame co lim stale ∧ co.run k.reader = .blocked co k.reader) ∨
      (∃ co, k.pstate = .hs co ∧ co.run k.reader = .blocked co k.reader) := by
  intro k
  have hk : k.Settled := Conn.exec_settled env (Conn.init_settled side state m) history
  rcases hk with ⟨a, _⟩ | ⟨_, a⟩ | ⟨_, hd, _, a⟩
  · exact .inr (.inl a)
  · exact .inl a
  · cases hp : k.pstate with
    | dead => exact absurd hp hd
    | parked => rw [hp] at a; exact a.elim
    | top => rw [hp] at a; exact .inr (.inr (.inl ⟨rfl, a⟩))
    | inFrame co lim stale =>
      rw [hp] at a
      exact .inr (.inr (.inr (.inl ⟨co, lim, stale, rfl, a⟩)))
    | hs co =>
      rw [hp] at a
      exact .inr (.inr (.inr (.inr ⟨co, rfl, a⟩)))

/-- **C22.** The parser loop never runs out of the number of iterations allowed by the length of
the buffer: allowing more changes nothing. -/
theorem C22_terminates (env : Env X E H) (c : Core X E) (r : Reader) (extra : Nat) :
    Conn.loop env (r.buf.length + 1 + extra) c r = Conn.loop env (r.buf.length + 1) c r :=
  Conn.loop_fuel env c r _ (by omega)

end WS
