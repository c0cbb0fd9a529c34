import Verif.Lemmas.LegacyStream
import Verif.Props.Http
import Verif.Props.Client

/-!
# C70, C71: reading bytes in the legacy implementation
-/

namespace WS.Legacy

open Coro

variable {α : Type}

/-- The bytes delivered by the transport in an execution. -/
def Spec.fed : List (IoAct α) → Bytes
  | [] => []
  | .data d :: as => d ++ fed as
  | _ :: as => fed as

/-- Whether the transport delivered the end of the stream. -/
def Spec.fedEof : List (IoAct α) → Bool
  | [] => false
  | .eof :: _ => true
  | _ :: as => fedEof as

/-- The task isn't cancelled and no other read starts. -/
def Spec.SingleRead (as : List (IoAct α)) : Prop :=
  ∀ a ∈ as, a = .run ∨ a = .eof ∨ ∃ d, a = .data d

/-- The state of a connection compared with a run of the Sans-I/O layer on everything received. -/
def Sim (L : Nat → Prop) (G : Coro α → Prop) (Err : Exc → Reader → Prop) (c : Coro α) (s : Reader)
    (e : Endpoint α) : Prop :=
  e.reader.eof = s.eof ∧ L e.reader.limit ∧
  match e.task with
  | .ready c' => c'.Ready e.reader.plain ∧ G c' ∧ c'.run e.reader.plain = c.run s
  | .waiting c' => G c' ∧ c'.Ready e.reader.plain ∧ c.run s = .blocked c' e.reader.plain
  | .ended (some (.ok a)) => c.run s = .done a e.reader.plain
  | .ended (some (.error x)) => Err x s
  | .ended none => False

/-- What `Sim` needs to know about coroutines and errors. -/
structure Rules (L : Nat → Prop) (G : Coro α → Prop) (Err : Exc → Reader → Prop) (c : Coro α) : Prop where
  agrees : ∀ c', G c' → ∀ r, L r.limit → c'.Ready r.plain → Agrees c' r (c'.arun r)
  blocked : ∀ c', G c' → ∀ r c'' r', c'.arun r = .blocked c'' r' → Careful c'' → G c''
  keep : ∀ x s d f, Err x s → Later s.eof d f → Err x (s.more d f)
  raised : ∀ c', G c' → ∀ (r : AReader) s x r', c'.Ready r.plain → L r.limit →
    c'.arun r = .raised x r' → c'.run r.plain = c.run s → r.eof = s.eof → Err x s

theorem AReader.plain_feedData (r : AReader) (d : Bytes) :
    (r.feedData d).plain = r.plain.more d r.eof ∧ (r.feedData d).limit = r.limit := by
  simp only [AReader.feedData]
  split <;> exact ⟨rfl, rfl⟩

theorem Reader.more_same (s : Reader) : s.more [] s.eof = s := by
  simp [Reader.more]

theorem _root_.WS.Coro.Ready.more {r : Reader} {c : Coro α} (h : c.Ready r) (d : Bytes) (f : Bool) :
    c.Ready (r.more d f) := by
  cases h with
  | fresh h => exact .fresh h
  | line p k hp hn hk =>
    refine .line p k (by simp [Reader.more]; omega) ?_ hk
    intro b hb
    simp only [Reader.more] at hb
    rw [List.take_append_of_le_length hp] at hb
    exact hn b hb

/-- Data or the end of the stream arrive. -/
theorem Sim.arrive {L : Nat → Prop} {G : Coro α → Prop} {Err : Exc → Reader → Prop} {c : Coro α} {s : Reader}
    {e : Endpoint α} (hc : c.Fresh) (hR : Rules L G Err c) (h : Sim L G Err c s e) (d : Bytes) (f : Bool)
    (r : AReader) (hs : s.eof = false) (hr : r.plain = e.reader.plain.more d f)
    (hl : r.limit = e.reader.limit) :
    Sim L G Err c (s.more d f) { reader := r, task := e.task.wakeup } := by
  obtain ⟨h1, h2, h3⟩ := h
  have hm := Coro.run_more hs (.fresh hc) d f
  have he : e.reader.plain.eof = false := by rw [← hs, ← h1]; rfl
  refine ⟨congrArg Reader.eof hr, by rw [hl]; exact h2, ?_⟩
  cases ht : e.task with
  | ready c' =>
    simp only [ht] at h3
    obtain ⟨a, b, g⟩ := h3
    simp only [Task.wakeup, hr]
    exact ⟨a.more d f, b, by rw [Coro.run_more he a, g, hm]⟩
  | waiting c' =>
    simp only [ht] at h3
    obtain ⟨b, a, g⟩ := h3
    simp only [Task.wakeup, hr]
    refine ⟨a.more d f, b, ?_⟩
    rw [hm, g]
    rfl
  | ended res =>
    simp only [ht] at h3
    simp only [Task.wakeup]
    cases res with
    | none => exact h3
    | some x =>
      cases x with
      | ok a =>
        simp only at h3 ⊢
        rw [hm, h3, hr]
        rfl
      | error x =>
        simp only at h3 ⊢
        exact hR.keep x s d f h3 (fun h => by rw [hs] at h; cases h)

theorem Sim.step {L : Nat → Prop} {G : Coro α → Prop} {Err : Exc → Reader → Prop} {c : Coro α} {s : Reader}
    {e e' : Endpoint α} (hc : c.Fresh) (hR : Rules L G Err c) (h : Sim L G Err c s e) {a : IoAct α}
    (ha : a = .run ∨ a = .eof ∨ ∃ d, a = .data d) (he : e.step a = some e') :
    Sim L G Err c (s.more (Spec.fed [a]) (s.eof || Spec.fedEof [a])) e' := by
  rcases ha with rfl | rfl | ⟨d, rfl⟩
  · -- run
    simp only [Spec.fed, Spec.fedEof, Bool.or_false, Reader.more_same]
    obtain ⟨h1, h2, h3⟩ := h
    simp only [Endpoint.step] at he
    cases ht : e.task with
    | waiting c' => simp [ht] at he
    | ended res => simp [ht] at he
    | ready c' =>
      simp only [ht] at he h3
      obtain ⟨a, b, g⟩ := h3
      have hag := hR.agrees c' b e.reader h2 a
      cases ho : c'.arun e.reader with
      | done v r' =>
        simp only [ho, Option.some.injEq] at he hag
        subst he
        obtain ⟨x, y, z⟩ := hag
        exact ⟨z.trans h1, by rw [y]; exact h2, by simp only; rw [← g, x]⟩
      | raised v r' =>
        simp only [ho, Option.some.injEq] at he hag
        subst he
        obtain ⟨x, y, z⟩ := hag
        exact ⟨z.trans h1, by rw [y]; exact h2, hR.raised c' b e.reader s v r' a h2 ho g h1⟩
      | blocked c'' r' =>
        simp only [ho, Option.some.injEq] at he hag
        subst he
        obtain ⟨x, w, y, z⟩ := hag
        refine ⟨z.trans h1, by rw [y]; exact h2, hR.blocked c' b _ _ _ ho w, ?_, ?_⟩
        · exact (Coro.run_ready a x).1
        · rw [← g, x]
  · -- eof
    simp only [Spec.fed, Spec.fedEof, Bool.or_true]
    simp only [Endpoint.step, Option.some.injEq] at he
    subst he
    cases hs : s.eof with
    | false => exact h.arrive hc hR [] true _ hs (by simp [AReader.plain, AReader.feedEof, Reader.more]) rfl
    | true =>
      have hm : s.more [] true = s := by rw [← hs]; exact Reader.more_same s
      have hr : e.reader.feedEof = e.reader := by
        have := h.1
        rw [hs] at this
        cases hrr : e.reader
        simp_all [AReader.feedEof]
      rw [hm, hr]
      obtain ⟨h1, h2, h3⟩ := h
      refine ⟨h1, h2, ?_⟩
      cases ht : e.task with
      | ready c' => simp only [ht] at h3; exact h3
      | ended r => simp only [ht] at h3; exact h3
      | waiting c' =>
        simp only [ht] at h3
        have := (Coro.run_ready (.fresh hc) h3.2.2).2.2
        rw [hs] at this
        cases this
  · -- data
    simp only [Spec.fed, Spec.fedEof, Bool.or_false, List.append_nil]
    simp only [Endpoint.step] at he
    split at he
    · cases he
    · rename_i hn
      simp only [not_or, Bool.not_eq_true] at hn
      have hs : s.eof = false := by rw [← h.1]; exact hn.1
      split at he
      · rename_i hd
        subst hd
        simp only [Option.some.injEq] at he
        subst he
        rw [Reader.more_same]
        exact h
      · simp only [Option.some.injEq] at he
        subst he
        have hp := e.reader.plain_feedData d
        refine h.arrive hc hR d s.eof _ hs ?_ hp.2
        rw [hp.1, h.1]

theorem Spec.fed_cons (a : IoAct α) (as : List (IoAct α)) :
    Spec.fed (a :: as) = Spec.fed [a] ++ Spec.fed as := by
  cases a <;> simp [Spec.fed]

theorem Spec.fedEof_cons (a : IoAct α) (as : List (IoAct α)) :
    Spec.fedEof (a :: as) = (Spec.fedEof [a] || Spec.fedEof as) := by
  cases a <;> simp [Spec.fedEof]

theorem Sim.exec {L : Nat → Prop} {G : Coro α → Prop} {Err : Exc → Reader → Prop} {c : Coro α} {s : Reader}
    {e e' : Endpoint α} (hc : c.Fresh) (hR : Rules L G Err c) (h : Sim L G Err c s e)
    {as : List (IoAct α)} (ha : Spec.SingleRead as) (he : e.exec as = some e') :
    Sim L G Err c (s.more (Spec.fed as) (s.eof || Spec.fedEof as)) e' := by
  induction as generalizing s e with
  | nil =>
    simp only [Endpoint.exec, Option.some.injEq] at he
    subst he
    simp only [Spec.fed, Spec.fedEof, Bool.or_false, Reader.more_same]
    exact h
  | cons a as ih =>
    simp only [Endpoint.exec] at he
    cases hs : e.step a with
    | none => simp [hs] at he
    | some e1 =>
      simp only [hs] at he
      have h1 := h.step hc hR (ha a (by simp)) hs
      have h2 := ih h1 (fun b hb => ha b (by simp [hb])) he
      have : (s.more (Spec.fed [a]) (s.eof || Spec.fedEof [a])).more (Spec.fed as)
          ((s.more (Spec.fed [a]) (s.eof || Spec.fedEof [a])).eof || Spec.fedEof as) =
          s.more (Spec.fed (a :: as)) (s.eof || Spec.fedEof (a :: as)) := by
        rw [Spec.fed_cons a as, Spec.fedEof_cons a as]
        simp [Reader.more, Bool.or_assoc]
      rw [← this]
      exact h2

theorem rules_careful (c : Coro α) (hc : c.Fresh) :
    Rules (fun n => maxLine ≤ n + 1) Careful (fun _ s => Never c s) c where
  agrees _ h r hl hr := arun_agrees h r hl hr
  blocked _ _ _ _ _ _ h := h
  keep x s d f h hd := by
    intro d' f' hd' a q
    have := h (d ++ d') f' (fun hs => by
      obtain ⟨rfl, rfl⟩ := hd hs
      exact ⟨by simpa using (hd' rfl).1, (hd' rfl).2⟩) a q
    simpa [Reader.more] using this
  raised c' hc' r s x r' hr hl ha hrun he := by
    have hag := arun_agrees hc' r hl hr
    rw [ha] at hag
    intro d f hd a q hq
    refine hag.1 d f (by simpa [AReader.plain, he] using hd) a q ?_
    cases hs : s.eof with
    | false =>
      rw [Coro.run_more (by rw [← hs, ← he]; rfl) hr, hrun, ← Coro.run_more hs (.fresh hc)]
      exact hq
    | true =>
      obtain ⟨rfl, rfl⟩ := hd hs
      have e1 : s.more [] true = s := by rw [← hs]; exact Reader.more_same s
      have e2 : r.plain.more [] true = r.plain := by
        have := Reader.more_same r.plain
        simp only [AReader.plain, he, hs] at this ⊢
        exact this
      rw [e1] at hq
      rw [e2, hrun]
      exact hq

theorem rules_exacting (c : Coro α) (hc : c.Fresh) :
    Rules (fun _ => True) Exacting (fun x s => ∃ q, c.run s = .raised x q) c where
  agrees _ h r _ _ := arun_agrees_exact h r
  blocked _ h r _ _ ho _ := h.blocked r ho
  keep x s d f h hd := by
    obtain ⟨q, hq⟩ := h
    cases hs : s.eof with
    | false =>
      rw [Coro.run_more hs (.fresh hc), hq]
      exact ⟨_, rfl⟩
    | true =>
      obtain ⟨rfl, rfl⟩ := hd hs
      have e1 : s.more [] true = s := by rw [← hs]; exact Reader.more_same s
      rw [e1]
      exact ⟨q, hq⟩
  raised c' hc' r s x r' hr hl ha hrun he := by
    rw [← hrun]
    exact arun_exacting hc' r ha

/-! ## The functions of the legacy implementation -/

theorem readHeadersLoop_eq (n : Nat) (h : Headers) : readHeadersLoop n h = parseHeadersLoop n h := by
  induction n generalizing h with
  | zero => rfl
  | succ n ih =>
    unfold readHeadersLoop parseHeadersLoop
    simp only [ih]
    rfl

theorem readHeaders_eq : readHeaders = parseHeaders := readHeadersLoop_eq _ _

theorem readRequest_eq : Request.parse = readRequest.bind fun q => .ret ⟨q.1, q.2⟩ := by
  unfold Request.parse readRequest
  rw [Coro.bind_assoc]
  congr 1
  funext l
  cases split3 32 l with
  | none => rfl
  | some t =>
    obtain ⟨m, p, v⟩ := t
    simp only
    split
    · rfl
    · split
      · rfl
      · rw [Coro.bind_assoc, readHeaders_eq]
        rfl

theorem readResponse_eq :
    Response.parse = readResponse.bind fun q => Response.parseBody q.1 q.2.1 q.2.2 := by
  unfold Response.parse readResponse
  rw [Coro.bind_assoc]
  congr 1
  funext l
  cases split3 32 l with
  | none => rfl
  | some t =>
    obtain ⟨v, st, re⟩ := t
    simp only
    split
    · rfl
    · cases pyInt (st.map UInt8.toNat) with
      | none => rfl
      | some status =>
        simp only
        split
        · rfl
        · split
          · rfl
          · cases utf8Decode re with
            | error e => rfl
            | ok reason =>
              simp only
              rw [Coro.bind_assoc, readHeaders_eq]
              rfl

theorem readFrame_eq (mask : Bool) (m : Option Int) : readFrame mask m = Frame.parseRaw mask m := by
  have hb : ∀ a b c d o n, readBody mask m a b c d o n = Frame.parseBody mask m a b c d o n := by
    intro a b c d o n
    unfold readBody Frame.parseBody
    cases exceeds n m with
    | some _ => rfl
    | none => cases mask <;> rfl
  unfold readFrame Frame.parseRaw
  simp only [hb]
  rfl

theorem readHeadersLoop_careful (n : Nat) (h : Headers) {β : Type} {f : Headers → Coro β}
    (hf : ∀ h, Careful (f h)) : Careful ((readHeadersLoop n h).bind f) := by
  induction n generalizing h with
  | zero => exact .raise _
  | succ n ih =>
    unfold readHeadersLoop
    rw [Coro.bind_assoc]
    refine Careful.line fun l => ?_
    split
    · exact hf _
    · split
      · exact .raise _
      · split
        · exact .raise _
        · simp only
          split
          · exact .raise _
          · exact ih _

theorem readRequest_careful : Careful readRequest := by
  unfold readRequest
  refine Careful.line fun l => ?_
  split
  · exact .raise _
  · split
    · exact .raise _
    · split
      · exact .raise _
      · exact readHeadersLoop_careful _ _ fun h => .ret _

theorem readResponse_careful : Careful readResponse := by
  unfold readResponse
  refine Careful.line fun l => ?_
  split
  · exact .raise _
  · split
    · exact .raise _
    · split
      · exact .raise _
      · split
        · exact .raise _
        · split
          · exact .raise _
          · split
            · exact .raise _
            · exact readHeadersLoop_careful _ _ fun h => .ret _

theorem readRequest_fresh : readRequest.Fresh := by
  unfold readRequest
  refine Coro.Fresh.bind parseLine_fresh fun l => ?_
  split
  · exact .raise _
  · split
    · exact .raise _
    · split
      · exact .raise _
      · rw [readHeaders_eq]
        exact Coro.Fresh.bind (parseHeadersLoop_fresh _ _) fun h => .ret _

theorem readResponse_fresh : readResponse.Fresh := by
  unfold readResponse
  refine Coro.Fresh.bind parseLine_fresh fun l => ?_
  split
  · exact .raise _
  · split
    · exact .raise _
    · split
      · exact .raise _
      · split
        · exact .raise _
        · split
          · exact .raise _
          · split
            · exact .raise _
            · rw [readHeaders_eq]
              exact Coro.Fresh.bind (parseHeadersLoop_fresh _ _) fun h => .ret _

theorem readFrame_exacting (mask : Bool) (m : Option Int) : Exacting (readFrame mask m) := by
  have hb : ∀ a b c d o n, Exacting (Frame.parseBody mask m a b c d o n) := by
    intro a b c d o n
    unfold Frame.parseBody
    split
    · exact .raise _
    · split
      · refine Exacting.exact _ fun _ => Exacting.exact _ fun _ => ?_
        split
        · exact .raise _
        · exact .ret _
      · exact Exacting.exact _ fun _ => .ret _
  rw [readFrame_eq]
  unfold Frame.parseRaw
  refine Exacting.exact _ fun d => ?_
  split
  · simp only
    split
    · exact .raise _
    · split
      · exact .raise _
      · split
        · exact Exacting.exact _ fun _ => hb ..
        · split
          · exact Exacting.exact _ fun _ => hb ..
          · exact hb ..
  · exact .raise _

/-! ## C70: the legacy implementation reads what the Sans-I/O layer reads -/

/-- Everything that a connection holds or has received since it was in state `e`. -/
def Spec.sofar (e : Endpoint α) (as : List (IoAct α)) : Reader :=
  ⟨e.reader.buf ++ fed as, e.reader.eof || fedEof as⟩

/-- **C70.** However a request is cut into chunks and whenever the task runs, `read_request` returns
a path and headers exactly when `Request.parse` does on the same bytes, with the same values and the
same bytes left; it raises only if `Request.parse` can't succeed, whatever comes next; and it waits
only if `Request.parse` waits.  (`read_limit` must be large enough for the longest acceptable line,
8218; its default value is 65536.) -/
theorem C70_request (r : AReader) (hl : 4110 ≤ r.limit + 1) (as : List (IoAct (PyStr × Headers)))
    (ha : Spec.SingleRead as) (e : Endpoint (PyStr × Headers))
    (he : Endpoint.exec ⟨r, .ready readRequest⟩ as = some e) :
    let s := Spec.sofar ⟨r, Task.ready readRequest⟩ as
    match e.task with
    | .ended (some (.ok (path, headers))) =>
      Request.parse.run s = .done ⟨path, headers⟩ ⟨e.reader.buf, s.eof⟩
    | .ended (some (.error _)) => ∀ d eof, (s.eof = true → d = [] ∧ eof = true) →
      ∀ q s', Request.parse.run ⟨s.buf ++ d, eof⟩ ≠ .done q s'
    | .waiting _ => ∃ c, Request.parse.run s = .blocked c ⟨e.reader.buf, false⟩
    | .ready _ => True
    | .ended none => False := by
  intro s
  have h0 : Sim (fun n => maxLine ≤ n + 1) Careful (fun _ s => Never readRequest s) readRequest
      r.plain ⟨r, .ready readRequest⟩ :=
    ⟨rfl, hl, .fresh readRequest_fresh, readRequest_careful, rfl⟩
  obtain ⟨h1, _, h3⟩ := h0.exec readRequest_fresh (rules_careful _ readRequest_fresh) ha he
  have hs : r.plain.more (Spec.fed as) (r.plain.eof || Spec.fedEof as) = s := rfl
  rw [hs] at h1 h3
  have hp : e.reader.plain = ⟨e.reader.buf, s.eof⟩ := by rw [← h1]; rfl
  cases ht : e.task with
  | ready c => trivial
  | waiting c =>
    simp only [ht] at h3 ⊢
    have hf := (Coro.run_ready (.fresh readRequest_fresh) h3.2.2).2.2
    rw [readRequest_eq, Coro.run_bind, h3.2.2, hp, hf]
    exact ⟨_, rfl⟩
  | ended res =>
    cases res with
    | none => simp only [ht] at h3
    | some res =>
      cases res with
      | ok q =>
        simp only [ht] at h3 ⊢
        rw [readRequest_eq, Coro.run_bind, h3, hp]
        rfl
      | error x =>
        simp only [ht] at h3 ⊢
        intro d eof hd q s' hq
        rw [readRequest_eq, Coro.run_bind] at hq
        cases hr : readRequest.run ⟨s.buf ++ d, eof⟩ with
        | done a r' => exact h3 d eof hd a r' hr
        | raised e r' => rw [hr] at hq; cases hq
        | blocked c r' => rw [hr] at hq; cases hq

/-- **C70.** Likewise, `read_response` returns a status code, a reason phrase and headers exactly
when `Response.parse` gets there, with the same values and the same bytes left; `Response.parse` then
reads the body from these bytes. -/
theorem C70_response (r : AReader) (hl : 4110 ≤ r.limit + 1)
    (as : List (IoAct (Int × PyStr × Headers))) (ha : Spec.SingleRead as)
    (e : Endpoint (Int × PyStr × Headers))
    (he : Endpoint.exec ⟨r, .ready readResponse⟩ as = some e) :
    let s := Spec.sofar ⟨r, Task.ready readResponse⟩ as
    match e.task with
    | .ended (some (.ok (status, reason, headers))) =>
      Response.parse.run s =
        (Response.parseBody status reason headers).run ⟨e.reader.buf, s.eof⟩
    | .ended (some (.error _)) => ∀ d eof, (s.eof = true → d = [] ∧ eof = true) →
      ∀ q s', Response.parse.run ⟨s.buf ++ d, eof⟩ ≠ .done q s'
    | .waiting _ => ∃ c, Response.parse.run s = .blocked c ⟨e.reader.buf, false⟩
    | .ready _ => True
    | .ended none => False := by
  intro s
  have h0 : Sim (fun n => maxLine ≤ n + 1) Careful (fun _ s => Never readResponse s) readResponse
      r.plain ⟨r, .ready readResponse⟩ :=
    ⟨rfl, hl, .fresh readResponse_fresh, readResponse_careful, rfl⟩
  obtain ⟨h1, _, h3⟩ := h0.exec readResponse_fresh (rules_careful _ readResponse_fresh) ha he
  have hs : r.plain.more (Spec.fed as) (r.plain.eof || Spec.fedEof as) = s := rfl
  rw [hs] at h1 h3
  have hp : e.reader.plain = ⟨e.reader.buf, s.eof⟩ := by rw [← h1]; rfl
  cases ht : e.task with
  | ready c => trivial
  | waiting c =>
    simp only [ht] at h3 ⊢
    have hf := (Coro.run_ready (.fresh readResponse_fresh) h3.2.2).2.2
    rw [readResponse_eq, Coro.run_bind, h3.2.2, hp, hf]
    exact ⟨_, rfl⟩
  | ended res =>
    cases res with
    | none => simp only [ht] at h3
    | some res =>
      cases res with
      | ok q =>
        simp only [ht] at h3 ⊢
        rw [readResponse_eq, Coro.run_bind, h3, hp]
        rfl
      | error x =>
        simp only [ht] at h3 ⊢
        intro d eof hd q s' hq
        rw [readResponse_eq, Coro.run_bind] at hq
        cases hr : readResponse.run ⟨s.buf ++ d, eof⟩ with
        | done a r' => exact h3 d eof hd a r' hr
        | raised e r' => rw [hr] at hq; cases hq
        | blocked c r' => rw [hr] at hq; cases hq

/-- **C70.** `Frame.read` reads the same frame from the same bytes, or raises the same exception, or
waits, as `Frame.parse`, whatever the limit of the stream reader and the chunks.  (Both then apply
extensions and check the frame, `Frame.finish`.) -/
theorem C70_frame (mask : Bool) (maxSize : Option Int) (r : AReader) (as : List (IoAct Frame))
    (ha : Spec.SingleRead as) (e : Endpoint Frame)
    (he : Endpoint.exec ⟨r, .ready (readFrame mask maxSize)⟩ as = some e) :
    let s := Spec.sofar ⟨r, Task.ready (readFrame mask maxSize)⟩ as
    match e.task with
    | .ended (some (.ok f)) =>
      (Frame.parseRaw mask maxSize).run s = .done f ⟨e.reader.buf, s.eof⟩
    | .ended (some (.error x)) => ∃ s', (Frame.parseRaw mask maxSize).run s = .raised x s'
    | .waiting _ => ∃ c, (Frame.parseRaw mask maxSize).run s = .blocked c ⟨e.reader.buf, false⟩
    | .ready _ => True
    | .ended none => False := by
  intro s
  have hx := readFrame_exacting mask maxSize
  have h0 : Sim (fun _ => True) Exacting
      (fun x s => ∃ q, (readFrame mask maxSize).run s = .raised x q) (readFrame mask maxSize)
      r.plain ⟨r, .ready (readFrame mask maxSize)⟩ :=
    ⟨rfl, trivial, .fresh hx.fresh, hx, rfl⟩
  obtain ⟨h1, _, h3⟩ := h0.exec hx.fresh (rules_exacting _ hx.fresh) ha he
  have hs : r.plain.more (Spec.fed as) (r.plain.eof || Spec.fedEof as) = s := rfl
  rw [hs] at h1 h3
  have hp : e.reader.plain = ⟨e.reader.buf, s.eof⟩ := by rw [← h1]; rfl
  rw [← readFrame_eq]
  cases ht : e.task with
  | ready c => trivial
  | waiting c =>
    simp only [ht] at h3 ⊢
    have hf := (Coro.run_ready (.fresh hx.fresh) h3.2.2).2.2
    rw [h3.2.2, hp, hf]
    exact ⟨_, rfl⟩
  | ended res =>
    cases res with
    | none => simp only [ht] at h3
    | some res =>
      cases res with
      | ok q =>
        simp only [ht] at h3 ⊢
        rw [h3, hp]
      | error x =>
        simp only [ht] at h3 ⊢
        exact h3

/-- Example: a request in three chunks; the last one contains the first bytes of a frame. -/
example : (Endpoint.exec ⟨.init 65536, .ready readRequest⟩
    [.run, .data b!"GET /chat HTTP/1.1\r\nHo", .run, .data b!"st: example.com\r", .run,
      .data (b!"\n\r\n" ++ [0x81]), .run]).map (fun e => (e.reader.buf, match e.task with
        | .ended (some (.ok (path, _))) => path
        | _ => [])) = some ([0x81], p!"/chat") := by decide +kernel

/-- Example: a line that exceeds the limit is refused before its end is received. -/
example : (Endpoint.exec ⟨{ limit := 8 }, .ready readRequest⟩
    [.run, .data b!"GET /", .run, .data b!"aaaaa", .run]).map (fun e => (e.reader.buf,
      match e.task with
        | .ended (some (.error (.valueError _))) => true
        | _ => false)) = some ([], true) := by decide +kernel

/-- Example: a frame that is longer than the limit of the stream reader; reading is paused because
of the two frames that are received before the task runs, then resumed. -/
example : (Endpoint.exec ⟨{ limit := 2 }, .ready (readFrame false (some 125))⟩
    [.data [0x82, 5, 1, 2, 3], .run, .data [4, 5, 0x82, 0], .run]).map (fun e => (e.reader.buf,
      e.reader.paused, match e.task with
        | .ended (some (.ok f)) => f.data
        | _ => [])) = some ([0x82, 0], false, [1, 2, 3, 4, 5]) := by decide +kernel

/-! ## C71: buffering is bounded and reading never stalls -/

/-- Coroutines that never need more than `n` bytes at once, except in lines. -/
inductive Needs (n : Nat) {α : Type} : Coro α → Prop where
  | ret (a) : Needs n (.ret a)
  | raise (e) : Needs n (.raise e)
  | readLine (p k) : (∀ x, Needs n (k x)) → Needs n (.readLine p k)
  | readExact (m k) : m ≤ n → (∀ x, Needs n (k x)) → Needs n (.readExact m k)

theorem Needs.bind {n : Nat} {α β : Type} {c : Coro α} {f : α → Coro β} (hc : Needs n c)
    (hf : ∀ a, Needs n (f a)) : Needs n (c.bind f) := by
  induction hc with
  | ret a => exact hf a
  | raise e => exact .raise e
  | readLine p k _ ih => exact .readLine _ _ ih
  | readExact m k hm _ ih => exact .readExact _ _ hm ih

theorem needs_exact {n m : Nat} (h : m ≤ n) : Needs n (Coro.exact m) := by
  refine .readExact _ _ h fun x => ?_
  cases x
  · exact .raise _
  · exact .ret _

theorem readLine_needs (n : Nat) : Needs n Legacy.readLine := by
  refine Needs.bind (.readLine _ _ fun x => ?_) fun l => ?_
  · cases x
    · exact .raise _
    · exact .ret _
  · split
    · exact .raise _
    · split
      · exact .raise _
      · exact .ret _

theorem readHeaders_needs (n : Nat) : Needs n readHeaders := by
  have : ∀ i h, Needs n (readHeadersLoop i h) := by
    intro i
    induction i with
    | zero => exact fun _ => .raise _
    | succ i ih =>
      intro h
      refine Needs.bind (readLine_needs n) fun l => ?_
      split
      · exact .ret _
      · split
        · exact .raise _
        · split
          · exact .raise _
          · simp only
            split
            · exact .raise _
            · exact ih _
  exact this _ _

theorem readRequest_needs (n : Nat) : Needs n readRequest := by
  refine Needs.bind (readLine_needs n) fun l => ?_
  split
  · exact .raise _
  · split
    · exact .raise _
    · split
      · exact .raise _
      · exact Needs.bind (readHeaders_needs n) fun h => .ret _

theorem readResponse_needs (n : Nat) : Needs n readResponse := by
  refine Needs.bind (readLine_needs n) fun l => ?_
  split
  · exact .raise _
  · split
    · exact .raise _
    · split
      · exact .raise _
      · split
        · exact .raise _
        · split
          · exact .raise _
          · split
            · exact .raise _
            · exact Needs.bind (readHeaders_needs n) fun h => .ret _

theorem readFrame_needs (mask : Bool) {n : Nat} {m : Int} (h8 : 8 ≤ n) (hm : m ≤ n) :
    Needs n (readFrame mask (some m)) := by
  have hb : ∀ a b c d o l, Needs n (readBody mask (some m) a b c d o l) := by
    intro a b c d o l
    unfold readBody
    simp only [exceeds]
    split
    · exact .raise _
    · rename_i hx
      split at hx
      · cases hx
      · refine Needs.bind ?_ fun _ => Needs.bind (needs_exact (by omega)) fun _ => ?_
        · cases mask
          · exact .ret _
          · exact needs_exact (by omega)
        · split
          · exact .raise _
          · exact .ret _
  unfold readFrame
  refine Needs.bind (needs_exact (by omega)) fun d => ?_
  split
  · simp only
    split
    · exact .raise _
    · split
      · exact .raise _
      · split
        · exact Needs.bind (needs_exact (by omega)) fun _ => hb ..
        · split
          · exact Needs.bind (needs_exact (by omega)) fun _ => hb ..
          · exact hb ..
  · exact .raise _

/-- A coroutine that can't proceed with what is in the buffer. -/
def Spec.Starved (r : AReader) : Coro α → Prop
  | .readLine _ _ => 10 ∉ r.buf ∧ r.buf.length ≤ r.limit
  | .readExact n _ => r.buf.length < n
  | _ => False

/-- What always holds about buffering. -/
structure Bounded (r : AReader) (high extra limit : Nat) : Prop where
  limit : r.limit = limit
  reading : r.paused = false → r.buf.length ≤ high
  total : r.buf.length ≤ high + extra
  paused : r.paused = true → r.eof = false → r.limit < r.buf.length

theorem Bounded.maybeResume {r : AReader} {high extra limit : Nat} (hh : 2 * limit ≤ high)
    (hl : r.limit = limit) (h1 : r.paused = false → r.buf.length ≤ high)
    (h2 : r.buf.length ≤ high + extra) : Bounded r.maybeResume high extra limit := by
  unfold AReader.maybeResume
  split
  · rename_i h
    exact ⟨hl, fun _ => by simp only; omega, h2, fun h _ => by cases h⟩
  · rename_i h
    refine ⟨hl, h1, h2, fun hp _ => ?_⟩
    simp only [hp, true_and] at h
    omega

/-- The state of the buffer when a task returns, raises or is suspended. -/
def Settled (n high extra limit : Nat) : AOutcome α → Prop
  | .done _ r => Bounded r high extra limit
  | .raised _ r => Bounded r high extra limit
  | .blocked c r => Bounded r high extra limit ∧ Needs n c ∧ c.Ready r.plain ∧
      Spec.Starved r c ∧ r.paused = false ∧ r.eof = false

theorem arun_settled {n high extra limit : Nat} (hh : 2 * limit ≤ high) (hn : n ≤ high)
    {c : Coro α} (hc : Needs n c) {r : AReader} (hb : Bounded r high extra limit)
    (hr : c.Ready r.plain) : Settled n high extra limit (c.arun r) := by
  induction hc generalizing r with
  | ret a => exact hb
  | raise e => exact hb
  | readLine p k hk ih =>
    obtain ⟨hp, hno, hf⟩ := hr.line_inv
    have hlen : ∀ i, (r.buf.drop i).length ≤ r.buf.length := fun i => by simp
    have hdrop : ∀ i, Bounded { r with buf := r.buf.drop i }.maybeResume high extra limit := by
      intro i
      refine Bounded.maybeResume hh hb.limit (fun hp => ?_) ?_
      · exact Nat.le_trans (hlen i) (hb.reading hp)
      · exact Nat.le_trans (hlen i) hb.total
    have hclear : Bounded { r with buf := [] }.maybeResume high extra limit :=
      Bounded.maybeResume hh hb.limit (fun _ => by simp) (by simp)
    simp only [Coro.arun]
    cases h0 : findLF r.buf p with
    | some i =>
      simp only
      split
      · exact ih _ (hdrop _) (.fresh (hf _))
      · exact ih _ (hdrop _) (.fresh (hf _))
    | none =>
      simp only
      split
      · exact ih _ hclear (.fresh (hf _))
      · rename_i hle
        split
        · refine ih _ ⟨hb.limit, fun _ => by simp, by simp, fun hp he => ?_⟩ (.fresh (hf _))
          rename_i heof
          simp [heof] at he
        · rename_i heof
          have h00 : findLF r.buf 0 = none := by
            have := findLF_eq_zero hp hno
            simp only [AReader.plain] at this
            rw [← this]
            exact h0
          have hall := findLF_none_iff.1 h00
          have hlim := hb.limit
          refine ⟨⟨hb.limit, fun _ => ?_, hb.total, fun h _ => by cases h⟩, .readLine _ _ hk,
            .line _ _ (Nat.le_refl _) (noLF_length hall) hf,
            ⟨fun hm => hall _ hm rfl, by simp only [AReader.await]; omega⟩, rfl, by simpa [AReader.await] using heof⟩
          simp only [AReader.await]
          omega
  | readExact m k hm hk ih =>
    have hf : ∀ x, Fresh (k x) := by
      cases hr with
      | fresh h => cases h with
        | readExact _ _ hk => exact hk
    have hlen : ∀ i, (r.buf.drop i).length ≤ r.buf.length := fun i => by simp
    simp only [Coro.arun]
    split
    · rename_i hlt
      split
      · rename_i heof
        refine ih _ ⟨hb.limit, fun _ => by simp, by simp, fun hp he => ?_⟩ (.fresh (hf _))
        simp [heof] at he
      · rename_i heof
        refine ⟨⟨hb.limit, fun _ => ?_, hb.total, fun h _ => by cases h⟩, .readExact _ _ hm hk,
          hr, hlt, rfl, by simpa [AReader.await] using heof⟩
        simp only [AReader.await]
        omega
    · refine ih _ (Bounded.maybeResume hh hb.limit (fun hp => ?_) ?_) (.fresh (hf _))
      · exact Nat.le_trans (hlen m) (hb.reading hp)
      · exact Nat.le_trans (hlen m) hb.total

/-- What always holds about a connection. -/
def Sound (n high extra limit : Nat) (e : Endpoint α) : Prop :=
  Bounded e.reader high extra limit ∧
  match e.task with
  | .ready c => Needs n c ∧ c.Ready e.reader.plain
  | .waiting c => Needs n c ∧ c.Ready e.reader.plain ∧ Spec.Starved e.reader c ∧
      e.reader.paused = false ∧ e.reader.eof = false
  | .ended _ => True

/-- Chunks are at most `extra` bytes long, and reads need at most `n` bytes. -/
def Allowed (n extra : Nat) : IoAct α → Prop
  | .data d => d.length ≤ extra
  | .start c => Needs n c ∧ c.Fresh
  | _ => True

theorem Sound.step {n high extra limit : Nat} (hh : 2 * limit ≤ high) (hn : n ≤ high)
    {e e' : Endpoint α} {a : IoAct α} (ha : Allowed n extra a) (h : Sound n high extra limit e)
    (he : e.step a = some e') : Sound n high extra limit e' := by
  obtain ⟨hb, ht⟩ := h
  cases a with
  | data d =>
    simp only [Endpoint.step] at he
    split at he
    · cases he
    · rename_i hp
      simp only [not_or, Bool.not_eq_true] at hp
      split at he
      · simp only [Option.some.injEq] at he
        subst he
        exact ⟨hb, ht⟩
      · simp only [Option.some.injEq] at he
        subst he
        have hd : d.length ≤ extra := ha
        have h1 := hb.reading hp.2
        have hl := hb.limit
        refine ⟨?_, ?_⟩
        · simp only [AReader.feedData]
          split
          · rename_i hx
            simp only [List.length_append] at hx
            refine ⟨hl, fun h => (by cases h), ?_, fun _ _ => ?_⟩
            · simp only [List.length_append]; omega
            · simp only [List.length_append]; omega
          · rename_i hx
            simp only [hp.2, true_and, List.length_append] at hx
            refine ⟨hl, fun _ => ?_, ?_, fun h => ?_⟩
            · simp only [List.length_append]; omega
            · simp only [List.length_append]; omega
            · simp [hp.2] at h
        · have hpl := (e.reader.plain_feedData d).1
          cases htk : e.task with
          | ready c =>
            simp only [htk] at ht
            simp only [Task.wakeup, hpl]
            exact ⟨ht.1, ht.2.more _ _⟩
          | waiting c =>
            simp only [htk] at ht
            simp only [Task.wakeup, hpl]
            exact ⟨ht.1, ht.2.1.more _ _⟩
          | ended r => trivial
  | eof =>
    simp only [Endpoint.step, Option.some.injEq] at he
    subst he
    refine ⟨⟨hb.limit, hb.reading, hb.total, fun _ h => by simp [AReader.feedEof] at h⟩, ?_⟩
    have hpl : e.reader.feedEof.plain = e.reader.plain.more [] true := by
      simp [AReader.plain, AReader.feedEof, Reader.more]
    cases htk : e.task with
    | ready c =>
      simp only [htk] at ht
      simp only [Task.wakeup, hpl]
      exact ⟨ht.1, ht.2.more _ _⟩
    | waiting c =>
      simp only [htk] at ht
      simp only [Task.wakeup, hpl]
      exact ⟨ht.1, ht.2.1.more _ _⟩
    | ended r => trivial
  | run =>
    simp only [Endpoint.step] at he
    cases htk : e.task with
    | waiting c => simp [htk] at he
    | ended r => simp [htk] at he
    | ready c =>
      simp only [htk] at he ht
      have hs := arun_settled hh hn ht.1 hb ht.2
      cases ho : c.arun e.reader with
      | done v r' =>
        simp only [ho, Option.some.injEq] at he hs
        subst he
        exact ⟨hs, trivial⟩
      | raised v r' =>
        simp only [ho, Option.some.injEq] at he hs
        subst he
        exact ⟨hs, trivial⟩
      | blocked c' r' =>
        simp only [ho, Option.some.injEq] at he hs
        subst he
        exact ⟨hs.1, hs.2⟩
  | cancel =>
    simp only [Endpoint.step] at he
    cases htk : e.task with
    | ended r => simp [htk] at he
    | waiting c =>
      simp only [htk, Option.some.injEq] at he
      subst he
      exact ⟨hb, trivial⟩
    | ready c =>
      simp only [htk, Option.some.injEq] at he
      subst he
      exact ⟨hb, trivial⟩
  | start c =>
    simp only [Endpoint.step] at he
    cases htk : e.task with
    | waiting c => simp [htk] at he
    | ready c => simp [htk] at he
    | ended r =>
      simp only [htk, Option.some.injEq] at he
      subst he
      exact ⟨hb, ha.1, .fresh ha.2⟩

theorem Sound.exec {n high extra limit : Nat} (hh : 2 * limit ≤ high) (hn : n ≤ high)
    {e e' : Endpoint α} {as : List (IoAct α)} (ha : ∀ a ∈ as, Allowed n extra a)
    (h : Sound n high extra limit e) (he : e.exec as = some e') : Sound n high extra limit e' := by
  induction as generalizing e with
  | nil =>
    simp only [Endpoint.exec, Option.some.injEq] at he
    subst he
    exact h
  | cons a as ih =>
    simp only [Endpoint.exec] at he
    cases hs : e.step a with
    | none => simp [hs] at he
    | some e1 =>
      simp only [hs] at he
      exact ih (fun b hb => ha b (by simp [hb])) (h.step hh hn (ha a (by simp)) hs) he

/-- What a connection reads. -/
inductive Got where
  | request (path : PyStr) (headers : Headers)
  | response (status : Int) (reason : PyStr) (headers : Headers)
  | frame (f : Frame)

/-- What the tasks of a connection read: handshakes, and frames within `max_size`.  (When a message
is fragmented, the limit given to `Frame.read` decreases, legacy/protocol.py 949 and 966.) -/
inductive Spec.Reading (maxSize : Nat) : Coro Got → Prop where
  | request : Reading maxSize (readRequest.bind fun q => .ret (.request q.1 q.2))
  | response : Reading maxSize (readResponse.bind fun q => .ret (.response q.1 q.2.1 q.2.2))
  | frame (mask : Bool) (m : Int) : m ≤ maxSize →
      Reading maxSize ((readFrame mask (some m)).bind fun f => .ret (.frame f))

/-- A new connection (legacy/protocol.py 243). -/
def Endpoint.new (readLimit : Nat) : Endpoint Got := ⟨.init readLimit, .ended none⟩

/-- The chunks delivered by the transport, and the reads, of an execution. -/
def Spec.Within (maxSize chunk : Nat) (as : List (IoAct Got)) : Prop :=
  (∀ d, .data d ∈ as → d.length ≤ chunk) ∧ (∀ c, .start c ∈ as → Spec.Reading maxSize c)

theorem sound_of_within {readLimit maxSize chunk : Nat} {as : List (IoAct Got)}
    (h : Spec.Within maxSize chunk as) {e : Endpoint Got}
    (he : (Endpoint.new readLimit).exec as = some e) :
    Sound (max 8 maxSize) (max readLimit (max 8 maxSize)) chunk (readLimit / 2) e := by
  refine Sound.exec (by omega) (by omega) (fun a ha => ?_) ?_ he
  · cases a with
    | data d => exact h.1 d ha
    | start c =>
      refine ⟨?_, ?_⟩
      · cases h.2 c ha with
        | request => exact Needs.bind (readRequest_needs _) fun _ => .ret _
        | response => exact Needs.bind (readResponse_needs _) fun _ => .ret _
        | frame mask m hm =>
          exact Needs.bind (readFrame_needs mask (by omega) (by omega)) fun _ => .ret _
      · cases h.2 c ha with
        | request => exact readRequest_fresh.bind fun _ => .ret _
        | response => exact readResponse_fresh.bind fun _ => .ret _
        | frame mask m hm => exact (readFrame_exacting mask (some m)).fresh.bind fun _ => .ret _
    | _ => trivial
  · exact ⟨⟨rfl, fun _ => by simp [Endpoint.new, AReader.init],
      by simp [Endpoint.new, AReader.init], fun h => by cases h⟩, trivial⟩

/-- **C71.** With a maximum size for messages, whatever the peer sends and whatever the tasks do, the
number of bytes in the buffer of a connection is bounded by the largest of `read_limit` and
`max_size` (and 8), plus one chunk. -/
theorem C71_bounded (readLimit maxSize chunk : Nat) (as : List (IoAct Got))
    (h : Spec.Within maxSize chunk as) (e : Endpoint Got)
    (he : (Endpoint.new readLimit).exec as = some e) :
    e.reader.buf.length ≤ max readLimit (max 8 maxSize) + chunk :=
  (sound_of_within h he).1.total

/-- **C71.** Reading never stalls: when the task waits for data, the transport delivers data, the
end of the stream wasn't received, and the task can't proceed with what is in the buffer.  In
particular, during the handshake it waits with at most half of `read_limit` in the buffer. -/
theorem C71_no_stall (readLimit maxSize chunk : Nat) (as : List (IoAct Got))
    (h : Spec.Within maxSize chunk as) (e : Endpoint Got)
    (he : (Endpoint.new readLimit).exec as = some e) (c : Coro Got) (ht : e.task = .waiting c) :
    e.reader.paused = false ∧ e.reader.eof = false ∧
    ((∃ p k, c = .readLine p k ∧ 10 ∉ e.reader.buf ∧ e.reader.buf.length ≤ readLimit / 2) ∨
     (∃ n k, c = .readExact n k ∧ e.reader.buf.length < n ∧ n ≤ max 8 maxSize)) := by
  obtain ⟨hb, hs⟩ := sound_of_within h he
  simp only [ht] at hs
  obtain ⟨hn, _, hst, hp, heof⟩ := hs
  refine ⟨hp, heof, ?_⟩
  cases hn with
  | ret a => exact absurd hst (by simp [Spec.Starved])
  | raise e => exact absurd hst (by simp [Spec.Starved])
  | readLine p k _ => exact .inl ⟨p, k, rfl, hst.1, by rw [← hb.limit]; exact hst.2⟩
  | readExact m k hm _ => exact .inr ⟨m, k, rfl, hst, hm⟩

/-- **C71.** Before the end of the stream, the transport is only paused while more than half of
`read_limit` bytes are buffered, and then no task waits for data. -/
theorem C71_paused (readLimit maxSize chunk : Nat) (as : List (IoAct Got))
    (h : Spec.Within maxSize chunk as) (e : Endpoint Got)
    (he : (Endpoint.new readLimit).exec as = some e) (hp : e.reader.paused = true) :
    (e.reader.eof = false → readLimit / 2 < e.reader.buf.length) ∧ ∀ c, e.task ≠ .waiting c := by
  obtain ⟨hb, hs⟩ := sound_of_within h he
  refine ⟨fun heof => by rw [← hb.limit]; exact hb.paused hp heof, fun c hc => ?_⟩
  simp only [hc] at hs
  rw [hp] at hs
  exact absurd hs.2.2.2.1 (by simp)

/-- Example: nobody reads; the transport is paused after 5 bytes with `read_limit` 4. -/
example : ((Endpoint.new 4).exec [.data [1, 2, 3], .data [4, 5]]).map
    (fun e => (e.reader.buf.length, e.reader.paused)) = some (5, true) := by decide +kernel

/-- Example: then a frame of 6 bytes is read: the transport is resumed when the task waits. -/
example : ((Endpoint.new 4).exec [.data [0x82, 6, 1], .data [4, 5],
      .start ((readFrame false (some 6)).bind fun f => .ret (.frame f)), .run]).map
    (fun e => (e.reader.buf.length, e.reader.paused, match e.task with
      | .waiting _ => true
      | _ => false)) = some (3, false, true) := by decide +kernel

example : Spec.Within 6 3 [.data [0x82, 6, 1], .data [4, 5],
    .start ((readFrame false (some 6)).bind fun f => .ret (.frame f)), .run] :=
  ⟨by simp, by
    intro c hc
    simp at hc
    subst hc
    exact .frame false 6 (by omega)⟩

end WS.Legacy
