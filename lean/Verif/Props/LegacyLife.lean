import Verif.Lemmas.LegacyLife

/-!
# C82: how legacy connections end
-/

namespace WS.LegacyLife

/-! ## Specifications -/

/-- The order of the states of a connection -/
def Spec.rank : State → Nat
  | .connecting => 0
  | .opened => 1
  | .closing => 2
  | .closed => 3

/-- Events that are steps of the library: a task continues because what it waits for has happened, or because a
timeout elapses.  The other events are actions of the application, the peer, the transport, or someone who cancels
tasks. -/
def Spec.internal : Ev → Bool
  | .transferDrained _ | .transferWoken | .transferCancelled | .closerRun | .closerLost | .closerTimeout => true
  | .call _ .cancel => false
  | .call _ _ => true
  | _ => false

/-- A call to `close()` that hasn't ended -/
def Spec.closePending : Call → Bool
  | .closeStart | .closeWriting | .closeWaitTransfer _ | .closeWaitCloser => true
  | _ => false

/-- Nothing happens unless something external happens. -/
def Spec.Stuck (cfg : Config) (s : St) : Prop := ∀ e, Spec.internal e = true → step cfg s e = none

/-- `connection_lost` is called when it should, and `close()` isn't called before the opening handshake succeeds:
* after `transport.abort()`, the timeout of `wait_for_connection_lost` doesn't elapse;
* `close()` is called when `transfer_data_task` exists. -/
def Spec.Prompt (cfg : Config) : St → List Ev → Prop
  | _, [] => True
  | s, e :: es =>
    (e = .closerTimeout → (∃ x, s.closer = .waitAbort x) → s.lost = true) ∧
    (e = .close → s.transfer ≠ .absent) ∧
    ∀ s', step cfg s e = some s' → Prompt cfg s' es

/-! ## What steps keep -/

theorem fail_frame (s : St) (code : Nat) : (s.fail code).lost = s.lost ∧ (s.fail code).closeCode = s.closeCode ∧
    (s.fail code).transfer = s.transfer ∧ (s.fail code).calls = s.calls ∧ (s.fail code).isClosing = s.isClosing ∧
    (s.fail code).aborted = s.aborted ∧ (s.fail code).readerExc = s.readerExc ∧
    (s.fail code).paused = s.paused ∧ Spec.rank s.state ≤ Spec.rank (s.fail code).state := by
  refine ⟨?_, ?_, ?_, ?_, ?_, ?_, ?_, ?_, ?_⟩ <;> unfold St.fail <;> grind [Spec.rank]

theorem receive_frame (s : St) (i : Input) : (s.receive i).lost = s.lost ∧ (s.receive i).calls = s.calls ∧
    (s.receive i).isClosing = s.isClosing ∧ (s.receive i).aborted = s.aborted ∧
    (s.receive i).readerExc = s.readerExc ∧ Spec.rank s.state ≤ Spec.rank (s.receive i).state ∧
    ((s.receive i).closeCode = s.closeCode ∨ ∃ code, i = .close code ∧ (s.receive i).closeCode = some code) := by
  have h := fail_frame s
  cases i <;> simp only [St.receive, St.failTransfer] <;> grind [Spec.rank]

theorem callStep_frame {s s' : St} {c c' : Call} {e : CallEv} (he : s.callStep c e = some (s', c')) :
    s'.lost = s.lost ∧ s'.calls = s.calls ∧ s'.closeCode = s.closeCode ∧ s'.transfer = s.transfer ∧
    s'.isClosing = s.isClosing ∧ s'.aborted = s.aborted ∧ s'.readerExc = s.readerExc ∧
    Spec.rank s.state ≤ Spec.rank s'.state := by
  have h := fail_frame s 1006
  unfold St.callStep at he
  grind [Spec.rank]

theorem rank_le (st : State) : Spec.rank st ≤ 3 := by cases st <;> decide

def isLost : Ev → Bool
  | .lost _ => true
  | _ => false

/-- What every step does to the attributes that aren't specific to a task -/
theorem step_frame {cfg : Config} {s s' : St} {e : Ev} (he : step cfg s e = some s') :
    (s'.lost = true ↔ s.lost = true ∨ isLost e = true) ∧ Spec.rank s.state ≤ Spec.rank s'.state ∧
    (s.isClosing = true → s'.isClosing = true) ∧ (s.aborted = true → s'.aborted = true) ∧
    (s'.closeCode = s.closeCode ∨ (∃ code, e = .receive (.close code) ∧ s'.closeCode = some code) ∨
      (isLost e = true ∧ s.lost = false ∧ s'.closeCode = some (s.closeCode.getD 1006))) := by
  cases e with
  | receive i =>
    simp only [step] at he
    have h := receive_frame s i
    split at he <;> cases he
    grind [isLost]
  | call i e =>
    simp only [step] at he
    split at he
    · cases he
    · split at he
      · cases he
      · next hs =>
        have h := callStep_frame hs
        cases he
        grind [isLost]
  | closerRun => have h := closes_closerRun he; grind [isLost, Closes]
  | closerLost =>
    simp only [step] at he
    split at he
    · have h := closes_closerWoken he; grind [isLost, Closes]
    · cases he
  | closerTimeout => have h := closes_closerWoken he; grind [isLost, Closes]
  | cancelCloser => have h := closes_cancelCloser he; grind [isLost, Closes]
  | refused => have h := fail_frame s 1006; simp only [step] at he; grind [isLost]
  | fail code => have h := fail_frame s code; simp only [step] at he; grind [isLost]
  | transferDrained ok =>
    have h := fail_frame s 1011
    have h' := fail_frame s 1006
    simp only [step, St.failTransfer] at he; grind [isLost]
  | transferWoken =>
    have h := fail_frame s 1011
    simp only [step, St.failTransfer] at he; grind [isLost]
  | _ => have h := rank_le s.state; simp only [step] at he; grind [isLost, Spec.rank]

/-! ## States, close frames -/

theorem run_lost {cfg : Config} : ∀ {es : List Ev} {s s' : St}, run cfg s es = some s' →
    (s'.lost = true ↔ s.lost = true ∨ ∃ exc, Ev.lost exc ∈ es)
  | [], s, s', h => by cases h; simp
  | e :: es, s, s', h => by
    simp only [run, Option.bind_eq_some_iff] at h
    obtain ⟨s1, h1, h2⟩ := h
    rw [run_lost h2, (step_frame h1).1]
    cases e <;> simp [isLost]

theorem run_rank {cfg : Config} : ∀ {es : List Ev} {s s' : St}, run cfg s es = some s' →
    Spec.rank s.state ≤ Spec.rank s'.state
  | [], s, s', h => by cases h; exact Nat.le_refl _
  | e :: es, s, s', h => by
    simp only [run, Option.bind_eq_some_iff] at h
    obtain ⟨s1, h1, h2⟩ := h
    exact Nat.le_trans (step_frame h1).2.1 (run_rank h2)

/-- The state only advances, and it's CLOSED if and only if `connection_lost` was called. -/
theorem C82_states {cfg : Config} {es es' : List Ev} {s s' : St} (h : run cfg {} es = some s)
    (h' : run cfg s es' = some s') :
    Spec.rank s.state ≤ Spec.rank s'.state ∧ (s.state = .closed ↔ ∃ exc, Ev.lost exc ∈ es) := by
  refine ⟨run_rank h', ?_⟩
  rw [(inv_init.run h).lost, run_lost h]
  simp

/-- At most one close frame is written, and nothing after it. -/
theorem C82_close_frame {cfg : Config} {es : List Ev} {s : St} (h : run cfg {} es = some s)
    (pre post : List Sent) (hs : s.sent = pre ++ .close :: post) : .close ∉ pre ∧ post = [] := by
  have hi := inv_init.run h
  refine ⟨fun hp => ?_, hi.sent pre post hs⟩
  obtain ⟨a, b, rfl⟩ := List.append_of_mem hp
  have := hi.sent a (b ++ .close :: post) (by simp [hs])
  simp at this

/-! ## The transport -/

/-- `close_connection` has started, and when it has ended, the transport is closing. -/
def Started (s : St) : Prop :=
  s.closer ≠ .absent ∧ s.closer ≠ .created ∧ ∀ c, s.closer = .ended c → s.isClosing = true

theorem fail_closer (s : St) (code : Nat) (h : s.closer ≠ .absent) : (s.fail code).closer = s.closer := by
  unfold St.fail; grind

theorem receive_closer (s : St) (i : Input) (h : s.closer ≠ .absent) : (s.receive i).closer = s.closer := by
  have := fail_closer s
  cases i <;> simp only [St.receive, St.failTransfer] <;> grind

theorem callStep_closer {s s' : St} {c c' : Call} {e : CallEv} (he : s.callStep c e = some (s', c'))
    (h : s.closer ≠ .absent) : s'.closer = s.closer := by
  have h := fail_closer s 1006 h
  unfold St.callStep at he
  grind

def isCloser : Ev → Bool
  | .closerRun | .closerLost | .closerTimeout | .cancelCloser => true
  | _ => false

/-- Only `close_connection` changes where it's suspended. -/
theorem step_closer {cfg : Config} {s s' : St} {e : Ev} (he : step cfg s e = some s') (h : s.closer ≠ .absent)
    (hc : isCloser e = false) : s'.closer = s.closer := by
  cases e with
  | receive i => have := receive_closer s i h; simp only [step] at he; grind
  | call i e =>
    simp only [step] at he
    split at he
    · cases he
    · split at he
      · cases he
      · next hs => have h := callStep_closer hs h; cases he; exact h
  | closerRun | closerLost | closerTimeout | cancelCloser => simp [isCloser] at hc
  | transferDrained ok =>
    have h1 := fail_closer s 1011 h
    have h2 := fail_closer s 1006 h
    simp only [step, St.failTransfer] at he; grind
  | transferWoken => have h1 := fail_closer s 1011 h; simp only [step, St.failTransfer] at he; grind
  | fail code => have h1 := fail_closer s code h; simp only [step] at he; grind
  | _ => simp only [step] at he; grind

theorem Started.step {cfg : Config} {s s' : St} {e : Ev} (hi : Inv s) (h : Started s)
    (he : step cfg s e = some s') : Started s' := by
  have hw := hi.waitClose
  obtain ⟨h1, h2, h3⟩ := h
  by_cases hc : isCloser e = false
  · have h4 := step_closer he h1 hc
    exact ⟨by rwa [h4], by rwa [h4], fun c hcl => (step_frame he).2.2.1 (h3 c (by rw [← h4]; exact hcl))⟩
  · cases e <;> simp [isCloser] at hc <;> simp only [LegacyLife.step] at he
    · unfold St.closerRun St.afterTransfer St.halfClose St.finally at he
      grind [Started]
    · unfold St.closerWoken St.halfClose St.finally St.abort at he
      grind [Started]
    · unfold St.closerWoken St.halfClose St.finally St.abort at he
      grind [Started]
    · unfold St.cancelCloser St.finally at he
      grind [Started]

theorem Started.run {cfg : Config} : ∀ {es : List Ev} {s s' : St}, Inv s → Started s → run cfg s es = some s' →
    Started s'
  | [], _, _, _, h, he => by cases he; exact h
  | e :: es, s, s', hi, h, he => by
    simp only [LegacyLife.run, Option.bind_eq_some_iff] at he
    obtain ⟨s1, h1, h2⟩ := he
    exact (h.step hi h1).run (hi.step h1) h2

/-- When `close_connection_task` has ended, the transport is closing, even if tasks were cancelled, provided that
`close_connection` has started at some time. -/
theorem C82_transport_partial {cfg : Config} {es es' : List Ev} {s s' : St} (h : run cfg {} es = some s)
    (h1 : s.closer ≠ .absent) (h2 : s.closer ≠ .created) (h3 : ∀ c, s.closer ≠ .ended c)
    (h' : run cfg s es' = some s') (cancelled : Bool) (he : s'.closer = .ended cancelled) : s'.isClosing = true :=
  (Started.run (inv_init.run h) ⟨h1, h2, fun c hc => absurd hc (h3 c)⟩ h').2.2 _ he

/-- If the task is cancelled before it starts, the `finally` clause doesn't run and the transport stays open. -/
theorem C82_transport_false : ∃ (cfg : Config) (es : List Ev) (s : St), run cfg {} es = some s ∧
    s.closer = .ended true ∧ s.isClosing = false ∧ s.lost = false :=
  ⟨⟨false, true⟩, [.opened, .cancelCloser], _, rfl, rfl, rfl, rfl⟩

/-- When `close_connection_task` has ended and wasn't cancelled, the connection is lost or the transport was
aborted. -/
theorem C82_aborted_partial {cfg : Config} {es : List Ev} {s : St} (h : run cfg {} es = some s)
    (he : s.closer = .ended false) : s.lost = true ∨ s.aborted = true :=
  ((inv_init.run h).ended he).2.1

/-- If the task is cancelled after it called `transport.close()`, it doesn't abort the transport: if the peer
doesn't read, nothing closes the TCP connection. -/
theorem C82_aborted_false : ∃ (cfg : Config) (es : List Ev) (s : St), run cfg {} es = some s ∧
    s.closer = .ended true ∧ s.isClosing = true ∧ s.lost = false ∧ s.aborted = false :=
  ⟨⟨false, false⟩, [.opened, .closerRun, .receive (.error 1002), .closerRun, .cancelCloser], _, rfl, rfl, rfl,
    rfl, rfl⟩

/-- Example for `C82_transport_partial`: `close_connection` is cancelled twice; the second time is after it called
`transport.close()`. -/
example : ∃ s s', run ⟨true, true⟩ {} [.opened, .closerRun] = some s ∧ s.closer = .waitTransfer ∧
    run ⟨true, true⟩ s [.receive (.close 1000), .transferDrained true, .closerRun, .cancelCloser, .cancelCloser] =
      some s' ∧ s'.closer = .ended true ∧ s'.sent = [.close] ∧ s'.isClosing = true := by
  refine ⟨_, _, rfl, rfl, rfl, rfl, rfl, rfl⟩

/-! ## Close codes -/

/-- The close frame with this code is read. -/
def Spec.reads (code : Nat) : Ev := .receive (.close code)

theorem fail_transfer (s : St) (code : Nat) : (s.fail code).transfer = s.transfer := (fail_frame s code).2.2.1

/-- `transfer_data` doesn't read anything anymore. -/
def Done (s : St) : Prop := s.transfer = .replying ∨ s.transfer = .ended

theorem Done.step {cfg : Config} {s s' : St} {e : Ev} (hi : Inv s) (h : Done s) (he : step cfg s e = some s') :
    Done s' ∧ ∀ i, e ≠ .receive i := by
  have h1 := hi.connecting
  unfold Done at h
  refine ⟨?_, ?_⟩
  · cases e with
    | receive i => simp only [LegacyLife.step] at he; grind
    | call i e =>
      simp only [LegacyLife.step] at he
      split at he
      · cases he
      · split at he
        · cases he
        · next hs => have h' := callStep_frame hs; cases he; simp only [Done]; rw [h'.2.2.2.1]; exact h
    | closerRun => have h' := closes_closerRun he; simp only [Done]; rw [h'.transfer]; exact h
    | closerLost =>
      simp only [LegacyLife.step] at he
      split at he
      · have h' := closes_closerWoken he; simp only [Done]; rw [h'.transfer]; exact h
      · cases he
    | closerTimeout => have h' := closes_closerWoken he; simp only [Done]; rw [h'.transfer]; exact h
    | cancelCloser => have h' := closes_cancelCloser he; simp only [Done]; rw [h'.transfer]; exact h
    | refused => simp only [LegacyLife.step] at he; grind
    | fail code => have := fail_transfer s code; simp only [LegacyLife.step] at he; grind [Done]
    | _ => simp only [LegacyLife.step, St.failTransfer] at he; grind [Done]
  · rintro i rfl
    simp only [LegacyLife.step] at he
    grind

theorem receive_done {s : St} {code : Nat} : Done (s.receive (.close code)) := by
  simp only [St.receive, Done]; grind

/-- Once a close frame was read, the code doesn't change. -/
theorem run_done {cfg : Config} : ∀ {es : List Ev} {s s' : St} {code : Nat}, Inv s → Done s →
    s.closeCode = some code → run cfg s es = some s' → s'.closeCode = some code ∧ ∀ i, Ev.receive i ∉ es
  | [], _, _, _, _, _, hc, he => by cases he; simp [hc]
  | e :: es, s, s', code, hi, h, hc, he => by
    simp only [LegacyLife.run, Option.bind_eq_some_iff] at he
    obtain ⟨s1, h1, h2⟩ := he
    obtain ⟨hd, hn⟩ := h.step hi h1
    have h3 : s1.closeCode = some code := by
      rcases (step_frame h1).2.2.2.2 with h | ⟨c, rfl, _⟩ | ⟨_, _, h⟩
      · rw [h, hc]
      · exact absurd rfl (hn _)
      · rw [h, hc]; rfl
    obtain ⟨h4, h5⟩ := run_done (hi.step h1) hd h3 h2
    refine ⟨h4, fun i hm => ?_⟩
    rcases List.mem_cons.1 hm with rfl | hm
    · exact hn _ rfl
    · exact h5 i hm

theorem run_code {cfg : Config} : ∀ {es : List Ev} {s s' : St}, Inv s →
    (s.closeCode = if s.lost then some 1006 else none) → run cfg s es = some s' →
    (∃ code, Spec.reads code ∈ es ∧ s'.closeCode = some code ∧ ∀ c, Spec.reads c ∈ es → c = code) ∨
    ((∀ code, Spec.reads code ∉ es) ∧ s'.closeCode = if s'.lost then some 1006 else none)
  | [], _, _, _, hc, he => by cases he; simp [hc]
  | e :: es, s, s', hi, hc, he => by
    simp only [LegacyLife.run, Option.bind_eq_some_iff] at he
    obtain ⟨s1, h1, h2⟩ := he
    have hf := step_frame h1
    by_cases hr : ∃ code, e = Spec.reads code
    · obtain ⟨code, rfl⟩ := hr
      have hs1 : s1 = s.receive (.close code) := by
        simp only [Spec.reads, LegacyLife.step] at h1; grind
      have hd : Done s1 := hs1 ▸ receive_done
      have hcode : s1.closeCode = some code := by rw [hs1]; simp only [St.receive]; grind
      obtain ⟨h3, h4⟩ := run_done (hi.step h1) hd hcode h2
      refine .inl ⟨code, by simp, h3, fun c hm => ?_⟩
      rcases List.mem_cons.1 hm with h | hm
      · simpa [Spec.reads] using h
      · exact absurd hm (h4 _)
    · have hc1 : s1.closeCode = if s1.lost then some 1006 else none := by
        rcases hf.2.2.2.2 with h | ⟨c, rfl, _⟩ | ⟨h, h', h''⟩
        · rw [h, hc]
          have := hf.1
          by_cases hl : isLost e = true
          · cases e <;> simp [isLost] at hl
            simp only [LegacyLife.step] at h1
            grind
          · grind
        · exact absurd ⟨c, rfl⟩ hr
        · rw [h'', hc, h']; rw [if_pos (hf.1.2 (.inr h))]; rfl
      rcases run_code (hi.step h1) hc1 h2 with ⟨code, hm, h3, h4⟩ | ⟨h3, h4⟩
      · refine .inl ⟨code, List.mem_cons_of_mem _ hm, h3, fun c hm => ?_⟩
        rcases List.mem_cons.1 hm with h | hm
        · exact absurd ⟨c, h.symm⟩ hr
        · exact h4 c hm
      · refine .inr ⟨fun code hm => ?_, h4⟩
        rcases List.mem_cons.1 hm with h | hm
        · exact hr ⟨code, h.symm⟩
        · exact h3 code hm

/-- `close_code` is the code of the close frame that was read; at most one is read.  Otherwise, it's 1006 when the
connection is lost, and it doesn't exist before. -/
theorem C82_code {cfg : Config} {es : List Ev} {s : St} (h : run cfg {} es = some s) :
    (∃ code, Spec.reads code ∈ es ∧ s.closeCode = some code ∧ ∀ c, Spec.reads c ∈ es → c = code) ∨
    ((∀ code, Spec.reads code ∉ es) ∧
      ((∃ exc, Ev.lost exc ∈ es) ∧ s.closeCode = some 1006 ∨ (∀ exc, Ev.lost exc ∉ es) ∧ s.closeCode = none)) := by
  rcases run_code inv_init rfl h with h' | ⟨h1, h2⟩
  · exact .inl h'
  · refine .inr ⟨h1, ?_⟩
    have hl := run_lost h
    simp only [Bool.false_eq_true, false_or] at hl
    by_cases hs : s.lost = true
    · exact .inl ⟨hl.1 hs, by rw [h2, if_pos hs]⟩
    · exact .inr ⟨fun exc hm => hs (hl.2 ⟨exc, hm⟩), by rw [h2, if_neg hs]⟩

/-- When the connection is lost, and `transfer_data_task` has ended or doesn't exist -/
def Over (s : St) : Prop := s.lost = true ∧ (s.transfer = .ended ∨ s.transfer = .absent)

theorem Over.step {cfg : Config} {s s' : St} {e : Ev} (hi : Inv s) (h : Over s) (he : step cfg s e = some s') :
    Over s' ∧ s'.closeCode = s.closeCode := by
  obtain ⟨hl, ht⟩ := h
  have hst := hi.lost.2 hl
  have hf := step_frame he
  have hcc : s'.closeCode = s.closeCode := by
    rcases hf.2.2.2.2 with h | ⟨c, rfl, _⟩ | ⟨_, h, _⟩
    · exact h
    · simp only [LegacyLife.step] at he; grind
    · rw [hl] at h; cases h
  refine ⟨⟨hf.1.2 (.inl hl), ?_⟩, hcc⟩
  cases e with
  | call i e =>
    simp only [LegacyLife.step] at he
    split at he
    · cases he
    · split at he
      · cases he
      · next hs => have h' := callStep_frame hs; cases he; simpa [h'.2.2.2.1] using ht
  | closerRun => rw [(closes_closerRun he).transfer]; exact ht
  | closerLost =>
    simp only [LegacyLife.step, hl, if_true] at he
    rw [(closes_closerWoken he).transfer]; exact ht
  | closerTimeout => rw [(closes_closerWoken he).transfer]; exact ht
  | cancelCloser => rw [(closes_cancelCloser he).transfer]; exact ht
  | refused => have := fail_transfer s 1006; simp only [LegacyLife.step] at he; grind
  | fail code => have := fail_transfer s code; simp only [LegacyLife.step] at he; grind
  | _ => simp only [LegacyLife.step, St.failTransfer] at he; grind

/-- Results of calls that changed in a step come from the current code. -/
theorem step_results {cfg : Config} {s s' : St} {e : Ev} (he : step cfg s e = some s') (i : Nat) (code : Nat)
    (h : s'.calls[i]? = some (.ended (.connectionClosed code))) :
    s.calls[i]? = some (.ended (.connectionClosed code)) ∨ s.closeCode = some code := by
  have hx : ∀ c, s.shield c s.closedExc = .ended (.connectionClosed code) → c = .ended (.connectionClosed code) ∨
      s.closeCode = some code := by
    intro c hc
    unfold St.shield St.closedExc at hc
    grind
  have hy : ∀ {c c' : Call} {s1 : St} {e : CallEv}, s.callStep c e = some (s1, c') →
      c' = .ended (.connectionClosed code) → s.closeCode = some code := by
    intro c c' s1 e hs hc
    have hf := fail_frame s 1006
    subst hc
    unfold St.callStep St.closeRest St.closeEnd St.shield St.closedExc at hs
    grind
  have happ : ∀ c, (s.calls ++ [c])[i]? = some (.ended (.connectionClosed code)) →
      s.calls[i]? = some (.ended (.connectionClosed code)) ∨ c = .ended (.connectionClosed code) := by
    intro c hc
    rw [List.getElem?_append] at hc
    split at hc
    · exact .inl hc
    · right
      have := List.mem_of_getElem? hc
      simpa [eq_comm] using this
  cases e with
  | call j e =>
    simp only [LegacyLife.step] at he
    split at he
    · cases he
    · split at he
      · cases he
      · next s1 c' hs =>
        have h' := callStep_frame hs
        cases he
        simp only [h'.2.1] at h
        rw [List.getElem?_set] at h
        split at h
        · split at h
          · exact .inr (hy hs (by simpa using h))
          · cases h
        · exact .inl h
  | closerRun => rw [(closes_closerRun he).calls] at h; exact .inl h
  | closerLost =>
    simp only [LegacyLife.step] at he
    split at he
    · rw [(closes_closerWoken he).calls] at h; exact .inl h
    · cases he
  | closerTimeout => rw [(closes_closerWoken he).calls] at h; exact .inl h
  | cancelCloser => rw [(closes_cancelCloser he).calls] at h; exact .inl h
  | receive j => have := receive_frame s j; simp only [LegacyLife.step] at he; grind
  | refused => have := fail_frame s 1006; simp only [LegacyLife.step] at he; grind
  | fail code => have := fail_frame s code; simp only [LegacyLife.step] at he; grind
  | transferDrained ok =>
    have h1 := fail_frame s 1011
    have h2 := fail_frame s 1006
    simp only [LegacyLife.step, St.failTransfer] at he; grind
  | transferWoken => have h1 := fail_frame s 1011; simp only [LegacyLife.step, St.failTransfer] at he; grind
  | close =>
    simp only [LegacyLife.step] at he
    cases he
    rcases happ _ h with h | h
    · exact .inl h
    · cases h
  | ensure =>
    simp only [LegacyLife.step] at he
    cases he
    rcases happ _ h with h | h
    · exact .inl h
    · unfold St.ensureOpen St.closedExc at h; unfold St.closedExc at hx
      grind
  | write =>
    simp only [LegacyLife.step] at he
    split at he
    · cases he
      rcases happ _ h with h | h
      · exact .inl h
      · cases h
    · cases he
      rcases happ _ h with h | h
      · exact .inl h
      · unfold St.ensureOpen St.closedExc at h; unfold St.closedExc at hx
        grind
  | _ => simp only [LegacyLife.step] at he; grind

/-- When the connection is lost and `transfer_data_task` has ended, the code is final, and every call that raises
`ConnectionClosed` from then on reports it. -/
theorem C82_final_partial {cfg : Config} : ∀ {es' : List Ev} {es : List Ev} {s s' : St},
    run cfg {} es = some s → s.lost = true → (s.transfer = .ended ∨ s.transfer = .absent) →
    run cfg s es' = some s' →
    s'.closeCode = s.closeCode ∧ ∀ (i code : Nat), s'.calls[i]? = some (.ended (.connectionClosed code)) →
      s.calls[i]? = some (.ended (.connectionClosed code)) ∨ s.closeCode = some code := by
  intro es' es s s' h hl ht h'
  have hi := inv_init.run h
  have ho : Over s := ⟨hl, ht⟩
  clear h hl ht
  induction es' generalizing s with
  | nil => cases h'; exact ⟨rfl, fun i code h => .inl h⟩
  | cons e es' ih =>
    simp only [LegacyLife.run, Option.bind_eq_some_iff] at h'
    obtain ⟨s1, h1, h2⟩ := h'
    obtain ⟨ho1, hc1⟩ := ho.step hi h1
    obtain ⟨h3, h4⟩ := ih h2 (hi.step h1) ho1
    refine ⟨h3.trans hc1, fun i code hr => ?_⟩
    rcases h4 i code hr with h5 | h5
    · exact step_results h1 i code h5
    · exact .inr (hc1 ▸ h5)

/-- Example for `C82_code` and `C82_final_partial`: the peer closes, a call fails with its code, later calls too. -/
example : ∃ s s', run ⟨false, true⟩ {} [.opened, .closerRun, .receive (.close 1001), .transferDrained true, .ensure,
      .lost true] = some s ∧ s.lost = true ∧ s.transfer = .ended ∧ s.calls = [.ensuring] ∧
    run ⟨false, true⟩ s [.closerRun, .write, .call 0 .woken] = some s' ∧
    s'.calls = [.ended (.connectionClosed 1001), .ended (.connectionClosed 1001)] := by
  refine ⟨_, _, rfl, rfl, rfl, rfl, rfl, rfl⟩

theorem fail_reader (s : St) (code : Nat) : (s.fail code).readerExc = s.readerExc := by
  unfold St.fail
  grind

theorem receive_reader (s : St) (i : Input) : (s.receive i).readerExc = s.readerExc := by
  have h1 := fail_reader s
  cases i <;> simp only [St.receive, St.failTransfer] <;> grind

theorem callStep_reader {s s' : St} {c c' : Call} {e : CallEv} (h : s.callStep c e = some (s', c')) :
    s'.readerExc = s.readerExc := by
  have h1 := fail_reader s 1006
  unfold St.callStep at h
  grind

theorem closer_reader (cfg : Config) (s : St) :
    (∀ exc, (s.finally exc).readerExc = s.readerExc) ∧ (s.halfClose cfg).readerExc = s.readerExc ∧
      (s.afterTransfer cfg).readerExc = s.readerExc ∧ ∀ exc, (s.abort exc).readerExc = s.readerExc := by
  have h1 : ∀ exc, (s.finally exc).readerExc = s.readerExc := by
    intro exc
    unfold St.finally
    grind
  have h2 : (s.halfClose cfg).readerExc = s.readerExc := by
    unfold St.halfClose
    grind
  refine ⟨h1, h2, ?_, ?_⟩
  · unfold St.afterTransfer
    grind
  · intro exc
    unfold St.abort
    grind

theorem step_reader {cfg : Config} {s s' : St} {e : Ev} (he : step cfg s e = some s') (h : s.lost = true) :
    s'.readerExc = s.readerExc := by
  have hc := closer_reader cfg s
  have hw : ∀ {s1 : St}, s.closerWoken cfg = some s1 → s1.readerExc = s.readerExc := by
    intro s1 h1
    unfold St.closerWoken at h1
    grind
  cases e with
  | call i e =>
    simp only [LegacyLife.step] at he
    split at he
    · cases he
    · split at he
      · cases he
      · next hs => have h' := callStep_reader hs; cases he; exact h'
  | closerRun => simp only [LegacyLife.step, St.closerRun] at he; grind
  | closerLost => simp only [LegacyLife.step] at he; grind
  | closerTimeout => exact hw he
  | cancelCloser => simp only [LegacyLife.step, St.cancelCloser] at he; grind
  | receive i => have := receive_reader s i; simp only [LegacyLife.step] at he; grind
  | refused => have := fail_reader s 1006; simp only [LegacyLife.step] at he; grind
  | fail code => have := fail_reader s code; simp only [LegacyLife.step] at he; grind
  | transferDrained ok =>
    have h1 := fail_reader s 1011
    have h2 := fail_reader s 1006
    simp only [LegacyLife.step, St.failTransfer] at he; grind
  | transferWoken => have h1 := fail_reader s 1011; simp only [LegacyLife.step, St.failTransfer] at he; grind
  | _ => simp only [LegacyLife.step] at he; grind

/-- When the connection is lost because of an exception, the code is final at once: `transfer_data` doesn't read frames that
it had received before; and every call that raises `ConnectionClosed` from then on reports it. -/
theorem C82_broken {cfg : Config} {es es' : List Ev} {s s1 s' : St} (h : run cfg {} es = some s)
    (hl : step cfg s (.lost true) = some s1) (h' : run cfg s1 es' = some s') :
    s'.closeCode = s1.closeCode ∧ (∀ i, .receive i ∈ es' → ∃ code, i = .error code) ∧
      ∀ (i code : Nat), s'.calls[i]? = some (.ended (.connectionClosed code)) →
        s.calls[i]? = some (.ended (.connectionClosed code)) ∨ s1.closeCode = some code := by
  have hi : Inv s1 := (inv_init.run h).step hl
  have h1 : s1.lost = true ∧ s1.readerExc = true ∧ s1.calls = s.calls := by
    simp only [LegacyLife.step] at hl
    grind
  obtain ⟨ho, hx, hcalls⟩ := h1
  rw [← hcalls]
  clear h hl hcalls
  induction es' generalizing s1 with
  | nil => cases h'; exact ⟨rfl, by simp, fun i code h => .inl h⟩
  | cons e es' ih =>
    simp only [LegacyLife.run, Option.bind_eq_some_iff] at h'
    obtain ⟨s2, h1, h2⟩ := h'
    have hf := step_frame h1
    have hrec : ∀ i, e = .receive i → ∃ code, i = .error code := by
      rintro i rfl
      simp only [LegacyLife.step] at h1
      split at h1
      · next hc =>
        have := hc.2.2 hx
        cases i with
        | error code => exact ⟨code, rfl⟩
        | _ => cases this
      · cases h1
    have hc1 : s2.closeCode = s1.closeCode := by
      rcases hf.2.2.2.2 with h | ⟨c, rfl, _⟩ | ⟨_, h, _⟩
      · exact h
      · obtain ⟨code, hx⟩ := hrec _ rfl
        cases hx
      · rw [ho] at h; cases h
    obtain ⟨h3, h4, h5⟩ := ih h2 (hi.step h1) (hf.1.2 (.inl ho)) ((step_reader h1 ho).trans hx)
    refine ⟨h3.trans hc1, fun i hm => ?_, fun i code hr => ?_⟩
    · rcases List.mem_cons.1 hm with he | hm
      · exact hrec i he.symm
      · exact h4 i hm
    · rcases h5 i code hr with h6 | h6
      · exact step_results h1 i code h6
      · exact .inr (hc1 ▸ h6)

/-- **C82.** `transfer_data` always notices that it can't read: whether or not the connection is lost, while it waits for
a frame, an error ends it; if the connection is OPEN and the code may be sent, a close frame is written. -/
theorem C82_reader {cfg : Config} {s : St} (h : s.transfer = .reading) (hc : s.cancelReq = false) (code : Nat) :
    ∃ s', step cfg s (.receive (.error code)) = some s' ∧ s'.transfer = .ended ∧ s'.closeCode = s.closeCode ∧
      (s.state = .opened → code ≠ 1006 → s'.state = .closing ∧ s'.sent = s.sent ++ [.close]) ∧
      (s.state ≠ .opened ∨ code = 1006 → s'.state = s.state ∧ s'.sent = s.sent) := by
  refine ⟨s.failTransfer code, ?_, rfl, ?_, ?_, ?_⟩
  · simp [LegacyLife.step, h, hc, Input.isError, St.receive]
  all_goals
    unfold St.failTransfer St.fail
    grind

/-- Example for `C82_reader`: the connection is broken. -/
example : ∃ s, run ⟨true, true⟩ {} [.opened, .closerRun, .lost true] = some s ∧ s.transfer = .reading ∧
    s.cancelReq = false ∧ s.readerExc = true := ⟨_, rfl, rfl, rfl, rfl⟩

/-- **C82.** When someone cancels `close_connection_task` while it waits for `transfer_data_task`, the latter is cancelled,
and `close_connection` goes on: it closes the transport once `transfer_data_task` has ended. -/
theorem C82_cancel_waiting {cfg : Config} {s : St} (h : s.closer = .waitTransfer) :
    ∃ s', step cfg s .cancelCloser = some s' ∧ s'.closer = .waitTransfer ∧ (s.transfer ≠ .ended → s'.cancelReq = true) ∧
      s'.transfer = s.transfer ∧ s'.state = s.state ∧ s'.sent = s.sent ∧ s'.closeCode = s.closeCode := by
  simp only [LegacyLife.step, St.cancelCloser, h]
  split
  · next he => exact ⟨s, rfl, h, fun hn => absurd he hn, rfl, rfl, rfl, rfl⟩
  · exact ⟨_, rfl, rfl, fun _ => rfl, rfl, rfl, rfl, rfl⟩

/-- Example for `C82_broken`: a call fails with 1006; a close frame that arrived before can't be read. -/
example : ∃ s s1 s', run ⟨true, true⟩ {} [.opened, .closerRun] = some s ∧ step ⟨true, true⟩ s (.lost true) = some s1 ∧
    run ⟨true, true⟩ s1 [.ensure, .receive (.error 1006), .closerRun, .ensure] = some s' ∧
    s'.calls = [.ended (.connectionClosed 1006), .ended (.connectionClosed 1006)] ∧
    run ⟨true, true⟩ s1 [.receive (.close 1000)] = none := by
  refine ⟨_, _, _, rfl, rfl, rfl, rfl, rfl⟩

/-- While `transfer_data_task` runs, the code may change after the connection is CLOSED: two calls made at this time
report different codes, and one of these codes is that of an abnormal closure. -/
theorem C82_final_false : ∃ (cfg : Config) (es : List Ev) (s : St), run cfg {} es = some s ∧
    s.calls = [.ended (.connectionClosed 1006), .ended (.connectionClosed 1000)] :=
  ⟨⟨true, true⟩, [.opened, .closerRun, .lost false, .ensure, .receive (.close 1000), .ensure], _, rfl, rfl⟩

/-! ## Why close frames are written, and which cancellations have no effect -/

/-- Events that make the library write a close frame: it reads one, the application calls `close()`, the
connection fails with a code that may be sent. -/
def Spec.asks (es : List Ev) : Prop :=
  (∃ code, Spec.reads code ∈ es) ∨ .close ∈ es ∨
    ∃ code, code ≠ 1006 ∧ (.fail code ∈ es ∨ .receive (.error code) ∈ es)

/-- A close frame is written, or `close()` is running, for a reason. -/
def Asked (s : St) (P : Prop) : Prop := (.close ∈ s.sent → P) ∧ (.closeStart ∈ s.calls → P)

theorem fail_sent (s : St) (code : Nat) : (s.fail code).sent =
    if code ≠ 1006 ∧ s.state = .opened then s.sent ++ [.close] else s.sent := by
  unfold St.fail; grind

theorem not_closeStart (s : St) : s.ensureOpen ≠ .closeStart ∧ s.closeRest ≠ .closeStart ∧ s.closeEnd ≠ .closeStart ∧
    s.shield .ensuring s.closedExc ≠ .closeStart := by
  refine ⟨?_, ?_, ?_, ?_⟩
  · unfold St.ensureOpen St.shield; grind
  · unfold St.closeRest St.closeEnd St.shield; grind
  · unfold St.closeEnd St.shield; grind
  · unfold St.shield; grind

theorem callStep_sent {s s' : St} {c c' : Call} {e : CallEv} (he : s.callStep c e = some (s', c')) :
    c' ≠ .closeStart ∧ (s'.sent = s.sent ∨ c = .closeStart) := by
  have h := fail_sent s 1006
  have h1 := not_closeStart s
  have h2 := not_closeStart (s.fail 1006)
  unfold St.callStep at he
  grind

theorem mem_set_call {l : List Call} {i : Nat} {c x : Call} (h : x ∈ l.set i c) : x ∈ l ∨ x = c :=
  List.mem_or_eq_of_mem_set h

theorem Asked.step {cfg : Config} {s s' : St} {e : Ev} (hi : Inv s) {es : List Ev} (h : Asked s (Spec.asks es))
    (he : step cfg s e = some s') : Asked s' (Spec.asks (es ++ [e])) := by
  have hmono : Spec.asks es → Spec.asks (es ++ [e]) := by
    rintro (⟨c, h⟩ | h | ⟨c, h, h'⟩)
    · exact .inl ⟨c, by simp [h]⟩
    · exact .inr (.inl (by simp [h]))
    · exact .inr (.inr ⟨c, h, by rcases h' with h' | h' <;> simp [h']⟩)
  obtain ⟨hs, hc⟩ := h
  have hs := hmono ∘ hs
  have hc := hmono ∘ hc
  have h0 := hi.lost
  have h00 := hi.ensuring
  have keep : s'.sent = s.sent → s'.calls = s.calls → Asked s' (Spec.asks (es ++ [e])) := fun h1 h2 =>
    ⟨by rw [h1]; exact hs, by rw [h2]; exact hc⟩
  cases e with
  | receive i =>
    have hf := fail_sent s
    have hcalls := (receive_frame s i).2.1
    simp only [LegacyLife.step] at he
    split at he <;> cases he
    refine ⟨fun hm => ?_, by rw [hcalls]; exact hc⟩
    cases i with
    | close code => exact .inl ⟨code, by simp [Spec.reads]⟩
    | error code =>
      by_cases h6 : code = 1006
      · simp only [St.receive, St.failTransfer, hf, h6] at hm
        exact hs (by simpa using hm)
      · exact .inr (.inr ⟨code, h6, .inr (by simp)⟩)
    | ping =>
      refine hs ?_
      simp only [St.receive, St.failTransfer] at hm
      split at hm
      · simpa using hm
      · exact hm
      · next h1 => simpa [hf, h1] using hm
      · next h1 => simpa [hf, h1] using hm
    | pong => exact hs hm
    | data full => refine hs ?_; simp only [St.receive] at hm; split at hm <;> exact hm
  | call i ev =>
    simp only [LegacyLife.step] at he
    split at he
    · cases he
    · next c hget =>
      split at he
      · cases he
      · next s1 c1 hstep =>
        have h1 := callStep_sent hstep
        have h2 := callStep_frame hstep
        cases he
        have hmem : c ∈ s.calls := List.mem_of_getElem? hget
        refine ⟨fun hm => ?_, fun hm => ?_⟩
        · rcases h1.2 with h | h
          · exact hs (h ▸ hm)
          · exact hc (h ▸ hmem)
        · rcases mem_set_call hm with h | h
          · exact hc (h2.2.1 ▸ h)
          · exact absurd h.symm h1.1
  | closerRun => have h := closes_closerRun he; exact keep h.sent h.calls
  | closerLost =>
    simp only [LegacyLife.step] at he
    split at he
    · have h := closes_closerWoken he; exact keep h.sent h.calls
    · cases he
  | closerTimeout => have h := closes_closerWoken he; exact keep h.sent h.calls
  | cancelCloser => have h := closes_cancelCloser he; exact keep h.sent h.calls
  | refused =>
    have h := fail_frame s 1006
    have h' := fail_sent s 1006
    simp only [LegacyLife.step] at he
    split at he <;> cases he
    exact keep (by simp [h']) h.2.2.2.1
  | fail code =>
    have h := fail_frame s code
    have h' := fail_sent s code
    simp only [LegacyLife.step] at he
    split at he <;> cases he
    by_cases h6 : code = 1006
    · subst h6; exact keep (by rw [h']; simp) h.2.2.2.1
    · exact ⟨fun _ => .inr (.inr ⟨code, h6, .inl (by simp)⟩), by rw [h.2.2.2.1]; exact hc⟩
  | transferDrained ok =>
    have h := fail_frame s 1011
    have h1 := fail_sent s 1011
    have h' := fail_frame s 1006
    have h1' := fail_sent s 1006
    simp only [LegacyLife.step, St.failTransfer, St.canDrain] at he
    refine keep ?_ ?_ <;> grind
  | transferWoken =>
    have h := fail_frame s 1011
    have h1 := fail_sent s 1011
    simp only [LegacyLife.step, St.failTransfer] at he
    refine keep ?_ ?_ <;> grind
  | close => cases he; exact ⟨hs, fun _ => .inr (.inl (by simp))⟩
  | ensure =>
    have := not_closeStart s
    cases he
    refine ⟨hs, fun hm => ?_⟩
    rcases List.mem_append.1 hm with h | h
    · exact hc h
    · exact absurd (List.mem_singleton.1 h).symm this.1
  | write =>
    have := not_closeStart s
    simp only [LegacyLife.step] at he
    split at he <;> cases he
    · refine ⟨fun hm => hs (by simpa using hm), fun hm => hc (by simpa using hm)⟩
    · refine ⟨hs, fun hm => ?_⟩
      rcases List.mem_append.1 hm with h | h
      · exact hc h
      · exact absurd (List.mem_singleton.1 h).symm this.1
  | _ => simp only [LegacyLife.step] at he; refine keep ?_ ?_ <;> grind

/-- A close frame is only written because one was read, because `close()` was called, or because the connection
failed with a code other than 1006. -/
theorem C82_close_reason {cfg : Config} {es : List Ev} {s : St} (h : run cfg {} es = some s) (hs : .close ∈ s.sent) :
    Spec.asks es := by
  have key : ∀ (es es0 : List Ev) (s0 : St), Inv s0 → Asked s0 (Spec.asks es0) → run cfg s0 es = some s →
      Asked s (Spec.asks (es0 ++ es)) := by
    intro es
    induction es with
    | nil => intro es0 s0 _ ha h; cases h; simpa using ha
    | cons e es ih =>
      intro es0 s0 hi ha h
      simp only [LegacyLife.run, Option.bind_eq_some_iff] at h
      obtain ⟨s1, h1, h2⟩ := h
      have := ih (es0 ++ [e]) s1 (hi.step h1) (ha.step hi h1) h2
      simpa using this
  simpa using (key es [] {} inv_init ⟨by simp, by simp⟩ h).1 hs

/-- Example: keepalive fails with 1011, which is sent; the end of the stream is 1006, which isn't. -/
example : (∃ s, run ⟨true, true⟩ {} [.opened, .fail 1011] = some s ∧ .close ∈ s.sent) ∧
    (∃ s, run ⟨true, true⟩ {} [.opened, .receive (.error 1006)] = some s ∧ s.sent = []) :=
  ⟨⟨_, rfl, by decide⟩, ⟨_, rfl, rfl⟩⟩

/-- `close_connection` has started, it hasn't closed the transport, and the connection is lost; or it has ended
normally. -/
def Late (s : St) : Prop :=
  s.lost = true ∧ (s.closer = .waitTransfer ∨ s.closer = .waitClosed ∨ s.closer = .waitEof ∨ s.closer = .ended false)

theorem finally_lost {s : St} (h : s.lost = true) (exc : Bool) : (s.finally exc).lost = true ∧
    (s.finally exc).closer = .ended false := by
  unfold St.finally; grind

theorem fail_keeps {s : St} (code : Nat) (h : s.closer ≠ .absent) : (s.fail code).closer = s.closer := by
  unfold St.fail; grind

theorem Late.closer {s : St} (h : Late s) : s.closer ≠ .absent := by
  unfold Late at h; grind

theorem callStep_keeps {s s' : St} {c c' : Call} {e : CallEv} (h : s.closer ≠ .absent)
    (he : s.callStep c e = some (s', c')) : s'.closer = s.closer := by
  have h := fail_keeps 1006 h
  unfold St.callStep at he
  grind

theorem Late.step {cfg : Config} {s s' : St} {e : Ev} (h : Late s) (he : step cfg s e = some s') : Late s' := by
  have hl : s'.lost = true := (step_frame he).1.2 (.inl h.1)
  have hf := fun exc => finally_lost h.1 exc
  have hfc := fun code => fail_keeps code h.closer
  refine ⟨hl, ?_⟩
  have keep : s'.closer = s.closer → s'.closer = .waitTransfer ∨ s'.closer = .waitClosed ∨ s'.closer = .waitEof ∨
      s'.closer = .ended false := fun hk => by rw [hk]; exact h.2
  have h1 := h.1
  have h2 := h.2
  cases e with
  | receive i =>
    refine keep ?_
    simp only [LegacyLife.step] at he
    split at he <;> cases he
    cases i <;> simp only [St.receive, St.failTransfer] <;> grind
  | call i ev =>
    refine keep ?_
    simp only [LegacyLife.step] at he
    split at he
    · cases he
    · split at he
      · cases he
      · next hs => have h' := callStep_keeps h.closer hs; cases he; exact h'
  | closerRun =>
    simp only [LegacyLife.step, St.closerRun, St.afterTransfer, St.halfClose] at he
    grind
  | closerLost =>
    simp only [LegacyLife.step, St.closerWoken, St.halfClose] at he
    grind
  | closerTimeout =>
    simp only [LegacyLife.step, St.closerWoken, St.halfClose] at he
    grind
  | cancelCloser =>
    simp only [LegacyLife.step, St.cancelCloser] at he
    grind
  | refused => simp only [LegacyLife.step] at he; grind
  | fail code => simp only [LegacyLife.step] at he; grind
  | transferDrained ok => simp only [LegacyLife.step, St.failTransfer] at he; grind
  | transferWoken => simp only [LegacyLife.step, St.failTransfer] at he; grind
  | _ => simp only [LegacyLife.step] at he; grind

/-- When the connection is lost before `close_connection` calls `transport.close()`, cancelling
`close_connection_task` has no effect: the `return` in the `finally` clause discards the exception. -/
theorem C82_cancellation {cfg : Config} {es : List Ev} {s s' : St}
    (h1 : s.closer = .waitTransfer ∨ s.closer = .waitClosed ∨ s.closer = .waitEof) (h2 : s.lost = true)
    (h' : run cfg s es = some s') : s'.closer ≠ .ended true := by
  have h : Late s := ⟨h2, by grind⟩
  clear h1 h2
  have : Late s' := by
    induction es generalizing s with
    | nil => cases h'; exact h
    | cons e es ih =>
      simp only [LegacyLife.run, Option.bind_eq_some_iff] at h'
      obtain ⟨s1, h3, h4⟩ := h'
      exact ih h4 (h.step h3)
  unfold Late at this
  grind

/-- Example: a client waits for the server to close the connection, which happens; then the task is cancelled. -/
example : ∃ s, run ⟨true, true⟩ {} [.opened, .closerRun, .receive (.close 1000), .transferDrained true, .closerRun,
    .lost false, .cancelCloser] = some s ∧ s.closer = .ended false := ⟨_, rfl, rfl⟩

/-- When the connection is lost while `close_connection` waits after calling `transport.close()`, an exception raised
earlier by cancelling `close_connection_task` is discarded too: unless it's cancelled again, the task ends normally. -/
theorem C82_discarded {cfg : Config} {s : St} {exc : Bool} (h : s.closer = .waitClose exc) (hl : s.lost = true) :
    (∃ s', step cfg s .closerLost = some s' ∧ s'.closer = .ended false) ∧
      ∀ e s', step cfg s e = some s' → s'.closer = .waitClose exc ∨ s'.closer = .ended false ∨
        e = .cancelCloser ∧ s'.closer = .ended true := by
  have hc : s.closer ≠ .absent := by simp [h]
  refine ⟨⟨{ s with closer := .ended false }, by simp [LegacyLife.step, St.closerWoken, h, hl], rfl⟩, ?_⟩
  intro e s' he
  cases e with
  | closerRun => simp [LegacyLife.step, St.closerRun, h] at he
  | closerLost => simp only [LegacyLife.step, St.closerWoken, h, hl] at he; grind
  | closerTimeout => simp only [LegacyLife.step, St.closerWoken, h, hl] at he; grind
  | cancelCloser =>
    simp only [LegacyLife.step, St.cancelCloser, h, Option.some.injEq] at he
    exact .inr (.inr ⟨rfl, by rw [← he]⟩)
  | _ =>
    have := step_closer he hc rfl
    grind

/-- Example: a client waits for the server to close the connection; the task is cancelled, then the connection is
lost. -/
example : ∃ s s', run ⟨true, true⟩ {} [.opened, .closerRun, .receive (.close 1000), .transferDrained true, .closerRun,
    .cancelCloser, .lost false] = some s ∧ s.closer = .waitClose true ∧ step ⟨true, true⟩ s .closerLost = some s' ∧
    s'.closer = .ended false := ⟨_, _, rfl, rfl, rfl, rfl⟩

/-! ## Results of calls -/

structure Settled (s : St) : Prop where
  ended : s.closer = .ended false → s.lost = true
  calls : ∀ c ∈ s.calls, c ≠ .ended .attributeError ∧ (c = .closeStart → s.transfer ≠ .absent)

theorem shield_attribute {s : St} (hi : Inv s) (h : s.closer = .ended false → s.lost = true) (c : Call)
    (hc : c ≠ .ended .attributeError) : s.shield c s.closedExc ≠ .ended .attributeError := by
  have := hi.code
  unfold St.shield St.closedExc
  grind

theorem ensureOpen_attribute {s : St} (hi : Inv s) (h : s.closer = .ended false → s.lost = true) :
    s.ensureOpen ≠ .ended .attributeError := by
  have h1 := shield_attribute hi h .ensuring (by simp)
  have := hi.code
  have := hi.lost
  unfold St.ensureOpen St.closedExc
  unfold St.closedExc at h1
  grind

theorem callStep_attribute {s s' : St} {c c' : Call} {e : CallEv} (hi : Inv s) (hci : CallInv s c)
    (h : s.closer = .ended false → s.lost = true) (hc : c = .closeStart → s.transfer ≠ .absent)
    (he : s.callStep c e = some (s', c')) : c' ≠ .ended .attributeError ∧ c' ≠ .closeStart := by
  have h1 := shield_attribute hi h .ensuring (by simp)
  have h2 := hi.code
  have hf := fail_frame s 1006
  have hr : ∀ (s : St) c r, r ≠ .attributeError → c ≠ .ended .attributeError → c ≠ .closeStart →
      s.shield c r ≠ .ended .attributeError ∧ s.shield c r ≠ .closeStart := by
    intro s c r _ _ _; unfold St.shield; grind
  have hr' : ∀ s : St, s.closeEnd ≠ .ended .attributeError ∧ s.closeEnd ≠ .closeStart :=
    fun s => hr s _ _ (by simp) (by simp) (by simp)
  have hs : s.shield .ensuring s.closedExc ≠ .closeStart := by unfold St.shield; grind
  have hx : s.lost = true → s.closedExc ≠ .attributeError := by unfold St.closedExc; grind
  have hci' : c = .closeWriting → s.transfer ≠ .absent := by rintro rfl; exact hci
  have hcr : ∀ s : St, s.transfer ≠ .absent → s.closeRest ≠ .ended .attributeError ∧ s.closeRest ≠ .closeStart := by
    intro s; have := hr' s; unfold St.closeRest; grind
  have hcr1 := hcr s
  have hcr2 := hcr (s.fail 1006)
  unfold St.callStep St.canDrain at he
  grind

theorem Settled.mono {s s' : St} (h : Settled s) (h1 : s'.closer = s.closer) (h2 : s.lost = true → s'.lost = true)
    (h3 : s'.calls = s.calls) (h4 : s.transfer ≠ .absent → s'.transfer ≠ .absent) : Settled s' :=
  ⟨fun hc => h2 (h.ended (h1 ▸ hc)), fun c hm => by
    rw [h3] at hm
    exact ⟨(h.calls c hm).1, fun hc => h4 ((h.calls c hm).2 hc)⟩⟩

theorem Settled.fail {s : St} (h : Settled s) (code : Nat) : Settled (s.fail code) := by
  have hf := fail_frame s code
  refine ⟨fun hc => ?_, fun c hm => ?_⟩
  · rw [hf.1]
    by_cases ha : s.closer = .absent
    · exfalso; unfold St.fail at hc; grind
    · exact h.ended (by rw [← fail_closer s code ha]; exact hc)
  · rw [hf.2.2.2.1] at hm
    rw [hf.2.2.1]
    exact h.calls c hm

theorem Settled.ofCloses {s s' : St} (h : Settled s) (hc : Closes s s') (he : s'.closer = .ended false → s'.lost = true) :
    Settled s' :=
  ⟨he, fun c hm => by rw [hc.calls] at hm; rw [hc.transfer]; exact h.calls c hm⟩

theorem Settled.addCall {s : St} (h : Settled s) (c : Call) (hc : c ≠ .ended .attributeError)
    (hs : c = .closeStart → s.transfer ≠ .absent) : Settled { s with calls := s.calls ++ [c] } := by
  refine ⟨h.ended, fun c' hm => ?_⟩
  simp only [List.mem_append, List.mem_singleton] at hm
  rcases hm with hm | rfl
  · exact h.calls c' hm
  · exact ⟨hc, hs⟩

theorem Settled.step {cfg : Config} {s s' : St} {e : Ev} (hi : Inv s) (h : Settled s)
    (hp1 : e = .closerTimeout → (∃ x, s.closer = .waitAbort x) → s.lost = true)
    (hp2 : e = .close → s.transfer ≠ .absent)
    (he : step cfg s e = some s') : Settled s' := by
  have hf := step_frame he
  cases e with
  | opened =>
    simp only [LegacyLife.step] at he
    split at he <;> cases he
    exact ⟨by simp, fun c hm => ⟨(h.calls c hm).1, by simp⟩⟩
  | refused => simp only [LegacyLife.step] at he; split at he <;> cases he; exact h.fail _
  | fail code => simp only [LegacyLife.step] at he; split at he <;> cases he; exact h.fail _
  | receive i =>
    simp only [LegacyLife.step] at he
    split at he <;> cases he
    next hr =>
    have hr' := hi.closer (by simp [hr.1])
    refine h.mono (receive_closer s i hr') (by rw [(receive_frame s i).1]; exact id) (receive_frame s i).2.1 ?_
    intro _
    have := fail_transfer s
    cases i <;> simp only [St.receive, St.failTransfer] <;> grind
  | transferDrained ok =>
    simp only [LegacyLife.step] at he
    repeat' split at he
    all_goals first
      | (cases he; done)
      | (cases he; exact h.mono rfl id rfl (by simp))
      | (cases he; exact (h.fail _).mono rfl id rfl (by simp [St.failTransfer]))
  | transferWoken =>
    simp only [LegacyLife.step] at he
    repeat' split at he
    all_goals first
      | (cases he; done)
      | (cases he; exact (h.fail _).mono rfl id rfl (by simp [St.failTransfer]))
  | closerRun =>
    refine h.ofCloses (closes_closerRun he) ?_
    simp only [LegacyLife.step] at he
    unfold St.closerRun St.afterTransfer St.halfClose St.finally at he
    grind
  | closerLost =>
    simp only [LegacyLife.step] at he
    split at he
    · next hl => exact h.ofCloses (closes_closerWoken he) (fun _ => by rw [(closes_closerWoken he).lost]; exact hl)
    · cases he
  | closerTimeout =>
    refine h.ofCloses (closes_closerWoken he) ?_
    have := hp1 rfl
    simp only [LegacyLife.step] at he
    unfold St.closerWoken St.halfClose St.finally St.abort at he
    grind
  | cancelCloser =>
    refine h.ofCloses (closes_cancelCloser he) ?_
    have := h.ended
    simp only [LegacyLife.step] at he
    unfold St.cancelCloser St.finally at he
    grind
  | lost exc =>
    simp only [LegacyLife.step] at he
    split at he <;> cases he
    exact h.mono rfl (by simp) rfl (by simp)
  | close =>
    simp only [LegacyLife.step] at he
    cases he
    exact h.addCall _ (by simp) (fun _ => hp2 rfl)
  | ensure =>
    simp only [LegacyLife.step] at he
    cases he
    exact h.addCall _ (ensureOpen_attribute hi h.ended) (by unfold St.ensureOpen St.shield; grind)
  | write =>
    simp only [LegacyLife.step] at he
    split at he
    · cases he
      exact (h.addCall .writing (by simp) (by simp)).mono rfl id rfl id
    · cases he
      exact h.addCall _ (ensureOpen_attribute hi h.ended) (by unfold St.ensureOpen St.shield; grind)
  | call i e =>
    simp only [LegacyLife.step] at he
    split at he
    · cases he
    · next c hc =>
      split at he
      · cases he
      · next s1 c' hs =>
        have hm := List.mem_of_getElem? hc
        have hcf := callStep_frame hs
        have hatt := callStep_attribute hi (hi.calls c hm) h.ended (h.calls c hm).2 hs
        cases he
        refine ⟨fun hcl => ?_, fun c'' hm => ?_⟩
        · show s1.lost = true
          rw [hcf.1]
          by_cases ha : s.closer = .absent
          · exfalso
            unfold St.callStep at hs
            have : (s.fail 1006).closer = .created := by unfold St.fail; grind
            simp only at hcl
            grind
          · exact h.ended (by rw [← callStep_closer hs ha]; exact hcl)
        · rcases List.mem_or_eq_of_mem_set hm with hm | rfl
          · rw [hcf.2.1] at hm
            show c'' ≠ _ ∧ (_ → s1.transfer ≠ _)
            rw [hcf.2.2.2.1]
            exact h.calls c'' hm
          · exact ⟨hatt.1, fun hx => absurd hx hatt.2⟩
  | _ =>
    simp only [LegacyLife.step] at he
    first
      | (cases he; exact h.mono rfl id rfl (by simp))
      | (split at he <;> cases he; exact h.mono rfl id rfl (by simp))

theorem Settled.run {cfg : Config} : ∀ {es : List Ev} {s s' : St}, Inv s → Settled s → Spec.Prompt cfg s es →
    run cfg s es = some s' → Settled s'
  | [], _, _, _, h, _, he => by cases he; exact h
  | e :: es, s, s', hi, h, hp, he => by
    simp only [LegacyLife.run, Option.bind_eq_some_iff] at he
    obtain ⟨s1, h1, h2⟩ := he
    exact (h.step hi hp.1 hp.2.1 h1).run (hi.step h1) (hp.2.2 s1 h1) h2

/-- If `connection_lost` is called soon after `transport.abort()`, and `close()` isn't called before the connection
is open, no call fails because an attribute doesn't exist: calls return, raise `ConnectionClosed` or `InvalidState`,
or are cancelled. -/
theorem C82_results_partial {cfg : Config} {es : List Ev} {s : St} (h : run cfg {} es = some s)
    (hp : Spec.Prompt cfg {} es) : .ended .attributeError ∉ s.calls := fun hm =>
  ((Settled.run inv_init ⟨by simp, by simp⟩ hp h).calls _ hm).1 rfl

/-- Example: the connection fails, the peer doesn't react, the transport is aborted, and then lost. -/
example : Spec.Prompt ⟨false, true⟩ {} [.opened, .closerRun, .close, .receive (.error 1002), .closerRun, .closerTimeout,
    .closerTimeout, .lost true, .closerTimeout, .call 0 .run] := by
  simp only [Spec.Prompt]
  refine ⟨by simp, by simp, ?_⟩
  rintro _ ⟨⟩
  refine ⟨by simp, by simp, ?_⟩
  rintro _ ⟨⟩
  refine ⟨by simp, by simp, ?_⟩
  rintro _ ⟨⟩
  refine ⟨by simp, by simp, ?_⟩
  rintro _ ⟨⟩
  refine ⟨by simp, by simp, ?_⟩
  rintro _ ⟨⟩
  refine ⟨fun _ ⟨x, h⟩ => (by cases h), by simp, ?_⟩
  rintro _ ⟨⟩
  refine ⟨fun _ ⟨x, h⟩ => (by cases h), by simp, ?_⟩
  rintro _ ⟨⟩
  refine ⟨by simp, by simp, ?_⟩
  rintro _ ⟨⟩
  refine ⟨fun _ _ => rfl, by simp, ?_⟩
  rintro _ ⟨⟩
  exact ⟨by simp, by simp, fun _ _ => trivial⟩

/-- When `connection_lost` isn't called in `close_timeout` after `transport.abort()`, `recv()` raises
`AttributeError`; and so does `close()` before the connection is open. -/
theorem C82_results_false :
    (∃ (cfg : Config) (es : List Ev) (s : St), run cfg {} es = some s ∧ .close ∉ es ∧
      .ended .attributeError ∈ s.calls) ∧
    (∃ (cfg : Config) (es : List Ev) (s : St), run cfg {} es = some s ∧ .closerTimeout ∉ es ∧
      .ended .attributeError ∈ s.calls) :=
  ⟨⟨⟨false, false⟩, [.opened, .closerRun, .receive (.error 1002), .closerRun, .closerTimeout, .closerTimeout, .ensure],
    _, rfl, by decide, by decide +kernel⟩,
   ⟨⟨false, false⟩, [.close, .call 0 .run], _, rfl, by decide, by decide +kernel⟩⟩

/-! ## Progress -/

def Transfer.weight : Transfer → Nat
  | .absent | .ended => 0
  | .ponging => 2
  | _ => 1

def Closer.weight : Closer → Nat
  | .absent => 8
  | .created => 7
  | .waitTransfer => 6
  | .waitClosed => 5
  | .waitEof => 4
  | .waitClose _ => 3
  | .waitAbort _ => 2
  | .ended _ => 0

def Call.weight : Call → Nat
  | .closeStart => 5
  | .closeWriting => 4
  | .closeWaitTransfer true => 3
  | .closeWaitTransfer false => 2
  | .closeWaitCloser | .ensuring | .writing => 1
  | .ended _ => 0

/-- How many steps of the library remain, at most -/
def St.weight (s : St) : Nat := s.transfer.weight + s.closer.weight + (s.calls.map Call.weight).sum

theorem Call.weight_le (c : Call) : c.weight ≤ 5 := by
  unfold Call.weight; split <;> omega

theorem St.weight_le (s : St) : s.weight ≤ 10 + 5 * s.calls.length := by
  have h1 : s.transfer.weight ≤ 2 := by cases s.transfer <;> decide
  have h2 : s.closer.weight ≤ 8 := by cases s.closer <;> simp [Closer.weight]
  have h3 : ∀ l : List Call, (l.map Call.weight).sum ≤ 5 * l.length := by
    intro l
    induction l with
    | nil => simp
    | cons c l ih => have := c.weight_le; simp only [List.map_cons, List.sum_cons, List.length_cons]; omega
  have := h3 s.calls
  unfold St.weight; omega

theorem sum_set : ∀ {l : List Call} {i : Nat} {c c' : Call}, l[i]? = some c →
    ((l.set i c').map Call.weight).sum + c.weight = (l.map Call.weight).sum + c'.weight
  | [], _, _, _, h => by simp at h
  | x :: l, 0, c, c', h => by
    simp only [List.getElem?_cons_zero, Option.some.injEq] at h
    subst h
    simp only [List.set_cons_zero, List.map_cons, List.sum_cons]; omega
  | x :: l, i + 1, c, c', h => by
    have := sum_set (l := l) (i := i) (c := c) (c' := c') (by simpa using h)
    simp only [List.set_cons_succ, List.map_cons, List.sum_cons]; omega

theorem fail_weight (s : St) (code : Nat) : (s.fail code).closer.weight ≤ s.closer.weight := by
  unfold St.fail; grind [Closer.weight]

theorem finally_weight (s : St) (exc : Bool) : (s.finally exc).closer.weight ≤ 3 := by
  unfold St.finally; grind [Closer.weight]

theorem halfClose_weight (cfg : Config) (s : St) : (s.halfClose cfg).closer.weight ≤ 4 := by
  have := finally_weight s false
  unfold St.halfClose; grind [Closer.weight]

theorem afterTransfer_weight (cfg : Config) (s : St) : (s.afterTransfer cfg).closer.weight ≤ 5 := by
  have := finally_weight s false
  have := halfClose_weight cfg s
  unfold St.afterTransfer; grind [Closer.weight]

theorem shield_weight (s : St) (c : Call) (r : Result) : (s.shield c r).weight ≤ c.weight := by
  unfold St.shield; split <;> simp [Call.weight]

theorem closeEnd_weight (s : St) : s.closeEnd.weight ≤ 1 := shield_weight s _ _

theorem closeRest_weight (s : St) : s.closeRest.weight ≤ 3 := by
  have := closeEnd_weight s
  unfold St.closeRest
  split
  · simp [Call.weight]
  · omega
  · simp [Call.weight]

theorem callStep_weight {s s' : St} {c c' : Call} {e : CallEv} (he : s.callStep c e = some (s', c'))
    (hne : e ≠ .cancel) : c'.weight < c.weight ∧ s'.closer.weight ≤ s.closer.weight := by
  have h1 := closeRest_weight s
  have h2 := closeRest_weight (s.fail 1006)
  have h3 := closeEnd_weight s
  have h4 := fail_weight s 1006
  have h5 : ∀ r, (s.closer = .ended r) → s.closeEnd.weight = 0 ∧ (s.shield .ensuring s.closedExc).weight = 0 := by
    intro r hr; simp [St.closeEnd, St.shield, hr, Call.weight]
  have h6 : ∀ t, 2 ≤ (Call.closeWaitTransfer t).weight := by decide
  unfold St.callStep at he
  split at he
  all_goals (try (exact absurd rfl hne))
  all_goals (repeat' split at he)
  all_goals first
    | (cases he; done)
    | (cases he; done)
    | (simp only [Option.some.injEq, Prod.mk.injEq] at he; obtain ⟨rfl, rfl⟩ := he; grind [Call.weight])

/-- Every step of the library brings the end closer. -/
theorem step_weight {cfg : Config} {s s' : St} {e : Ev} (he : step cfg s e = some s')
    (hint : Spec.internal e = true) : s'.weight < s.weight := by
  cases e with
  | call i e =>
    simp only [LegacyLife.step] at he
    split at he
    · cases he
    · next c hc =>
      split at he
      · cases he
      · next s1 c' hs =>
        have hf := callStep_frame hs
        have hw := callStep_weight hs (by rintro rfl; simp [Spec.internal] at hint)
        have hsum := sum_set (c' := c') hc
        cases he
        simp only [St.weight, hf.2.1, hf.2.2.2.1]
        omega
  | transferDrained ok =>
    have hf := fail_frame s
    have hw1 := fail_weight s 1011
    have hw2 := fail_weight s 1006
    simp only [LegacyLife.step] at he
    repeat' split at he
    all_goals first
      | (cases he; done)
      | skip
    all_goals
      next ht _ =>
      cases he
      simp only [St.weight, St.failTransfer, (hf _).2.2.2.1, ht, Transfer.weight]
      omega
  | transferWoken =>
    have hf := fail_frame s
    have hw1 := fail_weight s 1011
    simp only [LegacyLife.step] at he
    repeat' split at he
    all_goals first
      | (cases he; done)
      | skip
    next ht _ _ =>
      cases he
      simp only [St.weight, St.failTransfer, (hf _).2.2.2.1, ht, Transfer.weight]
      omega
  | transferCancelled =>
    simp only [LegacyLife.step] at he
    split at he <;> cases he
    next ht =>
    have : 0 < s.transfer.weight := by
      cases hx : s.transfer <;> simp_all [Transfer.weight]
    have h0 : Transfer.ended.weight = 0 := rfl
    simp only [St.weight, h0]
    omega
  | closerRun =>
    have hc := closes_closerRun he
    have hw := afterTransfer_weight cfg s
    simp only [St.weight, hc.transfer, hc.calls]
    simp only [LegacyLife.step] at he
    have : s'.closer.weight < s.closer.weight := by
      unfold St.closerRun at he; grind [Closer.weight]
    omega
  | closerLost =>
    simp only [LegacyLife.step] at he
    split at he
    · have hc := closes_closerWoken he
      have hw1 := halfClose_weight cfg s
      have hw2 := finally_weight s false
      simp only [St.weight, hc.transfer, hc.calls]
      have : s'.closer.weight < s.closer.weight := by
        unfold St.closerWoken St.abort at he; grind [Closer.weight]
      omega
    · cases he
  | closerTimeout =>
    have hc := closes_closerWoken he
    have hw1 := halfClose_weight cfg s
    have hw2 := finally_weight s false
    simp only [St.weight, hc.transfer, hc.calls]
    simp only [LegacyLife.step] at he
    have : s'.closer.weight < s.closer.weight := by
      unfold St.closerWoken St.abort at he; grind [Closer.weight]
    omega
  | _ => simp [Spec.internal] at hint

theorem run_weight {cfg : Config} : ∀ {es : List Ev} {s s' : St}, run cfg s es = some s' →
    (∀ e ∈ es, Spec.internal e = true) → es.length + s'.weight ≤ s.weight
  | [], _, _, h, _ => by cases h; simp
  | e :: es, s, s', h, hint => by
    simp only [LegacyLife.run, Option.bind_eq_some_iff] at h
    obtain ⟨s1, h1, h2⟩ := h
    have h3 := step_weight h1 (hint e (by simp))
    have h4 := run_weight h2 (fun e he => hint e (by simp [he]))
    simp only [List.length_cons]; omega

/-- While a call to `close()` is pending, the library can do something. -/
theorem Inv.progress {cfg : Config} {s : St} (h : Inv s) {i : Nat} {c : Call} (hc : s.calls[i]? = some c)
    (hp : Spec.closePending c = true) : ¬ Spec.Stuck cfg s := by
  intro hst
  have hci := h.calls c (List.mem_of_getElem? hc)
  -- `transfer_data` ends if it's cancelled
  have htc : s.cancelReq = true → s.transfer = .ended := by
    intro hr
    have := hst .transferCancelled rfl
    simp only [LegacyLife.step] at this
    have h2 := h.req hr
    grind
  -- `close_connection` ends if `transfer_data` has ended
  have hcl : s.transfer = .ended → ∃ x, s.closer = .ended x := by
    intro ht
    have h1 := hst .closerRun rfl
    have h2 := hst .closerTimeout rfl
    have h3 := h.closer (by simp [ht])
    simp only [LegacyLife.step, St.closerRun, St.closerWoken, ht] at h1 h2
    cases hx : s.closer <;> simp only [hx] at h1 h2 h3 <;> grind
  have hcall : ∀ e, e ≠ .cancel → s.callStep c e = none := by
    intro e he
    have := hst (.call i e) (by cases e <;> first | rfl | exact absurd rfl he)
    simp only [LegacyLife.step, hc] at this
    grind
  cases c with
  | closeStart => have := hcall .run (by simp); simp only [St.callStep] at this; split at this <;> cases this
  | closeWriting => have := hcall .timeout (by simp); simp [St.callStep] at this
  | closeWaitTransfer timer =>
    have h1 := hcall .timeout (by simp)
    have h2 := hcall .woken (by simp)
    simp only [CallInv] at hci
    have ht : s.transfer = .ended := by
      cases timer
      · rcases hci.2 with h | h | h
        · cases h
        · exact htc h
        · exact h
      · simp only [St.callStep] at h1
        grind
    simp [St.callStep, ht] at h2
  | closeWaitCloser =>
    have h2 := hcall .woken (by simp)
    obtain ⟨x, hx⟩ := hcl (hci.2.elim htc id)
    simp [St.callStep, hx] at h2
  | _ => simp [Spec.closePending] at hp

/-- A call to `close()` always ends, in a bounded number of steps of the library, whatever happened before: other
calls, cancellations, pings received while closing, and so on. -/
theorem C82_close_ends {cfg : Config} {es es' : List Ev} {s s' : St} (h : run cfg {} es = some s)
    (hint : ∀ e ∈ es', Spec.internal e = true) (h' : run cfg s es' = some s') :
    es'.length ≤ 10 + 5 * s.calls.length ∧
    (Spec.Stuck cfg s' → ∀ c ∈ s'.calls, Spec.closePending c = false) := by
  have hi := (inv_init.run h).run h'
  refine ⟨?_, fun hst c hm => ?_⟩
  · have h1 := run_weight h' hint
    have h2 := s.weight_le
    omega
  · obtain ⟨i, hc⟩ := List.mem_iff_getElem?.1 hm
    cases hp : Spec.closePending c
    · rfl
    · exact absurd hst (hi.progress hc hp)

/-- Where a call to `close()` is, and what it means that it returned -/
def Closed (s : St) (i : Nat) : Prop :=
  (∃ c, s.calls[i]? = some c ∧ Spec.closePending c = true) ∨
  (∃ r, s.calls[i]? = some (.ended r) ∧ (r = .returned → s.closer = .ended false))

theorem callStep_close {s s' : St} {c c' : Call} {e : CallEv} (he : s.callStep c e = some (s', c'))
    (hp : Spec.closePending c = true) :
    Spec.closePending c' = true ∨ ∃ r, c' = .ended r ∧ (r = .returned → s'.closer = .ended false) := by
  have h1 : ∀ s : St, Spec.closePending s.closeEnd = true ∨
      ∃ r, s.closeEnd = .ended r ∧ (r = .returned → s.closer = .ended false) := by
    intro s; unfold St.closeEnd St.shield; grind [Spec.closePending]
  have h2 : ∀ s : St, Spec.closePending s.closeRest = true ∨
      ∃ r, s.closeRest = .ended r ∧ (r = .returned → s.closer = .ended false) := by
    intro s; have := h1 s; unfold St.closeRest; grind [Spec.closePending]
  have h3 : s.closedExc ≠ .returned := by unfold St.closedExc; grind
  unfold St.callStep at he
  split at he
  all_goals (repeat' split at he)
  all_goals first
    | (cases he; done)
    | (simp only [Option.some.injEq, Prod.mk.injEq] at he; obtain ⟨rfl, rfl⟩ := he; grind [Spec.closePending])

theorem Closed.step {cfg : Config} {s s' : St} {e : Ev} {i : Nat} (h : Closed s i)
    (he : step cfg s e = some s') : Closed s' i := by
  have hcl : s.closer = .ended false → s'.closer = .ended false := by
    intro hc
    by_cases hx : isCloser e = false
    · rw [step_closer he (by simp [hc]) hx, hc]
    · cases e <;> simp [isCloser] at hx <;>
        simp [LegacyLife.step, St.closerRun, St.closerWoken, St.cancelCloser, hc] at he
  have hkeep : ∀ c, s.calls[i]? = some c → s'.calls[i]? = some c ∨
      ∃ e' s1 c', e = .call i e' ∧ s.callStep c e' = some (s1, c') ∧ s'.calls[i]? = some c' ∧
        s'.closer = s1.closer := by
    intro c hc
    have happ : ∀ x, (s.calls ++ [x])[i]? = some c := fun x => by
      rw [List.getElem?_append_left (List.getElem?_eq_some_iff.1 hc).1]; exact hc
    cases e with
    | call j e =>
      simp only [LegacyLife.step] at he
      split at he
      · cases he
      · next c0 hc0 =>
        split at he
        · cases he
        · next s1 c' hs =>
          have h' := callStep_frame hs
          cases he
          by_cases hij : j = i
          · subst hij
            rw [hc] at hc0; cases hc0
            refine .inr ⟨e, s1, c', rfl, hs, ?_, rfl⟩
            simp only [h'.2.1]
            rw [List.getElem?_set_self (List.getElem?_eq_some_iff.1 hc).1]
          · left
            simp only [h'.2.1]
            rw [List.getElem?_set_ne hij]; exact hc
    | closerRun => rw [(closes_closerRun he).calls]; exact .inl hc
    | closerLost =>
      simp only [LegacyLife.step] at he
      split at he
      · rw [(closes_closerWoken he).calls]; exact .inl hc
      · cases he
    | closerTimeout => rw [(closes_closerWoken he).calls]; exact .inl hc
    | cancelCloser => rw [(closes_cancelCloser he).calls]; exact .inl hc
    | receive j => have := receive_frame s j; simp only [LegacyLife.step] at he; grind
    | refused => have := fail_frame s 1006; simp only [LegacyLife.step] at he; grind
    | fail code => have := fail_frame s code; simp only [LegacyLife.step] at he; grind
    | transferDrained ok =>
      have h1 := fail_frame s 1011
      have h2 := fail_frame s 1006
      simp only [LegacyLife.step, St.failTransfer] at he; grind
    | transferWoken => have h1 := fail_frame s 1011; simp only [LegacyLife.step, St.failTransfer] at he; grind
    | close => simp only [LegacyLife.step] at he; cases he; exact .inl (happ _)
    | ensure => simp only [LegacyLife.step] at he; cases he; exact .inl (happ _)
    | write =>
      simp only [LegacyLife.step] at he
      split at he
      · cases he; exact .inl (happ _)
      · cases he; exact .inl (happ _)
    | _ => simp only [LegacyLife.step] at he; grind
  rcases h with ⟨c, hc, hp⟩ | ⟨r, hc, hr⟩
  · rcases hkeep c hc with hk | ⟨e', s1, c', rfl, hs, hk, hcs⟩
    · exact .inl ⟨c, hk, hp⟩
    · rcases callStep_close hs hp with hp' | ⟨r, rfl, hr⟩
      · exact .inl ⟨c', hk, hp'⟩
      · exact .inr ⟨r, hk, by rw [hcs]; exact hr⟩
  · rcases hkeep _ hc with hk | ⟨e', s1, c', rfl, hs, hk, hcs⟩
    · exact .inr ⟨r, hk, fun h => hcl (hr h)⟩
    · simp [St.callStep] at hs

/-- When `close()` returns, the connection is lost or the transport was aborted. -/
theorem C82_close_returns {cfg : Config} {es es' : List Ev} {s s' : St} (h : run cfg {} es = some s) (i : Nat) (c : Call)
    (hc : s.calls[i]? = some c) (hp : Spec.closePending c = true) (h' : run cfg s es' = some s')
    (hr : s'.calls[i]? = some (.ended .returned)) : s'.lost = true ∨ s'.aborted = true := by
  have hi := inv_init.run h
  have hcl : Closed s i := .inl ⟨c, hc, hp⟩
  have hi' := hi.run h'
  clear h hc hp
  have : Closed s' i := by
    induction es' generalizing s with
    | nil => cases h'; exact hcl
    | cons e es' ih =>
      simp only [LegacyLife.run, Option.bind_eq_some_iff] at h'
      obtain ⟨s1, h1, h2⟩ := h'
      exact ih h2 (hi.step h1) (hcl.step h1)
  rcases this with ⟨c, hc, hp⟩ | ⟨r, hc, hx⟩
  · rw [hr] at hc; cases hc; cases hp
  · rw [hr] at hc; cases hc
    exact (hi'.ended (hx rfl)).2.1

/-- The only ways for a connection to wait without a timeout, in any state, until `close_connection` ends:
* `transfer_data` waits for data (or for room in the queue), as before;
* it waits until the peer reads, in order to send a close frame or a pong;
* it waits for `close_connection`, which waits for it. -/
theorem C82_waiting {cfg : Config} {es : List Ev} {s : St} (h : run cfg {} es = some s)
    (hst : Spec.Stuck cfg s) (hc : ∀ x, s.closer ≠ .ended x)
    (ha : s.closer ≠ .absent) :
    s.closer = .waitTransfer ∧ s.cancelReq = false ∧
    (s.transfer = .reading ∨ s.transfer = .putting ∨
      ((s.transfer = .replying ∨ s.transfer = .ponging) ∧ s.paused = true ∧ s.lost = false) ∨
      s.transfer = .ensuring) := by
  have hi := inv_init.run h
  have h1 := hst .closerRun rfl
  have h2 := hst .closerTimeout rfl
  have h3 := hst .transferCancelled rfl
  have h4 := hst (.transferDrained true) rfl
  simp only [LegacyLife.step, St.closerRun, St.closerWoken, St.canDrain] at h1 h2 h3 h4
  have hw : s.closer = .waitTransfer := by
    cases hx : s.closer <;> simp only [hx] at h1 h2 hc ha <;> grind
  have ht := hi.waitTransfer hw
  refine ⟨hw, by grind, ?_⟩
  cases hx : s.transfer <;> grind

/-- A peer that sends a close frame and doesn't read makes the connection wait forever: it's CLOSING, and no timeout
is pending. -/
theorem C82_progress_false : ∃ (cfg : Config) (es : List Ev) (s : St), run cfg {} es = some s ∧
    s.state = .closing ∧ s.closeCode = some 1000 ∧ s.closer = .waitTransfer ∧ Spec.Stuck cfg s := by
  refine ⟨⟨false, true⟩, [.opened, .closerRun, .pause, .receive (.close 1000)], _, rfl, rfl, rfl, rfl, ?_⟩
  intro e he
  cases e <;> first | rfl | (simp [Spec.internal] at he; done) | skip
  next ok => cases ok <;> rfl

/-- Events that aren't interventions of the application or cancellations -/
def Spec.passive : Ev → Bool
  | .cancelTransfer | .cancelCloser | .fail _ | .close => false
  | .call _ .cancel => false
  | _ => true

/-- If `close()` is cancelled while it writes the close frame and a ping is received, `transfer_data` and
`close_connection` wait for each other, even when the connection is lost, and nothing but a cancellation or another
call to `close()` or `fail_connection()` can change this. -/
theorem C82_deadlock_false : ∃ (cfg : Config) (es : List Ev) (s : St), run cfg {} es = some s ∧
    s.lost = true ∧
    ∀ (es' : List Ev) (s' : St), (∀ e ∈ es', Spec.passive e = true) → run cfg s es' = some s' →
      s'.transfer = .ensuring ∧ s'.closer = .waitTransfer := by
  refine ⟨⟨true, true⟩, [.opened, .closerRun, .pause, .close, .call 0 .run, .call 0 .cancel, .receive .ping,
    .lost false], _, rfl, rfl, ?_⟩
  have key : ∀ (es' : List Ev) (s s' : St), s.transfer = .ensuring → s.closer = .waitTransfer → s.cancelReq = false →
      s.state = .closed → (∀ c ∈ s.calls, ∃ r, c = .ended r) →
      (∀ e ∈ es', Spec.passive e = true) → run ⟨true, true⟩ s es' = some s' →
      s'.transfer = .ensuring ∧ s'.closer = .waitTransfer := by
    intro es'
    induction es' with
    | nil => intro s s' h1 h2 _ _ _ _ h; cases h; exact ⟨h1, h2⟩
    | cons e es' ih =>
      intro s s' h1 h2 h3 h4 h5 hp h
      simp only [LegacyLife.run, Option.bind_eq_some_iff] at h
      obtain ⟨s1, hs, hr⟩ := h
      have hpe := hp e (by simp)
      have hadd : ∀ x : Call, (∃ r, x = .ended r) → ∀ c ∈ s.calls ++ [x], ∃ r, c = .ended r := by
        intro x hx c hm
        rcases List.mem_append.1 hm with hm | hm
        · exact h5 c hm
        · rw [List.mem_singleton.1 hm]; exact hx
      have hstep : s1.transfer = .ensuring ∧ s1.closer = .waitTransfer ∧ s1.cancelReq = false ∧
          s1.state = .closed ∧ ∀ c ∈ s1.calls, ∃ r, c = .ended r := by
        cases e with
        | call i e =>
          simp only [LegacyLife.step] at hs
          split at hs
          · cases hs
          · next c hc =>
            obtain ⟨r, rfl⟩ := h5 c (List.mem_of_getElem? hc)
            simp [St.callStep] at hs
        | ensure =>
          simp only [LegacyLife.step] at hs
          cases hs
          exact ⟨h1, h2, h3, h4, hadd _ ⟨s.closedExc, by simp [St.ensureOpen, h4]⟩⟩
        | write =>
          simp only [LegacyLife.step, h4] at hs
          cases hs
          exact ⟨h1, h2, h3, rfl, hadd _ ⟨s.closedExc, by simp [St.ensureOpen, h4]⟩⟩
        | _ => simp only [LegacyLife.step, St.closerRun, St.closerWoken] at hs; grind [Spec.passive]
      exact ih s1 s' hstep.1 hstep.2.1 hstep.2.2.1 hstep.2.2.2.1 hstep.2.2.2.2 (fun e he => hp e (by simp [he])) hr
  intro es' s' hp h
  exact key es' _ s' rfl rfl rfl rfl 
    (fun c (hm : c ∈ [Call.ended .cancelled]) => ⟨_, List.mem_singleton.1 hm⟩) hp h

/-- Example for `C82_close_ends` and `C82_close_returns`: from the deadlock, `close()` ends after ten steps. -/
example : ∃ s s', run ⟨true, true⟩ {} [.opened, .closerRun, .pause, .close, .call 0 .run, .call 0 .cancel,
      .receive .ping, .close] = some s ∧ s.transfer = .ensuring ∧ s.closer = .waitTransfer ∧
    run ⟨true, true⟩ s [.call 1 .run, .call 1 .timeout, .transferCancelled, .closerRun, .closerTimeout, .closerTimeout,
      .closerTimeout, .call 1 .woken, .closerTimeout, .call 1 .woken] = some s' ∧
    s'.calls = [.ended .cancelled, .ended .returned] ∧ s'.aborted = true := by
  refine ⟨_, _, rfl, rfl, rfl, rfl, rfl, rfl⟩

end WS.LegacyLife
