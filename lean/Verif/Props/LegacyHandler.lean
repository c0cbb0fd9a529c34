import Verif.Model.LegacyHandler
import Verif.Props.LegacyLife

/-!
# C87, C88: the owner of a connection closes it

C87: the handler of a legacy server answers each request once, calls the handler of the application at most once, and
leaves no connection behind.  C88: `async with connect(...)` leaves no connection behind.
-/

namespace WS.LegacyLife

/-- Before `connection_open`, nothing is sent. -/
def Quiet (s : St) : Prop := s.transfer = .absent → s.sent = [] ∧ (s.state = .connecting ∨ s.state = .closed)

theorem step_absent {cfg : Config} {s s' : St} {e : Ev} (hi : Inv s) (ha : s.transfer = .absent)
    (he : step cfg s e = some s') (ho : e ≠ .opened) : s'.transfer = .absent ∧ s'.sent = s.sent := by
  have hst : s.state ≠ .opened := fun h => hi.closing (.inl h) ha
  have hf : (s.fail 1006).transfer = .absent ∧ (s.fail 1006).sent = s.sent := by unfold St.fail; grind
  cases e with
  | opened => exact absurd rfl ho
  | call i e =>
    simp only [step] at he
    split at he
    · cases he
    · next c hc =>
      have hci := hi.calls c (List.mem_of_getElem? hc)
      split at he
      · cases he
      · next hs =>
        cases he
        unfold St.callStep at hs
        grind
  | closerRun => have h := closes_closerRun he; exact ⟨by rw [h.transfer, ha], h.sent⟩
  | closerLost =>
    simp only [step] at he
    split at he
    · have h := closes_closerWoken he; exact ⟨by rw [h.transfer, ha], h.sent⟩
    · cases he
  | closerTimeout => have h := closes_closerWoken he; exact ⟨by rw [h.transfer, ha], h.sent⟩
  | cancelCloser => have h := closes_cancelCloser he; exact ⟨by rw [h.transfer, ha], h.sent⟩
  | _ => simp only [step] at he; grind

theorem fail_doomed (s : St) (code : Nat) : (s.fail code).transfer = s.transfer ∧
    (s.cancelReq = true → (s.fail code).cancelReq = true) := by
  unfold St.fail; grind

/-- `transfer_data_task` doesn't disappear; once it's cancelled or has ended, it stays so. -/
theorem step_present {cfg : Config} {s s' : St} {e : Ev} (h : s.transfer ≠ .absent) (hn : s.closer ≠ .absent)
    (he : step cfg s e = some s') : s'.transfer ≠ .absent ∧
      (s.transfer = .ended ∨ s.cancelReq = true → s'.transfer = .ended ∨ s'.cancelReq = true) := by
  cases e with
  | call i e =>
    simp only [step] at he
    split at he
    · cases he
    · split at he
      · cases he
      · next hs =>
        cases he
        have := fail_doomed s 1006
        unfold St.callStep at hs
        grind
  | closerRun =>
    have h' := closes_closerRun he
    rw [h'.transfer]
    exact ⟨h, fun hx => hx.imp_right fun hx => h'.req.2 (.inl hx)⟩
  | closerLost =>
    simp only [step] at he
    split at he
    · have h' := closes_closerWoken he
      rw [h'.transfer]
      exact ⟨h, fun hx => hx.imp_right fun hx => h'.req.2 (.inl hx)⟩
    · cases he
  | closerTimeout =>
    have h' := closes_closerWoken he
    rw [h'.transfer]
    exact ⟨h, fun hx => hx.imp_right fun hx => h'.req.2 (.inl hx)⟩
  | cancelCloser =>
    have h' := closes_cancelCloser he
    rw [h'.transfer]
    exact ⟨h, fun hx => hx.imp_right fun hx => h'.req.2 (.inl hx)⟩
  | fail code => have := fail_doomed s code; simp only [step] at he; grind
  | receive i =>
    have := fail_doomed s 1011
    cases i <;> simp only [step, St.receive, St.failTransfer] at he <;> grind
  | transferDrained ok => simp only [step, St.failTransfer] at he; grind
  | transferWoken => simp only [step, St.failTransfer] at he; grind
  | _ => simp only [step] at he; grind

theorem Quiet.step {cfg : Config} {s s' : St} {e : Ev} (hi : Inv s) (h : Quiet s)
    (he : LegacyLife.step cfg s e = some s') : Quiet s' := by
  intro ha
  have hi' := hi.step he
  have ho : e ≠ .opened := by
    rintro rfl
    simp only [LegacyLife.step] at he
    split at he <;> cases he
    cases ha
  have hst : s'.state = .connecting ∨ s'.state = .closed := by
    cases hs : s'.state
    · simp
    · exact absurd ha (hi'.closing (.inl hs))
    · exact absurd ha (hi'.closing (.inr hs))
    · simp
  refine ⟨?_, hst⟩
  by_cases h0 : s.transfer = .absent
  · rw [(step_absent hi h0 he ho).2, (h h0).1]
  · exact absurd ha (step_present h0 (hi.closer h0) he).1

theorem Quiet.run {cfg : Config} : ∀ {es : List Ev} {s s' : St}, Inv s → Quiet s →
    LegacyLife.run cfg s es = some s' → Quiet s'
  | [], _, _, _, h, he => by cases he; exact h
  | e :: es, s, s', hi, h, he => by
    simp only [LegacyLife.run, Option.bind_eq_some_iff] at he
    obtain ⟨s1, h1, h2⟩ := he
    exact (h.step hi h1).run (hi.step h1) h2

theorem run_append {cfg : Config} : ∀ {es es' : List Ev} {s s1 s' : St}, run cfg s es = some s1 →
    run cfg s1 es' = some s' → run cfg s (es ++ es') = some s'
  | [], _, _, _, _, h, h' => by cases h; exact h'
  | e :: es, es', s, s1, s', h, h' => by
    simp only [run, Option.bind_eq_some_iff, List.cons_append] at h ⊢
    obtain ⟨s2, h1, h2⟩ := h
    exact ⟨s2, h1, run_append h2 h'⟩

/-- The state of a connection can be reached. -/
def Reached (cfg : Config) (s : St) : Prop := ∃ es, run cfg {} es = some s

theorem Reached.step {cfg : Config} {s s' : St} {e : Ev} (h : Reached cfg s) (he : LegacyLife.step cfg s e = some s') :
    Reached cfg s' := by
  obtain ⟨es, h⟩ := h
  exact ⟨es ++ [e], run_append h (by simp [run, he])⟩

theorem Reached.inv {cfg : Config} {s : St} (h : Reached cfg s) : Inv s := by
  obtain ⟨es, h⟩ := h
  exact inv_init.run h

theorem Reached.quiet {cfg : Config} {s : St} (h : Reached cfg s) : Quiet s := by
  obtain ⟨es, h⟩ := h
  exact Quiet.run inv_init (fun _ => ⟨rfl, .inl rfl⟩) h

/-- During the opening handshake, no task of the connection exists. -/
theorem step_opening {cfg : Config} {s s' : St} {e : Ev} (hi : Inv s) (ha : s.transfer = .absent)
    (hc : s.closer = .absent) (he : step cfg s e = some s') (hal : LegacyHandler.allowed true e = true) :
    s'.closer = .absent := by
  cases e with
  | call i e =>
    simp only [step] at he
    split at he
    · cases he
    · next c hcc =>
      have hci := hi.calls c (List.mem_of_getElem? hcc)
      split at he
      · cases he
      · next hs =>
        cases he
        unfold St.callStep at hs
        cases e <;> simp [LegacyHandler.allowed] at hal <;> grind [CallInv]
  | opened => simp [LegacyHandler.allowed] at hal
  | refused => simp [LegacyHandler.allowed] at hal
  | _ => simp only [step, St.closerRun, St.closerWoken, St.cancelCloser] at he; grind

theorem closer_kept {cfg : Config} {s s' : St} {e : Ev} (he : step cfg s e = some s') (h : s.closer ≠ .absent) :
    s'.closer ≠ .absent := by
  by_cases hc : isCloser e = false
  · rw [step_closer he h hc]; exact h
  · cases e <;> simp [isCloser] at hc <;>
      simp only [step, St.closerRun, St.afterTransfer, St.halfClose, St.finally, St.closerWoken, St.cancelCloser,
        St.abort] at he <;> grind

/-- What a step does to a call -/
theorem call_kept {cfg : Config} {s s' : St} {e : Ev} {i : Nat} (he : step cfg s e = some s') {c : Call}
    (hc : s.calls[i]? = some c) : s'.calls[i]? = some c ∨
      ∃ e' s1 c', e = .call i e' ∧ s.callStep c e' = some (s1, c') ∧ s'.calls[i]? = some c' ∧
        s'.closer = s1.closer ∧ s'.transfer = s1.transfer ∧ s'.cancelReq = s1.cancelReq := by
  have happ : ∀ x, (s.calls ++ [x])[i]? = some c := fun x => by
    rw [List.getElem?_append_left (List.getElem?_eq_some_iff.1 hc).1]; exact hc
  cases e with
  | call j e =>
    simp only [LegacyLife.step] at he
    split at he
    · cases he
    · next c0 hc0 =>
      split at he
      · cases he
      · next s1 c' hs =>
        have h' := callStep_frame hs
        cases he
        by_cases hij : j = i
        · subst hij
          rw [hc] at hc0; cases hc0
          refine .inr ⟨e, s1, c', rfl, hs, ?_, rfl, rfl, rfl⟩
          simp only [h'.2.1]
          rw [List.getElem?_set_self (List.getElem?_eq_some_iff.1 hc).1]
        · left
          simp only [h'.2.1]
          rw [List.getElem?_set_ne hij]; exact hc
  | closerRun => rw [(closes_closerRun he).calls]; exact .inl hc
  | closerLost =>
    simp only [LegacyLife.step] at he
    split at he
    · rw [(closes_closerWoken he).calls]; exact .inl hc
    · cases he
  | closerTimeout => rw [(closes_closerWoken he).calls]; exact .inl hc
  | cancelCloser => rw [(closes_cancelCloser he).calls]; exact .inl hc
  | receive j => have := receive_frame s j; simp only [LegacyLife.step] at he; grind
  | refused => have := fail_frame s 1006; simp only [LegacyLife.step] at he; grind
  | fail code => have := fail_frame s code; simp only [LegacyLife.step] at he; grind
  | transferDrained ok =>
    have h1 := fail_frame s 1011
    have h2 := fail_frame s 1006
    simp only [LegacyLife.step, St.failTransfer] at he; grind
  | transferWoken => have h1 := fail_frame s 1011; simp only [LegacyLife.step, St.failTransfer] at he; grind
  | close => simp only [LegacyLife.step] at he; cases he; exact .inl (happ _)
  | ensure => simp only [LegacyLife.step] at he; cases he; exact .inl (happ _)
  | write =>
    simp only [LegacyLife.step] at he
    split at he
    · cases he; exact .inl (happ _)
    · cases he; exact .inl (happ _)
  | _ => simp only [LegacyLife.step] at he; grind

/-- `transfer_data_task` has ended, or was cancelled. -/
def Doomed (s : St) : Prop := s.transfer = .ended ∨ s.cancelReq = true

/-- A call to `close()` hasn't ended, or it returned or was cancelled, or `transfer_data_task` ends. -/
def Fails (s : St) (i : Nat) : Prop :=
  (∃ c, s.calls[i]? = some c ∧ Spec.closePending c = true) ∨
  ∃ r, s.calls[i]? = some (.ended r) ∧ (r = .returned ∨ r = .cancelled ∨ Doomed s)

theorem callStep_fails {s s' : St} {c c' : Call} {e : CallEv} (he : s.callStep c e = some (s', c'))
    (ht : s.transfer ≠ .absent) (hp : Spec.closePending c = true) :
    Spec.closePending c' = true ∨ ∃ r, c' = .ended r ∧ (r = .returned ∨ r = .cancelled ∨ Doomed s') := by
  have h1 : ∀ s : St, Spec.closePending s.closeEnd = true ∨
      ∃ r, s.closeEnd = .ended r ∧ (r = .returned ∨ r = .cancelled) := by
    intro s; unfold St.closeEnd St.shield; grind [Spec.closePending]
  have h2 : ∀ s : St, s.transfer ≠ .absent → Spec.closePending s.closeRest = true ∨
      ∃ r, s.closeRest = .ended r ∧ (r = .returned ∨ r = .cancelled) := by
    intro s; have := h1 s; unfold St.closeRest; grind [Spec.closePending]
  have h3 : (s.fail 1006).transfer ≠ .absent ∧ Doomed (s.fail 1006) := by unfold Doomed St.fail; grind
  unfold St.callStep at he
  split at he
  all_goals (repeat' split at he)
  all_goals first
    | (cases he; done)
    | (simp only [Option.some.injEq, Prod.mk.injEq] at he; obtain ⟨rfl, rfl⟩ := he; grind [Spec.closePending])

theorem Fails.step {cfg : Config} {s s' : St} {e : Ev} {i : Nat} (h : Fails s i) (hi : Inv s) (ht : s.transfer ≠ .absent)
    (he : LegacyLife.step cfg s e = some s') : Fails s' i := by
  rcases h with ⟨c, hc, hp⟩ | ⟨r, hc, hr⟩
  · rcases call_kept he hc with hk | ⟨e', s1, c', rfl, hs, hk, h1, h2, h3⟩
    · exact .inl ⟨c, hk, hp⟩
    · rcases callStep_fails hs ht hp with hp' | ⟨r, rfl, hr⟩
      · exact .inl ⟨c', hk, hp'⟩
      · refine .inr ⟨r, hk, ?_⟩
        unfold Doomed at hr ⊢
        rw [h2, h3]; exact hr
  · rcases call_kept he hc with hk | ⟨e', s1, c', rfl, hs, hk, hcs⟩
    · exact .inr ⟨r, hk, hr.imp_right fun hr => hr.imp_right (step_present ht (hi.closer ht) he).2⟩
    · simp [St.callStep] at hs

theorem step_opened {cfg : Config} {s s' : St} (h : step cfg s .opened = some s') :
    s'.transfer = .reading ∧ s'.closer = .created ∧ s'.lost = s.lost ∧ s'.calls = s.calls := by
  simp only [step] at h
  split at h <;> cases h
  exact ⟨rfl, rfl, rfl, rfl⟩

end WS.LegacyLife

namespace WS.LegacyHandler

open LegacyLife (Ev Config Inv Reached)

theorem closed_init {s : LegacyLife.St} {cfg : Config} {s' : LegacyLife.St}
    (h : LegacyLife.step cfg s .close = some s') : LegacyLife.Closed s' s.calls.length := by
  cases h
  exact .inl ⟨.closeStart, by simp, rfl⟩

theorem closeResult_returned {s : LegacyLife.St} {i : Nat} (h : LegacyLife.Closed s i)
    (hr : closeResult s i = some .returned) : s.closer = .ended false := by
  unfold closeResult at hr
  rcases h with ⟨c, hc, hp⟩ | ⟨r, hc, hr'⟩
  · rw [hc] at hr
    cases c <;> simp [LegacyLife.Spec.closePending] at hp hr
  · rw [hc] at hr
    cases r <;> simp at hr
    exact hr' rfl

/-- When nothing happens in the connection, `close()` has ended. -/
theorem closeResult_stuck {cfg : Config} {s : LegacyLife.St} {i : Nat} (hi : Inv s) (h : LegacyLife.Closed s i)
    (hs : LegacyLife.Spec.Stuck cfg s) : closeResult s i ≠ none := by
  rcases h with ⟨c, hc, hp⟩ | ⟨r, hc, -⟩
  · exact absurd hs (hi.progress hc hp)
  · unfold closeResult
    rw [hc]
    cases r <;> simp

theorem stuck_refused {cfg : Config} {s : LegacyLife.St} (hi : Inv s) (h1 : s.transfer = .absent ∨ s.transfer = .ended ∨ s.cancelReq = true)
    (h2 : s.closer ≠ .absent) (hs : LegacyLife.Spec.Stuck cfg s) : ∃ c, s.closer = .ended c := by
  cases hx : s.closer with
  | ended c => exact ⟨c, rfl⟩
  | _ =>
    have k1 := hs .closerRun rfl
    have k2 := hs .closerTimeout rfl
    have k3 := hs .transferCancelled rfl
    have k4 := hi.req
    have k5 := hi.waitTransfer
    simp only [LegacyLife.step, LegacyLife.St.closerRun, LegacyLife.St.closerWoken] at k1 k2 k3
    rw [hx] at k1 k2
    grind

theorem refused_step {cfg : Config} {s : LegacyLife.St} (hr : Reached cfg s) (h1 : s.transfer = .absent) (h2 : s.closer = .absent) :
    LegacyLife.step cfg s .refused = some (s.fail 1006) ∧ (s.fail 1006).transfer = .absent ∧ (s.fail 1006).closer ≠ .absent ∧
      (s.fail 1006).lost = s.lost := by
  have := (hr.quiet h1).2
  refine ⟨?_, ?_, ?_, ?_⟩
  · simp only [LegacyLife.step]
    rw [if_pos ⟨by rcases this with h | h <;> simp [h], h1, h2⟩]
  all_goals unfold LegacyLife.St.fail; grind

namespace Server

/-- HTTP responses that are sent to a client that isn't accepted -/
def Refusal (s : St) : Prop := (∃ status, s.responses = [status]) ∨ s.responses = [101, 500] ∧ s.life.lost = true

/-- What holds in each phase -/
structure Ok (cfg : Config) (s : St) : Prop where
  reach : Reached cfg s.life
  opening : s.phase = .created ∨ s.phase = .handshake →
    s.life.transfer = .absent ∧ s.life.closer = .absent ∧ s.responses = [] ∧ s.called = 0
  refusing : s.phase = .refusing → s.life.transfer = .absent ∧ s.life.closer ≠ .absent ∧ s.called = 0 ∧ Refusal s
  running : s.phase = .running ∨ (∃ i, s.phase = .closing i) →
    s.life.transfer ≠ .absent ∧ s.responses = [101] ∧ s.called = 1
  closing : ∀ i, s.phase = .closing i → LegacyLife.Closed s.life i
  ended : ∀ e, s.phase = .ended e →
    (s.called = 1 ∧ s.responses = [101] ∧ s.life.transfer ≠ .absent ∨
      s.called = 0 ∧ s.life.transfer = .absent ∧ (s.responses = [] ∨ Refusal s))
  returned : s.phase = .ended .returned → s.life.lost = true ∨ s.life.aborted = true
  failed : s.phase = .ended .failed → s.life.isClosing = true
  registered : (∀ e, s.phase ≠ .ended e) → s.registered = true
  unregistered : ∀ e, e ≠ .cancelled → s.phase = .ended e → s.registered = false

theorem ok_init (cfg : Config) : Ok cfg {} := by
  constructor <;> first | exact ⟨[], rfl⟩ | simp

theorem Ok.finish {cfg : Config} {s : St} (e : End) (hr : Reached cfg s.life)
    (h1 : s.called = 1 ∧ s.responses = [101] ∧ s.life.transfer ≠ .absent ∨
      s.called = 0 ∧ s.life.transfer = .absent ∧ (s.responses = [] ∨ Refusal s))
    (h2 : e = .returned → s.life.lost = true ∨ s.life.aborted = true) : Ok cfg (s.finish e) := by
  have hl : (s.finish e).life = s.life ∨ e = .failed ∧ (s.finish e).life = { s.life with isClosing := true } := by
    unfold St.finish; grind
  constructor
  case reach =>
    rcases hl with hl | ⟨-, hl⟩
    · rw [hl]; exact hr
    · rw [hl]; exact hr.step (e := .transportClosing) rfl
  case ended =>
    intro e' _
    have hx : (s.finish e).called = s.called ∧ (s.finish e).responses = s.responses ∧ (s.finish e).life.transfer = s.life.transfer ∧
        (s.finish e).life.lost = s.life.lost := by unfold St.finish; grind
    unfold Refusal
    rw [hx.1, hx.2.1, hx.2.2.1, hx.2.2.2]
    exact h1
  all_goals (unfold St.finish; grind)

theorem Ok.reject {cfg : Config} {s : St} (status : Nat) (hr : Reached cfg s.life) (h1 : s.life.transfer = .absent)
    (h2 : s.life.closer = .absent) (h3 : s.called = 0)
    (h4 : s.responses = [] ∨ s.responses = [101] ∧ status = 500 ∧ s.life.lost = true) (h5 : s.registered = true) :
    Ok cfg (s.reject status) := by
  obtain ⟨k1, k2, k3, k4⟩ := refused_step hr h1 h2
  constructor
  case reach => exact hr.step k1
  case refusing =>
    intro _
    refine ⟨k2, k3, h3, ?_⟩
    rcases h4 with h4 | ⟨h4, rfl, h6⟩
    · exact .inl ⟨status, by simp [St.reject, h4]⟩
    · exact .inr ⟨by simp [St.reject, h4], by simp [St.reject, k4, h6]⟩
  all_goals (unfold St.reject; grind)

theorem Ok.step {cfg : Config} {s s' : St} {e : Event} (h : Ok cfg s) (he : step cfg s e = some s') : Ok cfg s' := by
  have hi := h.reach.inv
  cases e with
  | life e =>
    simp only [Server.step] at he
    split at he
    · next hal =>
      split at he
      · cases he
      · next life hl =>
        cases he
        have hf := LegacyLife.step_frame hl
        have ho : e ≠ .opened := by rintro rfl; simp [allowed] at hal
        have habs := fun ha => (LegacyLife.step_absent hi ha hl ho).1
        have hpr := fun ha => (LegacyLife.step_present ha (hi.closer ha) hl).1
        have href : Refusal s → Refusal { s with life := life } := by
          rintro (hx | ⟨hx, hy⟩)
          · exact .inl hx
          · exact .inr ⟨hx, hf.1.2 (.inl hy)⟩
        constructor
        case reach => exact h.reach.step hl
        case opening =>
          intro hp
          obtain ⟨k1, k2, k3, k4⟩ := h.opening hp
          refine ⟨habs k1, ?_, k3, k4⟩
          refine LegacyLife.step_opening hi k1 k2 hl ?_
          rwa [decide_eq_true hp] at hal
        case refusing =>
          intro hp
          obtain ⟨k1, k2, k3, k4⟩ := h.refusing hp
          refine ⟨habs k1, ?_, k3, href k4⟩
          exact LegacyLife.closer_kept hl k2
        case running =>
          intro hp
          obtain ⟨k1, k2⟩ := h.running hp
          exact ⟨hpr k1, k2⟩
        case closing => exact fun i hp => (h.closing i hp).step hl
        case ended =>
          intro e' hp
          rcases h.ended e' hp with ⟨k1, k2, k3⟩ | ⟨k1, k2, k3⟩
          · exact .inl ⟨k1, k2, hpr k3⟩
          · exact .inr ⟨k1, habs k2, k3.imp_right href⟩
        case returned =>
          intro hp
          exact (h.returned hp).imp (fun hx => hf.1.2 (.inl hx)) hf.2.2.2.1
        case failed => exact fun hp => hf.2.2.1 (h.failed hp)
        case registered => exact h.registered
        case unregistered => exact h.unregistered
    · cases he
  | start =>
    simp only [Server.step] at he
    split at he <;> cases he
    next hp =>
    have := h.opening (.inl hp)
    have h2 := h.registered (by simp [hp])
    constructor
    case reach => exact h.reach
    all_goals grind
  | accept =>
    simp only [Server.step] at he
    split at he
    · next hp =>
      obtain ⟨k1, k2, k3, k4⟩ := h.opening (.inr hp)
      have h2 := h.registered (by simp [hp])
      split at he
      · next life hl =>
        cases he
        have := LegacyLife.step_opened hl
        constructor
        case reach => exact h.reach.step hl
        all_goals grind
      · next hl =>
        cases he
        refine Ok.reject 500 h.reach k1 k2 k4 (.inr ⟨by simp [k3], rfl, ?_⟩) h2
        have hq := (h.reach.quiet k1).2
        simp only [LegacyLife.step] at hl
        have : ¬ s.life.state = .connecting := fun hx => by rw [if_pos ⟨hx, k2⟩] at hl; cases hl
        exact hi.lost.1 (hq.resolve_left this)
    · cases he
  | reject status =>
    simp only [Server.step] at he
    split at he <;> cases he
    next hp =>
    obtain ⟨k1, k2, k3, k4⟩ := h.opening (.inr hp)
    exact Ok.reject status h.reach k1 k2 k4 (.inl k3) (h.registered (by simp [hp]))
  | drop =>
    simp only [Server.step] at he
    split at he <;> cases he
    next hp =>
    obtain ⟨k1, k2, k3, k4⟩ := h.opening (.inr hp)
    exact Ok.finish _ h.reach (.inr ⟨k4, k1, .inl k3⟩) (by simp)
  | woken =>
    simp only [Server.step] at he
    split at he <;> cases he
    next hp =>
    obtain ⟨k1, k2, k3, k4⟩ := h.refusing hp.1
    exact Ok.finish _ h.reach (.inr ⟨k3, k1, .inr k4⟩) (fun _ => .inl hp.2)
  | returned =>
    simp only [Server.step] at he
    split at he
    · next hp =>
      obtain ⟨k1, k2, k3⟩ := h.running (.inl hp)
      have h2 := h.registered (by simp [hp])
      split at he
      · cases he
      · next life hl =>
        cases he
        have hcl := closed_init hl
        have hpr := (LegacyLife.step_present k1 (hi.closer k1) hl).1
        constructor
        case reach => exact h.reach.step hl
        case closing => intro i hx; cases hx; exact hcl
        all_goals grind
    · cases he
  | raised =>
    simp only [Server.step] at he
    split at he
    · next hp =>
      obtain ⟨k1, k2, k3⟩ := h.running (.inl hp)
      split at he
      · cases he
        have hx : LegacyLife.step cfg s.life (.fail 1011) = some (s.life.fail 1011) := by
          simp only [LegacyLife.step]; rw [if_pos k1]
        exact Ok.finish _ (h.reach.step hx) (.inl ⟨k3, k2, (LegacyLife.step_present k1 (hi.closer k1) hx).1⟩) (by simp)
      · cases he
        exact Ok.finish _ h.reach (.inl ⟨k3, k2, k1⟩) (by simp)
    · cases he
  | closed =>
    simp only [Server.step] at he
    split at he
    · next i hp =>
      obtain ⟨k1, k2, k3⟩ := h.running (.inr ⟨i, hp⟩)
      rw [Option.map_eq_some_iff] at he
      obtain ⟨e, hr, rfl⟩ := he
      refine Ok.finish _ h.reach (.inl ⟨k3, k2, k1⟩) ?_
      rintro rfl
      exact (hi.ended (closeResult_returned (h.closing i hp) hr)).2.1
    · cases he
  | cancel =>
    simp only [Server.step] at he
    split at he
    · next hp =>
      cases he
      obtain ⟨k1, k2, k3, k4⟩ := h.opening (.inl hp)
      constructor
      case reach => exact h.reach
      case ended => exact fun _ _ => .inr ⟨k4, k1, .inl k3⟩
      all_goals grind
    · next hp =>
      cases he
      obtain ⟨k1, k2, k3, k4⟩ := h.opening (.inr hp)
      exact Ok.finish _ h.reach (.inr ⟨k4, k1, .inl k3⟩) (by simp)
    · next hp =>
      cases he
      obtain ⟨k1, k2, k3, k4⟩ := h.refusing hp
      exact Ok.finish _ h.reach (.inr ⟨k3, k1, .inr k4⟩) (by simp)
    · next hp =>
      cases he
      obtain ⟨k1, k2, k3⟩ := h.running (.inl hp)
      exact Ok.finish _ h.reach (.inl ⟨k3, k2, k1⟩) (by simp)
    · cases he
    · cases he

theorem Ok.run {cfg : Config} : ∀ {es : List Event} {s s' : St}, Ok cfg s → run cfg s es = some s' → Ok cfg s'
  | [], _, _, h, he => by cases he; exact h
  | e :: es, s, s', h, he => by
    simp only [Server.run, Option.bind_eq_some_iff] at he
    obtain ⟨s1, h1, h2⟩ := he
    exact (h.step h1).run h2

/-- Why the connection ends after the handler failed -/
structure Dooms (s : St) : Prop where
  closing : ∀ i, s.phase = .closing i → LegacyLife.Fails s.life i
  failed : s.phase = .ended .failed → s.called = 1 → s.life.lost = true ∨ LegacyLife.Doomed s.life

theorem Dooms.step {cfg : Config} {s s' : St} {e : Event} (h : Ok cfg s) (hd : Dooms s) (he : step cfg s e = some s') :
    Dooms s' := by
  have hi := h.reach.inv
  cases e with
  | life e =>
    simp only [Server.step] at he
    split at he
    · split at he
      · cases he
      · next life hl =>
        cases he
        have hf := LegacyLife.step_frame hl
        constructor
        · intro i hp
          exact (hd.closing i hp).step hi (h.running (.inr ⟨i, hp⟩)).1 hl
        · intro hp hc
          have ht : s.life.transfer ≠ .absent := by
            rcases h.ended _ hp with ⟨-, -, k⟩ | ⟨k, -⟩
            · exact k
            · rw [k] at hc; cases hc
          exact (hd.failed hp hc).imp (fun hx => hf.1.2 (.inl hx)) (LegacyLife.step_present ht (hi.closer ht) hl).2
    · cases he
  | start | accept | reject status | woken | cancel =>
    simp only [Server.step, St.finish, St.reject] at he
    constructor <;> grind
  | drop =>
    simp only [Server.step, St.finish] at he
    split at he <;> cases he
    next hp =>
    have := h.opening (.inr hp)
    constructor <;> grind
  | returned =>
    simp only [Server.step] at he
    split at he
    · split at he
      · cases he
      · next life hl =>
        cases he
        constructor
        · intro i hx
          cases hx
          cases hl
          exact .inl ⟨.closeStart, by simp, rfl⟩
        · intro hx; cases hx
    · cases he
  | raised =>
    simp only [Server.step] at he
    split at he
    · next hp =>
      obtain ⟨k1, k2, k3⟩ := h.running (.inl hp)
      constructor
      · intro i hx
        exfalso
        split at he <;> (cases he; simp [St.finish] at hx)
      · intro _ _
        split at he
        · cases he
          right
          unfold LegacyLife.Doomed St.finish LegacyLife.St.fail
          grind
        · next hst =>
          cases he
          left
          have : s.life.lost = true := hi.lost.1 (by simpa using hst)
          simp [St.finish, this]
    · cases he
  | closed =>
    simp only [Server.step] at he
    split at he
    · next i hp =>
      rw [Option.map_eq_some_iff] at he
      obtain ⟨e, hr, rfl⟩ := he
      constructor
      · intro j hx; simp [St.finish] at hx
      · intro hx _
        simp only [St.finish, Phase.ended.injEq] at hx
        subst hx
        right
        have hfl := hd.closing i hp
        unfold closeResult at hr
        rcases hfl with ⟨c, hc, hpn⟩ | ⟨r, hc, hr'⟩
        · rw [hc] at hr
          cases c <;> simp [LegacyLife.Spec.closePending] at hpn hr
        · rw [hc] at hr
          rcases hr' with rfl | rfl | hr'
          · simp at hr
          · simp at hr
          · unfold LegacyLife.Doomed at hr' ⊢
            simpa [St.finish] using hr'
    · cases he

theorem Dooms.run {cfg : Config} : ∀ {es : List Event} {s s' : St}, Ok cfg s → Dooms s → run cfg s es = some s' → Dooms s'
  | [], _, _, _, h, he => by cases he; exact h
  | e :: es, s, s', ho, h, he => by
    simp only [Server.run, Option.bind_eq_some_iff] at he
    obtain ⟨s1, h1, h2⟩ := he
    exact Dooms.run (ho.step h1) (Dooms.step ho h h1) h2

/-! ## Properties of servers -/

/-- **C87**: whatever `handler` does, the connection behaves as described by C82. -/
theorem C87_refines {cfg : Config} {es : List Event} {s : St} (h : run cfg {} es = some s) :
    ∃ es', LegacyLife.run cfg {} es' = some s.life := ((ok_init cfg).run h).reach

/-- **C87**: the handler of the application is called at most once, after a response with status 101, and no other response is sent
then.  Otherwise, at most one response is sent — or two, if the connection was already lost — and no frame. -/
theorem C87_responses {cfg : Config} {es : List Event} {s : St} (h : run cfg {} es = some s) :
    s.called = 1 ∧ s.responses = [101] ∨
    s.called = 0 ∧ s.life.sent = [] ∧
      (s.responses = [] ∨ (∃ status, s.responses = [status]) ∨ s.responses = [101, 500] ∧ s.life.lost = true) := by
  have ho := (ok_init cfg).run h
  have hq := ho.reach.quiet
  cases hp : s.phase with
  | created =>
    obtain ⟨k1, k2, k3, k4⟩ := ho.opening (.inl hp)
    exact .inr ⟨k4, (hq k1).1, .inl k3⟩
  | handshake =>
    obtain ⟨k1, k2, k3, k4⟩ := ho.opening (.inr hp)
    exact .inr ⟨k4, (hq k1).1, .inl k3⟩
  | refusing =>
    obtain ⟨k1, k2, k3, k4⟩ := ho.refusing hp
    exact .inr ⟨k3, (hq k1).1, .inr k4⟩
  | running =>
    obtain ⟨k1, k2, k3⟩ := ho.running (.inl hp)
    exact .inl ⟨k3, k2⟩
  | closing i =>
    obtain ⟨k1, k2, k3⟩ := ho.running (.inr ⟨i, hp⟩)
    exact .inl ⟨k3, k2⟩
  | ended e =>
    rcases ho.ended e hp with ⟨k1, k2, -⟩ | ⟨k1, k2, k3⟩
    · exact .inl ⟨k1, k2⟩
    · exact .inr ⟨k1, (hq k2).1, k3⟩

/-- **C87**: every client gets a response, unless there's a `ConnectionError`, or the response can't be encoded, or the task is
cancelled. -/
theorem C87_answered {cfg : Config} {es : List Event} {s : St} (h : run cfg {} es = some s) (hd : .drop ∉ es)
    (e : End) (he : s.phase = .ended e) (hc : e ≠ .cancelled) : s.responses ≠ [] := by
  have key : ∀ {es : List Event} {s s' : St}, Ok cfg s → (∀ e, s.phase = .ended e → e ≠ .cancelled → s.responses ≠ []) →
      run cfg s es = some s' → .drop ∉ es → ∀ e, s'.phase = .ended e → e ≠ .cancelled → s'.responses ≠ [] := by
    intro es
    induction es with
    | nil => intro s s' _ hs h _; cases h; exact hs
    | cons a es ih =>
      intro s s' ho hs h hd
      simp only [Server.run, Option.bind_eq_some_iff] at h
      obtain ⟨s1, h1, h2⟩ := h
      rw [List.mem_cons, not_or] at hd
      refine ih (ho.step h1) ?_ h2 hd.2
      intro e he hc
      have hi := ho.refusing
      have hr := ho.running
      unfold Refusal at hi
      cases a with
      | drop => exact absurd rfl hd.1
      | life a => simp only [Server.step] at h1; grind
      | closed =>
        simp only [Server.step] at h1
        split at h1
        · next i hp =>
          have := hr (.inr ⟨i, hp⟩)
          rw [Option.map_eq_some_iff] at h1
          obtain ⟨e, hr, rfl⟩ := h1
          simp [St.finish, this.2.1]
        · cases h1
      | _ => simp only [Server.step, St.finish, St.reject] at h1; grind
  exact key (ok_init cfg) (by simp) h hd e he hc

/-- **C87, partial**: when `handler` ends, and it isn't cancelled, the TCP connection is closed or aborted, or, if there was an
exception, it's closing.  What is missing: see `C87_closed_false`. -/
theorem C87_closed_partial {cfg : Config} {es : List Event} {s : St} (h : run cfg {} es = some s) :
    (s.phase = .ended .returned → s.life.lost = true ∨ s.life.aborted = true) ∧
    (s.phase = .ended .failed → s.life.isClosing = true) :=
  ⟨((ok_init cfg).run h).returned, ((ok_init cfg).run h).failed⟩

/-- **C87 is false**: `handler` doesn't guarantee that the TCP connection is closed before it ends.
* When the handler of the application raises an exception, `handler` doesn't wait until the TCP connection is closed.
* When `handler` is cancelled in the opening handshake, nothing closes the TCP connection. -/
theorem C87_closed_false :
    (∃ (cfg : Config) (es : List Event) (s : St), run cfg {} es = some s ∧ s.phase = .ended .failed ∧
      s.life.lost = false ∧ s.life.aborted = false) ∧
    (∃ (cfg : Config) (es : List Event) (s : St), run cfg {} es = some s ∧ s.phase = .ended .cancelled ∧
      s.life.isClosing = false ∧ s.life.closer = .absent) :=
  ⟨⟨⟨false, true⟩, [.start, .accept, .raised], _, rfl, rfl, rfl, rfl⟩,
   ⟨⟨false, true⟩, [.start, .cancel], _, rfl, rfl, rfl, rfl⟩⟩

/-- **C87**: after the handler of the application ended, `handler` ends, in a bounded number of steps of the library, even if the
peer doesn't cooperate. -/
theorem C87_ends {cfg : Config} {es : List Event} {s : St} (h : run cfg {} es = some s) {i : Nat}
    (hp : s.phase = .closing i) {es' : List Ev} (hint : ∀ e ∈ es', LegacyLife.Spec.internal e = true) {life : LegacyLife.St}
    (h' : LegacyLife.run cfg s.life es' = some life) :
    es'.length ≤ 10 + 5 * s.life.calls.length ∧
    run cfg s (es'.map .life) = some { s with life := life } ∧
    (LegacyLife.Spec.Stuck cfg life → ∃ e s', step cfg { s with life := life } .closed = some s' ∧ s'.phase = .ended e) := by
  have ho := (ok_init cfg).run h
  obtain ⟨es0, h0⟩ := ho.reach
  have hrun : run cfg s (es'.map .life) = some { s with life := life } := by
    clear h h0 es0 ho
    induction es' generalizing s with
    | nil => cases h'; rfl
    | cons e es' ih =>
      simp only [LegacyLife.run, Option.bind_eq_some_iff] at h'
      obtain ⟨s1, h1, h2⟩ := h'
      have hal : allowed (decide (s.phase = .created ∨ s.phase = .handshake)) e = true := by
        have hie := hint e (by simp)
        rw [decide_eq_false (by simp [hp])]
        cases e with
        | call j e => cases e <;> rfl
        | _ => first | rfl | (cases hie; done)
      simp only [List.map_cons, run, Server.step, hal, if_true, h1, Option.bind_some]
      exact ih (s := { s with life := s1 }) hp (fun e he => hint e (by simp [he])) h2
  refine ⟨(LegacyLife.C82_close_ends h0 hint h').1, hrun, fun hst => ?_⟩
  have ho' := ho.run hrun
  have hcr := closeResult_stuck ho'.reach.inv (ho'.closing i hp) hst
  cases hr : closeResult life i with
  | none => exact absurd hr hcr
  | some e =>
    refine ⟨e, ({ s with life := life } : St).finish e, ?_, rfl⟩
    simp [Server.step, hp, hr]

/-- **C87**: when the handler of the application, or `close`, raises an exception, `close_connection` ends, even if the peer
doesn't cooperate: then the TCP connection is closed or aborted, unless `close_connection` is cancelled. -/
theorem C87_aborts {cfg : Config} {es : List Event} {s : St} (h : run cfg {} es = some s)
    (hp : s.phase = .ended .failed) (hc : s.called = 1) (hl : s.life.lost = false) (hst : LegacyLife.Spec.Stuck cfg s.life) :
    ∃ cancelled, s.life.closer = .ended cancelled ∧ (cancelled = false → s.life.aborted = true) := by
  have ho := (ok_init cfg).run h
  have hi := ho.reach.inv
  have hd : Dooms s := Dooms.run (ok_init cfg) ⟨by simp, by simp⟩ h
  have ht : s.life.transfer ≠ .absent := by
    rcases ho.ended _ hp with ⟨-, -, k⟩ | ⟨k, -⟩
    · exact k
    · rw [k] at hc; cases hc
  obtain ⟨c, hx⟩ := stuck_refused hi (.inr ((hd.failed hp hc).resolve_left (by simp [hl]))) (hi.closer ht) hst
  refine ⟨c, hx, ?_⟩
  rintro rfl
  exact (hi.ended hx).2.1.resolve_left (by simp [hl])

/-- **C87**: when a client is refused, `close_connection` ends, even if the client doesn't cooperate: then the TCP connection is
closed or aborted, unless `close_connection` is cancelled.  `handler` ends when it's closed. -/
theorem C87_refused {cfg : Config} {es : List Event} {s : St} (h : run cfg {} es = some s) (hp : s.phase = .refusing) :
    (LegacyLife.Spec.Stuck cfg s.life → ∃ cancelled, s.life.closer = .ended cancelled ∧
      (cancelled = false → s.life.lost = true ∨ s.life.aborted = true)) ∧
    (s.life.lost = true → ∃ s', step cfg s .woken = some s' ∧ s'.phase = .ended .returned) := by
  have ho := (ok_init cfg).run h
  have hi := ho.reach.inv
  obtain ⟨k1, k2, k3, k4⟩ := ho.refusing hp
  constructor
  · intro hst
    obtain ⟨c, hx⟩ := stuck_refused hi (.inl k1) k2 hst
    refine ⟨c, hx, ?_⟩
    rintro rfl
    exact (hi.ended hx).2.1
  · intro hl
    exact ⟨s.finish .returned, by simp [Server.step, hp, hl], rfl⟩

/-- **C87, partial**: the connection is registered until `handler` ends.  It's unregistered when `handler` ends, if it has
started. -/
theorem C87_registered_partial {cfg : Config} {es : List Event} {s : St} (h : run cfg {} es = some s)
    (hs : .start ∈ es) : s.registered = true ↔ ∀ e, s.phase ≠ .ended e := by
  have key : ∀ {es : List Event} {s s' : St}, run cfg s es = some s' → (s.registered = true ↔ ∀ e, s.phase ≠ .ended e) →
      s.phase ≠ .created ∨ .start ∈ es → (s'.registered = true ↔ ∀ e, s'.phase ≠ .ended e) := by
    intro es
    induction es with
    | nil => intro s s' h hs _; cases h; exact hs
    | cons a es ih =>
      intro s s' h hs hst
      simp only [Server.run, Option.bind_eq_some_iff] at h
      obtain ⟨s1, h1, h2⟩ := h
      by_cases hca : s.phase = .created ∧ a = .cancel
      · exfalso
        obtain ⟨hc, rfl⟩ := hca
        have hx := hst.resolve_left (by simp [hc])
        rw [List.mem_cons] at hx
        have hx := hx.resolve_left (by simp)
        have hend : ∀ {es : List Event} {s s' : St}, run cfg s es = some s' → s.phase = .ended .cancelled → .start ∉ es := by
          intro es
          induction es with
          | nil => simp
          | cons b es ih =>
            intro s s' h hp
            simp only [Server.run, Option.bind_eq_some_iff] at h
            obtain ⟨s1, h1, h2⟩ := h
            rw [List.mem_cons, not_or]
            cases b <;> simp only [Server.step, hp] at h1 <;> try (simp at h1; done)
            refine ⟨by simp, ih h2 ?_⟩
            grind
        simp only [Server.step, hc] at h1
        cases h1
        exact hend h2 rfl hx
      · refine ih h2 ?_ ?_
        · cases a with
          | closed =>
            simp only [Server.step] at h1
            split at h1
            · rw [Option.map_eq_some_iff] at h1
              obtain ⟨e, hr, rfl⟩ := h1
              simp [St.finish]
            · cases h1
          | _ => simp only [Server.step, St.finish, St.reject] at h1; grind
        · rcases hst with hst | hst
          · left
            cases a with
            | closed =>
              simp only [Server.step] at h1
              split at h1
              · rw [Option.map_eq_some_iff] at h1
                obtain ⟨e, hr, rfl⟩ := h1
                simp [St.finish]
              · cases h1
            | _ => simp only [Server.step, St.finish, St.reject] at h1; grind
          · rw [List.mem_cons] at hst
            rcases hst with rfl | hst
            · left
              simp only [Server.step] at h1
              split at h1 <;> cases h1
              simp
            · exact .inr hst
  exact key h (by simp) (.inr hs)

/-- **C87 is false**: when `handler` is cancelled before it starts, the connection stays registered. -/
theorem C87_registered_false : ∃ (cfg : Config) (es : List Event) (s : St), run cfg {} es = some s ∧
    s.phase = .ended .cancelled ∧ s.registered = true :=
  ⟨⟨false, true⟩, [.cancel], _, rfl, rfl, rfl⟩

-- The handler of the application returns; the peer doesn't respond to the close frame, and the transport is aborted.
example : ∃ s, run ⟨false, false⟩ {} [.start, .accept, .life .closerRun, .returned, .life (.call 0 .run), .life (.call 0 (.drained true)),
      .life (.call 0 .timeout), .life .transferCancelled, .life (.call 0 .woken), .life .closerRun, .life .closerTimeout,
      .life .closerTimeout, .life (.call 0 .woken), .closed] = some s ∧
    s.phase = .ended .returned ∧ s.life.aborted = true ∧ s.life.sent = [.close] ∧ s.registered = false ∧ s.called = 1 := by
  refine ⟨_, rfl, rfl, rfl, rfl, rfl, rfl⟩

-- A client is refused, after another task called `close()`.
example : ∃ s, run ⟨false, true⟩ {} [.start, .life .close, .life (.call 0 .run), .reject 426, .life .closerRun, .life (.lost false),
      .life .closerLost, .woken] = some s ∧
    s.phase = .ended .returned ∧ s.responses = [426] ∧ s.life.closer = .ended false ∧
    s.life.calls = [.ended .attributeError] := by
  refine ⟨_, rfl, rfl, rfl, rfl, rfl⟩

-- The handler of the application fails; the transport is aborted in the end.
example : ∃ s, run ⟨false, true⟩ {} [.start, .accept, .life .closerRun, .raised, .life .transferCancelled, .life .closerRun,
      .life .closerTimeout, .life .closerTimeout, .life .closerTimeout] = some s ∧
    s.phase = .ended .failed ∧ s.called = 1 ∧ s.life.lost = false ∧ s.life.closer = .ended false ∧ s.life.sent = [.close] := by
  refine ⟨_, rfl, rfl, rfl, rfl, rfl, rfl⟩

/-- In this state, nothing more happens until the connection is lost: the hypotheses of `C87_aborts`. -/
example : ∃ s, run ⟨false, true⟩ {} [.start, .accept, .life .closerRun, .raised, .life .transferCancelled, .life .closerRun,
      .life .closerTimeout, .life .closerTimeout, .life .closerTimeout] = some s ∧ LegacyLife.Spec.Stuck ⟨false, true⟩ s.life := by
  refine ⟨_, rfl, ?_⟩
  intro e he
  cases e with
  | call i e =>
    have : ∀ t : LegacyLife.St, t.calls = [] → LegacyLife.step ⟨false, true⟩ t (.call i e) = none := by
      intro t ht
      simp [LegacyLife.step, ht]
    exact this _ rfl
  | transferDrained ok => cases ok <;> rfl
  | _ => first | rfl | (cases he; done)

end Server

namespace Client

/-- What holds in each phase -/
structure Ok (cfg : Config) (s : St) : Prop where
  reach : Reached cfg s.life
  opening : s.phase = .handshake → s.life.transfer = .absent ∧ s.life.closer = .absent
  refusing : s.phase = .refusing → s.life.transfer = .absent ∧ s.life.closer ≠ .absent
  body : s.phase = .body ∨ (∃ i, s.phase = .closing i) → s.life.transfer ≠ .absent
  closing : ∀ i, s.phase = .closing i → LegacyLife.Closed s.life i
  refused : s.phase = .refused .failed → s.life.lost = true
  unused : ∀ e, s.phase = .refused e → s.life.transfer = .absent
  ended : s.phase = .ended .returned → s.life.lost = true ∨ s.life.aborted = true

theorem ok_init (cfg : Config) : Ok cfg {} := by
  constructor <;> first | exact ⟨[], rfl⟩ | simp

theorem Ok.reject {cfg : Config} {s : St} (hr : Reached cfg s.life) (h1 : s.life.transfer = .absent)
    (h2 : s.life.closer = .absent) : Ok cfg s.reject := by
  obtain ⟨k1, k2, k3, k4⟩ := refused_step hr h1 h2
  constructor
  case reach => exact hr.step k1
  case refusing => exact fun _ => ⟨k2, k3⟩
  all_goals (unfold St.reject; grind)

theorem Ok.step {cfg : Config} {s s' : St} {e : Event} (h : Ok cfg s) (he : step cfg s e = some s') : Ok cfg s' := by
  have hi := h.reach.inv
  cases e with
  | life e =>
    simp only [Client.step] at he
    split at he
    · next hal =>
      split at he
      · cases he
      · next life hl =>
        cases he
        have hf := LegacyLife.step_frame hl
        have ho : e ≠ .opened := by rintro rfl; simp [allowed] at hal
        have habs := fun ha => (LegacyLife.step_absent hi ha hl ho).1
        have hpr := fun ha => (LegacyLife.step_present ha (hi.closer ha) hl).1
        constructor
        case reach => exact h.reach.step hl
        case opening =>
          intro hp
          obtain ⟨k1, k2⟩ := h.opening hp
          refine ⟨habs k1, LegacyLife.step_opening hi k1 k2 hl ?_⟩
          rwa [decide_eq_true hp] at hal
        case refusing =>
          intro hp
          obtain ⟨k1, k2⟩ := h.refusing hp
          exact ⟨habs k1, LegacyLife.closer_kept hl k2⟩
        case body => exact fun hp => hpr (h.body hp)
        case closing => exact fun i hp => (h.closing i hp).step hl
        case refused => exact fun hp => hf.1.2 (.inl (h.refused hp))
        case unused => exact fun e hp => habs (h.unused e hp)
        case ended => exact fun hp => (h.ended hp).imp (fun hx => hf.1.2 (.inl hx)) hf.2.2.2.1
    · cases he
  | accept =>
    simp only [Client.step] at he
    split at he
    · next hp =>
      obtain ⟨k1, k2⟩ := h.opening hp
      split at he
      · next life hl =>
        cases he
        have := LegacyLife.step_opened hl
        constructor
        case reach => exact h.reach.step hl
        all_goals grind
      · cases he
        exact Ok.reject h.reach k1 k2
    · cases he
  | reject =>
    simp only [Client.step] at he
    split at he <;> cases he
    next hp =>
    obtain ⟨k1, k2⟩ := h.opening hp
    exact Ok.reject h.reach k1 k2
  | woken =>
    simp only [Client.step] at he
    split at he <;> cases he
    next hp =>
    have := h.refusing hp.1
    constructor
    case reach => exact h.reach
    all_goals grind
  | leave =>
    simp only [Client.step] at he
    split at he
    · next hp =>
      have k1 := h.body (.inl hp)
      split at he
      · cases he
      · next life hl =>
        cases he
        have hcl := closed_init hl
        have hpr := (LegacyLife.step_present k1 (hi.closer k1) hl).1
        constructor
        case reach => exact h.reach.step hl
        case closing => intro i hx; cases hx; exact hcl
        all_goals grind
    · cases he
  | closed =>
    simp only [Client.step] at he
    split at he
    · next i hp =>
      rw [Option.map_eq_some_iff] at he
      obtain ⟨e, hr, rfl⟩ := he
      constructor
      case reach => exact h.reach
      case ended =>
        intro hx
        cases hx
        exact (hi.ended (closeResult_returned (h.closing i hp) hr)).2.1
      all_goals simp
    · cases he
  | cancel =>
    simp only [Client.step] at he
    have h1 := h.opening
    have h2 := h.refusing
    split at he <;> cases he
    all_goals
      constructor
      case reach => exact h.reach
      all_goals grind

theorem Ok.run {cfg : Config} : ∀ {es : List Event} {s s' : St}, Ok cfg s → run cfg s es = some s' → Ok cfg s'
  | [], _, _, h, he => by cases he; exact h
  | e :: es, s, s', h, he => by
    simp only [Client.run, Option.bind_eq_some_iff] at he
    obtain ⟨s1, h1, h2⟩ := he
    exact (h.step h1).run h2

/-! ## Properties of clients -/

/-- **C88**: whatever `async with connect(...)` does, the connection behaves as described by C82. -/
theorem C88_refines {cfg : Config} {es : List Event} {s : St} (h : run cfg {} es = some s) :
    ∃ es', LegacyLife.run cfg {} es' = some s.life := ((ok_init cfg).run h).reach

/-- **C88**: when `connect` raises an exception, because the opening handshake fails, the TCP connection is closed, and no frame was
sent.  (What is missing: cancellations, `C88_cancel_false`.) -/
theorem C88_connect_partial {cfg : Config} {es : List Event} {s : St} (h : run cfg {} es = some s)
    (hp : s.phase = .refused .failed) : s.life.lost = true ∧ s.life.sent = [] :=
  have ho := (ok_init cfg).run h
  ⟨ho.refused hp, (ho.reach.quiet (ho.unused _ hp)).1⟩

/-- **C88**: when `async with connect(...)` ends, even if its body raised an exception or was cancelled, the TCP connection is closed
or aborted — unless `close` raised an exception or was cancelled. -/
theorem C88_leave {cfg : Config} {es : List Event} {s : St} (h : run cfg {} es = some s)
    (hp : s.phase = .ended .returned) : s.life.lost = true ∨ s.life.aborted = true :=
  ((ok_init cfg).run h).ended hp

/-- **C88**: when the body of `async with connect(...)` ends, the statement ends, in a bounded number of steps of the library, even if
the peer doesn't cooperate. -/
theorem C88_ends {cfg : Config} {es : List Event} {s : St} (h : run cfg {} es = some s) {i : Nat}
    (hp : s.phase = .closing i) {es' : List Ev} (hint : ∀ e ∈ es', LegacyLife.Spec.internal e = true) {life : LegacyLife.St}
    (h' : LegacyLife.run cfg s.life es' = some life) :
    es'.length ≤ 10 + 5 * s.life.calls.length ∧
    run cfg s (es'.map .life) = some { s with life := life } ∧
    (LegacyLife.Spec.Stuck cfg life → ∃ e s', step cfg { s with life := life } .closed = some s' ∧ s'.phase = .ended e) := by
  have ho := (ok_init cfg).run h
  obtain ⟨es0, h0⟩ := ho.reach
  have hrun : run cfg s (es'.map .life) = some { s with life := life } := by
    clear h h0 es0 ho
    induction es' generalizing s with
    | nil => cases h'; rfl
    | cons e es' ih =>
      simp only [LegacyLife.run, Option.bind_eq_some_iff] at h'
      obtain ⟨s1, h1, h2⟩ := h'
      have hal : allowed (decide (s.phase = .handshake)) e = true := by
        have hie := hint e (by simp)
        rw [decide_eq_false (by simp [hp])]
        cases e with
        | call j e => cases e <;> rfl
        | _ => first | rfl | (cases hie; done)
      simp only [List.map_cons, run, Client.step, hal, if_true, h1, Option.bind_some]
      exact ih (s := { s with life := s1 }) hp (fun e he => hint e (by simp [he])) h2
  refine ⟨(LegacyLife.C82_close_ends h0 hint h').1, hrun, fun hst => ?_⟩
  have ho' := ho.run hrun
  have hcr := closeResult_stuck ho'.reach.inv (ho'.closing i hp) hst
  cases hr : closeResult life i with
  | none => exact absurd hr hcr
  | some e =>
    refine ⟨e, { s with life := life, phase := .ended e }, ?_, rfl⟩
    simp [Client.step, hp, hr]

/-- **C88**: when the opening handshake fails, `close_connection` ends, even if the server doesn't cooperate: then the TCP
connection is closed or aborted, unless `close_connection` is cancelled.  `connect` raises its exception when it's closed. -/
theorem C88_refused {cfg : Config} {es : List Event} {s : St} (h : run cfg {} es = some s) (hp : s.phase = .refusing) :
    (LegacyLife.Spec.Stuck cfg s.life → ∃ cancelled, s.life.closer = .ended cancelled ∧
      (cancelled = false → s.life.lost = true ∨ s.life.aborted = true)) ∧
    (s.life.lost = true → ∃ s', step cfg s .woken = some s' ∧ s'.phase = .refused .failed) := by
  have ho := (ok_init cfg).run h
  have hi := ho.reach.inv
  obtain ⟨k1, k2⟩ := ho.refusing hp
  constructor
  · intro hst
    obtain ⟨c, hx⟩ := stuck_refused hi (.inl k1) k2 hst
    refine ⟨c, hx, ?_⟩
    rintro rfl
    exact (hi.ended hx).2.1
  · intro hl
    exact ⟨{ s with phase := .refused .failed }, by simp [Client.step, hp, hl], rfl⟩

/-- **C88 is false**: when `connect` is cancelled in the opening handshake, for example by `asyncio.wait_for`, the TCP connection
isn't closed: no task that could close it exists, whatever happens later, unless the application has a reference to the
protocol and fails the connection. -/
theorem C88_cancel_false : ∃ (cfg : Config) (es : List Event) (s : St), run cfg {} es = some s ∧
    s.phase = .refused .cancelled ∧ s.life.lost = false ∧ s.life.isClosing = false ∧
    LegacyLife.Spec.Stuck cfg s.life ∧
    ∀ (es' : List Event) (s' : St), run cfg s es' = some s' → (∀ e ∈ es', ∃ e', e = .life e' ∧ LegacyLife.Spec.internal e' = true) →
      s' = s := by
  have hst : LegacyLife.Spec.Stuck ⟨true, true⟩ {} := by
    intro e he
    cases e with
    | call i e => simp [LegacyLife.step]
    | transferDrained ok => cases ok <;> rfl
    | _ => first | rfl | (cases he; done)
  refine ⟨⟨true, true⟩, [.cancel], _, rfl, rfl, rfl, rfl, hst, ?_⟩
  intro es' s' h hall
  cases es' with
  | nil => cases h; rfl
  | cons e es' =>
    exfalso
    obtain ⟨e', rfl, hint⟩ := hall e (by simp)
    simp [Client.run, Client.step, hst e' hint] at h

-- The body of the statement is left while the server sends a close frame.
example : ∃ s, run ⟨true, true⟩ {} [.accept, .life .closerRun, .leave, .life (.receive (.close 1001)), .life (.call 0 .run),
      .life (.transferDrained true), .life (.call 0 .woken), .life .closerRun, .life (.lost false), .life .closerLost,
      .life (.call 0 .woken), .closed] = some s ∧
    s.phase = .ended .returned ∧ s.life.lost = true ∧ s.life.sent = [.close] ∧ s.life.closeCode = some 1001 := by
  refine ⟨_, rfl, rfl, rfl, rfl, rfl⟩

-- The server refuses the client.
example : ∃ s, run ⟨true, true⟩ {} [.reject, .life .closerRun, .life .closerTimeout, .life (.lost true), .life .closerLost, .woken] =
      some s ∧
    s.phase = .refused .failed ∧ s.life.closeCode = some 1006 := by
  refine ⟨_, rfl, rfl, rfl⟩

end Client

end WS.LegacyHandler
