import Verif.Model.LegacyLife

/-!
# Invariants of the end of a connection
-/

namespace WS.LegacyLife

/-- What holds for a call in a state of the connection -/
def CallInv (s : St) : Call → Prop
  | .closeWaitTransfer timer => s.transfer ≠ .absent ∧ (timer = true ∨ s.cancelReq = true ∨ s.transfer = .ended)
  | .closeWaitCloser => s.transfer ≠ .absent ∧ (s.cancelReq = true ∨ s.transfer = .ended)
  | .ensuring => s.transfer ≠ .absent
  | .writing | .closeWriting => s.transfer ≠ .absent
  | _ => True

structure Inv (s : St) : Prop where
  lost : s.state = .closed ↔ s.lost = true
  code : s.lost = true → s.closeCode ≠ none
  sent : ∀ pre post, s.sent = pre ++ .close :: post → post = []
  before : s.state = .connecting ∨ s.state = .opened → .close ∉ s.sent
  closing : s.state = .opened ∨ s.state = .closing → s.transfer ≠ .absent
  connecting : s.state = .connecting → s.transfer = .absent
  closer : s.transfer ≠ .absent → s.closer ≠ .absent
  req : s.cancelReq = true → s.transfer ≠ .absent
  waitTransfer : s.closer = .waitTransfer → s.transfer ≠ .absent
  waitLater : (s.closer = .waitClosed ∨ s.closer = .waitEof ∨ ∃ e, s.closer = .waitClose e ∨ s.closer = .waitAbort e) →
    s.transfer = .absent ∨ s.transfer = .ended
  waitClose : (∃ e, s.closer = .waitClose e ∨ s.closer = .waitAbort e) → s.isClosing = true
  waitAbort : ∀ e, s.closer = .waitAbort e → s.aborted = true
  ended : s.closer = .ended false →
    s.isClosing = true ∧ (s.lost = true ∨ s.aborted = true) ∧ (s.transfer = .absent ∨ s.transfer = .ended)
  ensuring : s.transfer = .ensuring → s.state = .closing ∨ s.state = .closed
  calls : ∀ c ∈ s.calls, CallInv s c

theorem inv_init : Inv {} := by
  constructor <;> simp

theorem sent_append {l : List Sent} (h : .close ∉ l) (x : Sent) :
    ∀ pre post, l ++ [x] = pre ++ .close :: post → post = [] := by
  intro pre post he
  rcases List.eq_nil_or_concat post with rfl | ⟨post, y, rfl⟩
  · rfl
  · exfalso
    have he' : l ++ [x] = (pre ++ .close :: post) ++ [y] := by simpa using he
    have := List.append_inj_left' he' rfl
    exact h (by simp [this])

theorem sent_other {l : List Sent} (h : .close ∉ l) : .close ∉ l ++ [Sent.other] := by simp [h]

/-- What a step of a call may change -/
theorem CallInv.mono {s s' : St} {c : Call} (h : CallInv s c) (h1 : s.transfer ≠ .absent → s'.transfer ≠ .absent)
    (h2 : s.cancelReq = true → s'.cancelReq = true) (h3 : s.transfer = .ended → s'.transfer = .ended) :
    CallInv s' c := by
  cases c <;> simp only [CallInv] at h ⊢ <;> grind

theorem Inv.fail {s : St} (h : Inv s) (code : Nat) : Inv (s.fail code) ∧
    (s.fail code).transfer = s.transfer ∧ (s.fail code).calls = s.calls ∧ (s.fail code).lost = s.lost ∧
    (s.transfer ≠ .absent → s.transfer ≠ .ended → (s.fail code).cancelReq = true) ∧
    (s.cancelReq = true → (s.fail code).cancelReq = true) ∧ (s.fail code).closer ≠ .absent ∧
    (s.closer ≠ .absent → (s.fail code).closer = s.closer) ∧ (s.fail code).closeCode = s.closeCode := by
  have hs := fun (x : Sent) hb => sent_append (l := s.sent) hb x
  obtain ⟨a1, a2, a3, a4, a5, a6, a7, a8, a9, a10, a11, a12, a13, a14, a15⟩ := h
  have hc : ∀ c ∈ s.calls, CallInv (s.fail code) c := fun c hm =>
    (a15 c hm).mono (by unfold St.fail; grind) (by unfold St.fail; grind) (by unfold St.fail; grind)
  refine ⟨?_, by unfold St.fail; grind, by unfold St.fail; grind, by unfold St.fail; grind, by unfold St.fail; grind,
    by unfold St.fail; grind, by unfold St.fail; grind, by unfold St.fail; grind, by unfold St.fail; grind⟩
  have hcl : (s.fail code).calls = s.calls := by unfold St.fail; grind
  constructor
  case calls => rw [hcl]; exact hc
  all_goals (unfold St.fail; grind)

/-- Changes of the state that only concern `transfer_data` -/
theorem Inv.transferTo {s : St} (h : Inv s) (t : Transfer) (ht : s.transfer ≠ .absent) (ha : t ≠ .absent)
    (he : s.transfer ≠ .ended) (hens : t = .ensuring → s.state = .closing ∨ s.state = .closed) :
    Inv { s with transfer := t } := by
  obtain ⟨a1, a2, a3, a4, a5, a6, a7, a8, a9, a10, a11, a12, a13, a14, a15⟩ := h
  have hc : ∀ c ∈ s.calls, CallInv { s with transfer := t } c := fun c hm =>
    (a15 c hm).mono (by simpa using fun _ => ha) (by simp) (by simpa using fun h => absurd h he)
  constructor
  case calls => exact hc
  all_goals grind

theorem Inv.failTransfer {s : St} (h : Inv s) (code : Nat) (ht : s.transfer ≠ .absent) (he : s.transfer ≠ .ended) :
    Inv (s.failTransfer code) := by
  obtain ⟨h1, h2, h3, h4, h5, h6, h7, h8⟩ := h.fail code
  exact h1.transferTo .ended (by rw [h2]; exact ht) (by simp) (by rw [h2]; exact he) (by simp)

theorem Inv.receive {s : St} (h : Inv s) (i : Input) (ht : s.transfer = .reading) : Inv (s.receive i) := by
  cases i with
  | data full =>
    simp only [St.receive]
    split
    · exact h.transferTo _ (by simp [ht]) (by simp) (by simp [ht]) (by simp)
    · exact h
  | pong => exact h
  | ping =>
    simp only [St.receive]
    split
    · next hs =>
      have hs' := fun hb => sent_append (l := s.sent) hb Sent.other
      have h' := h.transferTo .ponging (by simp [ht]) (by simp) (by simp [ht]) (by simp)
      obtain ⟨a1, a2, a3, a4, a5, a6, a7, a8, a9, a10, a11, a12, a13, a14, a15⟩ := h'
      constructor
      case calls => exact fun c hm => (a15 c hm).mono (by simp) (by simp) (by simp)
      all_goals grind
    · next hs => exact h.transferTo _ (by simp [ht]) (by simp) (by simp [ht]) (by simp [hs])
    all_goals exact h.failTransfer _ (by simp [ht]) (by simp [ht])
  | close code =>
    simp only [St.receive]
    have hs' := fun hb => sent_append (l := s.sent) hb Sent.close
    split
    · next hs =>
      have h' := h.transferTo .replying (by simp [ht]) (by simp) (by simp [ht]) (by simp)
      obtain ⟨a1, a2, a3, a4, a5, a6, a7, a8, a9, a10, a11, a12, a13, a14, a15⟩ := h'
      constructor
      case calls => exact fun c hm => (a15 c hm).mono (by simp) (by simp) (by simp)
      all_goals grind
    · next hs =>
      have h' := h.transferTo .ended (by simp [ht]) (by simp) (by simp [ht]) (by simp)
      obtain ⟨a1, a2, a3, a4, a5, a6, a7, a8, a9, a10, a11, a12, a13, a14, a15⟩ := h'
      constructor
      case calls => exact fun c hm => (a15 c hm).mono (by simp) (by simp) (by simp)
      all_goals grind
  | error code => exact h.failTransfer _ (by simp [ht]) (by simp [ht])

/-- Changes of the state that only concern `close_connection` -/
structure Closes (s s' : St) : Prop where
  state : s'.state = s.state
  closeCode : s'.closeCode = s.closeCode
  sent : s'.sent = s.sent
  lost : s'.lost = s.lost
  readerExc : s'.readerExc = s.readerExc
  paused : s'.paused = s.paused
  transfer : s'.transfer = s.transfer
  calls : s'.calls = s.calls
  isClosing : s.isClosing = true → s'.isClosing = true
  aborted : s.aborted = true → s'.aborted = true
  req : s'.cancelReq = true ↔ s.cancelReq = true ∨ (s'.cancelReq = true ∧ s.closer = .waitTransfer)

theorem Inv.closes {s s' : St} (h : Inv s) (hc : Closes s s') (h0 : s'.closer ≠ .absent)
    (h1 : s'.closer = .waitTransfer → s.transfer ≠ .absent)
    (h2 : (s'.closer = .waitClosed ∨ s'.closer = .waitEof ∨
      ∃ e, s'.closer = .waitClose e ∨ s'.closer = .waitAbort e) → s.transfer = .absent ∨ s.transfer = .ended)
    (h3 : (∃ e, s'.closer = .waitClose e ∨ s'.closer = .waitAbort e) → s'.isClosing = true)
    (h4 : ∀ e, s'.closer = .waitAbort e → s'.aborted = true)
    (h5 : s'.closer = .ended false → s'.isClosing = true ∧ (s'.lost = true ∨ s'.aborted = true) ∧
      (s.transfer = .absent ∨ s.transfer = .ended)) : Inv s' := by
  obtain ⟨a1, a2, a3, a4, a5, a6, a7, a8, a9, a10, a11, a12, a13, a14, a15⟩ := h
  obtain ⟨b1, b2, b3, b4, b5, b6, b7, b8, b9, b10, b11⟩ := hc
  constructor
  case calls =>
    rw [b8]
    exact fun c hm => (a15 c hm).mono (by rw [b7]; exact id) (fun hr => b11.2 (.inl hr)) (by rw [b7]; exact id)
  all_goals grind

theorem closes_finally (s : St) (e : Bool) : Closes s (s.finally e) := by
  constructor <;> (unfold St.finally; grind)

theorem closes_halfClose (cfg : Config) (s : St) : Closes s (s.halfClose cfg) := by
  constructor <;> (unfold St.halfClose St.finally; grind)

theorem closes_afterTransfer (cfg : Config) (s : St) : Closes s (s.afterTransfer cfg) := by
  constructor <;> (unfold St.afterTransfer St.halfClose St.finally; grind)

theorem closes_closerRun {cfg : Config} {s s' : St} (h : s.closerRun cfg = some s') : Closes s s' := by
  have := closes_afterTransfer cfg s
  unfold St.closerRun at h
  repeat' split at h
  all_goals first
    | (cases h; done)
    | (cases h; exact this)
    | (cases h; constructor <;> grind)

theorem closes_closerWoken {cfg : Config} {s s' : St} (h : s.closerWoken cfg = some s') : Closes s s' := by
  have h1 := closes_finally s false
  have h2 := closes_halfClose cfg s
  unfold St.closerWoken at h
  repeat' split at h
  all_goals first
    | (cases h; done)
    | (cases h; exact h1)
    | (cases h; exact h2)
    | (cases h; constructor <;> (try unfold St.abort) <;> grind)

theorem closes_cancelCloser {s s' : St} (h : s.cancelCloser = some s') : Closes s s' := by
  have h1 := closes_finally s true
  unfold St.cancelCloser at h
  repeat' split at h
  all_goals first
    | (cases h; done)
    | (cases h; exact h1)
    | (cases h; constructor <;> grind)

theorem Inv.closerRun {cfg : Config} {s s' : St} (h : Inv s) (he : s.closerRun cfg = some s') : Inv s' := by
  refine h.closes (closes_closerRun he) ?_ ?_ ?_ ?_ ?_ ?_
  all_goals
    unfold St.closerRun St.afterTransfer St.halfClose St.finally at he
    grind [h.waitTransfer]

theorem Inv.closerWoken {cfg : Config} {s s' : St} (h : Inv s) (he : s.closerWoken cfg = some s') : Inv s' := by
  refine h.closes (closes_closerWoken he) ?_ ?_ ?_ ?_ ?_ ?_
  all_goals
    unfold St.closerWoken St.halfClose St.finally St.abort at he
    grind [h.waitTransfer, h.waitLater, h.waitClose, h.waitAbort]

theorem Inv.cancelCloser {s s' : St} (h : Inv s) (he : s.cancelCloser = some s') : Inv s' := by
  refine h.closes (closes_cancelCloser he) ?_ ?_ ?_ ?_ ?_ ?_
  all_goals
    unfold St.cancelCloser St.finally at he
    grind [h.waitTransfer, h.waitLater, h.waitClose, h.waitAbort, h.ended]

theorem callInv_shield (s : St) (c : Call) (r : Result) (h : CallInv s c) : CallInv s (s.shield c r) := by
  unfold St.shield
  split <;> simp_all [CallInv]

theorem callInv_closeEnd {s : St} (h : s.transfer ≠ .absent) (h' : s.cancelReq = true ∨ s.transfer = .ended) :
    CallInv s s.closeEnd := callInv_shield _ _ _ ⟨h, h'⟩

theorem callInv_closeRest (s : St) : CallInv s s.closeRest := by
  unfold St.closeRest
  split
  · trivial
  · next h => exact callInv_closeEnd (by simp [h]) (.inr h)
  · next h _ => exact ⟨h, .inl rfl⟩

theorem callInv_ensureOpen {s : St} (h : Inv s) : CallInv s s.ensureOpen := by
  unfold St.ensureOpen
  split
  · split
    · next he => exact callInv_shield _ _ _ (by simp [CallInv, he])
    · trivial
  · trivial
  · next hs => exact callInv_shield _ _ _ (h.closing (.inr hs))
  · trivial

/-- What a step of a call does -/
theorem Inv.callStep {s s' : St} {c c' : Call} {e : CallEv} (h : Inv s) (hci : CallInv s c)
    (he : s.callStep c e = some (s', c')) :
    Inv s' ∧ CallInv s' c' ∧ s'.calls = s.calls := by
  obtain ⟨f1, f2, f3, f4, f5, f6, f7, f8⟩ := h.fail 1006
  have hcancel : s.transfer ≠ .absent → s.transfer ≠ .ended → Inv { s with cancelReq := true } := by
    intro ht _
    obtain ⟨a1, a2, a3, a4, a5, a6, a7, a8, a9, a10, a11, a12, a13, a14, a15⟩ := h
    constructor
    case calls => exact fun c hm => (a15 c hm).mono (by simp) (by simp) (by simp)
    all_goals grind
  unfold St.callStep at he
  split at he
  · split at he
    · next hs =>
      cases he
      have hs' := fun hb => sent_append (l := s.sent) hb Sent.close
      have ht := h.closing (.inl hs)
      obtain ⟨a1, a2, a3, a4, a5, a6, a7, a8, a9, a10, a11, a12, a13, a14, a15⟩ := h
      refine ⟨?_, ht, rfl⟩
      constructor
      case calls => exact fun c hm => (a15 c hm).mono (by simp) (by simp) (by simp)
      all_goals grind
    · cases he; exact ⟨h, callInv_closeRest _, rfl⟩
  · cases he; exact ⟨f1, callInv_closeRest _, f3⟩
  · cases he; exact ⟨h, trivial, rfl⟩
  · split at he <;> cases he; exact ⟨h, callInv_closeRest _, rfl⟩
  · split at he <;> cases he; exact ⟨f1, trivial, f3⟩
  · cases he; exact ⟨f1, callInv_closeRest _, f3⟩
  · cases he; exact ⟨h, trivial, rfl⟩
  · split at he <;> cases he
    next hn => exact ⟨hcancel hci.1 hn, ⟨hci.1, .inr (.inl rfl)⟩, rfl⟩
  · split at he <;> cases he
    next hn => exact ⟨h, callInv_closeEnd (by simp [hn]) (.inr hn), rfl⟩
  · cases he
    split
    · next hn => exact ⟨h, callInv_closeEnd (by simp [hn]) (.inr hn), rfl⟩
    · next hn =>
      exact ⟨hcancel hci.1 hn, callInv_shield { s with cancelReq := true } .closeWaitCloser .returned ⟨hci.1, .inl rfl⟩, rfl⟩
  · split at he <;> cases he
    exact ⟨h, callInv_shield _ _ _ hci, rfl⟩
  · cases he; exact ⟨h, trivial, rfl⟩
  · split at he <;> cases he
    exact ⟨h, callInv_shield _ _ _ hci, rfl⟩
  · cases he; exact ⟨h, trivial, rfl⟩
  · split at he <;> cases he; exact ⟨h, trivial, rfl⟩
  · split at he <;> cases he; exact ⟨f1, trivial, f3⟩
  · cases he; exact ⟨h, trivial, rfl⟩
  · cases he

theorem Inv.addCall {s : St} (h : Inv s) (c : Call) (hc : CallInv s c) : Inv { s with calls := s.calls ++ [c] } := by
  obtain ⟨a1, a2, a3, a4, a5, a6, a7, a8, a9, a10, a11, a12, a13, a14, a15⟩ := h
  constructor
  case calls =>
    intro c' hm
    simp only [List.mem_append, List.mem_singleton] at hm
    rcases hm with hm | rfl
    · exact (a15 c' hm).mono (by simp) (by simp) (by simp)
    · exact hc.mono (by simp) (by simp) (by simp)
  all_goals grind

theorem Inv.setCall {s : St} (h : Inv s) (i : Nat) (c : Call) (hc : CallInv s c) :
    Inv { s with calls := s.calls.set i c } := by
  obtain ⟨a1, a2, a3, a4, a5, a6, a7, a8, a9, a10, a11, a12, a13, a14, a15⟩ := h
  constructor
  case calls =>
    intro c' hm
    rcases List.mem_or_eq_of_mem_set hm with hm | rfl
    · exact (a15 c' hm).mono (by simp) (by simp) (by simp)
    · exact hc.mono (by simp) (by simp) (by simp)
  all_goals grind

theorem Inv.step {cfg : Config} {s s' : St} {e : Ev} (h : Inv s) (he : step cfg s e = some s') : Inv s' := by
  cases e with
  | opened =>
    simp only [LegacyLife.step] at he
    split at he <;> cases he
    next hs =>
    obtain ⟨a1, a2, a3, a4, a5, a6, a7, a8, a9, a10, a11, a12, a13, a14, a15⟩ := h
    constructor
    case calls =>
      exact fun c hm => (a15 c hm).mono (by simp) (by simp) (by simp [a6 hs.1])
    all_goals grind
  | refused =>
    simp only [LegacyLife.step] at he
    split at he <;> cases he
    exact (h.fail 1006).1
  | fail code =>
    simp only [LegacyLife.step] at he
    split at he <;> cases he
    exact (h.fail code).1
  | receive i =>
    simp only [LegacyLife.step] at he
    split at he <;> cases he
    next hs => exact h.receive i hs.1
  | room =>
    simp only [LegacyLife.step] at he
    split at he <;> cases he
    next hs => exact h.transferTo _ (by simp [hs]) (by simp) (by simp [hs]) (by simp)
  | transferDrained ok =>
    simp only [LegacyLife.step] at he
    repeat' split at he
    all_goals first
      | (cases he; done)
      | skip
    · next ht _ => cases he; exact h.transferTo _ (by simp [ht]) (by simp) (by simp [ht]) (by simp)
    · next ht _ => cases he; exact h.failTransfer _ (by simp [ht]) (by simp [ht])
    · next ht _ => cases he; exact h.transferTo _ (by simp [ht]) (by simp) (by simp [ht]) (by simp)
    · next ht _ => cases he; exact h.failTransfer _ (by simp [ht]) (by simp [ht])
  | transferWoken =>
    simp only [LegacyLife.step] at he
    repeat' split at he
    all_goals first
      | (cases he; done)
      | skip
    next ht _ _ => cases he; exact h.failTransfer _ (by simp [ht]) (by simp [ht])
  | transferCancelled =>
    simp only [LegacyLife.step] at he
    split at he <;> cases he
    next hs => exact h.transferTo _ hs.2.1 (by simp) hs.2.2 (by simp)
  | cancelTransfer =>
    simp only [LegacyLife.step] at he
    split at he <;> cases he
    next hs =>
    obtain ⟨a1, a2, a3, a4, a5, a6, a7, a8, a9, a10, a11, a12, a13, a14, a15⟩ := h
    constructor
    case calls => exact fun c hm => (a15 c hm).mono (by simp) (by simp) (by simp)
    all_goals grind
  | closerRun => exact h.closerRun he
  | closerLost =>
    simp only [LegacyLife.step] at he
    split at he
    · exact h.closerWoken he
    · cases he
  | closerTimeout => exact h.closerWoken he
  | cancelCloser => exact h.cancelCloser he
  | transportClosing =>
    simp only [LegacyLife.step] at he
    cases he
    obtain ⟨a1, a2, a3, a4, a5, a6, a7, a8, a9, a10, a11, a12, a13, a14, a15⟩ := h
    constructor
    case calls => exact fun c hm => (a15 c hm).mono (by simp) (by simp) (by simp)
    all_goals grind
  | lost exc =>
    simp only [LegacyLife.step] at he
    split at he <;> cases he
    obtain ⟨a1, a2, a3, a4, a5, a6, a7, a8, a9, a10, a11, a12, a13, a14, a15⟩ := h
    constructor
    case calls => exact fun c hm => (a15 c hm).mono (by simp) (by simp) (by simp)
    all_goals grind
  | pause =>
    simp only [LegacyLife.step] at he
    split at he <;> cases he
    obtain ⟨a1, a2, a3, a4, a5, a6, a7, a8, a9, a10, a11, a12, a13, a14, a15⟩ := h
    constructor
    case calls => exact fun c hm => (a15 c hm).mono (by simp) (by simp) (by simp)
    all_goals grind
  | resume =>
    simp only [LegacyLife.step] at he
    split at he <;> cases he
    obtain ⟨a1, a2, a3, a4, a5, a6, a7, a8, a9, a10, a11, a12, a13, a14, a15⟩ := h
    constructor
    case calls => exact fun c hm => (a15 c hm).mono (by simp) (by simp) (by simp)
    all_goals grind
  | close =>
    simp only [LegacyLife.step] at he
    cases he
    exact h.addCall _ trivial
  | ensure =>
    simp only [LegacyLife.step] at he
    cases he
    exact h.addCall _ (callInv_ensureOpen h)
  | write =>
    simp only [LegacyLife.step] at he
    split at he
    · next hs =>
      cases he
      have ht := h.closing (.inl hs.1)
      have hs' := fun hb => sent_append (l := s.sent) hb Sent.other
      have h' := h.addCall .writing ht
      obtain ⟨a1, a2, a3, a4, a5, a6, a7, a8, a9, a10, a11, a12, a13, a14, a15⟩ := h'
      constructor
      case calls => exact fun c hm => (a15 c hm).mono (by simp) (by simp) (by simp)
      all_goals grind
    · cases he
      exact h.addCall _ (callInv_ensureOpen h)
  | call i e =>
    simp only [LegacyLife.step] at he
    split at he
    · cases he
    · next c hc =>
      split at he
      · cases he
      · next s'' c' hs =>
        cases he
        obtain ⟨h1, h2, h3⟩ := h.callStep (h.calls c (List.mem_of_getElem? hc)) hs
        exact h1.setCall i c' h2

theorem Inv.run {cfg : Config} : ∀ {es : List Ev} {s s' : St}, Inv s → run cfg s es = some s' → Inv s'
  | [], _, _, h, he => by cases he; exact h
  | e :: es, s, s', h, he => by
    simp only [LegacyLife.run, Option.bind_eq_some_iff] at he
    obtain ⟨s1, h1, h2⟩ := he
    exact (h.step h1).run h2

end WS.LegacyLife
