import Verif.Props.LegacyHandler
import Verif.Props.LegacyRegistry

/-!
# C63: the model of the server describes the model of a handler

`Verif.Model.LegacyRegistry` describes a connection in a few words.  `Verif.Model.LegacyHandler` describes its handler
and its tasks in detail.  Whatever the latter does, the former does as well.
-/

namespace WS.LegacyOwner

open LegacyHandler (End)
open LegacyHandler.Server (St step)
open LegacyLife (Ev Call Closer Config)

/-! ## Specification -/

/-- What asyncio may do to the tasks of a connection, but the library and `asyncio` itself don't do: cancel a handler
before it starts, cancel `close_connection_task`; and what a positive `close_timeout` excludes. -/
def Spec.Ordinary (s : St) : LegacyHandler.Server.Event → Prop
  | .cancel => s.phase ≠ .created
  | .life .cancelCloser => False
  | .life (.call i .timeout) => s.phase = .closing i → s.life.calls[i]? ≠ some .closeStart
  | _ => True

/-- The states of a handler -/
inductive Spec.Runs (cfg : Config) : St → Prop
  | init : Spec.Runs cfg {}
  | step {s s' : St} {e : LegacyHandler.Server.Event} : Spec.Runs cfg s → Spec.Ordinary s e → step cfg s e = some s' → Spec.Runs cfg s'

/-- The states of a connection have the same meaning. -/
def Spec.SameState : State → LegacyRegistry.State → Prop
  | .connecting, c => c = .connecting
  | .opened, c => c = .open
  | .closing, c => c = .closing
  | .closed, c => c = .closed

/-- The handler is suspended in the same place.  `close` has sent a close frame as soon as it's called in one model, in
its first step in the other. -/
def Spec.SamePhase (s : St) (p : LegacyRegistry.Phase) : Prop :=
  match s.phase with
  | .created | .handshake => p = .handshake
  | .refusing => p = .waitClosed
  | .running => p = .running
  | .closing i =>
    match s.life.calls[i]? with
    | some .closeStart => p = .running
    | some (.ended .cancelled) => p = .running ∨ p = .closing
    | _ => p = .closing
  | .ended _ => p = .done

/-- `close_connection_task` ended. -/
def Spec.Ended (s : LegacyLife.St) : Prop := ∃ b, s.closer = .ended b

/-- The connection `c` of the server `r`, which has this rank, is the connection that the handler owns. -/
structure Spec.Describes (r : LegacyRegistry.Server) (rank : Nat) (c : LegacyRegistry.Conn) (s : St) : Prop where
  conn : r.conns[rank]? = some c
  registered : rank ∈ r.websockets ↔ s.registered = true
  nodup : r.websockets.Nodup
  keyError : r.keyError = false
  state : Spec.SameState s.life.state c.state
  phase : Spec.SamePhase s c.phase
  opened : c.opened = true ↔ s.life.transfer ≠ .absent
  lost : c.lost = s.life.lost
  closeEnded : c.closeEnded = true ↔ Spec.Ended s.life ∧ s.life.transfer ≠ .absent
  /-- when one model says that the transport was closed, this is so in the other. -/
  transport : c.transportClosed = true → s.life.isClosing = true
  cancelled : c.cancelled = true ↔ s.phase = .ended .cancelled

/-! ## Invariants -/

/-- A call made before the connection is open: it waits for nothing. -/
def Early : Call → Prop
  | .closeStart | .ended _ => True
  | _ => False

/-- A call to `close` -/
def IsClose (s : LegacyLife.St) : Call → Prop
  | .closeStart | .closeWriting | .closeWaitTransfer _ | .closeWaitCloser => True
  | .ended .cancelled => True
  | .ended _ => Spec.Ended s ∨ s.lost = true
  | .ensuring | .writing => False

/-- What `close_connection` guarantees unless it's cancelled -/
def CloserOk (s : LegacyLife.St) : Prop :=
  match s.closer with
  | .waitClose e | .waitAbort e | .ended e => e = false ∧ s.isClosing = true
  | _ => True

structure LifeOk (s : LegacyLife.St) : Prop where
  absent : s.transfer = .absent → (s.state = .connecting ∨ s.state = .closed) ∧ ∀ c ∈ s.calls, Early c
  closed : s.state = .closed ↔ s.lost = true
  closer : CloserOk s
  present : s.transfer ≠ .absent → s.state ≠ .connecting ∧ s.closer ≠ .absent

structure Ok (s : St) : Prop where
  life : LifeOk s.life
  before : s.phase = .created ∨ s.phase = .handshake → s.life.transfer = .absent ∧ s.life.closer = .absent
  after : (s.phase = .running ∨ ∃ i, s.phase = .closing i) → s.life.transfer ≠ .absent
  refusing : s.phase = .refusing → s.life.transfer = .absent
  call : ∀ i, s.phase = .closing i → ∃ c, s.life.calls[i]? = some c ∧ IsClose s.life c
  registered : s.registered = true ↔ ∀ e, s.phase ≠ .ended e

/-- What the tasks of a connection do, as far as the server is concerned -/
structure Effect (s s' : LegacyLife.St) : Prop where
  transfer : s'.transfer = .absent ↔ s.transfer = .absent
  isClosing : s.isClosing = true → s'.isClosing = true
  ended : Spec.Ended s → Spec.Ended s'
  state : (s'.lost = s.lost ∧ (s'.state = s.state ∨ s.state = .opened ∧ s'.state = .closing)) ∨
    (s.lost = false ∧ s'.lost = true ∧ s'.state = .closed)

/-- Both -/
def Good (s s' : LegacyLife.St) : Prop := LifeOk s → LifeOk s' ∧ Effect s s'

theorem Effect.refl (s : LegacyLife.St) : Effect s s := ⟨Iff.rfl, id, id, .inl ⟨rfl, .inl rfl⟩⟩

theorem good_refl (s : LegacyLife.St) : Good s s := fun h => ⟨h, .refl s⟩

/-- Nothing that matters changes. -/
theorem good_same {s s' : LegacyLife.St} (h1 : s'.state = s.state) (h2 : s'.lost = s.lost)
    (h3 : s'.transfer = .absent ↔ s.transfer = .absent) (h4 : s'.closer = s.closer)
    (h5 : s.isClosing = true → s'.isClosing = true) (h6 : s.transfer = .absent → s'.calls = s.calls) : Good s s' := by
  intro h
  refine ⟨⟨fun ha => ?_, by rw [h1, h2]; exact h.closed, ?_, fun hp => by rw [h1, h4]; exact h.present (by grind)⟩,
    ⟨h3, h5, by simp only [Spec.Ended, h4]; exact id, .inl ⟨h2, .inl h1⟩⟩⟩
  · rw [h1, h6 (h3.1 ha)]; exact h.absent (h3.1 ha)
  · have := h.closer
    unfold CloserOk at this ⊢
    rw [h4]
    split at this <;> grind

theorem good_fail (s : LegacyLife.St) (code : Nat) : Good s (s.fail code) := by
  intro h
  have ha := h.absent
  have hp := h.present
  have hc := h.closed
  have hk := h.closer
  unfold LegacyLife.St.fail
  refine ⟨⟨?_, ?_, ?_, ?_⟩, ⟨?_, ?_, ?_, ?_⟩⟩ <;> simp only [CloserOk, Spec.Ended] at * <;> grind

theorem Good.trans {a b c : LegacyLife.St} (h1 : Good a b) (h2 : Good b c) : Good a c := by
  intro h
  obtain ⟨k1, e1⟩ := h1 h
  obtain ⟨k2, e2⟩ := h2 k1
  have hc := h.closed
  have hb := k1.closed
  have hk := k2.closed
  refine ⟨k2, ⟨by rw [e2.transfer, e1.transfer], fun x => e2.isClosing (e1.isClosing x), fun x => e2.ended (e1.ended x), ?_⟩⟩
  have x1 := e1.state
  have x2 := e2.state
  grind

theorem good_failTransfer (s : LegacyLife.St) (code : Nat) (ht : s.transfer ≠ .absent) :
    Good s (s.failTransfer code) := by
  intro h
  have ha := h.absent
  have hp := h.present
  have hc := h.closed
  have hk := h.closer
  unfold LegacyLife.St.failTransfer LegacyLife.St.fail
  refine ⟨⟨?_, ?_, ?_, ?_⟩, ⟨?_, ?_, ?_, ?_⟩⟩ <;> simp only [CloserOk, Spec.Ended] at * <;> grind

theorem good_receive (s : LegacyLife.St) (i : LegacyLife.Input) (ht : s.transfer ≠ .absent) :
    Good s (s.receive i) := by
  cases i with
  | data full => cases full <;> exact good_same rfl rfl (by simp [LegacyLife.St.receive, ht]) rfl id (fun _ => rfl)
  | pong => exact good_refl s
  | error code => exact good_failTransfer s code ht
  | ping =>
    cases hs : s.state <;> simp only [LegacyLife.St.receive, hs]
    · exact good_failTransfer s _ ht
    · exact good_same hs.symm rfl (by simp [ht]) rfl id (fun _ => rfl)
    · exact good_same hs.symm rfl (by simp [ht]) rfl id (fun _ => rfl)
    · exact good_failTransfer s _ ht
  | close code =>
    intro h
    have ha := h.absent
    have hp := h.present
    have hc := h.closed
    have hk := h.closer
    unfold LegacyLife.St.receive
    refine ⟨⟨?_, ?_, ?_, ?_⟩, ⟨?_, ?_, ?_, ?_⟩⟩ <;> simp only [CloserOk, Spec.Ended] at * <;> grind

/-- `close_connection` has begun and isn't in its last lines. -/
def Begun (s : LegacyLife.St) : Prop :=
  s.closer = .created ∨ s.closer = .waitTransfer ∨ s.closer = .waitClosed ∨ s.closer = .waitEof

theorem good_finally (s : LegacyLife.St) (hb : Begun s) : Good s (s.finally false) := by
  intro h
  have ha := h.absent
  have hp := h.present
  have hc := h.closed
  have hk := h.closer
  unfold LegacyLife.St.finally
  unfold Begun at hb
  refine ⟨⟨?_, ?_, ?_, ?_⟩, ⟨?_, ?_, ?_, ?_⟩⟩ <;> simp only [CloserOk, Spec.Ended] at * <;> grind

theorem good_put (s : LegacyLife.St) (hb : Begun s) (c : Closer)
    (hc : c = .waitTransfer ∨ c = .waitClosed ∨ c = .waitEof) : Good s { s with closer := c } := by
  intro h
  have ha := h.absent
  have hp := h.present
  have hcl := h.closed
  have hk := h.closer
  unfold Begun at hb
  refine ⟨⟨?_, ?_, ?_, ?_⟩, ⟨?_, ?_, ?_, ?_⟩⟩ <;> simp only [CloserOk, Spec.Ended] at * <;> grind

theorem good_halfClose (cfg : Config) (s : LegacyLife.St) (hb : Begun s) : Good s (s.halfClose cfg) := by
  unfold LegacyLife.St.halfClose
  split
  · exact good_put s hb _ (by simp)
  · exact good_finally s hb

theorem good_afterTransfer (cfg : Config) (s : LegacyLife.St) (hb : Begun s) : Good s (s.afterTransfer cfg) := by
  unfold LegacyLife.St.afterTransfer
  split
  · split
    · exact good_finally s hb
    · exact good_put s hb _ (by simp)
  · exact good_halfClose cfg s hb

theorem good_closerRun (cfg : Config) {s s' : LegacyLife.St} (h : s.closerRun cfg = some s') : Good s s' := by
  unfold LegacyLife.St.closerRun at h
  split at h
  · next hs =>
    have hb : Begun s := .inl hs
    split at h <;> injection h with h <;> subst h
    · exact good_afterTransfer cfg s hb
    · exact good_put s hb _ (by simp)
  · next hs =>
    split at h
    · injection h with h; subst h; exact good_afterTransfer cfg s (.inr (.inl hs))
    · cases h
  · cases h

theorem good_closerWoken (cfg : Config) {s s' : LegacyLife.St} (h : s.closerWoken cfg = some s') : Good s s' := by
  unfold LegacyLife.St.closerWoken at h
  split at h
  · next hs =>
    have hb : Begun s := .inr (.inr (.inl hs))
    split at h <;> injection h with h <;> subst h
    · exact good_finally s hb
    · exact good_halfClose cfg s hb
  · next hs =>
    injection h with h; subst h; exact good_finally s (.inr (.inr (.inr hs)))
  · next exc hs =>
    intro k
    have ha := k.absent
    have hp := k.present
    have hcl := k.closed
    have hk := k.closer
    split at h <;> injection h with h <;> subst h <;> (try simp only [LegacyLife.St.abort]) <;>
    refine ⟨⟨?_, ?_, ?_, ?_⟩, ⟨?_, ?_, ?_, ?_⟩⟩ <;> simp only [CloserOk, Spec.Ended, hs] at * <;> grind
  · next exc hs =>
    intro k
    have ha := k.absent
    have hp := k.present
    have hcl := k.closed
    have hk := k.closer
    injection h with h; subst h
    refine ⟨⟨?_, ?_, ?_, ?_⟩, ⟨?_, ?_, ?_, ?_⟩⟩ <;> simp only [CloserOk, Spec.Ended, hs] at * <;> grind
  · cases h

theorem fail_calls (s : LegacyLife.St) (code : Nat) : (s.fail code).calls = s.calls := by
  unfold LegacyLife.St.fail; grind

theorem fail_transfer (s : LegacyLife.St) (code : Nat) : (s.fail code).transfer = s.transfer := by
  unfold LegacyLife.St.fail; grind

theorem good_callStep {s s' : LegacyLife.St} {c c' : Call} {e : LegacyLife.CallEv}
    (h : s.callStep c e = some (s', c')) :
    Good s s' ∧ s'.calls = s.calls ∧ (LifeOk s → s.transfer = .absent → Early c → Early c') := by
  unfold LegacyLife.St.callStep at h
  split at h
  · split at h <;> simp only [Option.some.injEq, Prod.mk.injEq] at h <;> obtain ⟨rfl, rfl⟩ := h
    · next hs =>
      refine ⟨fun h => ?_, rfl, fun k ha => by have := k.absent ha; simp [hs] at this⟩
      have ha := h.absent
      have hp := h.present
      have hc := h.closed
      have hk := h.closer
      refine ⟨⟨?_, ?_, ?_, ?_⟩, ⟨?_, ?_, ?_, ?_⟩⟩ <;> simp only [CloserOk, Spec.Ended] at * <;> grind
    · exact ⟨good_refl _, rfl, fun _ ha _ => by simp [LegacyLife.St.closeRest, ha, Early]⟩
  · simp only [Option.some.injEq, Prod.mk.injEq] at h
    obtain ⟨rfl, rfl⟩ := h
    exact ⟨good_fail s _, fail_calls s _, fun _ ha _ => by simp [LegacyLife.St.closeRest, fail_transfer, ha, Early]⟩
  all_goals
    first
    | (simp only [Option.some.injEq, Prod.mk.injEq] at h
       obtain ⟨rfl, rfl⟩ := h
       first
       | exact ⟨good_refl _, rfl, fun _ _ k => k⟩
       | exact ⟨good_refl _, rfl, fun _ _ _ => trivial⟩
       | exact ⟨good_fail s _, fail_calls s _, fun _ _ k => k.elim⟩
       | (refine ⟨?_, ?_, fun _ _ k => k.elim⟩
          · split
            · exact good_refl _
            · exact good_same rfl rfl Iff.rfl rfl id (fun _ => rfl)
          · split <;> rfl))
    | (split at h
       all_goals
         first
         | (cases h; done)
         | (simp only [Option.some.injEq, Prod.mk.injEq] at h
            obtain ⟨rfl, rfl⟩ := h
            first
            | exact ⟨good_refl _, rfl, fun _ _ k => k.elim⟩
            | exact ⟨good_fail s _, fail_calls s _, fun _ _ k => k.elim⟩
            | exact ⟨good_same rfl rfl Iff.rfl rfl id (fun _ => rfl), rfl, fun _ _ k => k.elim⟩))
    | (cases h; done)

theorem good_set {s : LegacyLife.St} {i : Nat} {c' : Call} (h : s.transfer = .absent → Early c') :
    Good s { s with calls := s.calls.set i c' } := by
  intro k
  have ha := k.absent
  have hp := k.present
  have hcl := k.closed
  have hk := k.closer
  refine ⟨⟨fun x => ⟨(ha x).1, fun c hc => ?_⟩, hcl, hk, hp⟩, Effect.mk Iff.rfl id id (.inl ⟨rfl, .inl rfl⟩)⟩
  rcases List.mem_or_eq_of_mem_set hc with hc | rfl
  · exact (ha x).2 c hc
  · exact h x

theorem good_append {s : LegacyLife.St} {c' : Call} (h : LifeOk s → s.transfer = .absent → Early c') :
    Good s { s with calls := s.calls ++ [c'] } := by
  intro k
  have ha := k.absent
  refine ⟨⟨fun x => ⟨(ha x).1, fun c hc => ?_⟩, k.closed, k.closer, k.present⟩,
    Effect.mk Iff.rfl id id (.inl ⟨rfl, .inl rfl⟩)⟩
  rcases List.mem_append.1 hc with hc | hc
  · exact (ha x).2 c hc
  · rw [List.mem_singleton.1 hc]; exact h k x

theorem ensureOpen_early {s : LegacyLife.St} (k : LifeOk s) (ha : s.transfer = .absent) : Early s.ensureOpen := by
  unfold LegacyLife.St.ensureOpen
  rcases (k.absent ha).1 with h | h <;> simp [h, Early]

/-- The events that are steps of the handler, and the one that is excluded -/
def Other : Ev → Prop
  | .opened | .refused | .cancelCloser => False
  | _ => True

theorem good_step (cfg : Config) {s s' : LegacyLife.St} {e : Ev} (he : Other e)
    (h : LegacyLife.step cfg s e = some s') : Good s s' := by
  have same : ∀ {s' : LegacyLife.St}, s'.state = s.state → s'.lost = s.lost →
      (s'.transfer = .absent ↔ s.transfer = .absent) → s'.closer = s.closer →
      (s.isClosing = true → s'.isClosing = true) → (s.transfer = .absent → s'.calls = s.calls) → Good s s' := good_same
  cases e with
  | opened | refused | cancelCloser => exact he.elim
  | fail code => simp only [LegacyLife.step] at h; split at h <;> cases h; exact good_fail s code
  | receive i =>
    simp only [LegacyLife.step] at h; split at h <;> cases h
    next hc => exact good_receive s i (by simp [hc.1])
  | room =>
    simp only [LegacyLife.step] at h; split at h <;> cases h
    next hc => exact same rfl rfl (by simp [hc.1]) rfl id (fun _ => rfl)
  | transferDrained ok =>
    simp only [LegacyLife.step] at h
    split at h
    · split at h
      · next ht => split at h <;> cases h
                   · exact same rfl rfl (by simp [ht]) rfl id (fun _ => rfl)
                   · exact good_failTransfer s _ (by simp [ht])
      · next ht => split at h <;> cases h
                   · exact same rfl rfl (by simp [ht]) rfl id (fun _ => rfl)
                   · exact good_failTransfer s _ (by simp [ht])
      · cases h
    · cases h
  | transferWoken =>
    simp only [LegacyLife.step] at h
    split at h
    · next ht _ => split at h <;> cases h; exact good_failTransfer s _ (by simp [ht])
    · cases h
  | transferCancelled =>
    simp only [LegacyLife.step] at h; split at h <;> cases h
    next hc => exact same rfl rfl (by simp [hc.2.1]) rfl id (fun _ => rfl)
  | cancelTransfer =>
    simp only [LegacyLife.step] at h; split at h <;> cases h
    exact same rfl rfl Iff.rfl rfl id (fun _ => rfl)
  | closerRun => exact good_closerRun cfg h
  | closerLost => simp only [LegacyLife.step] at h; split at h; exact good_closerWoken cfg h; cases h
  | closerTimeout => exact good_closerWoken cfg h
  | transportClosing => cases h; exact same rfl rfl Iff.rfl rfl (fun _ => rfl) (fun _ => rfl)
  | lost exc =>
    simp only [LegacyLife.step] at h; split at h <;> cases h
    intro h
    have ha := h.absent
    have hp := h.present
    have hc := h.closed
    have hk := h.closer
    refine ⟨⟨?_, ?_, ?_, ?_⟩, ⟨?_, ?_, ?_, ?_⟩⟩ <;> simp only [CloserOk, Spec.Ended] at * <;> grind
  | pause => simp only [LegacyLife.step] at h; split at h <;> cases h; exact same rfl rfl Iff.rfl rfl id (fun _ => rfl)
  | resume => simp only [LegacyLife.step] at h; split at h <;> cases h; exact same rfl rfl Iff.rfl rfl id (fun _ => rfl)
  | close => cases h; exact good_append fun _ _ => trivial
  | ensure => cases h; exact good_append ensureOpen_early
  | write =>
    simp only [LegacyLife.step] at h
    split at h <;> cases h
    · next hc =>
      refine fun k => (Good.trans (same (s' := { s with sent := s.sent ++ [.other] }) rfl rfl Iff.rfl rfl id (fun _ => rfl))
        (good_append fun k ha => ?_)) k
      have := (k.absent ha).1
      simp [hc.1] at this
    · exact good_append ensureOpen_early
  | call i e =>
    simp only [LegacyLife.step] at h
    split at h
    · cases h
    · next c hci =>
      split at h
      · cases h
      · next s1 c1 hcs =>
        cases h
        obtain ⟨g, hcalls, he⟩ := good_callStep hcs
        intro k
        exact (g.trans (good_set fun ha => by
          have ha' := ((g k).2.transfer).1 ha
          exact he k ha' ((k.absent ha').2 c (List.mem_of_getElem? hci)))) k

/-! ## The call to `close` of the handler -/

theorem fail_ended (s : LegacyLife.St) (code : Nat) (h : Spec.Ended s) : Spec.Ended (s.fail code) := by
  obtain ⟨b, hb⟩ := h
  refine ⟨b, ?_⟩
  unfold LegacyLife.St.fail; grind

theorem fail_lost (s : LegacyLife.St) (code : Nat) : (s.fail code).lost = s.lost := by
  unfold LegacyLife.St.fail; grind

theorem isClose_closeEnd {s : LegacyLife.St} (k : LifeOk s) : IsClose s s.closeEnd := by
  have := k.closer
  unfold LegacyLife.St.closeEnd LegacyLife.St.shield
  split
  · next b hb => cases b <;> simp [IsClose, Spec.Ended, hb]
  · simp [IsClose]

theorem isClose_closeRest {s : LegacyLife.St} (k : LifeOk s) (ht : s.transfer ≠ .absent) :
    IsClose s s.closeRest := by
  unfold LegacyLife.St.closeRest
  split
  · contradiction
  · exact isClose_closeEnd k
  · simp [IsClose]

theorem isClose_closedExc {s s' : LegacyLife.St} (h : s'.lost = true) : IsClose s' (.ended s.closedExc) := by
  unfold LegacyLife.St.closedExc
  split <;> simp [IsClose, h]

theorem isClose_step {s s' : LegacyLife.St} {c c' : Call} {e : LegacyLife.CallEv} (k : LifeOk s)
    (ht : s.transfer ≠ .absent) (hc : IsClose s c) (h : s.callStep c e = some (s', c')) : IsClose s' c' := by
  have kf := (good_fail s 1006 k).1
  unfold LegacyLife.St.callStep at h
  split at h
  · split at h <;> simp only [Option.some.injEq, Prod.mk.injEq] at h <;> obtain ⟨rfl, rfl⟩ := h
    · trivial
    · exact isClose_closeRest k ht
  · simp only [Option.some.injEq, Prod.mk.injEq] at h
    obtain ⟨rfl, rfl⟩ := h
    exact isClose_closeRest kf (by rwa [fail_transfer])
  · simp only [Option.some.injEq, Prod.mk.injEq] at h
    obtain ⟨rfl, rfl⟩ := h
    trivial
  · split at h
    · simp only [Option.some.injEq, Prod.mk.injEq] at h
      obtain ⟨rfl, rfl⟩ := h
      exact isClose_closeRest k ht
    · cases h
  · split at h
    · next hd =>
      simp only [Option.some.injEq, Prod.mk.injEq] at h
      obtain ⟨rfl, rfl⟩ := h
      exact isClose_closedExc (by rw [fail_lost]; simpa [LegacyLife.St.canDrain] using hd)
    · cases h
  · simp only [Option.some.injEq, Prod.mk.injEq] at h
    obtain ⟨rfl, rfl⟩ := h
    exact isClose_closeRest kf (by rwa [fail_transfer])
  · simp only [Option.some.injEq, Prod.mk.injEq] at h
    obtain ⟨rfl, rfl⟩ := h
    trivial
  · split at h
    · cases h
    · simp only [Option.some.injEq, Prod.mk.injEq] at h
      obtain ⟨rfl, rfl⟩ := h
      trivial
  · split at h
    · simp only [Option.some.injEq, Prod.mk.injEq] at h
      obtain ⟨rfl, rfl⟩ := h
      exact isClose_closeEnd k
    · cases h
  · simp only [Option.some.injEq, Prod.mk.injEq] at h
    obtain ⟨rfl, rfl⟩ := h
    have hk := isClose_closeEnd k
    split
    · exact hk
    · unfold IsClose at hk ⊢; exact hk
  · split at h
    · simp only [Option.some.injEq, Prod.mk.injEq] at h
      obtain ⟨rfl, rfl⟩ := h
      exact isClose_closeEnd k
    · cases h
  · simp only [Option.some.injEq, Prod.mk.injEq] at h
    obtain ⟨rfl, rfl⟩ := h
    trivial
  all_goals first | exact hc.elim | cases h

theorem isClose_mono {s s' : LegacyLife.St} {c : Call} (he : Effect s s') (h : IsClose s c) : IsClose s' c := by
  have hl : s.lost = true → s'.lost = true := by have := he.state; grind
  unfold IsClose at h ⊢
  split at h <;> simp_all
  exact h.imp he.ended hl

theorem callStep_start {s s' : LegacyLife.St} {c c' : Call} {e : LegacyLife.CallEv}
    (h : s.callStep c e = some (s', c')) : c' ≠ .closeStart ∧ ∀ r, c ≠ .ended r := by
  have h1 : ∀ t : LegacyLife.St, t.closeEnd ≠ .closeStart := by
    intro t; unfold LegacyLife.St.closeEnd LegacyLife.St.shield; split <;> simp
  have h2 : ∀ t : LegacyLife.St, t.closeRest ≠ .closeStart := by
    intro t; unfold LegacyLife.St.closeRest; split <;> first | exact h1 _ | simp
  have h3 : ∀ (t : LegacyLife.St) r, t.shield .ensuring r ≠ .closeStart := by
    intro t r; unfold LegacyLife.St.shield; split <;> simp
  unfold LegacyLife.St.callStep at h
  grind

/-- Only the steps of a call change it. -/
theorem calls_get (cfg : Config) {s s' : LegacyLife.St} {e : Ev} {i : Nat} {c : Call}
    (hi : s.calls[i]? = some c) (h : LegacyLife.step cfg s e = some s') :
    s'.calls[i]? = some c ∨ ∃ ev s1 c', e = .call i ev ∧ s.callStep c ev = some (s1, c') ∧
      s' = { s1 with calls := s1.calls.set i c' } ∧ s1.calls = s.calls := by
  have happ : ∀ x : Call, (s.calls ++ [x])[i]? = some c := by
    intro x
    obtain ⟨hlt, _⟩ := List.getElem?_eq_some_iff.1 hi
    rw [List.getElem?_append_left hlt]; exact hi
  have hfin : ∀ (t : LegacyLife.St) b, (t.finally b).calls = t.calls := by
    intro t b; unfold LegacyLife.St.finally; grind
  have hhalf : ∀ t : LegacyLife.St, (t.halfClose cfg).calls = t.calls := by
    intro t; unfold LegacyLife.St.halfClose; grind
  have haft : ∀ t : LegacyLife.St, (t.afterTransfer cfg).calls = t.calls := by
    intro t; unfold LegacyLife.St.afterTransfer; grind
  have hft : ∀ (t : LegacyLife.St) code, (t.failTransfer code).calls = t.calls := by
    intro t code; unfold LegacyLife.St.failTransfer; exact fail_calls t code
  have hrec : ∀ (t : LegacyLife.St) j, (t.receive j).calls = t.calls := by
    intro t j
    cases j <;> simp only [LegacyLife.St.receive]
    · split <;> rfl
    · split <;> first | rfl | exact hft _ _
    · split <;> rfl
    · exact hft _ _
  have hwok : ∀ {t t' : LegacyLife.St}, t.closerWoken cfg = some t' → t'.calls = t.calls := by
    intro t t' h
    unfold LegacyLife.St.closerWoken at h
    split at h
    · split at h <;> cases h
      · exact hfin _ _
      · exact hhalf _
    · cases h; exact hfin _ _
    · split at h <;> cases h
      · rfl
      · unfold LegacyLife.St.abort; split <;> rfl
    · cases h; rfl
    · cases h
  have hrun : ∀ {t t' : LegacyLife.St}, t.closerRun cfg = some t' → t'.calls = t.calls := by
    intro t t' h
    unfold LegacyLife.St.closerRun at h
    split at h
    · split at h <;> cases h
      · exact haft _
      · rfl
    · split at h <;> cases h; exact haft _
    · cases h
  have hcan : ∀ {t t' : LegacyLife.St}, t.cancelCloser = some t' → t'.calls = t.calls := by
    intro t t' h
    unfold LegacyLife.St.cancelCloser at h
    split at h
    · cases h; rfl
    · split at h <;> cases h <;> rfl
    · cases h; exact hfin _ _
    · cases h; exact hfin _ _
    · cases h; rfl
    · cases h; rfl
    · cases h
    · cases h
  cases e with
  | call j ev =>
    simp only [LegacyLife.step] at h
    split at h
    · cases h
    · next c0 hj =>
      split at h
      · cases h
      · next s1 c1 hcs =>
        cases h
        have hk := (good_callStep hcs).2.1
        by_cases hji : j = i
        · subst hji
          rw [hi] at hj; cases hj
          exact .inr ⟨ev, s1, c1, rfl, hcs, rfl, hk⟩
        · left; simp only [hk]; rw [List.getElem?_set_ne hji]; exact hi
  | closerRun => exact .inl (by rw [hrun h]; exact hi)
  | cancelCloser => exact .inl (by rw [hcan h]; exact hi)
  | closerTimeout => exact .inl (by rw [hwok h]; exact hi)
  | closerLost =>
    simp only [LegacyLife.step] at h; split at h
    · exact .inl (by rw [hwok h]; exact hi)
    · cases h
  | fail code => simp only [LegacyLife.step] at h; split at h <;> cases h; left; rw [fail_calls]; exact hi
  | refused => simp only [LegacyLife.step] at h; split at h <;> cases h; left; rw [fail_calls]; exact hi
  | receive j => simp only [LegacyLife.step] at h; split at h <;> cases h; left; rw [hrec]; exact hi
  | transferDrained ok =>
    left
    simp only [LegacyLife.step] at h
    split at h
    · split at h
      · split at h <;> cases h <;> (try rw [hft]) <;> exact hi
      · split at h <;> cases h <;> (try rw [hft]) <;> exact hi
      · cases h
    · cases h
  | transferWoken =>
    left
    simp only [LegacyLife.step] at h
    split at h
    · split at h <;> cases h; rw [hft]; exact hi
    · cases h
  | close | ensure => cases h; exact .inl (happ _)
  | write => left; simp only [LegacyLife.step] at h; split at h <;> cases h <;> exact happ _
  | transportClosing => cases h; exact .inl hi
  | opened | room | transferCancelled | cancelTransfer | lost | pause | resume =>
    left; simp only [LegacyLife.step] at h; split at h <;> cases h <;> exact hi

/-! ## Invariants of the handler -/

theorem not_absent_of_effect {s s' : LegacyLife.St} (e : Effect s s') (h : s.transfer ≠ .absent) :
    s'.transfer ≠ .absent := fun h' => h (e.transfer.1 h')

theorem other_of_ordinary {s : St} {e : Ev} {b : Bool} (ho : Spec.Ordinary s (.life e))
    (ha : LegacyHandler.allowed b e = true) : Other e := by
  cases e <;> first | trivial | (simp [LegacyHandler.allowed] at ha; done) | exact ho

/-- During the opening handshake, `close_connection_task` isn't created. -/
theorem absent_step (cfg : Config) {s s' : LegacyLife.St} {e : Ev} (k : LifeOk s) (ht : s.transfer = .absent)
    (hc : s.closer = .absent) (ha : LegacyHandler.allowed true e = true) (h : LegacyLife.step cfg s e = some s') :
    s'.closer = .absent := by
  have hs := (k.absent ht).1
  cases e with
  | call i ev =>
    simp only [LegacyLife.step] at h
    split at h
    · cases h
    · next c hi =>
      have hec := (k.absent ht).2 c (List.mem_of_getElem? hi)
      split at h
      · cases h
      · next s1 c1 hcs =>
        cases h
        cases c with
        | closeStart =>
          cases ev <;> simp [LegacyLife.St.callStep, LegacyHandler.allowed] at hcs ha
          · split at hcs <;> simp only [Option.some.injEq, Prod.mk.injEq] at hcs <;> obtain ⟨rfl, rfl⟩ := hcs
            · exact hc
            · exact hc
          · obtain ⟨rfl, rfl⟩ := hcs; exact hc
        | ended r => cases ev <;> simp [LegacyLife.St.callStep] at hcs
        | _ => exact hec.elim
  | closerRun => simp [LegacyLife.step, LegacyLife.St.closerRun, hc] at h
  | cancelCloser => simp [LegacyLife.step, LegacyLife.St.cancelCloser, hc] at h
  | closerTimeout => simp [LegacyLife.step, LegacyLife.St.closerWoken, hc] at h
  | closerLost => simp [LegacyLife.step, LegacyLife.St.closerWoken, hc] at h
  | opened | refused => simp [LegacyHandler.allowed] at ha
  | _ => simp only [LegacyLife.step] at h; grind

theorem fail_closer (s : LegacyLife.St) (code : Nat) (h : s.closer ≠ .absent) :
    (s.fail code).closer = s.closer := by
  unfold LegacyLife.St.fail; grind

theorem ok_finish {s : St} (k : Ok s) (e : End) : Ok (s.finish e) := by
  refine ⟨?_, by simp [LegacyHandler.Server.St.finish], by simp [LegacyHandler.Server.St.finish],
    by simp [LegacyHandler.Server.St.finish], by simp [LegacyHandler.Server.St.finish],
    by simp [LegacyHandler.Server.St.finish]⟩
  simp only [LegacyHandler.Server.St.finish]
  split
  · exact (good_same (s := s.life) (s' := { s.life with isClosing := true }) rfl rfl Iff.rfl rfl (fun _ => rfl)
      (fun _ => rfl) k.life).1
  · exact k.life

theorem ok_reject {s : St} (k : Ok s) (hp : s.phase = .handshake) (status : Nat) : Ok (s.reject status) := by
  have hb := k.before (.inr hp)
  refine ⟨(good_fail s.life 1006 k.life).1, by simp [LegacyHandler.Server.St.reject],
    by simp [LegacyHandler.Server.St.reject], fun _ => ?_, by simp [LegacyHandler.Server.St.reject], ?_⟩
  · simp only [LegacyHandler.Server.St.reject]; rw [fail_transfer]; exact hb.1
  · have := k.registered; simp [LegacyHandler.Server.St.reject, hp] at this ⊢; exact this

theorem ok_step (cfg : Config) {s s' : St} {e : LegacyHandler.Server.Event} (k : Ok s)
    (ho : Spec.Ordinary s e) (h : step cfg s e = some s') : Ok s' := by
  have kr := k.registered
  cases e with
  | life e =>
    simp only [step] at h
    split at h
    · next ha =>
      split at h
      · cases h
      · next life hl =>
        cases h
        obtain ⟨kl, ef⟩ := good_step cfg (other_of_ordinary ho ha) hl k.life
        refine ⟨kl, fun hp => ?_, fun hp => ?_, fun hp => ?_, fun i hi => ?_, kr⟩
        · have hb := k.before hp
          simp only [hp, decide_true] at ha
          exact ⟨ef.transfer.2 hb.1, absent_step cfg k.life hb.1 hb.2 ha hl⟩
        · exact not_absent_of_effect ef (k.after hp)
        · exact ef.transfer.2 (k.refusing hp)
        · obtain ⟨c, hc, hic⟩ := k.call i hi
          rcases calls_get cfg hc hl with hs | ⟨ev, s1, c', rfl, hcs, rfl, hs1⟩
          · exact ⟨c, hs, isClose_mono ef hic⟩
          · refine ⟨c', ?_, ?_⟩
            · simp only [hs1]
              rw [List.getElem?_set_self (List.getElem?_eq_some_iff.1 hc).1]
            · have := isClose_step k.life (k.after (.inr ⟨i, hi⟩)) hic hcs
              unfold IsClose at this ⊢; exact this
    · cases h
  | start =>
    simp only [step] at h; split at h <;> cases h
    next hp => exact ⟨k.life, fun _ => k.before (.inl hp), by simp, by simp, by simp, by simpa [hp] using kr⟩
  | accept =>
    simp only [step] at h
    split at h
    · next hp =>
      have hb := k.before (.inr hp)
      split at h
      · next life hl =>
        cases h
        simp only [LegacyLife.step] at hl
        split at hl <;> cases hl
        next hc =>
        refine ⟨⟨by simp, ?_, by simp [CloserOk], by simp⟩, by simp, by simp, by simp, by simp, by simpa [hp] using kr⟩
        have := k.life.closed
        simp [hc.1] at this
        simp [this]
      · cases h
        exact ok_reject (s := { s with responses := s.responses ++ [101] })
          ⟨k.life, k.before, k.after, k.refusing, k.call, kr⟩ hp 500
    · cases h
  | reject status =>
    simp only [step] at h; split at h <;> cases h
    next hp => exact ok_reject k hp status
  | drop => simp only [step] at h; split at h <;> cases h; exact ok_finish k _
  | woken => simp only [step] at h; split at h <;> cases h; exact ok_finish k _
  | returned =>
    simp only [step, LegacyLife.step] at h
    split at h <;> cases h
    next hp =>
    refine ⟨(good_append (c' := .closeStart) (fun _ _ => trivial) k.life).1, by simp, fun _ => k.after (.inl hp), by simp, ?_,
      by simpa [hp] using kr⟩
    intro i hi
    simp only [LegacyHandler.Server.Phase.closing.injEq] at hi
    subst hi
    exact ⟨.closeStart, by simp, trivial⟩
  | raised =>
    simp only [step] at h
    split at h <;> cases h
    next hp =>
    split
    · have ht := k.after (.inl hp)
      exact ok_finish (s := { s with life := s.life.fail 1011 }) ⟨(good_fail s.life 1011 k.life).1,
        fun h => by simp [hp] at h, fun _ => by rw [fail_transfer]; exact ht, fun h => by simp [hp] at h,
        fun i h => by simp [hp] at h, kr⟩ _
    · exact ok_finish k _
  | closed =>
    simp only [step] at h
    split at h
    · simp only [Option.map_eq_some_iff] at h
      obtain ⟨e, _, rfl⟩ := h
      exact ok_finish k e
    · cases h
  | cancel =>
    simp only [step] at h
    split at h
    · next hp => exact (ho hp).elim
    all_goals first | (cases h; exact ok_finish k _) | cases h

/-! ## The simulation -/

/-- Only the connection with this rank changes. -/
structure Apart (rank : Nat) (r r' : LegacyRegistry.Server) : Prop where
  length : r'.conns.length = r.conns.length
  conns : ∀ j, j ≠ rank → r'.conns[j]? = r.conns[j]?
  websockets : ∀ j, j ≠ rank → (j ∈ r'.websockets ↔ j ∈ r.websockets)
  serving : r'.serving = r.serving
  closer : r'.closer = r.closer

theorem Apart.refl (i : Nat) (r : LegacyRegistry.Server) : Apart i r r :=
  ⟨rfl, fun _ _ => rfl, fun _ _ => Iff.rfl, rfl, rfl⟩

theorem Apart.trans {i : Nat} {a b c : LegacyRegistry.Server} (h : Apart i a b) (k : Apart i b c) : Apart i a c :=
  ⟨k.length.trans h.length, fun j hj => (k.conns j hj).trans (h.conns j hj),
    fun j hj => (k.websockets j hj).trans (h.websockets j hj), k.serving.trans h.serving, k.closer.trans h.closer⟩

theorem Apart.put (i : Nat) (r : LegacyRegistry.Server) (c : LegacyRegistry.Conn) : Apart i r (r.put i c) := by
  refine ⟨by simp [LegacyRegistry.Server.put], fun j hj => ?_, fun _ _ => Iff.rfl, rfl, rfl⟩
  simp only [LegacyRegistry.Server.put]; exact List.getElem?_set_ne (Ne.symm hj)

theorem Apart.end (i : Nat) (r : LegacyRegistry.Server) (c : LegacyRegistry.Conn) : Apart i r (r.endHandler i c) := by
  refine ⟨by simp [LegacyRegistry.Server.endHandler, LegacyRegistry.Server.unregister], fun j hj => ?_, fun j hj => ?_,
    rfl, rfl⟩
  · simp only [LegacyRegistry.Server.endHandler, LegacyRegistry.Server.unregister]
    exact List.getElem?_set_ne (Ne.symm hj)
  · simp only [LegacyRegistry.Server.endHandler, LegacyRegistry.Server.unregister]
    exact List.mem_erase_of_ne hj

variable {rank : Nat}

/-- The server may reach a state that describes the handler. -/
def Can (rank : Nat) (r : LegacyRegistry.Server) (s' : St) : Prop :=
  ∃ (es : List (LegacyRegistry.Event Unit)) (r' : LegacyRegistry.Server) (c' : LegacyRegistry.Conn),
    LegacyRegistry.run r es = some r' ∧ Apart rank r r' ∧ Spec.Describes r' rank c' s'

theorem can_now {r : LegacyRegistry.Server} {c : LegacyRegistry.Conn} {s : St} (h : Spec.Describes r rank c s) :
    Can rank r s := ⟨[], r, c, rfl, .refl _ _, h⟩

theorem can_one {r r1 : LegacyRegistry.Server} {s : St} (e : LegacyRegistry.Event Unit)
    (h : LegacyRegistry.step r e = some r1) (k : Can rank r1 s)
    (ha : Apart rank r r1 := by first | exact .put _ _ _ | exact .end _ _ _) : Can rank r s := by
  obtain ⟨es, r', c', h1, h2, h3⟩ := k
  exact ⟨e :: es, r', c', by simp [LegacyRegistry.run, h, h1], ha.trans h2, h3⟩

theorem put_conn {r : LegacyRegistry.Server} {c : LegacyRegistry.Conn} (c' : LegacyRegistry.Conn)
    (h : r.conns[rank]? = some c) : (r.put rank c').conns[rank]? = some c' := by
  simp only [LegacyRegistry.Server.put]; exact List.getElem?_set_self (List.getElem?_eq_some_iff.1 h).1

/-- `close_connection_task` ends, or not. -/
theorem can_end {r : LegacyRegistry.Server} {c : LegacyRegistry.Conn} {s : St}
    (conn : r.conns[rank]? = some c) (registered : rank ∈ r.websockets ↔ s.registered = true)
    (nodup : r.websockets.Nodup) (keyError : r.keyError = false) (state : Spec.SameState s.life.state c.state) (phase : Spec.SamePhase s c.phase)
    (opened : c.opened = true ↔ s.life.transfer ≠ .absent) (lost : c.lost = s.life.lost)
    (closeEnded : c.closeEnded = true → Spec.Ended s.life ∧ s.life.transfer ≠ .absent)
    (transport : c.transportClosed = true → s.life.isClosing = true)
    (cancelled : c.cancelled = true ↔ s.phase = .ended .cancelled) (k : LifeOk s.life) : Can rank r s := by
  by_cases he : Spec.Ended s.life ∧ s.life.transfer ≠ .absent
  · have hcl : s.life.isClosing = true := by
      obtain ⟨⟨b, hb⟩, _⟩ := he
      have := k.closer
      simp only [CloserOk, hb] at this
      exact this.2
    refine can_one (r1 := r.put rank { c with closeEnded := true, transportClosed := c.transportClosed || !c.lost })
      (.closeEnds rank) (by simp [LegacyRegistry.step, conn, opened.2 he.2]) (can_now
        (c := { c with closeEnded := true, transportClosed := c.transportClosed || !c.lost })
        { conn := put_conn _ conn, registered := registered, nodup := nodup, keyError := keyError,
          state := state, phase := phase, opened := opened, lost := lost,
          closeEnded := ⟨fun _ => he, fun _ => rfl⟩, transport := fun _ => hcl, cancelled := cancelled })
  · exact can_now ⟨conn, registered, nodup, keyError, state, phase, opened, lost, ⟨closeEnded, fun h => (he h).elim⟩,
      transport, cancelled⟩

theorem sameState_open {a : State} {b : LegacyRegistry.State} (h : Spec.SameState a b) :
    (a = .opened ↔ b = .open) ∧ (a = .connecting ↔ b = .connecting) := by
  cases a <;> simp only [Spec.SameState] at h <;> subst h <;> simp

/-- What the tasks of the connection do, the server may observe. -/
theorem can_effect {r : LegacyRegistry.Server} {c : LegacyRegistry.Conn} {s : St} {life : LegacyLife.St}
    (h : Spec.Describes r rank c s) (k : LifeOk life) (ef : Effect s.life life)
    (hp : Spec.SamePhase { s with life := life } c.phase) : Can rank r { s with life := life } := by
  have hce : c.closeEnded = true → Spec.Ended life ∧ life.transfer ≠ .absent := fun hc =>
    ⟨ef.ended (h.closeEnded.1 hc).1, not_absent_of_effect ef (h.closeEnded.1 hc).2⟩
  have hop : c.opened = true ↔ life.transfer ≠ .absent := by rw [h.opened]; exact not_congr ef.transfer.symm
  have htr : c.transportClosed = true → life.isClosing = true := fun hc => ef.isClosing (h.transport hc)
  rcases ef.state with ⟨hl, hs | ⟨h1, h2⟩⟩ | ⟨h1, h2, h3⟩
  · exact can_end h.conn h.registered h.nodup h.keyError (by simp only [hs]; exact h.state) hp hop
      (by simp only [hl]; exact h.lost) hce htr h.cancelled k
  · have ho := (sameState_open h.state).1.1 h1
    refine can_one (r1 := r.put rank (c.sendClose 1000)) (.startClosing rank 1000)
      (by simp [LegacyRegistry.step, h.conn, ho]) ?_
    have hc : c.sendClose 1000 = { c with state := .closing, code := some 1000 } := by
      simp [LegacyRegistry.Conn.sendClose, ho]
    rw [hc]
    exact can_end (c := { c with state := .closing, code := some 1000 })
      (put_conn _ h.conn) h.registered h.nodup h.keyError
      (by simp [h2, Spec.SameState]) hp hop (by simp only [hl]; exact h.lost) hce htr h.cancelled k
  · refine can_one (r1 := r.put rank { c with lost := true, state := .closed }) (.lose rank)
      (by simp [LegacyRegistry.step, h.conn]) ?_
    exact can_end (c := { c with lost := true, state := .closed })
      (put_conn _ h.conn) h.registered h.nodup h.keyError
      (by simp [h3, Spec.SameState]) hp hop (by simp [h2]) hce htr h.cancelled k

/-- The handler ends. -/
theorem describes_end {r : LegacyRegistry.Server} {c : LegacyRegistry.Conn} {life : LegacyLife.St} {s : St}
    {p : LegacyRegistry.Conn} {e : End} (h : Spec.Describes r rank c s) (hr : s.registered = true)
    (state : Spec.SameState life.state p.state) (opened : p.opened = true ↔ life.transfer ≠ .absent)
    (lost : p.lost = life.lost) (closeEnded : p.closeEnded = true ↔ Spec.Ended life ∧ life.transfer ≠ .absent)
    (transport : p.transportClosed = true → life.isClosing = true) (cancelled : p.cancelled = true ↔ e = .cancelled) :
    Spec.Describes (r.endHandler rank p) rank { p with phase := .done }
      { s with life := life, phase := .ended e, registered := false } where
  conn := by
    simp only [LegacyRegistry.Server.endHandler, LegacyRegistry.Server.unregister]
    exact List.getElem?_set_self (List.getElem?_eq_some_iff.1 h.conn).1
  registered := by
    simp only [LegacyRegistry.Server.endHandler, LegacyRegistry.Server.unregister]
    simp [h.nodup.not_mem_erase]
  nodup := by
    simp only [LegacyRegistry.Server.endHandler, LegacyRegistry.Server.unregister]
    exact h.nodup.erase _
  keyError := by
    simp [LegacyRegistry.Server.endHandler, LegacyRegistry.Server.unregister, h.registered, hr, h.keyError]
  state := state
  phase := by simp [Spec.SamePhase]
  opened := opened
  lost := lost
  closeEnded := closeEnded
  transport := transport
  cancelled := by simp [cancelled]

theorem opens : ∃ o, LegacyServer.openingHandshake (LegacyServer.exampleSetup {}) true (some goodRequest)
    = .opened o := by
  have h : (match LegacyServer.openingHandshake (LegacyServer.exampleSetup {}) true (some goodRequest) with
    | .opened _ => true | _ => false) = true := by decide +kernel
  split at h
  · next o ho => exact ⟨o, ho⟩
  · cases h

theorem refuses (serving : Bool) : ∃ a b d e, LegacyServer.openingHandshake (LegacyServer.exampleSetup {})
    serving none = .refused a b d e := by
  have h : (match LegacyServer.openingHandshake (LegacyServer.exampleSetup {}) serving none with
    | .refused .. => true | _ => false) = true := by cases serving <;> decide +kernel
  split at h
  · next a b d e ho => exact ⟨a, b, d, e, ho⟩
  · cases h

/-- The first step of `close`, called by the handler -/
theorem can_return {r : LegacyRegistry.Server} {c : LegacyRegistry.Conn} {s : St} {i : Nat}
    {s1 : LegacyLife.St} {c' : Call} (h : Spec.Describes r rank c s) (hp : s.phase = .closing i)
    (hi : s.life.calls[i]? = some .closeStart) (hs : s.life.callStep .closeStart .run = some (s1, c')) :
    Can rank r { s with life := { s1 with calls := s1.calls.set i c' } } := by
  have hc' := (callStep_start hs).1
  have hlt := (List.getElem?_eq_some_iff.1 hi).1
  have hrun : c.phase = .running := by have := h.phase; simpa [Spec.SamePhase, hp, hi] using this
  have hph : ∀ t : LegacyLife.St, t.calls = s.life.calls →
      Spec.SamePhase { s with life := { t with calls := t.calls.set i c' } } .closing := by
    intro t ht
    simp only [Spec.SamePhase, hp, ht]
    rw [List.getElem?_set_self hlt]
    split
    · next heq => exact (hc' (Option.some.inj heq)).elim
    · exact .inr trivial
    · trivial
  refine can_one (r1 := r.put rank { c.sendClose 1000 with phase := .closing }) (.returned rank)
    (by simp [LegacyRegistry.step, h.conn, hrun]) ?_
  have ho := (sameState_open h.state).1
  simp only [LegacyLife.St.callStep] at hs
  split at hs <;> simp only [Option.some.injEq, Prod.mk.injEq] at hs <;> obtain ⟨rfl, rfl⟩ := hs
  · next hst =>
    have hc : c.sendClose 1000 = { c with state := .closing, code := some 1000 } := by
      simp [LegacyRegistry.Conn.sendClose, ho.1 hst]
    rw [hc]
    exact can_now (c := { c with state := .closing, code := some 1000, phase := .closing })
      { conn := put_conn _ h.conn, registered := h.registered, nodup := h.nodup, keyError := h.keyError,
        state := rfl, phase := hph { s.life with state := .closing, sent := _ } rfl,
        opened := h.opened, lost := h.lost, closeEnded := h.closeEnded, transport := h.transport,
        cancelled := h.cancelled }
  · next hst =>
    have hc : c.sendClose 1000 = c := by
      have hx : c.state ≠ .open := fun x => hst (ho.2 x)
      simp [LegacyRegistry.Conn.sendClose, hx]
    rw [hc]
    exact can_now (c := { c with phase := .closing })
      { conn := put_conn _ h.conn, registered := h.registered, nodup := h.nodup, keyError := h.keyError,
        state := h.state, phase := hph s.life rfl,
        opened := h.opened, lost := h.lost, closeEnded := h.closeEnded, transport := h.transport,
        cancelled := h.cancelled }

theorem fail_isClosing (s : LegacyLife.St) (code : Nat) : (s.fail code).isClosing = s.isClosing := by
  unfold LegacyLife.St.fail; grind

theorem fail_state (s : LegacyLife.St) (code : Nat) : (s.fail code).state =
    if code ≠ 1006 ∧ s.state = .opened then .closing else s.state := by
  unfold LegacyLife.St.fail; grind

/-- The opening handshake fails. -/
theorem describes_reject {r : LegacyRegistry.Server} {c : LegacyRegistry.Conn} {s : St} (status n : Nat)
    (h : Spec.Describes r rank c s) (k : Ok s) (hp : s.phase = .handshake) :
    Spec.Describes (r.put rank { c with phase := .waitClosed, status := some n }) rank
      { c with phase := .waitClosed, status := some n } (s.reject status) where
  conn := put_conn _ h.conn
  registered := h.registered
  nodup := h.nodup
  keyError := h.keyError
  state := by simp only [LegacyHandler.Server.St.reject, fail_state]; simpa using h.state
  phase := by simp [Spec.SamePhase, LegacyHandler.Server.St.reject]
  opened := by simp only [LegacyHandler.Server.St.reject, fail_transfer]; exact h.opened
  lost := by simp only [LegacyHandler.Server.St.reject, fail_lost]; exact h.lost
  closeEnded := by
    have ht := (k.before (.inr hp)).1
    simp only [LegacyHandler.Server.St.reject, fail_transfer, ht]
    have := h.closeEnded
    simpa [ht] using this
  transport := by simp only [LegacyHandler.Server.St.reject, fail_isClosing]; exact h.transport
  cancelled := by
    have := h.cancelled
    simpa [LegacyHandler.Server.St.reject, hp] using this

theorem sim_step (cfg : Config) {s s' : St} {e : LegacyHandler.Server.Event} {r : LegacyRegistry.Server}
    {c : LegacyRegistry.Conn} (k : Ok s) (h : Spec.Describes r rank c s) (ho : Spec.Ordinary s e)
    (hserv : e = .accept → r.serving = true) (hs : step cfg s e = some s') : Can rank r s' := by
  have kr := k.registered
  have hph := h.phase
  have hcan := h.cancelled
  cases e with
  | life e =>
    simp only [step] at hs
    split at hs
    · next ha =>
      split at hs
      · cases hs
      · next life hl =>
        cases hs
        obtain ⟨kl, ef⟩ := good_step cfg (other_of_ordinary ho ha) hl k.life
        by_cases hcl : ∃ i, s.phase = .closing i
        · obtain ⟨i, hi⟩ := hcl
          obtain ⟨c0, hc0, hic⟩ := k.call i hi
          rcases calls_get cfg hc0 hl with hsame | ⟨ev, s1, c', rfl, hcs, rfl, hs1⟩
          · exact can_effect h kl ef (by simpa [Spec.SamePhase, hi, hc0, hsame] using hph)
          · have hlt := (List.getElem?_eq_some_iff.1 hc0).1
            have hst := callStep_start hcs
            by_cases h0 : c0 = .closeStart
            · subst h0
              cases ev with
              | run => exact can_return h hi hc0 hcs
              | timeout => exact (ho hi hc0).elim
              | cancel =>
                refine can_effect h kl ef ?_
                simp only [LegacyLife.St.callStep, Option.some.injEq, Prod.mk.injEq] at hcs
                obtain ⟨rfl, rfl⟩ := hcs
                simp only [Spec.SamePhase, hi, hc0] at hph ⊢
                rw [List.getElem?_set_self hlt]
                exact .inl hph
              | drained ok => simp [LegacyLife.St.callStep] at hcs
              | woken => simp [LegacyLife.St.callStep] at hcs
            · refine can_effect h kl ef ?_
              have hcp : c.phase = .closing := by
                simp only [Spec.SamePhase, hi, hc0] at hph
                split at hph
                · next heq => exact (h0 (Option.some.inj heq)).elim
                · next heq => exact (hst.2 _ (Option.some.inj heq)).elim
                · exact hph
              simp only [Spec.SamePhase, hi, hs1, hcp]
              rw [List.getElem?_set_self hlt]
              split
              · next heq => exact (hst.1 (Option.some.inj heq)).elim
              · exact .inr trivial
              · trivial
        · refine can_effect h kl ef ?_
          unfold Spec.SamePhase at hph ⊢
          split at hph <;> simp_all
    · cases hs
  | start =>
    simp only [step] at hs; split at hs <;> cases hs
    next hp =>
    exact can_now { h with phase := by simpa [Spec.SamePhase, hp] using hph, cancelled := by simpa [hp] using hcan }
  | accept =>
    simp only [step] at hs
    split at hs
    · next hp =>
      have hb := k.before (.inr hp)
      have hcp : c.phase = .handshake := by simpa [Spec.SamePhase, hp] using hph
      obtain ⟨o, hop⟩ := opens
      have hcs := (sameState_open h.state).2
      split at hs
      · next life hl =>
        cases hs
        simp only [LegacyLife.step] at hl
        split at hl <;> cases hl
        next hc =>
        refine can_one (.handshake rank (LegacyServer.exampleSetup {}) (some goodRequest))
          (r1 := r.put rank { c with state := .open, phase := .running, opened := true, status := some 101 })
          (by simp [LegacyRegistry.step, h.conn, hcp, hserv rfl, hop, hcs.1 hc.1])
          (can_now (c := { c with state := .open, phase := .running, opened := true, status := some 101 })
          { conn := put_conn _ h.conn, registered := h.registered, nodup := h.nodup, keyError := h.keyError,
            state := rfl, phase := rfl, opened := by simp, lost := h.lost,
            closeEnded := ?_, transport := h.transport, cancelled := by simpa [hp] using hcan })
        have := h.closeEnded
        simpa [hb.1, Spec.Ended] using this
      · next hl =>
        cases hs
        have hne : c.state ≠ .connecting := by
          intro hx
          simp [LegacyLife.step, hcs.2 hx, hb.2] at hl
        exact can_one (.handshake rank (LegacyServer.exampleSetup {}) (some goodRequest))
          (by simp [LegacyRegistry.step, h.conn, hcp, hserv rfl, hop, hne])
          (can_now (describes_reject 500 500 (s := { s with responses := s.responses ++ [101] })
            { h with } ⟨k.life, k.before, k.after, k.refusing, k.call, kr⟩ hp))
    · cases hs
  | reject status =>
    simp only [step] at hs; split at hs <;> cases hs
    next hp =>
    have hcp : c.phase = .handshake := by simpa [Spec.SamePhase, hp] using hph
    obtain ⟨a, b, d, e, hre⟩ := refuses r.serving
    exact can_one (.handshake rank (LegacyServer.exampleSetup {}) none)
      (by simp [LegacyRegistry.step, h.conn, hcp, hre])
      (can_now (describes_reject status a h k hp))
  | drop =>
    simp only [step] at hs; split at hs <;> cases hs
    next hp =>
    have hcp : c.phase = .handshake := by simpa [Spec.SamePhase, hp] using hph
    exact can_one (.handshakeError rank) (r1 := r.endHandler rank { c with transportClosed := true })
      (by simp [LegacyRegistry.step, h.conn, hcp])
      (can_now (describes_end (life := { s.life with isClosing := true }) (p := { c with transportClosed := true })
        (e := .failed) h (kr.2 (by simp [hp])) h.state h.opened h.lost h.closeEnded
        (fun _ => rfl) (by simpa [hp] using hcan)))
  | woken =>
    simp only [step] at hs; split at hs <;> cases hs
    next hp =>
    have hcp : c.phase = .waitClosed := by simpa [Spec.SamePhase, hp.1] using hph
    exact can_one (.waited rank) (r1 := r.endHandler rank c)
      (by simp [LegacyRegistry.step, h.conn, hcp, h.lost, hp.2])
      (can_now (describes_end (life := s.life) (p := c) (e := .returned) h (kr.2 (by simp [hp.1])) h.state h.opened h.lost
        h.closeEnded h.transport (by simpa [hp.1] using hcan)))
  | returned =>
    simp only [step, LegacyLife.step] at hs
    split at hs <;> cases hs
    next hp =>
    have hcp : c.phase = .running := by simpa [Spec.SamePhase, hp] using hph
    exact can_now { h with phase := by simp [Spec.SamePhase, hcp], cancelled := by simpa [hp] using hcan }
  | raised =>
    simp only [step] at hs
    split at hs <;> cases hs
    next hp =>
    have hcp : c.phase = .running := by simpa [Spec.SamePhase, hp] using hph
    have ht := k.after (.inl hp)
    have hpr := k.life.present ht
    refine can_one (.raised rank) (r1 := r.endHandler rank { c.sendClose 1011 with transportClosed := true })
      (by simp [LegacyRegistry.step, h.conn, hcp]) ?_
    have ho := (sameState_open h.state).1
    have hstate := h.state
    have hsc : c.sendClose 1011 = { c with state := (c.sendClose 1011).state, code := (c.sendClose 1011).code } := by
      simp only [LegacyRegistry.Conn.sendClose]; split <;> rfl
    rw [hsc]
    split
    · next hst =>
      refine can_now (describes_end (s := s) (life := { s.life.fail 1011 with isClosing := true })
        (p := { { c with state := (c.sendClose 1011).state, code := (c.sendClose 1011).code } with transportClosed := true })
        (e := .failed) h (kr.2 (by simp [hp])) ?_ (by simp only [fail_transfer]; exact h.opened)
        (by simp only [fail_lost]; exact h.lost) ?_ (fun _ => rfl) (by simpa [hp] using hcan))
      · simp only [fail_state, LegacyRegistry.Conn.sendClose]
        by_cases hx : s.life.state = .opened
        · simp [hx, ho.1 hx, Spec.SameState]
        · have hy : c.state ≠ .open := fun y => hx (ho.2 y)
          simp [hx, hy]; exact hstate
      · simp only [Spec.Ended, fail_transfer, fail_closer _ _ hpr.2]; exact h.closeEnded
    · next hst =>
      refine can_now (describes_end (s := s) (life := { s.life with isClosing := true })
        (p := { { c with state := (c.sendClose 1011).state, code := (c.sendClose 1011).code } with transportClosed := true })
        (e := .failed) h (kr.2 (by simp [hp])) ?_ h.opened h.lost h.closeEnded (fun _ => rfl) (by simpa [hp] using hcan))
      have hx : s.life.state = .closed := by simpa using hst
      have hy : c.state ≠ .open := fun y => by simp [ho.2 y] at hx
      simp [LegacyRegistry.Conn.sendClose, hy]; exact hstate
  | closed =>
    simp only [step] at hs
    split at hs
    · next i hp =>
      simp only [Option.map_eq_some_iff] at hs
      obtain ⟨e, he, rfl⟩ := hs
      have hr : s.registered = true := kr.2 (by simp [hp])
      have ht := k.after (.inr ⟨i, hp⟩)
      obtain ⟨c0, hc0, hic⟩ := k.call i hp
      have hnc : c.cancelled ≠ true := by simpa [hp] using hcan
      by_cases hec : e = .cancelled
      · subst hec
        refine can_one (.cancel rank) (r1 := r.endHandler rank { c with cancelled := true }) ?_
          (can_now (describes_end (life := s.life) (p := { c with cancelled := true }) (e := .cancelled) h hr h.state
            h.opened h.lost h.closeEnded h.transport (by simp)))
        have : c.phase ≠ .done := by
          intro hd
          simp only [Spec.SamePhase, hp, hc0, hd] at hph
          split at hph <;> simp at hph
        simp [LegacyRegistry.step, h.conn, this]
      · have hc0e : ∃ res, c0 = .ended res ∧ res ≠ .cancelled := by
          simp only [LegacyHandler.closeResult, hc0] at he
          split at he
          · next heq => exact ⟨.returned, Option.some.inj heq, by simp⟩
          · exact (hec (Option.some.inj he).symm).elim
          · next res h1 h2 heq => exact ⟨res, Option.some.inj heq, fun h => h2 (by rw [h])⟩
          · cases he
        obtain ⟨res, rfl, hres⟩ := hc0e
        have hcp : c.phase = .closing := by
          simp only [Spec.SamePhase, hp, hc0] at hph
          split at hph
          · next heq => cases heq
          · next heq => cases heq; exact (hres rfl).elim
          · exact hph
        have hend : c.closeEnded = true ∨ c.lost = true := by
          have hic' : Spec.Ended s.life ∨ s.life.lost = true := by
            cases res <;> simp only [IsClose] at hic <;> first | exact hic | exact (hres rfl).elim
          rcases hic' with hx | hx
          · exact .inl (h.closeEnded.2 ⟨hx, ht⟩)
          · exact .inr (by rw [h.lost]; exact hx)
        refine can_one (.closed rank) (r1 := r.endHandler rank c) (by simp [LegacyRegistry.step, h.conn, hcp, hend]) ?_
        cases e with
        | cancelled => exact (hec rfl).elim
        | returned => exact can_now (describes_end (life := s.life) (p := c) (e := .returned) h hr h.state h.opened h.lost
            h.closeEnded h.transport (by simpa using hnc))
        | failed => exact can_now (describes_end (life := { s.life with isClosing := true }) (p := c) (e := .failed) h hr
            h.state h.opened h.lost h.closeEnded (fun _ => rfl) (by simpa using hnc))
    · cases hs
  | cancel =>
    have key : s.registered = true → c.phase ≠ .done → Can rank r (s.finish .cancelled) := by
      intro hr hd
      exact can_one (.cancel rank) (r1 := r.endHandler rank { c with cancelled := true })
        (by simp [LegacyRegistry.step, h.conn, hd])
        (can_now (describes_end (life := s.life) (p := { c with cancelled := true }) (e := .cancelled) h hr h.state
            h.opened h.lost h.closeEnded h.transport (by simp)))
    simp only [step] at hs
    split at hs
    · next hp => exact (ho hp).elim
    all_goals
      first
      | (cases hs; done)
      | (next hp =>
         cases hs
         refine key (kr.2 (by simp [hp])) ?_
         simp only [Spec.SamePhase, hp] at hph
         simp [hph])

/-! ## Theorems -/

/-- **C63 the model of a server describes every handler**: whatever happens to a connection, its handler and its tasks
in `Verif.Model.LegacyHandler`, there are events of `Verif.Model.LegacyRegistry` that lead a server to a state where it
has this connection, in the same state, with a handler suspended in the same place, and which is registered if and
only if the handler is in progress. -/
theorem C63_handler (cfg : Config) {s : St} (h : Spec.Runs cfg s) :
    ∃ (es : List (LegacyRegistry.Event Unit)) (r : LegacyRegistry.Server) (c : LegacyRegistry.Conn),
      LegacyRegistry.run {} es = some r ∧ r.conns = [c] ∧ Spec.Describes r 0 c s := by
  suffices h : Ok s ∧ ∃ (es : List (LegacyRegistry.Event Unit)) (r : LegacyRegistry.Server)
      (c : LegacyRegistry.Conn), LegacyRegistry.run {} es = some r ∧ r.conns.length = 1 ∧ r.serving = true ∧
        Spec.Describes r 0 c s by
    obtain ⟨-, es, r, c, h1, h2, -, h3⟩ := h
    refine ⟨es, r, c, h1, ?_, h3⟩
    have h4 := h3.conn
    match r.conns, h2, h4 with
    | [x], _, h4 => simpa using h4
  induction h with
  | init =>
    refine ⟨⟨⟨by simp, by simp, by simp [CloserOk], by simp⟩, by simp, by simp, by simp, by simp, by simp⟩, ?_⟩
    exact ⟨[.accept], { conns := [{}], websockets := [0] }, {}, rfl, rfl, rfl, rfl, by simp, by simp, rfl, rfl, rfl,
      by simp, rfl, by simp, by simp, by simp⟩
  | step _ ho hs ih =>
    obtain ⟨k, es, r, c, hr, hlen, hserv, hd⟩ := ih
    refine ⟨ok_step cfg k ho hs, ?_⟩
    obtain ⟨es', r', c', hr', ha, hd'⟩ := sim_step cfg k hd ho (fun _ => hserv) hs
    refine ⟨es ++ es', r', c', ?_, ha.length.trans hlen, ha.serving.trans hserv, hd'⟩
    have happ : ∀ (a : LegacyRegistry.Server) (x : List (LegacyRegistry.Event Unit)) b,
        LegacyRegistry.run a x = some b → LegacyRegistry.run a (x ++ es') = LegacyRegistry.run b es' := by
      intro a x
      induction x generalizing a with
      | nil => intro b hb; cases hb; rfl
      | cons e x ih =>
        intro b hb
        simp only [LegacyRegistry.run, List.cons_append] at hb ⊢
        split at hb
        · cases hb
        · exact ih _ b hb
    rw [happ _ _ _ hr]; exact hr'

/-- **C63 handlers cancelled before they start aren't described**: such a handler never runs, and its connection stays
registered. -/
theorem C63_unstarted_false (cfg : Config) : ∃ s, step cfg {} .cancel = some s ∧ s.phase = .ended .cancelled ∧
    s.registered = true ∧ ∀ (es : List (LegacyRegistry.Event Unit)) (r : LegacyRegistry.Server)
      (c : LegacyRegistry.Conn) (rank : Nat), LegacyRegistry.run {} es = some r → ¬ Spec.Describes r rank c s := by
  refine ⟨_, rfl, rfl, rfl, fun es r c rank hr hd => ?_⟩
  have hreg := (LegacyRegistry.C63_registry es r hr).2.2 rank
  have hw := hd.registered.2 rfl
  have hp : c.phase = .done := hd.phase
  simp [hw, hd.conn, hp] at hreg

/-- A connection that is opened, whose handler returns, and which is closed by the closing handshake. -/
def exampleEvents : List LegacyHandler.Server.Event :=
  [.start, .accept, .life (.receive (.data false)), .returned, .life (.call 0 .run), .life (.receive (.close 1000)),
   .life .closerRun, .life (.lost false), .life .closerLost, .life (.call 0 (.drained true)), .closed]

theorem runs_list (cfg : Config) : ∀ (es : List LegacyHandler.Server.Event) (s s' : St), Spec.Runs cfg s →
    (∀ e ∈ es, ∀ t, Spec.Ordinary t e) → LegacyHandler.Server.run cfg s es = some s' → Spec.Runs cfg s'
  | [], _, _, h, _, hr => by cases hr; exact h
  | e :: es, s, s', h, ho, hr => by
    simp only [LegacyHandler.Server.run] at hr
    cases hs : step cfg s e with
    | none => simp [hs] at hr
    | some t =>
      rw [hs] at hr
      exact runs_list cfg es t s' (.step h (ho e (by simp) s) hs) (fun x hx => ho x (by simp [hx])) hr

example : ∃ s, Spec.Runs ⟨false, false⟩ s ∧ s.phase = .ended .returned ∧ s.life.state = .closed ∧
    s.life.sent = [.close] ∧ s.life.isClosing = true :=
  ⟨_, runs_list _ exampleEvents {} _ .init (by simp [exampleEvents, Spec.Ordinary]) rfl, rfl, rfl, rfl, rfl⟩

end WS.LegacyOwner
