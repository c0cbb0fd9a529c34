import Verif.Model.LegacyTimed
import Verif.Props.LegacyLife

/-!
# C104: closing a legacy connection takes a bounded time, however tasks interleave
-/

namespace WS.LegacyTimed

open LegacyLife (St Ev Call CallEv Config Closer Inv)

/-! ## Specification -/

/-- The number of timeouts that may elapse one after the other -/
def Spec.phases (client : Bool) : Nat := if client then 5 else 4

/-- The number of timeouts that may elapse one after the other once the connection fails -/
def Spec.lostPhases (client : Bool) : Nat := if client then 3 else 2

/-- The call to `close()` ended. -/
def Spec.Ended (t : Timed) (i : Nat) : Prop := ∃ r, t.life.calls[i]? = some (.ended r)

/-- What happens without anyone doing anything: time elapses, the library runs, asyncio loses a connection after
`transport.abort()`. -/
def Spec.Library (t : Timed) : Event → Prop
  | .tick => True
  | .ev e => LegacyLife.Spec.internal e = true ∨ e = .lost false ∧ t.life.aborted = true

/-- Executions that only contain these events -/
inductive Spec.Goes (cfg : Config) (T δ : Nat) : Timed → Timed → Prop
  | refl (t : Timed) : Spec.Goes cfg T δ t t
  | step {t u v : Timed} {e : Event} : Spec.Library t e → step cfg T δ t e = some u → Spec.Goes cfg T δ u v →
      Spec.Goes cfg T δ t v

/-! ## How tasks progress -/

/-- How `close_connection` progresses -/
def Moves (cfg : Config) : Closer → Closer → Prop
  | .absent, c => c = .created
  | .created, c | .waitTransfer, c =>
    c = .waitTransfer ∨ c = .waitClosed ∧ cfg.client = true ∨ c = .waitEof ∨ (∃ x, c = .waitClose x) ∨ ∃ x, c = .ended x
  | .waitClosed, c => c = .waitEof ∨ (∃ x, c = .waitClose x) ∨ ∃ x, c = .ended x
  | .waitEof, c => (∃ x, c = .waitClose x) ∨ ∃ x, c = .ended x
  | .waitClose _, c => (∃ x, c = .waitAbort x) ∨ ∃ x, c = .ended x
  | .waitAbort _, c => ∃ x, c = .ended x
  | .ended _, _ => False

theorem finally_moves (s : St) (exc : Bool) :
    (∃ x, (s.finally exc).closer = .waitClose x) ∨ ∃ x, (s.finally exc).closer = .ended x := by
  unfold St.finally
  split
  · exact .inr ⟨_, rfl⟩
  · dsimp only
    split
    · exact .inr ⟨_, rfl⟩
    · exact .inl ⟨_, rfl⟩

theorem halfClose_moves (cfg : Config) (s : St) : (s.halfClose cfg).closer = .waitEof ∨
    (∃ x, (s.halfClose cfg).closer = .waitClose x) ∨ ∃ x, (s.halfClose cfg).closer = .ended x := by
  unfold St.halfClose
  split
  · exact .inl rfl
  · exact .inr (finally_moves s false)

theorem afterTransfer_moves (cfg : Config) (s : St) : ((s.afterTransfer cfg).closer = .waitClosed ∧ cfg.client = true) ∨
    (s.afterTransfer cfg).closer = .waitEof ∨
    (∃ x, (s.afterTransfer cfg).closer = .waitClose x) ∨ ∃ x, (s.afterTransfer cfg).closer = .ended x := by
  unfold St.afterTransfer
  split
  · rename_i h
    split
    · exact .inr (.inr (finally_moves s false))
    · exact .inl ⟨rfl, h.1⟩
  · exact .inr (halfClose_moves cfg s)

theorem woken_moves {cfg : Config} {s s' : St} (h : s.closerWoken cfg = some s') : Moves cfg s.closer s'.closer := by
  unfold St.closerWoken at h
  split at h
  · rename_i hc
    rw [hc]
    split at h <;> cases h
    · exact .inr (finally_moves s false)
    · exact halfClose_moves cfg s
  · rename_i hc
    rw [hc]
    cases h; exact finally_moves s false
  · rename_i hc
    rw [hc]
    split at h <;> cases h
    · exact .inr ⟨_, rfl⟩
    · unfold St.abort
      split
      · exact .inr ⟨_, rfl⟩
      · exact .inl ⟨_, rfl⟩
  · rename_i hc
    rw [hc]
    cases h; exact ⟨_, rfl⟩
  · cases h

theorem fail_moves (cfg : Config) (s : St) (code : Nat) :
    (s.fail code).closer = s.closer ∨ Moves cfg s.closer (s.fail code).closer := by
  by_cases h : s.closer = .absent
  · right
    rw [h]
    show (s.fail code).closer = .created
    unfold St.fail
    grind
  · exact .inl (LegacyLife.fail_closer s code h)

theorem closer_moves {cfg : Config} {s s' : St} {e : Ev} (he : LegacyLife.step cfg s e = some s') :
    s'.closer = s.closer ∨ Moves cfg s.closer s'.closer := by
  by_cases ha : s.closer = .absent
  · by_cases h2 : s'.closer = .absent
    · exact .inl (by rw [h2, ha])
    · right
      rw [ha]
      show s'.closer = .created
      have hf : ∀ code, (s.fail code).closer = .created := by intro code; unfold St.fail; grind
      have hr : ∀ i, (s.receive i).closer = .absent ∨ (s.receive i).closer = .created := by
        intro i; unfold St.receive St.failTransfer; grind
      cases e with
      | opened => simp only [LegacyLife.step] at he; split at he <;> cases he; rfl
      | refused | fail code => simp only [LegacyLife.step] at he; split at he <;> cases he; exact hf _
      | receive i =>
        simp only [LegacyLife.step] at he; split at he <;> cases he
        exact (hr i).resolve_left h2
      | transferDrained ok =>
        simp only [LegacyLife.step, St.failTransfer] at he
        repeat' split at he
        all_goals first | (cases he; done) | (cases he; first | exact hf _ | exact absurd ha h2)
      | transferWoken =>
        simp only [LegacyLife.step, St.failTransfer] at he
        repeat' split at he
        all_goals first | (cases he; done) | (cases he; exact hf _)
      | closerRun => simp [LegacyLife.step, St.closerRun, ha] at he
      | closerLost | closerTimeout => simp [LegacyLife.step, St.closerWoken, ha] at he
      | cancelCloser => simp [LegacyLife.step, St.cancelCloser, ha] at he
      | call i e =>
        simp only [LegacyLife.step] at he
        split at he
        · cases he
        · split at he
          · cases he
          · rename_i s1 c' hs
            cases he
            unfold St.callStep at hs
            split at hs
            all_goals (repeat' split at hs)
            all_goals first
              | (cases hs; done)
              | (simp only [Option.some.injEq, Prod.mk.injEq] at hs; obtain ⟨rfl, rfl⟩ := hs
                 first | exact hf _ | exact absurd ha h2)
      | room | transferCancelled | cancelTransfer | transportClosing | lost _ | pause | resume | close | ensure | write =>
        simp only [LegacyLife.step] at he
        repeat' split at he
        all_goals first | (cases he; done) | (cases he; exact absurd ha h2)
  · by_cases hx : LegacyLife.isCloser e = false
    · exact .inl (LegacyLife.step_closer he ha hx)
    · cases e with
      | closerRun =>
        right
        simp only [LegacyLife.step, St.closerRun] at he
        split at he
        · rename_i h
          rw [h]
          split at he <;> cases he
          · exact .inr (afterTransfer_moves cfg s)
          · exact .inl rfl
        · rename_i h
          rw [h]
          split at he <;> cases he
          exact .inr (afterTransfer_moves cfg s)
        · cases he
      | closerLost =>
        simp only [LegacyLife.step] at he
        split at he
        · exact .inr (woken_moves he)
        · cases he
      | closerTimeout => exact .inr (woken_moves he)
      | cancelCloser =>
        simp only [LegacyLife.step, St.cancelCloser] at he
        split at he
        · rename_i h
          cases he
          right; rw [h]; exact .inr (.inr (.inr (.inr ⟨_, rfl⟩)))
        · split at he <;> cases he <;> exact .inl rfl
        · rename_i h
          cases he
          right; rw [h]; exact .inr (finally_moves s true)
        · rename_i h
          cases he
          right; rw [h]; exact finally_moves s true
        · rename_i h
          cases he
          right; rw [h]; exact .inr ⟨_, rfl⟩
        · rename_i h
          cases he
          right; rw [h]; exact ⟨_, rfl⟩
        · cases he
        · cases he
      | _ => simp [LegacyLife.isCloser] at hx

/-- What `transfer_data_task` keeps -/
theorem transfer_keeps {cfg : Config} {s s' : St} {e : Ev} (hi : Inv s) (he : LegacyLife.step cfg s e = some s') :
    (s.transfer = .ended → s'.transfer = .ended) ∧ (s.cancelReq = true → s'.cancelReq = true) ∧
    (s.transfer ≠ .absent → s'.transfer ≠ .absent) := by
  have hcon := hi.connecting
  have hft : ∀ code, (s.fail code).transfer = s.transfer := LegacyLife.fail_transfer s
  have hfc : ∀ code, s.cancelReq = true → (s.fail code).cancelReq = true := by
    intro code h; unfold St.fail; grind
  cases e with
  | receive i =>
    simp only [LegacyLife.step] at he
    split at he <;> cases he
    rename_i hr
    cases i <;> simp only [St.receive, St.failTransfer] <;> grind
  | call i e =>
    simp only [LegacyLife.step] at he
    split at he
    · cases he
    · split at he
      · cases he
      · rename_i s1 c' hs
        cases he
        unfold St.callStep at hs
        split at hs
        all_goals (repeat' split at hs)
        all_goals first
          | (cases hs; done)
          | (simp only [Option.some.injEq, Prod.mk.injEq] at hs; obtain ⟨rfl, rfl⟩ := hs; grind)
  | closerRun =>
    have h := LegacyLife.closes_closerRun he
    exact ⟨fun hx => h.transfer.trans hx, fun hx => h.req.2 (.inl hx), fun hx => by rw [h.transfer]; exact hx⟩
  | closerLost =>
    simp only [LegacyLife.step] at he
    split at he
    · have h := LegacyLife.closes_closerWoken he
      exact ⟨fun hx => h.transfer.trans hx, fun hx => h.req.2 (.inl hx), fun hx => by rw [h.transfer]; exact hx⟩
    · cases he
  | closerTimeout =>
    have h := LegacyLife.closes_closerWoken he
    exact ⟨fun hx => h.transfer.trans hx, fun hx => h.req.2 (.inl hx), fun hx => by rw [h.transfer]; exact hx⟩
  | cancelCloser =>
    have h := LegacyLife.closes_cancelCloser he
    exact ⟨fun hx => h.transfer.trans hx, fun hx => h.req.2 (.inl hx), fun hx => by rw [h.transfer]; exact hx⟩
  | opened | refused | fail _ | room | transferDrained _ | transferWoken | transferCancelled | cancelTransfer
  | transportClosing | lost _ | pause | resume | close | ensure | write =>
    simp only [LegacyLife.step, St.failTransfer] at he; grind

/-- A call changes by itself only. -/
theorem call_keeps {cfg : Config} {s s' : St} {e : Ev} (he : LegacyLife.step cfg s e = some s') {i : Nat} {c : Call}
    (hc : s.calls[i]? = some c) : s'.calls[i]? = some c ∨
      ∃ e' s1 c', e = .call i e' ∧ s.callStep c e' = some (s1, c') ∧ s' = { s1 with calls := s1.calls.set i c' } ∧
        s'.calls[i]? = some c' := by
  have happ : ∀ x, (s.calls ++ [x])[i]? = some c := fun x => by
    rw [List.getElem?_append_left (List.getElem?_eq_some_iff.1 hc).1]; exact hc
  have hft : ∀ code, (s.fail code).calls = s.calls := by intro code; unfold St.fail; grind
  cases e with
  | call j e =>
    simp only [LegacyLife.step] at he
    split at he
    · cases he
    · rename_i c0 hc0
      split at he
      · cases he
      · rename_i s1 c' hs
        have hcalls : s1.calls = s.calls := by
          unfold St.callStep at hs
          split at hs
          all_goals (repeat' split at hs)
          all_goals first
            | (cases hs; done)
            | (simp only [Option.some.injEq, Prod.mk.injEq] at hs; obtain ⟨rfl, rfl⟩ := hs; grind)
        cases he
        by_cases hij : j = i
        · subst hij
          rw [hc] at hc0; cases hc0
          refine .inr ⟨e, s1, c', rfl, hs, rfl, ?_⟩
          have := (List.getElem?_eq_some_iff.1 hc).1
          simp only [hcalls]
          rw [List.getElem?_set_self this]
        · left
          simp only [hcalls]
          rw [List.getElem?_set_ne hij]; exact hc
  | receive x =>
    simp only [LegacyLife.step] at he
    split at he <;> cases he
    left
    rw [(LegacyLife.receive_frame s x).2.1]; exact hc
  | closerRun => left; rw [(LegacyLife.closes_closerRun he).calls]; exact hc
  | closerLost =>
    simp only [LegacyLife.step] at he
    split at he
    · left; rw [(LegacyLife.closes_closerWoken he).calls]; exact hc
    · cases he
  | closerTimeout => left; rw [(LegacyLife.closes_closerWoken he).calls]; exact hc
  | cancelCloser => left; rw [(LegacyLife.closes_cancelCloser he).calls]; exact hc
  | opened | refused | fail _ | room | transferDrained _ | transferWoken | transferCancelled | cancelTransfer
  | transportClosing | lost _ | pause | resume | close | ensure | write =>
    left
    simp only [LegacyLife.step, St.failTransfer] at he
    repeat' split at he
    all_goals first
      | (cases he; done)
      | (cases he; first | exact hc | exact happ _ | (simp only [hft]; exact hc))

/-! ## The invariant -/

/-- The time when `close()` ends at the latest -/
def bound (cfg : Config) (T δ t0 : Nat) : Nat := t0 + Spec.phases cfg.client * T + δ

/-- Times when a call to `close()` at time `t0` progresses -/
def CallBound (cfg : Config) (T δ t0 : Nat) (t : Timed) (i : Nat) : Call → Prop
  | .closeStart => t.now = t0 ∧ t.calls i = t0
  | .closeWriting => t.now ≤ t0 + T ∧ t.calls i = t0
  | .closeWaitTransfer true => t.now ≤ t.calls i + T ∧ t.calls i ≤ t0 + T
  | .closeWaitTransfer false => (t.life.transfer = .ended ∨ t.life.cancelReq = true) ∧ t.now ≤ t0 + 2 * T
  | .closeWaitCloser => (t.life.transfer = .ended ∨ t.life.cancelReq = true) ∧
      (t.life.closer = .created ∨ t.life.closer = .waitTransfer → t.now ≤ t0 + 2 * T) ∧
      ∀ x, t.life.closer = .ended x → t.now ≤ bound cfg T δ t0
  | _ => False

/-- Times when `close_connection` progresses -/
def CloserBound (cfg : Config) (T δ t0 : Nat) (t : Timed) : Prop :=
  match t.life.closer with
  | .waitClosed => cfg.client = true ∧ t.now ≤ t.closer + T ∧ t.closer ≤ t0 + 2 * T
  | .waitEof => t.now ≤ t.closer + T ∧ t.closer + 2 * T ≤ t0 + Spec.phases cfg.client * T
  | .waitClose _ => t.now ≤ t.closer + T ∧ t.closer + T ≤ t0 + Spec.phases cfg.client * T
  | .waitAbort _ => t.now ≤ t.closer + δ ∧ t.closer ≤ t0 + Spec.phases cfg.client * T
  | _ => True

/-- The call ended, or it ends in time. -/
def Bounded (cfg : Config) (T δ t0 i : Nat) (t : Timed) : Prop :=
  Spec.Ended t i ∨ ∃ c, t.life.calls[i]? = some c ∧ CallBound cfg T δ t0 t i c ∧ CloserBound cfg T δ t0 t

theorem phases_four (client : Bool) (T : Nat) : 4 * T ≤ Spec.phases client * T :=
  Nat.mul_le_mul_right T (by unfold Spec.phases; split <;> omega)

theorem phases_client {client : Bool} (h : client = true) (T : Nat) : Spec.phases client * T = 5 * T := by
  simp [Spec.phases, h]

/-- Until `close_connection` closes the connection, the call ends in time. -/
theorem CallBound.early {cfg : Config} {T δ t0 i : Nat} {t : Timed} {c : Call} (h : CallBound cfg T δ t0 t i c)
    (hcl : t.life.closer = .created ∨ t.life.closer = .waitTransfer) : t.now ≤ t0 + 2 * T := by
  unfold CallBound at h
  split at h <;> grind

/-- The call ends in time. -/
theorem Bounded.now_le {cfg : Config} {T δ t0 i : Nat} {t : Timed} (hi : Inv t.life) (h : Bounded cfg T δ t0 i t) :
    Spec.Ended t i ∨ t.now ≤ bound cfg T δ t0 := by
  rcases h with h | ⟨c, hc, hb, hk⟩
  · exact .inl h
  · right
    have h4 := phases_four cfg.client T
    have h5 := hi.closer
    have h6 := hi.req
    unfold bound
    unfold CallBound bound at hb
    split at hb
    · omega
    · omega
    · omega
    · omega
    · obtain ⟨h1, h2, h3⟩ := hb
      unfold CloserBound at hk
      have hcl : t.life.closer ≠ .absent := h5 (h1.elim (fun h => by rw [h]; nofun) h6)
      cases hc : t.life.closer with
      | absent => exact absurd hc hcl
      | created => have := h2 (.inl hc); omega
      | waitTransfer => have := h2 (.inr hc); omega
      | waitClosed => simp only [hc] at hk; have := phases_client hk.1 T; omega
      | waitEof => simp only [hc] at hk; omega
      | waitClose x => simp only [hc] at hk; omega
      | waitAbort x => simp only [hc] at hk; omega
      | ended x => exact h3 x hc
    · exact hb.elim

theorem Bounded.tick {cfg : Config} {T δ t0 i : Nat} {t t' : Timed} (hi : Inv t.life) (h : Bounded cfg T δ t0 i t)
    (hs : step cfg T δ t .tick = some t') : Bounded cfg T δ t0 i t' := by
  simp only [step] at hs
  split at hs
  · cases hs
  rename_i hno
  cases hs
  simp only [Bool.or_eq_true, not_or, Bool.not_eq_true] at hno
  obtain ⟨⟨hurg, hdue⟩, hcalls⟩ := hno
  rcases h with ⟨r, hr⟩ | ⟨c, hc, hb, hk⟩
  · exact .inl ⟨r, hr⟩
  have hlt := (List.getElem?_eq_some_iff.1 hc).1
  have hcdue : callDue T t i = false := by
    have := List.any_eq_false.1 hcalls i (List.mem_range.2 hlt)
    simpa using this
  unfold urgent at hurg
  simp only [Bool.or_eq_false_iff, List.any_eq_false, List.mem_range] at hurg
  obtain ⟨⟨⟨⟨_, htc⟩, hcr⟩, hcl⟩, hca⟩ := hurg
  have hca := hca i hlt
  simp only [Bool.or_eq_true, not_or, Bool.not_eq_true] at hca
  obtain ⟨hrun, hwoken⟩ := hca
  -- `transfer_data_task` isn't being cancelled
  have hcancel : t.life.cancelReq = true → t.life.transfer = .ended := by
    intro hreq
    have h1 := hi.req hreq
    simp only [LegacyLife.step] at htc
    apply Classical.byContradiction
    intro hne
    simp [hreq, h1, hne] at htc
  refine .inr ⟨c, hc, ?_, ?_⟩
  · unfold CallBound at hb ⊢
    cases c with
    | closeStart =>
      by_cases ho : t.life.state = .opened <;> simp [LegacyLife.step, hc, St.callStep, ho] at hrun
    | closeWriting =>
      simp only [callDue, hc, decide_eq_false_iff_not] at hcdue
      dsimp only at hb ⊢
      omega
    | closeWaitTransfer b =>
      cases b with
      | true =>
        simp only [callDue, hc, decide_eq_false_iff_not] at hcdue
        dsimp only at hb ⊢
        omega
      | false =>
        dsimp only at hb
        have hte : t.life.transfer = .ended := hb.1.elim id hcancel
        simp [LegacyLife.step, hc, St.callStep, hte] at hwoken
    | closeWaitCloser =>
      dsimp only at hb ⊢
      have hte : t.life.transfer = .ended := hb.1.elim id hcancel
      refine ⟨hb.1, fun h => ?_, fun x h => ?_⟩
      · rcases h with h | h <;> simp [LegacyLife.step, St.closerRun, h, hte] at hcr
      · simp [LegacyLife.step, hc, St.callStep, h] at hwoken
    | ensuring | writing | ended _ => exact hb
  · unfold CloserBound at hk ⊢
    unfold closerDue at hdue
    dsimp only
    split at hk <;> rename_i hcl <;> simp only [hcl, decide_eq_false_iff_not] at hdue ⊢
    · exact ⟨hk.1, by omega, hk.2.2⟩
    · omega
    · omega
    · have : min T δ ≤ δ := Nat.min_le_right _ _
      omega

/-- What `close()` does next -/
theorem closeEnd_cases (s : St) : s.closeEnd = .closeWaitCloser ∨ ∃ r, s.closeEnd = .ended r := by
  unfold St.closeEnd St.shield; grind

theorem closeRest_cases (s : St) : (∃ r, s.closeRest = .ended r) ∨ s.closeRest = .closeWaitTransfer true ∨
    s.closeRest = .closeWaitCloser ∧ s.transfer = .ended := by
  have := closeEnd_cases s
  unfold St.closeRest; grind

/-- How `close()` progresses -/
theorem callStep_moves {s s' : St} {c c' : Call} {e : CallEv} (h : s.callStep c e = some (s', c')) :
    (∃ r, c' = .ended r) ∨
    (c = .closeStart ∧ c' = .closeWriting) ∨
    ((c = .closeStart ∨ c = .closeWriting) ∧ (c' = .closeWaitTransfer true ∨ c' = .closeWaitCloser ∧ s'.transfer = .ended)) ∨
    (c = .closeWaitTransfer true ∧ c' = .closeWaitTransfer false ∧ s'.cancelReq = true) ∨
    ((∃ b, c = .closeWaitTransfer b) ∧ c' = .closeWaitCloser ∧ (s'.transfer = .ended ∨ s'.cancelReq = true)) ∨
    c = .closeWaitCloser ∧ c' = .closeWaitCloser ∨ c = .ensuring ∨ c = .writing := by
  have h1 := fun s : St => closeEnd_cases s
  have h2 := fun s : St => closeRest_cases s
  unfold St.callStep at h
  split at h
  all_goals (repeat' split at h)
  all_goals first
    | (cases h; done)
    | (simp only [Option.some.injEq, Prod.mk.injEq] at h; obtain ⟨rfl, rfl⟩ := h; grind)

theorem Bounded.event {cfg : Config} {T δ t0 i : Nat} {t t' : Timed} {e : Ev} (hi : Inv t.life)
    (h : Bounded cfg T δ t0 i t) (hs : step cfg T δ t (.ev e) = some t') :
    Bounded cfg T δ t0 i t' := by
  simp only [step] at hs
  split at hs
  case isFalse => cases hs
  split at hs
  · cases hs
  rename_i life hl
  cases hs
  obtain ⟨hte, hcr, hta⟩ := transfer_keeps hi hl
  rcases h with ⟨r, hr⟩ | ⟨c, hc, hb, hk⟩
  · rcases call_keeps hl hr with h | ⟨e', s1, c', _, hst, _⟩
    · exact .inl ⟨r, h⟩
    · simp [St.callStep] at hst
  have hlife := Bounded.now_le hi (.inr ⟨c, hc, hb, hk⟩)
  have h4 := phases_four cfg.client T
  have hc5 := fun h => phases_client (client := cfg.client) h T
  -- `close_connection`
  have hcloser : CloserBound cfg T δ t0 { t with
      life := life
      closer := if life.closer = t.life.closer then t.closer else t.now
      calls := fun i => if startsTimer t.life.calls[i]? life.calls[i]? then t.now else t.calls i } := by
    have hearly := CallBound.early hb
    by_cases heq : life.closer = t.life.closer
    · unfold CloserBound at hk ⊢
      simp only [heq, if_true]
      exact hk
    · have hm := (closer_moves hl).resolve_left heq
      unfold CloserBound at hk ⊢
      simp only [heq, if_false]
      cases ho : t.life.closer with
      | absent =>
        simp only [ho, Moves] at hm
        simp only [hm]
      | created | waitTransfer =>
        have hn := hearly (by simp [ho])
        simp only [ho, Moves] at hm
        rcases hm with hm | ⟨hm, hcli⟩ | hm | ⟨x, hm⟩ | ⟨x, hm⟩ <;> simp only [hm]
        · exact ⟨hcli, by omega, hn⟩
        · omega
        · omega
      | waitClosed =>
        simp only [ho] at hk
        simp only [ho, Moves] at hm
        have := hc5 hk.1
        rcases hm with hm | ⟨x, hm⟩ | ⟨x, hm⟩ <;> simp only [hm] <;> omega
      | waitEof =>
        simp only [ho] at hk
        simp only [ho, Moves] at hm
        rcases hm with ⟨x, hm⟩ | ⟨x, hm⟩ <;> simp only [hm]
        omega
      | waitClose y =>
        simp only [ho] at hk
        simp only [ho, Moves] at hm
        rcases hm with ⟨x, hm⟩ | ⟨x, hm⟩ <;> simp only [hm]
        omega
      | waitAbort y =>
        simp only [ho, Moves] at hm
        obtain ⟨x, hm⟩ := hm
        simp only [hm]
      | ended y => simp only [ho, Moves] at hm
  -- the time when `close_connection` ends
  have hend : ∀ x, life.closer = .ended x → ¬ Spec.Ended t i → t.now ≤ bound cfg T δ t0 :=
    fun x hx hne => hlife.resolve_left hne
  have hne : ¬ Spec.Ended t i := by
    rintro ⟨r, hr⟩
    rw [hc] at hr; cases hr; exact hb
  have hnow := hlife.resolve_left hne
  -- before that
  have hbefore : life.closer = .created ∨ life.closer = .waitTransfer → t.life.transfer ≠ .absent →
      t.life.closer = .created ∨ t.life.closer = .waitTransfer := by
    intro hx ha
    have hcl := hi.closer ha
    rcases closer_moves hl with h | h
    · rwa [h] at hx
    · cases ho : t.life.closer with
      | absent => exact absurd ho hcl
      | created => exact .inl rfl
      | waitTransfer => exact .inr rfl
      | _ => rw [ho] at h; rcases hx with hx | hx <;> rw [hx] at h <;> simp [Moves] at h
  rcases call_keeps hl hc with h | ⟨e', s1, c', _, hst, hs1, h⟩
  · refine .inr ⟨c, h, ?_, hcloser⟩
    have htimer : startsTimer t.life.calls[i]? life.calls[i]? = false := by simp [startsTimer, hc, h]
    unfold CallBound at hb ⊢
    simp only [htimer]
    cases c with
    | closeStart | closeWriting => exact hb
    | closeWaitTransfer b =>
      cases b with
      | true => exact hb
      | false => exact ⟨hb.1.imp hte hcr, hb.2⟩
    | closeWaitCloser =>
      refine ⟨hb.1.imp hte hcr, fun hx => hb.2.1 (hbefore hx ?_), fun x _ => hnow⟩
      exact hb.1.elim (fun h => by rw [h]; nofun) hi.req
    | ensuring | writing | ended _ => exact hb
  · have hlt : life.transfer = s1.transfer ∧ life.cancelReq = s1.cancelReq := by rw [hs1]; exact ⟨rfl, rfl⟩
    rcases callStep_moves hst with ⟨r, rfl⟩ | ⟨rfl, rfl⟩ | ⟨hco, rfl | ⟨rfl, htr⟩⟩ | ⟨rfl, rfl, hreq⟩ | ⟨⟨b, rfl⟩, rfl, htr⟩ |
      ⟨rfl, rfl⟩ | rfl | rfl
    · exact .inl ⟨r, h⟩
    · refine .inr ⟨_, h, ?_, hcloser⟩
      have htimer : startsTimer t.life.calls[i]? life.calls[i]? = false := by simp [startsTimer, hc, h]
      simp only [CallBound, htimer] at hb ⊢
      exact ⟨by omega, hb.2⟩
    · refine .inr ⟨_, h, ?_, hcloser⟩
      have htimer : startsTimer t.life.calls[i]? life.calls[i]? = true := by
        rcases hco with rfl | rfl <;> simp [startsTimer, hc, h]
      simp only [CallBound, htimer, if_true]
      rcases hco with rfl | rfl <;> simp only [CallBound] at hb <;> omega
    · refine .inr ⟨_, h, ?_, hcloser⟩
      have : t.now ≤ t0 + 2 * T := by rcases hco with rfl | rfl <;> simp only [CallBound] at hb <;> omega
      exact ⟨.inl (by rw [← htr]; exact hlt.1), fun _ => this, fun x _ => hnow⟩
    · refine .inr ⟨_, h, ?_, hcloser⟩
      simp only [CallBound] at hb
      exact ⟨.inr (by rw [← hreq]; exact hlt.2), by show t.now ≤ _; omega⟩
    · refine .inr ⟨_, h, ?_, hcloser⟩
      have : t.now ≤ t0 + 2 * T := by cases b <;> simp only [CallBound] at hb <;> omega
      exact ⟨htr.imp (fun h => hlt.1.trans h) (fun h => hlt.2.trans h), fun _ => this, fun x _ => hnow⟩
    · refine .inr ⟨_, h, ?_, hcloser⟩
      refine ⟨hb.1.imp hte hcr, fun hx => hb.2.1 (hbefore hx ?_), fun x _ => hnow⟩
      exact hb.1.elim (fun h => by rw [h]; nofun) hi.req
    · exact hb.elim
    · exact hb.elim

/-- The timer of `close_connection` -/
def Waiting (cfg : Config) (T δ : Nat) (t : Timed) : Prop :=
  match t.life.closer with
  | .waitClosed => cfg.client = true ∧ t.closer ≤ t.now ∧ t.now ≤ t.closer + T
  | .waitEof | .waitClose _ => t.closer ≤ t.now ∧ t.now ≤ t.closer + T
  | .waitAbort _ => t.closer ≤ t.now ∧ t.now ≤ t.closer + δ
  | _ => True

theorem Waiting.step {cfg : Config} {T δ : Nat} {t t' : Timed} {e : Event} (h : Waiting cfg T δ t)
    (hs : step cfg T δ t e = some t') : Waiting cfg T δ t' := by
  cases e with
  | tick =>
    simp only [LegacyTimed.step] at hs
    split at hs
    · cases hs
    rename_i hno
    cases hs
    simp only [Bool.or_eq_true, not_or, Bool.not_eq_true] at hno
    have hdue := hno.1.2
    unfold Waiting at h ⊢
    unfold closerDue at hdue
    dsimp only
    split at h <;> rename_i hcl <;> simp only [hcl, decide_eq_false_iff_not] at hdue ⊢
    · exact ⟨h.1, by omega, by omega⟩
    · omega
    · omega
    · have : min T δ ≤ δ := Nat.min_le_right _ _
      omega
  | ev e =>
    simp only [LegacyTimed.step] at hs
    split at hs
    case isFalse => cases hs
    split at hs
    · cases hs
    rename_i life hl
    cases hs
    by_cases heq : life.closer = t.life.closer
    · unfold Waiting at h ⊢
      simp only [heq, if_true]
      exact h
    · have hm := (closer_moves hl).resolve_left heq
      unfold Waiting
      simp only [heq, if_false]
      cases hn : life.closer with
      | waitClosed =>
        refine ⟨?_, by omega, by omega⟩
        rw [hn] at hm
        cases ho : t.life.closer <;> rw [ho] at hm <;> simp [Moves] at hm
        · exact hm
        · exact hm
      | waitEof | waitClose _ | waitAbort _ => exact ⟨by omega, by omega⟩
      | absent | created | waitTransfer | ended _ => trivial

theorem waiting_run {cfg : Config} {T δ : Nat} : ∀ {es : List Event} {t t' : Timed}, Waiting cfg T δ t →
    run cfg T δ t es = some t' → Waiting cfg T δ t'
  | [], _, _, h, hr => by cases hr; exact h
  | e :: es, t, t', h, hr => by
    simp only [run] at hr
    split at hr
    · cases hr
    · rename_i u hu
      exact waiting_run (h.step hu) hr

/-! ## Theorems -/

theorem inv_run {cfg : Config} {T δ : Nat} : ∀ {es : List Event} {t t' : Timed}, Inv t.life → run cfg T δ t es = some t' →
    Inv t'.life
  | [], _, _, h, hr => by cases hr; exact h
  | e :: es, t, t', h, hr => by
    simp only [run] at hr
    split at hr
    · cases hr
    · rename_i u hu
      refine inv_run ?_ hr
      cases e with
      | tick => simp only [step] at hu; split at hu <;> cases hu; exact h
      | ev e =>
        simp only [step] at hu
        split at hu
        · split at hu
          · cases hu
          · rename_i hl
            cases hu; exact h.step hl
        · cases hu

theorem Bounded.run {cfg : Config} {T δ t0 i : Nat} : ∀ {es : List Event} {t t' : Timed}, Inv t.life →
    Bounded cfg T δ t0 i t → run cfg T δ t es = some t' → Bounded cfg T δ t0 i t'
  | [], _, _, _, h, hr => by cases hr; exact h
  | e :: es, t, t', hi, h, hr => by
    simp only [LegacyTimed.run] at hr
    split at hr
    · cases hr
    · rename_i u hu
      have hiu : Inv u.life := inv_run (cfg := cfg) (T := T) (δ := δ) (es := [e]) hi (by simp only [LegacyTimed.run, hu])
      refine Bounded.run hiu ?_ hr
      cases e with
      | tick => exact h.tick hi hu
      | ev e => exact h.event hi hu

theorem close_bounded {cfg : Config} {T δ : Nat} {t t1 : Timed} (h : Waiting cfg T δ t)
    (hc : step cfg T δ t (.ev .close) = some t1) : Bounded cfg T δ t.now t.life.calls.length t1 := by
  simp only [step, allowed, if_true, LegacyLife.step, Option.some.injEq] at hc
  subst hc
  refine .inr ⟨.closeStart, by simp, ⟨rfl, by simp [startsTimer]⟩, ?_⟩
  have h4 := phases_four cfg.client T
  unfold Waiting at h
  unfold CloserBound
  dsimp only
  split <;> rename_i hcl <;> simp only [hcl] at h ⊢
  · exact ⟨h.1, by omega, by omega⟩
  · omega
  · omega
  · omega

/-- **C104**: whatever the peer, the network, the application and asyncio do, however tasks interleave, `close()` ends within 4 times
`close_timeout` on the server side and 5 times on the client side, counting separately the time that asyncio takes to lose a
connection after aborting it. -/
theorem C104_close (cfg : Config) (T δ : Nat) {pre es : List Event} {t t1 t2 : Timed} (h : run cfg T δ {} pre = some t)
    (hc : step cfg T δ t (.ev .close) = some t1) (hr : run cfg T δ t1 es = some t2) :
    Spec.Ended t2 t.life.calls.length ∨ t2.now ≤ t.now + Spec.phases cfg.client * T + δ := by
  have hi : Inv t.life := inv_run LegacyLife.inv_init h
  have hw : Waiting cfg T δ t := waiting_run (show Waiting cfg T δ {} from trivial) h
  have hi1 : Inv t1.life := inv_run (cfg := cfg) (T := T) (δ := δ) (es := [.ev .close]) hi (by simp only [run, hc])
  exact Bounded.now_le (inv_run hi1 hr) ((close_bounded hw hc).run hi1 hr)

theorem step_ev {cfg : Config} {T δ : Nat} {t : Timed} {e : Ev} (ha : allowed T t e = true)
    (h : (LegacyLife.step cfg t.life e).isSome = true) : (step cfg T δ t (.ev e)).isSome = true := by
  obtain ⟨life, hl⟩ := Option.isSome_iff_exists.1 h
  simp only [step, ha, if_true, hl, Option.isSome_some]

/-- **C104 progress**: in every state, the library can run, asyncio must lose the connection, or time can elapse. -/
theorem C104_progress (cfg : Config) (T δ : Nat) {pre : List Event} {t : Timed} (h : run cfg T δ {} pre = some t) :
    ∃ e, Spec.Library t e ∧ (step cfg T δ t e).isSome = true := by
  have hi : Inv t.life := inv_run LegacyLife.inv_init h
  by_cases hu : urgent cfg t.life = true
  · unfold urgent at hu
    simp only [Bool.or_eq_true, List.any_eq_true] at hu
    rcases hu with (((hu | hu) | hu) | hu) | ⟨i, _, hu | hu⟩
    · exact ⟨.ev .transferWoken, .inl rfl, step_ev rfl hu⟩
    · exact ⟨.ev .transferCancelled, .inl rfl, step_ev rfl hu⟩
    · exact ⟨.ev .closerRun, .inl rfl, step_ev rfl hu⟩
    · exact ⟨.ev .closerLost, .inl rfl, step_ev rfl hu⟩
    · exact ⟨.ev (.call i .run), .inl rfl, step_ev rfl hu⟩
    · exact ⟨.ev (.call i .woken), .inl rfl, step_ev rfl hu⟩
  by_cases hd : closerDue T δ t = true
  · unfold closerDue at hd
    split at hd <;> rename_i hcl
    · refine ⟨.ev .closerTimeout, .inl rfl, step_ev hd ?_⟩
      simp only [LegacyLife.step, St.closerWoken, hcl]
      split <;> rfl
    · exact ⟨.ev .closerTimeout, .inl rfl, step_ev hd (by simp only [LegacyLife.step, St.closerWoken, hcl]; rfl)⟩
    · refine ⟨.ev .closerTimeout, .inl rfl, step_ev hd ?_⟩
      simp only [LegacyLife.step, St.closerWoken, hcl]
      split <;> rfl
    · by_cases hl : t.life.lost = true
      · exact ⟨.ev .closerLost, .inl rfl, step_ev rfl (by simp [LegacyLife.step, St.closerWoken, hcl, hl])⟩
      · exact ⟨.ev (.lost false), .inr ⟨rfl, hi.waitAbort _ hcl⟩, step_ev rfl (by simp [LegacyLife.step, hl])⟩
    · cases hd
  by_cases hc : (List.range t.life.calls.length).any (callDue T t) = true
  · obtain ⟨i, _, hi'⟩ := List.any_eq_true.1 hc
    unfold callDue at hi'
    split at hi' <;> rename_i hcl
    · exact ⟨.ev (.call i .timeout), .inl rfl, step_ev hi' (by simp [LegacyLife.step, hcl, St.callStep])⟩
    · by_cases ht : t.life.transfer = .ended
      · exact ⟨.ev (.call i .woken), .inl rfl, step_ev rfl (by simp [LegacyLife.step, hcl, St.callStep, ht])⟩
      · exact ⟨.ev (.call i .timeout), .inl rfl, step_ev hi' (by simp [LegacyLife.step, hcl, St.callStep, ht])⟩
    · cases hi'
  · refine ⟨.tick, trivial, ?_⟩
    simp only [Bool.not_eq_true] at hu hd hc
    simp [step, hu, hd, hc]

/-- How many steps of the library remain until time elapses, at most -/
def weight (t : Timed) : Nat := t.life.weight + if t.life.lost then 0 else 1

theorem weight_step {cfg : Config} {T δ : Nat} {t u : Timed} {e : Ev} (hl : Spec.Library t (.ev e))
    (h : step cfg T δ t (.ev e) = some u) : weight u < weight t ∧ u.now = t.now := by
  simp only [step] at h
  split at h
  case isFalse => cases h
  split at h
  · cases h
  rename_i life hst
  cases h
  refine ⟨?_, rfl⟩
  unfold weight
  rcases hl with hl | ⟨rfl, _⟩
  · have h1 := LegacyLife.step_weight hst hl
    have h2 := (LegacyLife.step_frame hst).1
    dsimp only
    by_cases hx : t.life.lost = true
    · rw [if_pos hx, if_pos (h2.2 (.inl hx))]; omega
    · rw [if_neg hx]; split <;> omega
  · simp only [LegacyLife.step] at hst
    split at hst <;> cases hst
    rename_i hx
    simp [LegacyLife.St.weight, hx]

theorem timed_append {cfg : Config} {T δ : Nat} : ∀ {es es' : List Event} {t t1 t' : Timed}, run cfg T δ t es = some t1 →
    run cfg T δ t1 es' = some t' → run cfg T δ t (es ++ es') = some t'
  | [], _, _, _, _, h, h' => by cases h; exact h'
  | e :: es, es', t, t1, t', h, h' => by
    simp only [run, List.cons_append] at h ⊢
    split at h
    · cases h
    · exact timed_append h h'

/-- **C104 `close()` ends**: whatever happened since it was called, the library can always go on until `close()` ends, without anyone
doing anything. -/
theorem C104_ends (cfg : Config) (T δ : Nat) {pre es : List Event} {t t1 t2 : Timed} (h : run cfg T δ {} pre = some t)
    (hc : step cfg T δ t (.ev .close) = some t1) (hr : run cfg T δ t1 es = some t2) :
    ∃ t3, Spec.Goes cfg T δ t2 t3 ∧ Spec.Ended t3 t.life.calls.length ∧
      (¬ Spec.Ended t2 t.life.calls.length → t3.now ≤ t.now + Spec.phases cfg.client * T + δ) := by
  have key : ∀ (n w : Nat) (es : List Event) (u : Timed), run cfg T δ t1 es = some u →
      bound cfg T δ t.now + 1 - u.now ≤ n → weight u ≤ w →
      ∃ v, Spec.Goes cfg T δ u v ∧ Spec.Ended v t.life.calls.length ∧
        (v.now ≤ u.now ∨ v.now ≤ bound cfg T δ t.now) := by
    intro n
    induction n with
    | zero =>
      intro w es u hu hn _
      rcases C104_close cfg T δ h hc hu with he | he
      · exact ⟨u, .refl u, he, Or.inl (Nat.le_refl _)⟩
      · unfold bound at hn; omega
    | succ n ihn =>
      intro w
      induction w with
      | zero =>
        intro es u hu hn hw
        by_cases hend : Spec.Ended u t.life.calls.length
        · exact ⟨u, .refl u, hend, Or.inl (Nat.le_refl _)⟩
        obtain ⟨e, hlib, hsome⟩ := C104_progress cfg T δ (pre := pre ++ (.ev .close :: es)) (t := u)
          (timed_append h (by simp only [run, hc]; exact hu))
        obtain ⟨v, hv⟩ := Option.isSome_iff_exists.1 hsome
        cases e with
        | ev e => have := (weight_step hlib hv).1; omega
        | tick =>
          have hnow : v.now = u.now + 1 := by simp only [step] at hv; split at hv <;> cases hv; rfl
          have hlife : v.life = u.life := by simp only [step] at hv; split at hv <;> cases hv; rfl
          have hrv : run cfg T δ t1 (es ++ [.tick]) = some v := timed_append hu (by simp only [run, hv])
          obtain ⟨x, hg, hx, hb⟩ := ihn (weight v) _ v hrv (by omega) (Nat.le_refl _)
          have hle := (C104_close cfg T δ h hc hrv).resolve_left
            (by unfold Spec.Ended; rw [hlife]; exact hend)
          exact ⟨x, .step hlib hv hg, hx, Or.inr (by unfold bound at *; omega)⟩
      | succ w ihw =>
        intro es u hu hn hw
        by_cases hend : Spec.Ended u t.life.calls.length
        · exact ⟨u, .refl u, hend, Or.inl (Nat.le_refl _)⟩
        have hle := (C104_close cfg T δ h hc hu).resolve_left hend
        obtain ⟨e, hlib, hsome⟩ := C104_progress cfg T δ (pre := pre ++ (.ev .close :: es)) (t := u)
          (timed_append h (by simp only [run, hc]; exact hu))
        obtain ⟨v, hv⟩ := Option.isSome_iff_exists.1 hsome
        have hrv : run cfg T δ t1 (es ++ [e]) = some v := timed_append hu (by simp only [run, hv])
        cases e with
        | ev e =>
          obtain ⟨hw', hnow⟩ := weight_step hlib hv
          obtain ⟨x, hg, hx, hb⟩ := ihw _ v hrv (by omega) (by omega)
          exact ⟨x, .step hlib hv hg, hx, Or.inr (by unfold bound at *; omega)⟩
        | tick =>
          have hnow : v.now = u.now + 1 := by simp only [step] at hv; split at hv <;> cases hv; rfl
          have hlife : v.life = u.life := by simp only [step] at hv; split at hv <;> cases hv; rfl
          obtain ⟨x, hg, hx, hb⟩ := ihn (weight v) _ v hrv (by omega) (Nat.le_refl _)
          have hle' := (C104_close cfg T δ h hc hrv).resolve_left
            (by unfold Spec.Ended; rw [hlife]; exact hend)
          exact ⟨x, .step hlib hv hg, hx, Or.inr (by unfold bound at *; omega)⟩
  obtain ⟨v, hg, hv, hb⟩ := key _ _ es t2 hr (Nat.le_refl _) (Nat.le_refl _)
  refine ⟨v, hg, hv, fun hne => ?_⟩
  have := (C104_close cfg T δ h hc hr).resolve_left hne
  unfold bound at hb
  omega

/-! ## Connections that fail -/

/-- Times when `close_connection` progresses, once `transfer_data_task` ended or is cancelled, at time `t0` -/
def LostBound (cfg : Config) (T δ t0 : Nat) (t : Timed) : Prop :=
  match t.life.closer with
  | .absent => False
  | .created | .waitTransfer => t.now = t0
  | .waitClosed => cfg.client = true ∧ t.now ≤ t.closer + T ∧ t.closer ≤ t0
  | .waitEof => t.now ≤ t.closer + T ∧ t.closer + 2 * T ≤ t0 + Spec.lostPhases cfg.client * T
  | .waitClose _ => t.now ≤ t.closer + T ∧ t.closer + T ≤ t0 + Spec.lostPhases cfg.client * T
  | .waitAbort _ => t.now ≤ t.closer + δ ∧ t.closer ≤ t0 + Spec.lostPhases cfg.client * T
  | .ended _ => True

/-- `transfer_data_task` ended or is cancelled. -/
def Stops (s : St) : Prop := s.transfer = .ended ∨ s.cancelReq = true

theorem lostPhases_two (client : Bool) (T : Nat) : 2 * T ≤ Spec.lostPhases client * T :=
  Nat.mul_le_mul_right T (by unfold Spec.lostPhases; split <;> omega)

theorem lostPhases_client {client : Bool} (h : client = true) (T : Nat) : Spec.lostPhases client * T = 3 * T := by
  simp [Spec.lostPhases, h]

theorem LostBound.step {cfg : Config} {T δ t0 : Nat} {t t' : Timed} {e : Event} (hi : Inv t.life) (hst : Stops t.life)
    (h : LostBound cfg T δ t0 t) (hs : step cfg T δ t e = some t') : Stops t'.life ∧ LostBound cfg T δ t0 t' := by
  cases e with
  | tick =>
    simp only [LegacyTimed.step] at hs
    split at hs
    · cases hs
    rename_i hno
    cases hs
    simp only [Bool.or_eq_true, not_or, Bool.not_eq_true] at hno
    obtain ⟨⟨hurg, hdue⟩, _⟩ := hno
    unfold urgent at hurg
    simp only [Bool.or_eq_false_iff] at hurg
    obtain ⟨⟨⟨⟨_, htc⟩, hcr⟩, _⟩, _⟩ := hurg
    have hte : t.life.transfer = .ended := by
      rcases hst with h | hreq
      · exact h
      · have h1 := hi.req hreq
        simp only [LegacyLife.step] at htc
        apply Classical.byContradiction
        intro hne
        simp [hreq, h1, hne] at htc
    refine ⟨hst, ?_⟩
    unfold LostBound at h ⊢
    unfold closerDue at hdue
    dsimp only
    cases hcl : t.life.closer <;> simp only [hcl, decide_eq_false_iff_not] at h hdue ⊢
    case created | waitTransfer => simp [LegacyLife.step, St.closerRun, hcl, hte] at hcr
    case waitClosed => exact ⟨h.1, by omega, h.2.2⟩
    case waitAbort =>
      have : min T δ ≤ δ := Nat.min_le_right _ _
      omega
    all_goals omega
  | ev e =>
    simp only [LegacyTimed.step] at hs
    split at hs
    case isFalse => cases hs
    split at hs
    · cases hs
    rename_i life hl
    cases hs
    obtain ⟨hte, hcr, _⟩ := transfer_keeps hi hl
    refine ⟨hst.imp hte hcr, ?_⟩
    have h2 := lostPhases_two cfg.client T
    have h3 := fun h => lostPhases_client (client := cfg.client) h T
    by_cases heq : life.closer = t.life.closer
    · unfold LostBound at h ⊢
      simp only [heq, if_true]
      exact h
    · have hm := (closer_moves hl).resolve_left heq
      unfold LostBound at h ⊢
      simp only [heq, if_false]
      cases ho : t.life.closer <;> simp only [ho] at h <;> simp only [ho, Moves] at hm
      case created | waitTransfer =>
        rcases hm with hm | ⟨hm, hcli⟩ | hm | ⟨x, hm⟩ | ⟨x, hm⟩ <;> simp only [hm]
        · exact h
        · exact ⟨hcli, by omega, by omega⟩
        · omega
        · omega
      case waitClosed =>
        have := h3 h.1
        rcases hm with hm | ⟨x, hm⟩ | ⟨x, hm⟩ <;> simp only [hm] <;> omega
      case waitEof =>
        rcases hm with ⟨x, hm⟩ | ⟨x, hm⟩ <;> simp only [hm]
        omega
      case waitClose =>
        rcases hm with ⟨x, hm⟩ | ⟨x, hm⟩ <;> simp only [hm]
        omega
      case waitAbort =>
        obtain ⟨x, hm⟩ := hm
        simp only [hm]

theorem LostBound.run {cfg : Config} {T δ t0 : Nat} : ∀ {es : List Event} {t t' : Timed}, Inv t.life → Stops t.life →
    LostBound cfg T δ t0 t → run cfg T δ t es = some t' → LostBound cfg T δ t0 t'
  | [], _, _, _, _, h, hr => by cases hr; exact h
  | e :: es, t, t', hi, hst, h, hr => by
    simp only [LegacyTimed.run] at hr
    split at hr
    · cases hr
    · rename_i u hu
      have hiu : Inv u.life := inv_run (cfg := cfg) (T := T) (δ := δ) (es := [e]) hi (by simp only [LegacyTimed.run, hu])
      have hsu := h.step hi hst hu
      exact LostBound.run hiu hsu.1 hsu.2 hr

/-- **C104 failures**: once `transfer_data_task` ended or is cancelled, `close_connection_task` ends within twice `close_timeout` on the
server side and 3 times on the client side, counting separately the time that asyncio takes to lose a connection after aborting
it. -/
theorem C104_failed (cfg : Config) (T δ : Nat) {pre es : List Event} {t t2 : Timed} (h : run cfg T δ {} pre = some t)
    (hs : t.life.transfer = .ended ∨ t.life.cancelReq = true) (hr : run cfg T δ t es = some t2) :
    (∃ x, t2.life.closer = .ended x) ∨ t2.now ≤ t.now + Spec.lostPhases cfg.client * T + δ := by
  have hi : Inv t.life := inv_run LegacyLife.inv_init h
  have hw : Waiting cfg T δ t := waiting_run (show Waiting cfg T δ {} from trivial) h
  have h2 := lostPhases_two cfg.client T
  have h3 := fun h => lostPhases_client (client := cfg.client) h T
  have hb : LostBound cfg T δ t.now t := by
    have hne : t.life.closer ≠ .absent := hi.closer (hs.elim (fun h => by rw [h]; nofun) hi.req)
    unfold Waiting at hw
    unfold LostBound
    cases hcl : t.life.closer <;> simp only [hcl] at hw hne ⊢
    case absent => exact hne rfl
    case waitClosed => exact ⟨hw.1, by omega, by omega⟩
    all_goals omega
  have hb2 := hb.run hi hs hr
  unfold LostBound at hb2
  cases hcl : t2.life.closer <;> simp only [hcl] at hb2
  case ended x => exact .inl ⟨x, rfl⟩
  case waitClosed => have := h3 hb2.1; right; omega
  all_goals (right; omega)

/-! ## The time that peers are given -/

/-- Only `close_connection` aborts the transport. -/
theorem aborted_step {cfg : Config} {s s' : St} {e : Ev} (he : LegacyLife.step cfg s e = some s') (hc : LegacyLife.isCloser e = false) :
    s'.aborted = s.aborted := by
  have hf : ∀ code, (s.fail code).aborted = s.aborted := by intro code; unfold St.fail; grind
  cases e with
  | receive i =>
    simp only [LegacyLife.step] at he
    split at he <;> cases he
    cases i <;> simp only [St.receive, St.failTransfer] <;> grind
  | call i e =>
    simp only [LegacyLife.step] at he
    split at he
    · cases he
    · split at he
      · cases he
      · rename_i s1 c' hs
        cases he
        unfold St.callStep at hs
        split at hs
        all_goals (repeat' split at hs)
        all_goals first
          | (cases hs; done)
          | (simp only [Option.some.injEq, Prod.mk.injEq] at hs; obtain ⟨rfl, rfl⟩ := hs; grind)
  | closerRun | closerLost | closerTimeout | cancelCloser => cases hc
  | opened | refused | fail _ | room | transferDrained _ | transferWoken | transferCancelled | cancelTransfer
  | transportClosing | lost _ | pause | resume | close | ensure | write =>
    simp only [LegacyLife.step, St.failTransfer] at he; grind

/-- Until `close_connection` aborts the transport, it isn't aborted. -/
def Unaborted (s : St) : Prop := s.aborted = true → (∃ x, s.closer = .waitAbort x) ∨ ∃ x, s.closer = .ended x

theorem finally_aborted (s : St) (exc : Bool) : (s.finally exc).aborted = s.aborted := by unfold St.finally; grind

theorem halfClose_aborted (cfg : Config) (s : St) : (s.halfClose cfg).aborted = s.aborted := by
  have := finally_aborted s
  unfold St.halfClose; grind

theorem afterTransfer_aborted (cfg : Config) (s : St) : (s.afterTransfer cfg).aborted = s.aborted := by
  have := finally_aborted s
  have := halfClose_aborted cfg s
  unfold St.afterTransfer; grind

theorem Unaborted.step {cfg : Config} {s s' : St} {e : Ev} (h : Unaborted s) (he : LegacyLife.step cfg s e = some s') :
    Unaborted s' := by
  have h1 := finally_aborted s
  have h2 := halfClose_aborted cfg s
  have h3 := afterTransfer_aborted cfg s
  by_cases hc : LegacyLife.isCloser e = false
  · intro ha
    rw [aborted_step he hc] at ha
    have hne : s.closer ≠ .absent := by rcases h ha with ⟨x, hx⟩ | ⟨x, hx⟩ <;> rw [hx] <;> nofun
    rw [LegacyLife.step_closer he hne hc]
    exact h ha
  · have hw : ∀ {s'}, s.closerWoken cfg = some s' → Unaborted s' := by
      intro s' he
      unfold St.closerWoken at he
      unfold Unaborted at *
      split at he
      · split at he <;> cases he <;> grind
      · cases he; grind
      · split at he <;> cases he
        · grind
        · unfold St.abort; grind
      · cases he; exact fun _ => .inr ⟨_, rfl⟩
      · cases he
    cases e with
    | closerRun =>
      simp only [LegacyLife.step, St.closerRun] at he
      unfold Unaborted at *
      grind
    | closerLost =>
      simp only [LegacyLife.step] at he
      split at he
      · exact hw he
      · cases he
    | closerTimeout => exact hw he
    | cancelCloser =>
      simp only [LegacyLife.step, St.cancelCloser] at he
      unfold Unaborted at *
      grind
    | _ => simp [LegacyLife.isCloser] at hc

/-- The time that `close_connection` gave the peer since `t0`, when it started to wait at `timer` -/
def Gave (cfg : Config) (T t0 now timer : Nat) (aborted : Bool) : Closer → Prop
  | .absent => False
  | .created | .waitTransfer => aborted = false
  | .waitClosed => aborted = false ∧ t0 ≤ timer
  | .waitEof => aborted = false ∧ cfg.canWriteEof = true ∧ t0 + (if cfg.client then T else 0) ≤ timer
  | .waitClose _ => aborted = false ∧ t0 + (if cfg.client then T else 0) + (if cfg.canWriteEof then T else 0) ≤ timer
  | .waitAbort _ | .ended _ => aborted = true →
      t0 + (if cfg.client then T else 0) + (if cfg.canWriteEof then T else 0) + T ≤ now

theorem finally_gave {cfg : Config} {T t0 now : Nat} {s : St} (exc : Bool) (ha : s.aborted = false)
    (h : s.lost = true ∨ t0 + (if cfg.client then T else 0) + (if cfg.canWriteEof then T else 0) ≤ now) :
    Gave cfg T t0 now now (s.finally exc).aborted (s.finally exc).closer := by
  rw [finally_aborted, ha]
  unfold St.finally
  split
  · nofun
  · dsimp only
    split
    · nofun
    · rename_i hl
      exact ⟨rfl, h.resolve_left hl⟩

theorem halfClose_gave {cfg : Config} {T t0 now : Nat} {s : St} (ha : s.aborted = false)
    (h : t0 + (if cfg.client then T else 0) ≤ now) :
    Gave cfg T t0 now now (s.halfClose cfg).aborted (s.halfClose cfg).closer := by
  unfold St.halfClose
  split
  · rename_i hw
    exact ⟨ha, hw.1, h⟩
  · rename_i hw
    refine finally_gave false ha ?_
    by_cases hl : s.lost = true
    · exact .inl hl
    · right
      have : cfg.canWriteEof ≠ true := fun hx => hw ⟨hx, hl⟩
      rw [if_neg this]; omega

theorem afterTransfer_gave {cfg : Config} {T t0 now : Nat} {s : St} (ha : s.aborted = false) (ht : s.transfer ≠ .absent)
    (h : t0 ≤ now) : Gave cfg T t0 now now (s.afterTransfer cfg).aborted (s.afterTransfer cfg).closer := by
  unfold St.afterTransfer
  split
  · split
    · rename_i hl
      exact finally_gave false ha (.inl hl)
    · exact ⟨ha, h⟩
  · rename_i hc
    have : cfg.client ≠ true := fun hx => hc ⟨hx, ht⟩
    exact halfClose_gave ha (by rw [if_neg this]; omega)

/-- The time that `close_connection` gave the peer -/
def Patient (cfg : Config) (T t0 : Nat) (t : Timed) : Prop :=
  t.life.transfer ≠ .absent ∧ t0 ≤ t.now ∧ (t.life.closer = .waitClosed → cfg.client = true) ∧
    Gave cfg T t0 t.now t.closer t.life.aborted t.life.closer

theorem gave_woken {cfg : Config} {T t0 now timer : Nat} {s s' : St} (h : Gave cfg T t0 now timer s.aborted s.closer)
    (hcl : s.closer = .waitClosed → cfg.client = true) (hnow : s.lost = true ∨ timer + T ≤ now) (he : s.closerWoken cfg = some s') :
    Gave cfg T t0 now now s'.aborted s'.closer := by
  unfold St.closerWoken at he
  split at he
  · rename_i hc
    rw [hc] at h
    split at he <;> cases he
    · rename_i hl
      exact finally_gave false h.1 (.inl hl)
    · rename_i hl
      have := hnow.resolve_left hl
      refine halfClose_gave h.1 ?_
      have := h.2
      rw [if_pos (hcl hc)]; omega
  · rename_i hc
    rw [hc] at h
    cases he
    refine finally_gave false h.1 (hnow.imp id fun hn => ?_)
    have := h.2.2
    rw [if_pos h.2.1]; omega
  · rename_i hc
    rw [hc] at h
    split at he <;> cases he
    · show s.aborted = true → _
      rw [h.1]; nofun
    · rename_i hl
      have := hnow.resolve_left hl
      unfold St.abort
      rw [if_neg hl]
      intro _
      have := h.2
      omega
  · rename_i hc
    rw [hc] at h
    cases he; exact h
  · cases he

theorem Patient.step {cfg : Config} {T δ t0 : Nat} {t t' : Timed} {e : Event} (hi : Inv t.life) (h : Patient cfg T t0 t)
    (hcalm : e ≠ .ev .cancelCloser) (hs : step cfg T δ t e = some t') : Patient cfg T t0 t' := by
  obtain ⟨hta, hnow, hclient, h⟩ := h
  cases e with
  | tick =>
    simp only [LegacyTimed.step] at hs
    split at hs
    · cases hs
    cases hs
    refine ⟨hta, Nat.le_succ_of_le hnow, hclient, ?_⟩
    dsimp only
    cases hcl : t.life.closer <;> simp only [hcl, Gave] at h ⊢ <;> first | exact h | (intro ha; have := h ha; omega)
  | ev e =>
    simp only [LegacyTimed.step] at hs
    split at hs
    case isFalse => cases hs
    rename_i hal
    split at hs
    · cases hs
    rename_i life hl
    cases hs
    obtain ⟨_, _, hk⟩ := transfer_keeps hi hl
    have hmoves := closer_moves hl
    refine ⟨hk hta, hnow, ?_, ?_⟩
    · dsimp only
      intro hw
      rcases hmoves with hm | hm
      · exact hclient (by rw [← hm]; exact hw)
      · rw [hw] at hm
        cases ho : t.life.closer <;> rw [ho] at hm <;> simp [Moves] at hm
        · exact hm
        · exact hm
    dsimp only
    by_cases hc : LegacyLife.isCloser e = false
    · have hne : t.life.closer ≠ .absent := by intro ha; rw [ha] at h; exact h
      rw [LegacyLife.step_closer hl hne hc, aborted_step hl hc]
      simp only [if_true]
      exact h
    -- a new timer starts
    have hgave : Gave cfg T t0 t.now t.now life.aborted life.closer → life.closer ≠ t.life.closer →
        Gave cfg T t0 t.now (if life.closer = t.life.closer then t.closer else t.now) life.aborted life.closer := by
      intro hg hne
      rw [if_neg hne]; exact hg
    have hchange : ∀ {s'}, t.life.closerWoken cfg = some s' → s'.closer ≠ t.life.closer := by
      intro s' hw heq
      have hm := woken_moves hw
      rw [heq] at hm
      unfold St.closerWoken at hw
      cases ho : t.life.closer <;> simp only [ho, Moves] at hm hw <;> simp at hm hw
    cases e with
    | cancelCloser => exact absurd rfl hcalm
    | closerRun =>
      simp only [LegacyLife.step, St.closerRun] at hl
      have hafter := afterTransfer_moves cfg t.life
      split at hl
      · rename_i ho
        rw [ho] at h
        split at hl <;> cases hl
        · refine hgave (afterTransfer_gave h hta hnow) ?_
          rw [ho]; grind
        · exact h
      · rename_i ho
        rw [ho] at h
        split at hl <;> cases hl
        refine hgave (afterTransfer_gave h hta hnow) ?_
        rw [ho]; grind
      · cases hl
    | closerLost =>
      simp only [LegacyLife.step] at hl
      split at hl
      · rename_i hlo
        exact hgave (gave_woken h hclient (.inl hlo) hl) (hchange hl)
      · cases hl
    | closerTimeout =>
      simp only [allowed, decide_eq_true_eq] at hal
      exact hgave (gave_woken h hclient (.inr hal) hl) (hchange hl)
    | _ => simp [LegacyLife.isCloser] at hc

theorem unaborted_run {cfg : Config} {T δ : Nat} : ∀ {es : List Event} {t t' : Timed}, Unaborted t.life → run cfg T δ t es = some t' →
    Unaborted t'.life
  | [], _, _, h, hr => by cases hr; exact h
  | e :: es, t, t', h, hr => by
    simp only [run] at hr
    split at hr
    · cases hr
    · rename_i u hu
      refine unaborted_run ?_ hr
      cases e with
      | tick => simp only [step] at hu; split at hu <;> cases hu; exact h
      | ev e =>
        simp only [step] at hu
        split at hu
        · split at hu
          · cases hu
          · rename_i hl
            cases hu; exact h.step hl
        · cases hu

theorem patient_run {cfg : Config} {T δ t0 : Nat} : ∀ {es : List Event} {t t' : Timed}, Inv t.life → Patient cfg T t0 t →
    .ev .cancelCloser ∉ es → run cfg T δ t es = some t' → Patient cfg T t0 t'
  | [], _, _, _, h, _, hr => by cases hr; exact h
  | e :: es, t, t', hi, h, hcalm, hr => by
    simp only [LegacyTimed.run] at hr
    split at hr
    · cases hr
    · rename_i u hu
      have hiu : Inv u.life := inv_run (cfg := cfg) (T := T) (δ := δ) (es := [e]) hi (by simp only [LegacyTimed.run, hu])
      exact patient_run hiu (h.step hi (fun he => hcalm (by rw [he]; exact .head _)) hu) (fun hm => hcalm (.tail _ hm)) hr

/-- **C104 patience**: if `transfer_data_task` still runs, the transport isn't aborted, so data isn't discarded, until `close_timeout`
elapsed as many times as the peer is given: a server waits for it after half-closing the connection, if it can, and after closing it;
a client waits for it once more before that. -/
theorem C104_patient (cfg : Config) (T δ : Nat) {pre es : List Event} {t t2 : Timed} (h : run cfg T δ {} pre = some t)
    (hs : t.life.transfer ≠ .absent) (hc : t.life.closer = .created ∨ t.life.closer = .waitTransfer)
    (hes : .ev .cancelCloser ∉ es) (hr : run cfg T δ t es = some t2) (ha : t2.life.aborted = true) :
    t.now + (if cfg.client then T else 0) + (if cfg.canWriteEof then T else 0) + T ≤ t2.now := by
  have hi : Inv t.life := inv_run LegacyLife.inv_init h
  have hu : Unaborted t.life := unaborted_run (show Unaborted {} from nofun) h
  have hna : t.life.aborted = false := by
    cases hx : t.life.aborted
    · rfl
    · rcases hu hx with ⟨x, h⟩ | ⟨x, h⟩ <;> rcases hc with h' | h' <;> rw [h] at h' <;> cases h'
  have hp : Patient cfg T t.now t :=
    ⟨hs, Nat.le_refl _, fun hw => by (rcases hc with h | h <;> rw [h] at hw <;> cases hw),
      by rcases hc with h | h <;> rw [h] <;> exact hna⟩
  obtain ⟨_, _, _, hg⟩ := patient_run hi hp hes hr
  cases hcl : t2.life.closer <;> simp only [hcl, Gave, ha] at hg
  case waitAbort => exact hg trivial
  case ended => exact hg trivial
  all_goals simp at hg

/-- Times when a call to `close()` at time `t0` waits for the peer -/
def CallPatient (T t0 : Nat) (t : Timed) (i : Nat) : Prop :=
  t0 ≤ t.now ∧ ∃ c, t.life.calls[i]? = some c ∧
    match c with
    | .closeStart | .closeWriting | .closeWaitTransfer true => t0 ≤ t.calls i
    | .closeWaitTransfer false => t0 + T ≤ t.now
    | _ => True

theorem CallPatient.step {cfg : Config} {T δ t0 i : Nat} {t t' : Timed} {e : Event} (h : CallPatient T t0 t i)
    (hs : step cfg T δ t e = some t') : CallPatient T t0 t' i := by
  obtain ⟨hnow, c, hc, h⟩ := h
  cases e with
  | tick =>
    simp only [LegacyTimed.step] at hs
    split at hs <;> cases hs
    refine ⟨Nat.le_succ_of_le hnow, c, hc, ?_⟩
    split at h
    all_goals first | exact h | (dsimp only; omega)
  | ev e =>
    simp only [LegacyTimed.step] at hs
    split at hs
    case isFalse => cases hs
    rename_i hal
    split at hs
    · cases hs
    rename_i life hl
    cases hs
    refine ⟨hnow, ?_⟩
    have htimer : t0 ≤ t.calls i → t0 ≤ if startsTimer t.life.calls[i]? life.calls[i]? then t.now else t.calls i := by
      intro h1; split <;> assumption
    have hnew : startsTimer t.life.calls[i]? life.calls[i]? = true →
        t0 ≤ if startsTimer t.life.calls[i]? life.calls[i]? then t.now else t.calls i := by
      intro h1; rw [if_pos h1]; exact hnow
    rcases call_keeps hl hc with h' | ⟨e', s1, c', rfl, hst, _, h'⟩
    · refine ⟨c, h', ?_⟩
      split at h
      all_goals first | exact htimer h | exact h
    · refine ⟨c', h', ?_⟩
      rcases callStep_moves hst with ⟨r, rfl⟩ | ⟨rfl, rfl⟩ | ⟨hco, rfl | ⟨rfl, htr⟩⟩ | ⟨rfl, rfl, hreq⟩ | ⟨⟨b, rfl⟩, rfl, htr⟩ |
        ⟨rfl, rfl⟩ | rfl | rfl
      · trivial
      · exact htimer h
      · exact hnew (by rcases hco with rfl | rfl <;> simp [startsTimer, hc, h'])
      · trivial
      · have : e' = .timeout := by cases e' <;> simp [St.callStep, St.closeEnd, St.shield] at hst ⊢ <;> grind
        subst this
        simp only [allowed, decide_eq_true_eq] at hal
        dsimp only at h ⊢
        omega
      · trivial
      · trivial
      · cases e' <;> simp [St.callStep, St.shield] at hst <;> grind
      · cases e' <;> simp [St.callStep] at hst <;> grind

theorem callPatient_run {cfg : Config} {T δ t0 i : Nat} : ∀ {es : List Event} {t t' : Timed}, CallPatient T t0 t i →
    run cfg T δ t es = some t' → CallPatient T t0 t' i
  | [], _, _, h, hr => by cases hr; exact h
  | e :: es, t, t', h, hr => by
    simp only [run] at hr
    split at hr
    · cases hr
    · rename_i u hu
      exact callPatient_run (h.step hu) hr

/-- **C104 close handshake**: `close()` cancels `transfer_data_task`, so it stops waiting for the close frame of the peer, only once
`close_timeout` elapsed. -/
theorem C104_waits (cfg : Config) (T δ : Nat) {es : List Event} {t t1 t2 : Timed} (hc : step cfg T δ t (.ev .close) = some t1)
    (hr : run cfg T δ t1 es = some t2) (hw : t2.life.calls[t.life.calls.length]? = some (.closeWaitTransfer false)) :
    t.now + T ≤ t2.now := by
  have h1 : CallPatient T t.now t1 t.life.calls.length := by
    simp only [step, allowed, if_true, LegacyLife.step, Option.some.injEq] at hc
    subst hc
    exact ⟨Nat.le_refl _, .closeStart, by simp, by simp [startsTimer]⟩
  obtain ⟨_, c, hc, h⟩ := callPatient_run h1 hr
  rw [hw] at hc
  cases hc
  exact h

/-- With a clock, the same executions as without -/
theorem C104_life (cfg : Config) (T δ : Nat) : ∀ {es : List Event} {t t' : Timed}, run cfg T δ t es = some t' →
    LegacyLife.run cfg t.life (es.filterMap fun e => match e with | .tick => none | .ev e => some e) = some t'.life
  | [], _, _, h => by cases h; rfl
  | .tick :: es, t, t', h => by
    simp only [run, step] at h
    split at h
    · cases h
    · rename_i u hu
      split at hu <;> cases hu
      have := C104_life (es := es) cfg T δ h
      exact this
  | .ev e :: es, t, t', h => by
    simp only [run, step] at h
    split at h
    · cases h
    · rename_i u hu
      split at hu
      case isFalse => cases hu
      split at hu
      · cases hu
      rename_i life hl
      cases hu
      simp only [List.filterMap_cons, LegacyLife.run, hl]
      exact C104_life cfg T δ h

/-- Example: against a peer that doesn't do anything and a transport that is slow to write, `close()` of a client ends after
exactly 5 times `close_timeout` and the time that asyncio takes to lose the connection, so the bound of `C104_close` can't be
smaller. -/
example : ∃ t t1 t2 t3, run ⟨true, true⟩ 2 1 {} [.ev .opened, .ev .closerRun, .tick] = some t ∧
    step ⟨true, true⟩ 2 1 t (.ev .close) = some t1 ∧
    run ⟨true, true⟩ 2 1 t1 [.ev (.call 0 .run), .ev .pause, .tick, .tick, .ev .resume, .ev (.call 0 (.drained true)), .tick, .tick,
      .ev (.call 0 .timeout), .ev .transferCancelled, .ev .closerRun, .ev (.call 0 .woken), .tick, .tick, .ev .closerTimeout,
      .tick, .tick, .ev .closerTimeout, .tick, .tick, .ev .closerTimeout, .tick] = some t2 ∧
    t2.now = t.now + 5 * 2 + 1 ∧ t2.life.aborted = true ∧ t2.life.calls = [.closeWaitCloser] ∧
    run ⟨true, true⟩ 2 1 t2 [.tick] = none ∧
    run ⟨true, true⟩ 2 1 t2 [.ev (.lost false), .ev .closerLost, .ev (.call 0 .woken)] = some t3 ∧
    t3.life.calls = [.ended .returned] := by
  refine ⟨_, _, _, _, rfl, rfl, rfl, rfl, rfl, rfl, rfl, rfl, rfl⟩

/-- Example for `C104_failed`: a server fails a connection, and the peer doesn't do anything: `close_connection_task` ends after twice
`close_timeout` and the time that asyncio takes to lose the connection. -/
example : ∃ t t2 t3, run ⟨false, true⟩ 2 1 {} [.ev .opened, .ev .closerRun, .tick, .ev (.fail 1011)] = some t ∧
    t.life.cancelReq = true ∧ t.life.transfer = .reading ∧
    run ⟨false, true⟩ 2 1 t [.ev .transferCancelled, .ev .closerRun, .tick, .tick, .ev .closerTimeout, .tick, .tick,
      .ev .closerTimeout, .tick] = some t2 ∧ t2.now = t.now + 2 * 2 + 1 ∧ t2.life.aborted = true ∧
    run ⟨false, true⟩ 2 1 t2 [.ev (.lost false), .ev .closerLost] = some t3 ∧ t3.life.closer = .ended false := by
  refine ⟨_, _, _, rfl, rfl, rfl, rfl, rfl, rfl, rfl, rfl⟩

/-- Example for `C104_patient` and `C104_waits`: a client, 3 times `close_timeout` -/
example : ∃ t t1 t2 t3, run ⟨true, true⟩ 2 1 {} [.ev .opened, .ev .closerRun, .tick] = some t ∧ t.life.closer = .waitTransfer ∧
    step ⟨true, true⟩ 2 1 t (.ev .close) = some t1 ∧
    run ⟨true, true⟩ 2 1 t1 [.ev (.call 0 .run), .ev (.call 0 (.drained true)), .tick, .tick, .ev (.call 0 .timeout)] = some t2 ∧
    t2.life.calls = [.closeWaitTransfer false] ∧ t2.now = t.now + 2 ∧
    run ⟨true, true⟩ 2 1 t1 [.ev (.call 0 .run), .ev (.fail 1011), .ev .transferCancelled, .ev .closerRun,
      .ev (.call 0 (.drained true)), .tick, .tick, .ev .closerTimeout, .tick, .tick, .ev .closerTimeout, .tick, .tick,
      .ev .closerTimeout] = some t3 ∧ t3.life.aborted = true ∧ t3.now = t.now + 3 * 2 := by
  refine ⟨_, _, _, _, rfl, rfl, rfl, rfl, rfl, rfl, rfl, rfl, rfl⟩

end WS.LegacyTimed
