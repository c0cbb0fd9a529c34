import Verif.Props.LegacySystem

/-!
# C102, continued: shutting down a legacy server with all its tasks ends
-/

namespace WS.LegacySystem

open LegacyLife (Call Config Ev)

/-! ## Specification -/

/-- What happens without anyone doing anything: steps of the library, including timeouts; asyncio loses a connection after
`transport.abort()`; connection handlers return; if `clients`, clients send their requests (which the server refuses, after
it's closed). -/
def Spec.Library (clients : Bool) (s : Sys) : Event → Prop
  | .stop | .snapshot | .tasksEnded | .handlersEnded => True
  | .conn _ .start | .conn _ .woken | .conn _ .returned | .conn _ .closed => True
  | .conn _ (.reject status) => clients = true ∧ status = 503
  | .conn i (.life e) =>
    LegacyLife.Spec.internal e = true ∨ e = .lost false ∧ ∃ c, s.conns[i]? = some c ∧ c.life.aborted = true
  | _ => False

/-- Executions that only contain these events -/
inductive Spec.Ends (cfg : Nat → Config) (clients : Bool) : Sys → List Event → Sys → Prop
  | nil (s : Sys) : Spec.Ends cfg clients s [] s
  | cons {s t u : Sys} {e : Event} {es : List Event} : Spec.Library clients s e → step cfg s e = some t →
      Spec.Ends cfg clients t es u → Spec.Ends cfg clients s (e :: es) u

/-- None of these events can happen. -/
def Spec.Stuck (cfg : Nat → Config) (clients : Bool) (s : Sys) : Prop :=
  ∀ e, Spec.Library clients s e → step cfg s e = none

/-- The opening handshake is in progress. -/
def Spec.Handshaking (s : Sys) (i : Nat) : Prop :=
  ∃ c, s.conns[i]? = some c ∧ (c.phase = .created ∨ c.phase = .handshake)

/-! ## Weights -/

def phaseWeight : LegacyHandler.Server.Phase → Nat
  | .created => 3
  | .handshake => 2
  | .refusing => 1
  | .running => 7
  | .closing _ => 1
  | .ended _ => 0

def lostWeight (s : LegacyLife.St) : Nat := if s.lost then 0 else 1

def connWeight (c : LegacyHandler.Server.St) : Nat := c.life.weight + phaseWeight c.phase + lostWeight c.life

def closerWeight (n : Nat) : Closer → Nat
  | .none => 4 + 5 * n
  | .created => 4 + 5 * n
  | .stopped => 3 + 5 * n
  | .closing _ => 2
  | .waiting _ => 1
  | .done => 0

def weight (s : Sys) : Nat := (s.conns.map connWeight).sum + closerWeight s.conns.length s.closer

theorem sum_set : ∀ {l : List LegacyHandler.Server.St} {i : Nat} {c c' : LegacyHandler.Server.St}, l[i]? = some c →
    ((l.set i c').map connWeight).sum + connWeight c = (l.map connWeight).sum + connWeight c'
  | [], _, _, _, h => by simp at h
  | x :: l, 0, c, c', h => by
    simp only [List.getElem?_cons_zero, Option.some.injEq] at h
    subst h
    simp only [List.set_cons_zero, List.map_cons, List.sum_cons]; omega
  | x :: l, i + 1, c, c', h => by
    have := sum_set (l := l) (i := i) (c := c) (c' := c') (by simpa using h)
    simp only [List.set_cons_succ, List.map_cons, List.sum_cons]; omega

theorem connWeight_le (c : LegacyHandler.Server.St) : connWeight c ≤ 18 + 5 * c.life.calls.length := by
  have h1 := c.life.weight_le
  have h2 : phaseWeight c.phase ≤ 7 := by unfold phaseWeight; split <;> omega
  have h3 : lostWeight c.life ≤ 1 := by unfold lostWeight; split <;> omega
  unfold connWeight; omega

theorem lost_kept {cfg : Config} {s s' : LegacyLife.St} {e : Ev} (h : LegacyLife.step cfg s e = some s') :
    lostWeight s' ≤ lostWeight s := by
  have hr : s.lost = true → s'.lost = true := by
    intro hl
    have hf := LegacyLife.fail_frame s
    have hi := LegacyLife.receive_frame s
    cases e with
    | call i e =>
      simp only [LegacyLife.step] at h
      split at h
      · cases h
      · split at h
        · cases h
        · next hs => cases h; exact (LegacyLife.callStep_frame hs).1.trans hl
    | receive i => simp only [LegacyLife.step] at h; grind
    | closerRun => simp only [LegacyLife.step] at h; exact (LegacyLife.closes_closerRun h).lost.trans hl
    | closerLost =>
      simp only [LegacyLife.step] at h
      rw [if_pos hl] at h
      exact (LegacyLife.closes_closerWoken h).lost.trans hl
    | closerTimeout => simp only [LegacyLife.step] at h; exact (LegacyLife.closes_closerWoken h).lost.trans hl
    | cancelCloser =>
      simp only [LegacyLife.step, LegacyLife.St.cancelCloser, LegacyLife.St.finally] at h; grind
    | _ => simp only [LegacyLife.step, LegacyLife.St.failTransfer] at h; grind
  unfold lostWeight
  cases hl : s.lost
  · split <;> simp
  · simp [hr hl]

theorem fail_weight (s : LegacyLife.St) (code : Nat) :
    (s.fail code).weight ≤ s.weight ∧ lostWeight (s.fail code) = lostWeight s := by
  have h1 := LegacyLife.fail_weight s code
  have h2 := LegacyLife.fail_frame s code
  constructor
  · unfold LegacyLife.St.weight; rw [h2.2.2.1, h2.2.2.2.1]; omega
  · unfold lostWeight; rw [h2.1]

theorem finish_weight (c : LegacyHandler.Server.St) (e : LegacyHandler.End) :
    connWeight (c.finish e) = c.life.weight + lostWeight c.life := by
  unfold LegacyHandler.Server.St.finish connWeight
  simp only [phaseWeight]
  split <;> rfl

theorem conn_weight {cfg : Config} {clients : Bool} {s : Sys} {i : Nat}
    {c c' : LegacyHandler.Server.St} {e : LegacyHandler.Server.Event} (hl : Spec.Library clients s (.conn i e))
    (h : LegacyHandler.Server.step cfg c e = some c') : connWeight c' < connWeight c := by
  cases e with
  | life e =>
    simp only [LegacyHandler.Server.step] at h
    split at h
    · split at h
      · cases h
      · next life hs =>
        cases h
        have hk := lost_kept hs
        rcases hl with hi | ⟨rfl, -⟩
        · have := LegacyLife.step_weight hs hi
          simp only [connWeight]; omega
        · simp only [LegacyLife.step] at hs
          split at hs
          · cases hs
          · next hn => cases hs; simp [connWeight, lostWeight, hn, LegacyLife.St.weight]
    · cases h
  | start =>
    simp only [LegacyHandler.Server.step] at h
    split at h <;> cases h
    next hp => simp [connWeight, hp, phaseWeight]
  | woken =>
    simp only [LegacyHandler.Server.step] at h
    split at h <;> cases h
    next hp => rw [finish_weight]; simp only [connWeight, hp.1, phaseWeight]; omega
  | returned =>
    simp only [LegacyHandler.Server.step, LegacyLife.step] at h
    split at h <;> cases h
    next hp =>
    simp only [connWeight, hp, phaseWeight, LegacyLife.St.weight, List.map_append, List.sum_append, List.map_cons,
      List.map_nil, List.sum_cons, List.sum_nil, LegacyLife.Call.weight, lostWeight]
    omega
  | closed =>
    simp only [LegacyHandler.Server.step] at h
    split at h
    · next k hp =>
      rw [Option.map_eq_some_iff] at h
      obtain ⟨e, -, rfl⟩ := h
      rw [finish_weight]; simp only [connWeight, hp, phaseWeight]; omega
    · cases h
  | reject status =>
    simp only [LegacyHandler.Server.step] at h
    split at h <;> cases h
    next hp =>
    have := fail_weight c.life 1006
    simp only [LegacyHandler.Server.St.reject, connWeight, hp, phaseWeight]
    omega
  | accept => cases hl
  | drop => cases hl
  | raised => cases hl
  | cancel => cases hl

theorem createTask_weight (l : List LegacyHandler.Server.St) :
    ((l.map createTask).map connWeight).sum ≤ (l.map connWeight).sum + 5 * l.length := by
  induction l with
  | nil => simp
  | cons c l ih =>
    have : connWeight (createTask c) ≤ connWeight c + 5 := by
      unfold createTask
      split
      · simp only [connWeight, LegacyLife.St.weight, List.map_append, List.sum_append, List.map_cons,
          List.map_nil, List.sum_cons, List.sum_nil, LegacyLife.Call.weight, lostWeight]
        omega
      · omega
    simp only [List.map_cons, List.sum_cons, List.length_cons]; omega

theorem step_weight {cfg : Nat → Config} {clients : Bool} {s s' : Sys} {e : Event} (hl : Spec.Library clients s e)
    (h : step cfg s e = some s') : weight s' < weight s := by
  cases e with
  | accept => cases hl
  | serverClose => cases hl
  | conn i e =>
    simp only [step] at h
    split at h
    · cases h
    · next c hc =>
      split at h
      · cases h
      · split at h
        · cases h
        · next c' hs =>
          cases h
          have h1 := conn_weight hl hs
          have h2 := sum_set (c' := c') hc
          simp only [weight, List.length_set]
          omega
  | stop =>
    simp only [step] at h
    split at h <;> cases h
    next hc => simp only [weight, hc, closerWeight]; omega
  | snapshot =>
    simp only [step] at h
    split at h <;> cases h
    next hc =>
    have := createTask_weight s.conns
    simp only [weight, hc, closerWeight]; omega
  | tasksEnded =>
    simp only [step] at h
    split at h
    · next hc =>
      split at h <;> cases h
      simp only [weight, hc, closerWeight]; omega
    · cases h
  | handlersEnded =>
    simp only [step] at h
    split at h
    · next hc =>
      split at h <;> cases h
      simp only [weight, hc, closerWeight]; omega
    · cases h

theorem ends_weight {cfg : Nat → Config} {clients : Bool} {s s' : Sys} {es : List Event}
    (h : Spec.Ends cfg clients s es s') : es.length + weight s' ≤ weight s := by
  induction h with
  | nil s => simp
  | cons hl hs _ ih => have := step_weight hl hs; simp only [List.length_cons]; omega

/-- **C102 shutdown is bounded**: whatever happened before, a bounded number of such events occur one after the other. -/
theorem C102_bounded (cfg : Nat → Config) (clients : Bool) {s s' : Sys} {es : List Event}
    (h : Spec.Ends cfg clients s es s') :
    es.length ≤ 4 + (s.conns.map fun c => 23 + 5 * c.life.calls.length).sum := by
  have h1 := ends_weight h
  have h2 : weight s ≤ 4 + (s.conns.map fun c => 23 + 5 * c.life.calls.length).sum := by
    have key : ∀ l : List LegacyHandler.Server.St,
        (l.map connWeight).sum + 5 * l.length ≤ (l.map fun c => 23 + 5 * c.life.calls.length).sum := by
      intro l
      induction l with
      | nil => simp
      | cons c l ih =>
        have := connWeight_le c
        simp only [List.map_cons, List.sum_cons, List.length_cons]; omega
    have := key s.conns
    have h3 : closerWeight s.conns.length s.closer ≤ 4 + 5 * s.conns.length := by
      unfold closerWeight; split <;> omega
    unfold weight; omega
  omega

/-! ## The end -/

/-- `close_connection` wasn't cancelled. -/
def Calm (s : LegacyLife.St) : Prop :=
  s.closer ≠ .ended true ∧ s.closer ≠ .waitClose true ∧ s.closer ≠ .waitAbort true

theorem calm_fail {s : LegacyLife.St} (v : Calm s) (code : Nat) : Calm (s.fail code) := by
  unfold Calm at v ⊢; unfold LegacyLife.St.fail; grind

theorem calm_step {cfg : Config} {s s' : LegacyLife.St} {e : Ev} (v : Calm s) (hne : e ≠ .cancelCloser)
    (h : LegacyLife.step cfg s e = some s') : Calm s' := by
  by_cases hx : LegacyLife.isCloser e = true
  · unfold Calm at v ⊢
    cases e <;> simp [LegacyLife.isCloser] at hx <;>
      simp only [LegacyLife.step, LegacyLife.St.closerRun, LegacyLife.St.closerWoken, LegacyLife.St.afterTransfer,
        LegacyLife.St.halfClose, LegacyLife.St.finally, LegacyLife.St.abort] at h <;> grind
  · by_cases ha : s.closer = .absent
    · have hf := calm_fail v
      cases e with
      | call i e =>
        simp only [LegacyLife.step] at h
        split at h
        · cases h
        · split at h
          · cases h
          · next hs =>
            cases h
            have := hf 1006
            unfold LegacyLife.St.callStep at hs
            unfold Calm at v this ⊢
            grind
      | receive i =>
        simp only [LegacyLife.step] at h
        unfold Calm at v hf ⊢
        cases i <;> simp only [LegacyLife.St.receive, LegacyLife.St.failTransfer] at h <;> grind
      | _ => first
          | simp [LegacyLife.isCloser] at hx; done
          | (simp only [LegacyLife.step, LegacyLife.St.failTransfer] at h; unfold Calm at v hf ⊢; grind)
    · unfold Calm
      rw [LegacyLife.step_closer h ha (by simpa using hx)]
      exact v

theorem calm_finish {c : LegacyHandler.Server.St} (v : Calm c.life) (e : LegacyHandler.End) : Calm (c.finish e).life := by
  unfold LegacyHandler.Server.St.finish
  simp only
  split <;> exact v

theorem calm_handler {cfg : Config} {c c' : LegacyHandler.Server.St} {e : LegacyHandler.Server.Event} (v : Calm c.life)
    (hne : e ≠ .life .cancelCloser) (h : LegacyHandler.Server.step cfg c e = some c') : Calm c'.life := by
  cases e with
  | life e =>
    simp only [LegacyHandler.Server.step] at h
    split at h
    · split at h
      · cases h
      · next hs => cases h; exact calm_step v (fun h => hne (by rw [h])) hs
    · cases h
  | start => simp only [LegacyHandler.Server.step] at h; split at h <;> cases h; exact v
  | accept =>
    simp only [LegacyHandler.Server.step] at h
    split at h
    · split at h
      · next hs => cases h; exact calm_step (e := .opened) v nofun hs
      · cases h; exact calm_fail v _
    · cases h
  | reject n => simp only [LegacyHandler.Server.step] at h; split at h <;> cases h; exact calm_fail v _
  | drop => simp only [LegacyHandler.Server.step] at h; split at h <;> cases h; exact calm_finish v _
  | woken => simp only [LegacyHandler.Server.step] at h; split at h <;> cases h; exact calm_finish v _
  | returned =>
    simp only [LegacyHandler.Server.step, LegacyLife.step] at h
    split at h <;> cases h
    exact v
  | raised =>
    simp only [LegacyHandler.Server.step] at h
    split at h <;> cases h
    apply calm_finish
    split
    · exact calm_fail v _
    · exact v
  | closed =>
    simp only [LegacyHandler.Server.step] at h
    split at h
    · rw [Option.map_eq_some_iff] at h
      obtain ⟨e, -, rfl⟩ := h
      exact calm_finish v _
    · cases h
  | cancel =>
    simp only [LegacyHandler.Server.step] at h
    split at h <;> cases h
    · exact v
    all_goals exact calm_finish v _

/-- Connections whose handlers the server waits for exist; `close_connection` isn't cancelled. -/
structure Sound (s : Sys) : Prop where
  ids : ∀ ids i, s.closer = .waiting ids → i ∈ ids → i < s.conns.length
  calm : ∀ c ∈ s.conns, Calm c.life

theorem Sound.step {cfg : Nat → Config} {s s' : Sys} {e : Event} (v : Sound s)
    (hne : ∀ i, e ≠ .conn i (.life .cancelCloser)) (h : step cfg s e = some s') : Sound s' := by
  cases e with
  | accept =>
    simp only [LegacySystem.step] at h
    cases h
    refine ⟨fun ids i hc hi => ?_, fun c hc => ?_⟩
    · have := v.ids ids i hc hi
      simp only [List.length_append]; omega
    · rcases List.mem_append.1 hc with hc | hc
      · exact v.calm c hc
      · cases List.mem_singleton.1 hc; exact ⟨nofun, nofun, nofun⟩
  | conn i e =>
    simp only [LegacySystem.step] at h
    split at h
    · cases h
    · next c hc =>
      split at h
      · cases h
      · split at h
        · cases h
        · next c' hs =>
          cases h
          refine ⟨fun ids i hc hi => by simp only [List.length_set]; exact v.ids ids i hc hi, fun x hx => ?_⟩
          rcases List.mem_or_eq_of_mem_set hx with hx | rfl
          · exact v.calm x hx
          · exact calm_handler (v.calm c (List.mem_of_getElem? hc)) (fun h => hne i (by rw [h])) hs
  | serverClose =>
    simp only [LegacySystem.step] at h
    split at h <;> cases h
    · exact ⟨nofun, v.calm⟩
    · exact v
  | stop =>
    simp only [LegacySystem.step] at h
    split at h <;> cases h
    exact ⟨nofun, v.calm⟩
  | snapshot =>
    simp only [LegacySystem.step] at h
    split at h <;> cases h
    refine ⟨nofun, fun c hc => ?_⟩
    obtain ⟨c0, hc0, rfl⟩ := List.mem_map.1 hc
    have := v.calm c0 hc0
    unfold createTask
    split <;> exact this
  | tasksEnded =>
    simp only [LegacySystem.step] at h
    split at h
    · split at h <;> cases h
      refine ⟨fun ids i hc hi => ?_, v.calm⟩
      cases hc
      obtain ⟨c, hc, -⟩ := mem_websockets.1 hi
      exact (List.getElem?_eq_some_iff.1 hc).1
    · cases h
  | handlersEnded =>
    simp only [LegacySystem.step] at h
    split at h
    · split at h <;> cases h
      exact ⟨nofun, v.calm⟩
    · cases h

theorem Sound.run {cfg : Nat → Config} : ∀ {es : List Event} {s s' : Sys}, Sound s →
    (∀ i, Event.conn i (.life .cancelCloser) ∉ es) → run cfg s es = some s' → Sound s'
  | [], _, _, v, _, h => by cases h; exact v
  | e :: es, s, s', v, hne, h => by
    simp only [LegacySystem.run] at h
    split at h
    · cases h
    · next s1 h1 =>
      exact (v.step (fun i he => hne i (by simp [he])) h1).run (fun i hi => hne i (by simp [hi])) h

theorem library_calm {clients : Bool} {s : Sys} {e : Event} (h : Spec.Library clients s e) (i : Nat) :
    e ≠ .conn i (.life .cancelCloser) := by
  rintro rfl
  rcases h with h | ⟨h, -⟩ <;> cases h

theorem sys_run_append {cfg : Nat → Config} : ∀ {es es' : List Event} {s s1 s' : Sys}, run cfg s es = some s1 →
    run cfg s1 es' = some s' → run cfg s (es ++ es') = some s'
  | [], _, _, _, _, h, h' => by cases h; exact h'
  | e :: es, es', s, s1, s', h, h' => by
    simp only [run, List.cons_append] at h ⊢
    split at h
    · cases h
    · exact sys_run_append h h'

theorem ends_run {cfg : Nat → Config} {clients : Bool} {s s' : Sys} {es : List Event} (h : Spec.Ends cfg clients s es s') :
    run cfg s es = some s' ∧ ∀ i, Event.conn i (.life .cancelCloser) ∉ es := by
  induction h with
  | nil s => exact ⟨rfl, by simp⟩
  | cons hl hs _ ih =>
    refine ⟨by simp only [run, hs]; exact ih.1, fun i hi => ?_⟩
    rcases List.mem_cons.1 hi with h | h
    · exact library_calm hl i h.symm
    · exact ih.2 i h

theorem started_step {cfg : Nat → Config} {s s' : Sys} {e : Event} (h : step cfg s e = some s') (hn : s.closer ≠ .none) :
    s'.closer ≠ .none := by
  cases e <;> simp only [step] at h <;> (repeat' split at h) <;> cases h <;> first | exact hn | nofun

theorem ends_started {cfg : Nat → Config} {clients : Bool} {s s' : Sys} {es : List Event}
    (h : Spec.Ends cfg clients s es s') (hn : s.closer ≠ .none) : s'.closer ≠ .none := by
  induction h with
  | nil s => exact hn
  | cons _ hs _ ih => exact ih (started_step hs hn)

theorem stuck_done {cfg : Nat → Config} {clients : Bool} {pre : List Event} {s : Sys} (hp : run cfg {} pre = some s)
    (hcalm : ∀ i, Event.conn i (.life .cancelCloser) ∉ pre) (hn : s.closer ≠ .none) (hs : Spec.Stuck cfg clients s)
    (hb : clients = true ∨ ∀ i, ¬ Spec.Handshaking s i) : s.closer = .done := by
  have v := Sound.run (s := {}) ⟨(fun _ _ h => by cases h), fun _ h => by cases h⟩ hcalm hp
  have w := (each_init cfg).run hp
  cases hc : s.closer with
  | none => exact absurd hc hn
  | created => have := hs .stop trivial; simp [step, hc] at this
  | stopped => have := hs .snapshot trivial; simp [step, hc] at this
  | closing ts =>
    obtain ⟨s', h⟩ := C102_tasks_end cfg hp hc fun i e he => hs (.conn i (.life e)) (.inl he)
    rw [hs .tasksEnded trivial] at h
    cases h
  | waiting ids =>
    exfalso
    have hall : ids.all s.handlerEnded = true := by
      rw [List.all_eq_true]
      intro i hi
      have hlt := v.ids ids i hc hi
      have hci := List.getElem?_eq_getElem hlt
      generalize s.conns[i] = c at hci
      have hno : ∀ e, Spec.Library clients s (.conn i e) → e ≠ .accept → LegacyHandler.Server.step (cfg i) c e = none := by
        intro e he hne
        have := hs _ he
        simp only [step, hci] at this
        rw [if_neg (fun h => hne h.1)] at this
        cases hx : LegacyHandler.Server.step (cfg i) c e with
        | none => rfl
        | some c' => simp [hx] at this
      obtain ⟨es', hr⟩ := w.reach i c hci
      simp only [Sys.handlerEnded, hci]
      cases hph : c.phase with
      | ended e => rfl
      | created =>
        have := hno .start trivial nofun
        simp [LegacyHandler.Server.step, hph] at this
      | handshake =>
        rcases hb with hb | hb
        · have := hno (.reject 503) ⟨hb, rfl⟩ nofun
          simp [LegacyHandler.Server.step, hph] at this
        · exact absurd ⟨c, hci, .inr hph⟩ (hb i)
      | refusing =>
        have hst : LegacyLife.Spec.Stuck (cfg i) c.life := by
          intro e he
          have := hno (.life e) (.inl he) nofun
          have ha : LegacyHandler.allowed (decide (c.phase = .created ∨ c.phase = .handshake)) e = true := by
            rw [decide_eq_false (by simp [hph])]
            cases e with
            | call j e => cases e <;> rfl
            | _ => first | rfl | (cases he; done)
          simp only [LegacyHandler.Server.step, ha, if_true] at this
          cases hx : LegacyLife.step (cfg i) c.life e with
          | none => rfl
          | some l => simp [hx] at this
        obtain ⟨h1, h2⟩ := LegacyHandler.Server.C87_refused hr hph
        have hlost : c.life.lost = true := by
          obtain ⟨x, hx, hy⟩ := h1 hst
          cases x with
          | true => exact absurd hx (v.calm c (List.mem_of_getElem? hci)).1
          | false =>
            rcases hy rfl with h | h
            · exact h
            · have := hno (.life (.lost false)) (.inr ⟨rfl, c, hci, h⟩) nofun
              cases hl : c.life.lost with
              | true => rfl
              | false =>
                simp [LegacyHandler.Server.step, LegacyHandler.allowed, LegacyLife.step, hl] at this
        obtain ⟨s', hs', -⟩ := h2 hlost
        rw [hno .woken trivial nofun] at hs'
        cases hs'
      | running =>
        have := hno .returned trivial nofun
        simp [LegacyHandler.Server.step, LegacyLife.step, hph] at this
      | closing k =>
        obtain ⟨s', h, -⟩ := C102_handlers_end cfg hp hci hph fun e he => hs (.conn i (.life e)) (.inl he)
        rw [hs (.conn i .closed) trivial] at h
        cases h
    have := hs .handlersEnded trivial
    simp [step, hc, hall] at this
  | done => rfl

theorem handler_opening {cfg : Config} {c c' : LegacyHandler.Server.St} {e : LegacyHandler.Server.Event}
    (h : LegacyHandler.Server.step cfg c e = some c') (hp : c'.phase = .created ∨ c'.phase = .handshake) :
    c.phase = .created ∨ c.phase = .handshake := by
  cases e with
  | life e =>
    simp only [LegacyHandler.Server.step] at h
    split at h
    · split at h <;> cases h
      exact hp
    · cases h
  | closed =>
    simp only [LegacyHandler.Server.step] at h
    split at h
    · rw [Option.map_eq_some_iff] at h
      obtain ⟨e, -, rfl⟩ := h
      simp [LegacyHandler.Server.St.finish] at hp
    · cases h
  | _ =>
    simp only [LegacyHandler.Server.step] at h
    (repeat' split at h) <;> cases h <;>
      first
        | exact .inl ‹_›
        | exact .inr ‹_›
        | simp [LegacyHandler.Server.St.finish] at hp

theorem handshaking_step {cfg : Nat → Config} {s s' : Sys} {e : Event} {clients : Bool} (hl : Spec.Library clients s e)
    (h : step cfg s e = some s') (hn : ∀ i, ¬ Spec.Handshaking s i) : ∀ i, ¬ Spec.Handshaking s' i := by
  rintro j ⟨x, hx, hp⟩
  cases e with
  | accept => cases hl
  | serverClose => cases hl
  | conn i e =>
    simp only [step] at h
    split at h
    · cases h
    · next c hc =>
      split at h
      · cases h
      · split at h
        · cases h
        · next c' hs =>
          cases h
          by_cases hij : i = j
          · subst hij
            simp only at hx
            rw [List.getElem?_set_self (List.getElem?_eq_some_iff.1 hc).1] at hx
            cases hx
            exact hn i ⟨c, hc, handler_opening hs hp⟩
          · simp only at hx
            rw [List.getElem?_set_ne hij] at hx
            exact hn j ⟨x, hx, hp⟩
  | snapshot =>
    simp only [step] at h
    split at h <;> cases h
    simp only [List.getElem?_map, Option.map_eq_some_iff] at hx
    obtain ⟨c, hc, rfl⟩ := hx
    refine hn j ⟨c, hc, ?_⟩
    unfold createTask at hp
    split at hp <;> exact hp
  | stop =>
    simp only [step] at h
    split at h <;> cases h
    exact hn j ⟨x, hx, hp⟩
  | _ =>
    simp only [step] at h
    split at h
    · split at h <;> cases h
      exact hn j ⟨x, hx, hp⟩
    · cases h

theorem ends_handshaking {cfg : Nat → Config} {clients : Bool} {s s' : Sys} {es : List Event}
    (h : Spec.Ends cfg clients s es s') (hn : ∀ i, ¬ Spec.Handshaking s i) : ∀ i, ¬ Spec.Handshaking s' i := by
  induction h with
  | nil s => exact hn
  | cons hl hs _ ih => exact ih (handshaking_step hl hs hn)

/-- **C102 shutdown ends**: once `close()` was called, when nothing more happens, `wait_closed()` returned, provided that clients
send their requests, or that no opening handshake is in progress, and that nobody cancels `close_connection_task`.  Connection
handlers are assumed to return.  Clients don't have to take part in closing handshakes.

Missing: clients that don't send a request; see `C100_silent_false`. -/
theorem C102_ends_partial (cfg : Nat → Config) (clients : Bool) {pre es : List Event} {s s' : Sys}
    (hp : run cfg {} pre = some s) (hcalm : ∀ i, Event.conn i (.life .cancelCloser) ∉ pre) (hclose : s.closer ≠ .none)
    (hb : clients = true ∨ ∀ i, ¬ Spec.Handshaking s i) (h : Spec.Ends cfg clients s es s')
    (hs : Spec.Stuck cfg clients s') : s'.closer = .done := by
  obtain ⟨hr, hc⟩ := ends_run h
  refine stuck_done (sys_run_append hp hr) (fun i hi => ?_) (ends_started h hclose) hs (hb.imp id (ends_handshaking h))
  rcases List.mem_append.1 hi with hi | hi
  · exact hcalm i hi
  · exact hc i hi

/-- **C102 shutdown**: under the same conditions, whatever happens, the server can always go on until `wait_closed()` returns. -/
theorem C102_reaches_partial (cfg : Nat → Config) (clients : Bool) {pre : List Event} {s : Sys}
    (hp : run cfg {} pre = some s) (hcalm : ∀ i, Event.conn i (.life .cancelCloser) ∉ pre) (hclose : s.closer ≠ .none)
    (hb : clients = true ∨ ∀ i, ¬ Spec.Handshaking s i) :
    ∃ es s', Spec.Ends cfg clients s es s' ∧ s'.closer = .done := by
  have key : ∀ (n : Nat) (t : Sys), weight t ≤ n → ∃ es s', Spec.Ends cfg clients t es s' ∧ Spec.Stuck cfg clients s' := by
    intro n
    induction n with
    | zero =>
      intro t hw
      refine ⟨[], t, .nil t, fun e hl => ?_⟩
      cases hst : step cfg t e with
      | none => rfl
      | some t1 => exact absurd (step_weight hl hst) (by omega)
    | succ n ih =>
      intro t hw
      by_cases hs : Spec.Stuck cfg clients t
      · exact ⟨[], t, .nil t, hs⟩
      · simp only [Spec.Stuck, Classical.not_forall] at hs
        obtain ⟨e, hl, hst⟩ := hs
        obtain ⟨t1, ht1⟩ := Option.ne_none_iff_exists'.1 hst
        have := step_weight hl ht1
        obtain ⟨es, s', hr, hd⟩ := ih t1 (by omega)
        exact ⟨e :: es, s', .cons hl ht1 hr, hd⟩
  obtain ⟨es, s', h, hs⟩ := key _ s (Nat.le_refl _)
  exact ⟨es, s', h, C102_ends_partial cfg clients hp hcalm hclose hb h hs⟩

/-! ## Clients that don't send a request -/

/-- A client connects and doesn't send a request; the server is closed. -/
def silentEvents : List Event :=
  [.accept, .conn 0 .start, .serverClose, .stop, .snapshot, .conn 0 (.life (.call 0 .run)), .tasksEnded]

/-- **C102, the claim that fails**: if clients don't have to send a request, the server may wait forever. -/
theorem C102_silent_false :
    ¬ ∀ (cfg : Nat → Config) (pre es : List Event) (s s' : Sys), run cfg {} pre = some s →
      (∀ i, Event.conn i (.life .cancelCloser) ∉ pre) → s.closer ≠ .none → Spec.Ends cfg false s es s' →
      Spec.Stuck cfg false s' → s'.closer = .done := by
  intro h
  have h2 := h (fun _ => ⟨false, false⟩) silentEvents [] _ _ rfl (by simp [silentEvents]) (by nofun) (.nil _) ?_
  · cases h2
  intro e hl
  match e with
  | .accept | .serverClose => exact hl.elim
  | .stop | .snapshot | .tasksEnded | .handlersEnded => rfl
  | .conn (i + 1) e => rfl
  | .conn 0 .start | .conn 0 .woken | .conn 0 .returned | .conn 0 .closed => rfl
  | .conn 0 .accept | .conn 0 .drop | .conn 0 .raised | .conn 0 .cancel => exact hl.elim
  | .conn 0 (.reject _) => exact absurd hl.1 (by nofun)
  | .conn 0 (.life e) =>
    rcases hl with hl | ⟨rfl, c, hc, ha⟩
    · match e with
      | .transferDrained true | .transferDrained false | .transferWoken | .transferCancelled | .closerRun | .closerLost
      | .closerTimeout => rfl
      | .call 0 e => cases e <;> first | rfl | cases hl
      | .call (i + 1) e => cases e <;> first | rfl | cases hl
      | .opened | .refused | .fail _ | .receive _ | .room | .cancelTransfer | .cancelCloser | .transportClosing | .lost _
      | .pause | .resume | .close | .ensure | .write => cases hl
    · cases hc; cases ha

/-! ## Example -/

/-- The first client doesn't take part in the closing handshake: timeouts elapse. -/
def exampleTimeouts : List Event :=
  [.snapshot, .conn 0 (.life (.call 0 .run)), .conn 1 (.life (.call 0 .run)), .conn 0 (.life (.call 0 .timeout)),
   .conn 0 (.life (.call 0 .timeout)), .conn 0 (.life .transferCancelled), .conn 0 (.life (.call 0 .woken)),
   .conn 0 (.life .closerRun), .conn 0 (.life .closerTimeout), .conn 0 (.life (.lost false)),
   .conn 0 (.life .closerLost), .conn 0 (.life (.call 0 .woken)), .tasksEnded]

-- the server of `Verif.Props.LegacySystem`: a connection is open; the client of the other one hasn't sent its request
example : ∃ s s', let cfg := fun _ => (⟨false, false⟩ : Config)
    run cfg {} exampleBefore = some s ∧ s.closer = .stopped ∧ Spec.Handshaking s 1 ∧
    run cfg s exampleTimeouts = some s' ∧ s'.closer = .waiting [0, 1] ∧ Spec.Ends cfg true s exampleTimeouts s' ∧
    ∃ es s'', Spec.Ends cfg true s' es s'' ∧ s''.closer = .done := by
  refine ⟨_, _, rfl, rfl, ⟨_, rfl, .inr rfl⟩, rfl, rfl, ?_, ?_⟩
  · exact .cons trivial rfl <| .cons (.inl rfl) rfl <| .cons (.inl rfl) rfl <| .cons (.inl rfl) rfl <|
      .cons (.inl rfl) rfl <| .cons (.inl rfl) rfl <| .cons (.inl rfl) rfl <| .cons (.inl rfl) rfl <|
      .cons (.inl rfl) rfl <| .cons (.inr ⟨rfl, _, rfl, rfl⟩) rfl <| .cons (.inl rfl) rfl <| .cons (.inl rfl) rfl <|
      .cons trivial rfl <| .nil _
  · exact C102_reaches_partial _ true (pre := exampleBefore ++ exampleTimeouts) rfl
      (by simp [exampleBefore, exampleTimeouts]) (by nofun) (.inl rfl)

end WS.LegacySystem
