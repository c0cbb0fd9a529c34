import Verif.Model.LegacyServe
import Verif.Props.LegacySystemEnds

/-!
# C103: `async with serve(...)` starts a server and shuts it down
-/

namespace WS.LegacyServe

open LegacyLife (Config)
open LegacySystem (Sys)

/-! ## Specification -/

/-- What the `WebSocketServer` does -/
def Spec.server : Event → Option LegacySystem.Event
  | .leave _ => some .serverClose
  | .sys e => some e
  | _ => none

/-- The `Serve` object was entered once at most. -/
def Spec.Once (s : St) : Prop := s.users.length ≤ 1

/-- Executions in which tasks of the library aren't cancelled, as in C102 -/
inductive Spec.Steps (cfg : Nat → Config) : St → St → Prop
  | refl (s : St) : Spec.Steps cfg s s
  | step {s t u : St} {e : Event} : Spec.Steps cfg s t →
      (∀ e', Spec.server e = some e' → LegacySystem.Spec.Ordinary t.sys e') → step cfg t e = some u → Spec.Steps cfg s u

/-! ## Invariants -/

/-- Before `wrap` -/
def Unused (s : St) : Prop :=
  s.wrapped = none ∧ s.sys = {} ∧
  (s.users = [] ∧ s.servers = [] ∨ s.users = [.creating 0] ∧ s.servers = [true] ∨ s.users = [.interrupted])

/-- After `wrap` -/
structure Used (s : St) : Prop where
  wrapped : s.wrapped = some 0
  servers : s.servers = [s.sys.serving]
  serving : s.sys.serving = true ↔ s.sys.closer = .none ∨ s.sys.closer = .created
  user : ∃ u, s.users = [u] ∧ (∀ k, u ≠ .creating k) ∧ (u = .leaving → s.sys.closer ≠ .none) ∧
    (u = .ended → s.sys.closer = .done)

def Inv (cfg : Nat → Config) (es : List Event) (s : St) : Prop :=
  Spec.Once s → (Unused s ∨ Used s) ∧ LegacySystem.run cfg {} (es.filterMap Spec.server) = some s.sys

/-- How `close_task` and `is_serving()` change -/
theorem sys_step {cfg : Nat → Config} {s s' : Sys} {e : LegacySystem.Event} (h : LegacySystem.step cfg s e = some s') :
    (s.closer = .done → s'.closer = .done) ∧ (s.closer ≠ .none → s'.closer ≠ .none) ∧
    ((s.serving = true ↔ s.closer = .none ∨ s.closer = .created) →
      (s'.serving = true ↔ s'.closer = .none ∨ s'.closer = .created)) ∧
    (s'.serving = match (generalizing := false) e with | .stop => false | _ => s.serving) := by
  cases e with
  | accept => cases h; exact ⟨id, id, id, rfl⟩
  | conn i e =>
    simp only [LegacySystem.step] at h
    repeat' split at h
    all_goals first | (cases h; done) | (cases h; exact ⟨id, id, id, rfl⟩)
  | serverClose =>
    simp only [LegacySystem.step] at h
    split at h <;> rename_i hc <;> cases h
    · exact ⟨fun hd => (by rw [hc] at hd; cases hd), fun _ => (by nofun), fun hs => by simpa [hc] using hs, rfl⟩
    · exact ⟨id, id, id, rfl⟩
  | stop =>
    simp only [LegacySystem.step] at h
    split at h <;> rename_i hc <;> cases h
    exact ⟨fun hd => (by rw [hc] at hd; cases hd), fun _ => (by nofun), fun _ => by simp, rfl⟩
  | snapshot =>
    simp only [LegacySystem.step] at h
    split at h <;> rename_i hc <;> cases h
    exact ⟨fun hd => (by rw [hc] at hd; cases hd), fun _ => (by nofun), fun hs => by simpa [hc] using hs, rfl⟩
  | tasksEnded =>
    simp only [LegacySystem.step] at h
    split at h <;> rename_i hc
    · split at h <;> cases h
      exact ⟨fun hd => (by rw [hc] at hd; cases hd), fun _ => (by nofun), fun hs => by simpa [hc] using hs, rfl⟩
    · cases h
  | handlersEnded =>
    simp only [LegacySystem.step] at h
    split at h <;> rename_i hc
    · split at h <;> cases h
      exact ⟨fun _ => rfl, fun _ => (by nofun), fun hs => by simpa [hc] using hs, rfl⟩
    · cases h

theorem users_grow {cfg : Nat → Config} {s s' : St} {e : Event} (h : step cfg s e = some s') :
    s.users.length ≤ s'.users.length := by
  cases e <;> simp only [step] at h <;> repeat' split at h
  all_goals first | (cases h; done) | (cases h; simp)

theorem inv_step {cfg : Nat → Config} {es : List Event} {s s' : St} {e : Event} (hi : Inv cfg es s)
    (h : step cfg s e = some s') : Inv cfg (es ++ [e]) s' := by
  intro ho
  have hlen := users_grow h
  obtain ⟨hk, hr⟩ := hi (by unfold Spec.Once at ho ⊢; omega)
  rw [List.filterMap_append]
  cases e with
  | enter =>
    cases h
    simp only [List.filterMap_cons, Spec.server, List.filterMap_nil, List.append_nil]
    refine ⟨?_, hr⟩
    simp only [Spec.Once, List.length_append, List.length_singleton] at ho
    rcases hk with ⟨hw, hs, hu | hu | hu⟩ | hk
    · exact .inl ⟨hw, hs, .inr (.inl ⟨by simp [hu.1, hu.2], by simp [hu.2]⟩)⟩
    · simp [hu.1] at ho
    · simp [hu] at ho
    · obtain ⟨u, hu, _⟩ := hk.user
      simp [hu] at ho
  | refused =>
    cases h
    simp only [List.filterMap_cons, Spec.server, List.filterMap_nil, List.append_nil]
    refine ⟨?_, hr⟩
    simp only [Spec.Once, List.length_append, List.length_singleton] at ho
    rcases hk with ⟨hw, hs, hu | hu | hu⟩ | hk
    · exact .inl ⟨hw, hs, .inr (.inr (by simp [hu.1]))⟩
    · simp [hu.1] at ho
    · simp [hu] at ho
    · obtain ⟨u, hu, _⟩ := hk.user
      simp [hu] at ho
  | entered u =>
    simp only [List.filterMap_cons, Spec.server, List.filterMap_nil, List.append_nil]
    simp only [step] at h
    split at h
    · rename_i k hu
      cases h
      rcases hk with ⟨hw, hs, hc | hc | hc⟩ | hk
      · simp [hc.1] at hu
      · have hu0 : u = 0 := by
          have := (List.getElem?_eq_some_iff.1 hu).1
          simp [hc.1] at this; exact this
        subst hu0
        simp only [hc.1, List.getElem?_cons_zero, Option.some.injEq, User.creating.injEq] at hu
        subst hu
        have hsv : ({ s.sys with serving := s.servers.getD 0 false } : Sys) = s.sys := by
          rw [hs, hc.2]; rfl
        simp only [hsv]
        refine ⟨.inr ⟨rfl, by simp [hc.2, hs], by simp [hs], .body, by simp [hc.1], by simp, by simp, by simp⟩, hr⟩
      · have := (List.getElem?_eq_some_iff.1 hu).1
        simp only [hc, List.length_singleton, Nat.lt_one_iff] at this
        subst this
        simp [hc] at hu
      · obtain ⟨u', hu', hn, _⟩ := hk.user
        have := (List.getElem?_eq_some_iff.1 hu).1
        simp only [hu', List.length_singleton, Nat.lt_one_iff] at this
        subst this
        simp only [hu', List.getElem?_cons_zero, Option.some.injEq] at hu
        exact absurd hu (hn k)
    · cases h
  | leave u =>
    simp only [List.filterMap_cons, Spec.server, List.filterMap_nil]
    simp only [step] at h
    split at h
    · rename_i hu
      split at h
      · cases h
      · rename_i sys hst
        cases h
        refine ⟨.inr ?_, LegacySystem.sys_run_append hr (by simp only [LegacySystem.run, hst])⟩
        rcases hk with ⟨hw, hs, hc | hc | hc⟩ | hk
        · simp [hc.1] at hu
        · have := (List.getElem?_eq_some_iff.1 hu).1
          simp only [hc.1, List.length_singleton, Nat.lt_one_iff] at this
          subst this
          simp [hc.1] at hu
        · have := (List.getElem?_eq_some_iff.1 hu).1
          simp only [hc, List.length_singleton, Nat.lt_one_iff] at this
          subst this
          simp [hc] at hu
        · obtain ⟨u', hu', hn, _⟩ := hk.user
          have := (List.getElem?_eq_some_iff.1 hu).1
          simp only [hu', List.length_singleton, Nat.lt_one_iff] at this
          subst this
          obtain ⟨h1, h2, h3, h4⟩ := sys_step hst
          refine ⟨hk.wrapped, by rw [hk.servers, h4], h3 hk.serving, .leaving, by simp [hu'], by simp, fun _ => ?_, by simp⟩
          simp only [LegacySystem.step] at hst
          split at hst <;> rename_i hcl <;> cases hst
          · nofun
          · exact hcl
    · cases h
  | left u =>
    simp only [List.filterMap_cons, Spec.server, List.filterMap_nil, List.append_nil]
    simp only [step] at h
    split at h
    · rename_i hu
      split at h
      · rename_i hd
        cases h
        refine ⟨.inr ?_, hr⟩
        rcases hk with ⟨hw, hs, hc⟩ | hk
        · rw [hs] at hd; cases hd
        · obtain ⟨u', hu', hn, _⟩ := hk.user
          have := (List.getElem?_eq_some_iff.1 hu).1
          simp only [hu', List.length_singleton, Nat.lt_one_iff] at this
          subst this
          exact ⟨hk.wrapped, hk.servers, hk.serving, .ended, by simp [hu'], by simp, by simp, fun _ => hd⟩
      · cases h
    · cases h
  | cancel u =>
    simp only [List.filterMap_cons, Spec.server, List.filterMap_nil, List.append_nil]
    have key : s.users[u]? ≠ none → Unused { s with users := s.users.set u .interrupted } ∨
        Used { s with users := s.users.set u .interrupted } := by
      intro hu
      have hlt : u < s.users.length := by simpa using hu
      rcases hk with ⟨hw, hs, hc⟩ | hk
      · refine .inl ⟨hw, hs, .inr (.inr ?_)⟩
        rcases hc with hc | hc | hc
        · simp [hc.1] at hlt
        · simp only [hc.1, List.length_singleton, Nat.lt_one_iff] at hlt
          subst hlt; simp [hc.1]
        · simp only [hc, List.length_singleton, Nat.lt_one_iff] at hlt
          subst hlt; simp [hc]
      · obtain ⟨u', hu', hn, _⟩ := hk.user
        simp only [hu', List.length_singleton, Nat.lt_one_iff] at hlt
        subst hlt
        exact .inr ⟨hk.wrapped, hk.servers, hk.serving, .interrupted, by simp [hu'], by simp, by simp, by simp⟩
    simp only [step] at h
    split at h
    · rename_i hu; cases h; exact ⟨key (by simp [hu]), hr⟩
    · rename_i hu; cases h; exact ⟨key (by simp [hu]), hr⟩
    · cases h
  | sys e =>
    simp only [List.filterMap_cons, Spec.server, List.filterMap_nil]
    simp only [step] at h
    split at h
    · cases h
    · rename_i k hw
      split at h
      · cases h
      · rename_i sys hst
        cases h
        refine ⟨.inr ?_, LegacySystem.sys_run_append hr (by simp only [LegacySystem.run, hst])⟩
        rcases hk with ⟨hw', _⟩ | hk
        · rw [hw] at hw'; cases hw'
        · obtain ⟨u', hu', hn, hl, hd⟩ := hk.user
          obtain ⟨h1, h2, h3, h4⟩ := sys_step hst
          have hk0 : k = 0 := by have := hk.wrapped; rw [hw] at this; cases this; rfl
          subst hk0
          refine ⟨hw, ?_, h3 hk.serving, u', hu', hn, fun h => h2 (hl h), fun h => h1 (hd h)⟩
          show (match e with | .stop => s.servers.set 0 false | _ => s.servers) = _
          rw [h4, hk.servers]
          cases e <;> rfl

theorem inv_run {cfg : Nat → Config} : ∀ {es pre : List Event} {s s' : St}, Inv cfg pre s → run cfg s es = some s' →
    Inv cfg (pre ++ es) s'
  | [], pre, _, _, hi, h => by cases h; simpa using hi
  | e :: es, pre, s, s', hi, h => by
    simp only [run] at h
    split at h
    · cases h
    · rename_i t ht
      have := inv_run (inv_step hi ht) h
      simpa using this

theorem inv_reach {cfg : Nat → Config} {es : List Event} {s : St} (h : run cfg {} es = some s) : Inv cfg es s := by
  have := inv_run (pre := []) (fun _ => ⟨.inl ⟨rfl, rfl, .inl ⟨rfl, rfl⟩⟩, rfl⟩) h
  simpa using this

theorem serve_append {cfg : Nat → Config} : ∀ {es es' : List Event} {s s1 s' : St}, run cfg s es = some s1 →
    run cfg s1 es' = some s' → run cfg s (es ++ es') = some s'
  | [], _, _, _, _, h, h' => by cases h; exact h'
  | e :: es, es', s, s1, s', h, h' => by
    simp only [run, List.cons_append] at h ⊢
    split at h
    · cases h
    · rename_i ht
      exact serve_append h h'

/-- What a step does to the `WebSocketServer` -/
theorem step_server {cfg : Nat → Config} {pre : List Event} {s s' : St} {e : Event} (hr : run cfg {} pre = some s)
    (ho : Spec.Once s') (h : step cfg s e = some s') :
    s'.sys = s.sys ∨ ∃ e', Spec.server e = some e' ∧ LegacySystem.step cfg s.sys e' = some s'.sys := by
  cases e with
  | leave u =>
    simp only [step] at h
    split at h
    · split at h
      · cases h
      · rename_i hst
        cases h; exact .inr ⟨_, rfl, hst⟩
    · cases h
  | sys e =>
    simp only [step] at h
    split at h
    · cases h
    · split at h
      · cases h
      · rename_i hst
        cases h; exact .inr ⟨_, rfl, hst⟩
  | entered u =>
    have h1 := (inv_reach hr (by have := users_grow h; unfold Spec.Once at ho ⊢; omega)).2
    have h2 := (inv_reach (serve_append hr (es' := [.entered u]) (by simp only [run, h])) ho).2
    simp only [List.filterMap_append, List.filterMap_cons, Spec.server, List.filterMap_nil, List.append_nil] at h2
    rw [h1] at h2
    exact .inl (Option.some.inj h2).symm
  | enter | refused => cases h; exact .inl rfl
  | left u | cancel u =>
    simp only [step] at h
    repeat' split at h
    all_goals first | (cases h; done) | (cases h; exact .inl rfl)

theorem steps_users {cfg : Nat → Config} {s s' : St} (h : Spec.Steps cfg s s') : s.users.length ≤ s'.users.length := by
  induction h with
  | refl => exact Nat.le_refl _
  | step _ _ hs ih => exact Nat.le_trans ih (users_grow hs)

theorem steps_server {cfg : Nat → Config} {s s' : St} (h : Spec.Steps cfg s s') : ∀ {pre : List Event},
    run cfg {} pre = some s → Spec.Once s' →
    LegacySystem.Spec.Steps cfg s.sys s'.sys ∧ ∃ es, run cfg {} es = some s' := by
  induction h with
  | refl => exact fun hr _ => ⟨.refl _, _, hr⟩
  | @step t u e _ hord hs ih =>
    intro pre hr ho
    obtain ⟨h1, es, hes⟩ := ih hr (by have := users_grow hs; unfold Spec.Once at ho ⊢; omega)
    refine ⟨?_, _, serve_append hes (es' := [e]) (by simp only [run, hs])⟩
    rcases step_server hes ho hs with h | ⟨e', he, h⟩
    · rw [h]; exact h1
    · exact .step h1 (hord e' he) h

/-! ## Theorems -/

/-- **C103 one server**: if the `Serve` object is entered once, the `WebSocketServer` is the server of C102. -/
theorem C103_system (cfg : Nat → Config) {es : List Event} {s : St} (h : run cfg {} es = some s) (ho : Spec.Once s) :
    LegacySystem.run cfg {} (es.filterMap Spec.server) = some s.sys := (inv_reach h ho).2

/-- **C103 shut down**: after `async with serve(...)`, unless an exception interrupted `__aenter__` or `__aexit__`, shutting
down is complete and asyncio isn't listening.

Missing: `Serve` objects that are entered twice; see `C103_reuse_false`. -/
theorem C103_left_partial (cfg : Nat → Config) {es : List Event} {s : St} (h : run cfg {} es = some s) (ho : Spec.Once s)
    (he : User.ended ∈ s.users) : s.sys.closer = .done ∧ s.sys.serving = false ∧ ∀ b ∈ s.servers, b = false := by
  rcases (inv_reach h ho).1 with ⟨_, _, hu | hu | hu⟩ | hk
  · simp [hu.1] at he
  · simp [hu.1] at he
  · simp [hu] at he
  · obtain ⟨u, hu, _, _, hd⟩ := hk.user
    have hue : u = .ended := by simp only [hu, List.mem_singleton] at he; exact he.symm
    have hdone := hd hue
    have hs : s.sys.serving = false := by
      cases hs : s.sys.serving with
      | false => rfl
      | true => rcases hk.serving.1 hs with h | h <;> rw [hdone] at h <;> cases h
    exact ⟨hdone, hs, by rw [hk.servers, hs]; simp⟩

/-- **C103 connections**: moreover, the handlers of all connections made before the server waited for handlers have ended, and these
connections are closed, unless the task of their handler was cancelled. -/
theorem C103_closed_partial (cfg : Nat → Config) {s1 s2 s3 : St} (h1 : Spec.Steps cfg {} s1)
    (h2 : step cfg s1 (.sys .tasksEnded) = some s2) (h3 : Spec.Steps cfg s2 s3) (ho : Spec.Once s3)
    (he : User.ended ∈ s3.users) {i : Nat} (hi : i < s1.sys.conns.length) :
    ∃ c e, s3.sys.conns[i]? = some c ∧ c.phase = .ended e ∧ (LegacySystem.Spec.Closed c.life ∨ e = .cancelled) := by
  have ho2 : Spec.Once s2 := Nat.le_trans (steps_users h3) ho
  obtain ⟨hs1, es1, hr1⟩ := steps_server h1 (pre := []) rfl (Nat.le_trans (users_grow h2) ho2)
  have hr2 := serve_append hr1 (es' := [.sys .tasksEnded]) (s' := s2) (by simp only [run, h2])
  obtain ⟨hs3, es3, hr3⟩ := steps_server h3 hr2 ho
  have ht : LegacySystem.step cfg s1.sys .tasksEnded = some s2.sys := by
    simp only [step] at h2
    split at h2
    · cases h2
    · split at h2
      · cases h2
      · rename_i hst
        cases h2; exact hst
  exact LegacySystem.C102_shutdown cfg hs1 ht hs3 (C103_left_partial cfg hr3 ho he).1 hi

theorem closer_run {cfg : Nat → Config} : ∀ {es : List Event} {s s' : St}, run cfg s es = some s' →
    s.sys.closer ≠ .none → s'.sys.closer ≠ .none
  | [], _, _, h, hn => by cases h; exact hn
  | e :: es, s, s', h, hn => by
    simp only [run] at h
    split at h
    · cases h
    · rename_i t ht
      refine closer_run h ?_
      cases e with
      | enter | refused => cases ht; exact hn
      | entered u | left u | cancel u =>
        simp only [step] at ht
        repeat' split at ht
        all_goals first | (cases ht; done) | (cases ht; exact hn)
      | leave u =>
        simp only [step] at ht
        split at ht
        · split at ht
          · cases ht
          · rename_i hst
            cases ht; exact (sys_step hst).2.1 hn
        · cases ht
      | sys e =>
        simp only [step] at ht
        split at ht
        · cases ht
        · split at ht
          · cases ht
          · rename_i hst
            cases ht; exact (sys_step hst).2.1 hn

/-- **C103 leaving shuts down**: once the body of the statement ended, in any way, shutting down has started; cancelling the task
that waits, or anything else, doesn't prevent it from going on. -/
theorem C103_started (cfg : Nat → Config) {s s1 s2 : St} {u : Nat} {es : List Event} (h : step cfg s (.leave u) = some s1)
    (hr : run cfg s1 es = some s2) : s2.sys.closer ≠ .none := by
  refine closer_run hr ?_
  simp only [step] at h
  split at h
  · split at h
    · cases h
    · rename_i hst
      cases h
      simp only [LegacySystem.step] at hst
      split at hst <;> rename_i hcl <;> cases hst
      · nofun
      · exact hcl
  · cases h

theorem lift_ends {cfg : Nat → Config} {clients : Bool} {es : List LegacySystem.Event} {a b : Sys}
    (h : LegacySystem.Spec.Ends cfg clients a es b) : ∀ (s : St), s.sys = a → s.wrapped ≠ none →
    ∃ s', run cfg s (es.map .sys) = some s' ∧ s'.sys = b ∧ s'.users = s.users := by
  induction h with
  | nil a => exact fun s hs _ => ⟨s, rfl, hs, rfl⟩
  | @cons a b c e es _ hst _ ih =>
    intro s hs hw
    obtain ⟨k, hk⟩ := Option.ne_none_iff_exists'.1 hw
    subst hs
    obtain ⟨s', hr, hb, hu⟩ := ih { s with
      sys := b
      servers := match (generalizing := false) e with
        | .stop => s.servers.set k false
        | _ => s.servers } rfl hw
    refine ⟨s', ?_, hb, hu⟩
    simp only [List.map_cons, run, step, hk, hst]
    rw [hk] at hr
    exact hr

/-- **C103 leaving ends**: if the `Serve` object is entered once, whatever happened, once shutting down started, the library can
always go on until asyncio isn't listening and shutting down is complete; then the statement ends.  As in C102, connection
handlers return, nobody cancels `close_connection_task` and clients send their requests.

Missing: clients that don't send a request; see `LegacySystem.C102_silent_false`. -/
theorem C103_leaves_partial (cfg : Nat → Config) (clients : Bool) {es : List Event} {s : St} (h : run cfg {} es = some s)
    (ho : Spec.Once s) (hcalm : ∀ i, Event.sys (.conn i (.life .cancelCloser)) ∉ es) (hclose : s.sys.closer ≠ .none)
    (hb : clients = true ∨ ∀ i, ¬ LegacySystem.Spec.Handshaking s.sys i) :
    ∃ es' s', LegacySystem.Spec.Ends cfg clients s.sys es' s'.sys ∧ run cfg s (es'.map .sys) = some s' ∧
      s'.sys.closer = .done ∧ (∀ b ∈ s'.servers, b = false) ∧
      (s.users = [.leaving] → ∃ s'', step cfg s' (.left 0) = some s'' ∧ s''.users = [.ended]) := by
  obtain ⟨hk, hr⟩ := inv_reach h ho
  have hk : Used s := by
    rcases hk with ⟨_, hs, _⟩ | hk
    · rw [hs] at hclose; exact absurd rfl hclose
    · exact hk
  obtain ⟨es', t, he, hd⟩ := LegacySystem.C102_reaches_partial cfg clients hr (fun i hi => by
    obtain ⟨e, hm, heq⟩ := List.mem_filterMap.1 hi
    cases e with
    | sys e => cases heq; exact hcalm i hm
    | leave u => cases heq
    | _ => cases heq) hclose hb
  obtain ⟨s', hrun, rfl, hu⟩ := lift_ends he s rfl (by rw [hk.wrapped]; nofun)
  refine ⟨es', s', he, hrun, hd, ?_, fun hl => ?_⟩
  · have hi := inv_run (inv_reach h) hrun
    rcases (hi (by unfold Spec.Once at ho ⊢; rw [hu]; exact ho)).1 with ⟨_, hs, _⟩ | hk'
    · rw [hs] at hd; cases hd
    · have hs : s'.sys.serving = false := by
        cases hs : s'.sys.serving with
        | false => rfl
        | true => rcases hk'.serving.1 hs with h | h <;> rw [hd] at h <;> cases h
      rw [hk'.servers, hs]; simp
  · refine ⟨{ s' with users := s'.users.set 0 .ended }, ?_, by simp [hu, hl]⟩
    simp [step, hu, hl, hd]

/-! ## Entering a `Serve` object twice -/

/-- The same object is used in two statements, one after the other; a client connects during the second one. -/
def reuseEvents : List Event :=
  [.enter, .entered 0, .leave 0, .sys .stop, .sys .snapshot, .sys .tasksEnded, .sys .handlersEnded, .left 0,
   .enter, .entered 1, .sys .accept, .sys (.conn 0 .start), .sys (.conn 0 .accept), .leave 1, .left 1]

/-- **C103, the claim that fails**: if the same object is used in two statements, one after the other, the second one ends
immediately: asyncio goes on listening. -/
theorem C103_reuse_false :
    ¬ ∀ (cfg : Nat → Config) (es : List Event) (s : St), run cfg {} es = some s → (∀ u ∈ s.users, u = .ended) →
      ∀ b ∈ s.servers, b = false := by
  intro h
  exact absurd (h (fun _ => ⟨false, false⟩) reuseEvents _ rfl (by decide) true (by decide)) (by nofun)

/-- Likewise, connections stay open. -/
theorem C103_reuse_open_false :
    ¬ ∀ (cfg : Nat → Config) (es : List Event) (s : St), run cfg {} es = some s → (∀ u ∈ s.users, u = .ended) →
      ∀ c ∈ s.sys.conns, c.life.state ≠ .opened := by
  intro h
  exact h (fun _ => ⟨false, false⟩) reuseEvents _ rfl (by decide) _ (.head _) rfl

/-! ## Examples -/

/-- A client is connected when the body of the statement ends; then the task is cancelled. -/
def exampleEvents : List Event :=
  [.enter, .entered 0, .sys .accept, .sys (.conn 0 .start), .sys (.conn 0 .accept), .sys (.conn 0 (.life .closerRun)),
   .leave 0, .sys .stop]

example : ∃ s s', run (fun _ => ⟨false, false⟩) {} exampleEvents = some s ∧ Spec.Once s ∧ s.users = [.leaving] ∧
    s.sys.closer ≠ .none ∧ s.servers = [false] ∧
    step (fun _ => ⟨false, false⟩) s (.cancel 0) = some s' ∧ s'.users = [.interrupted] ∧ s'.sys.closer = .stopped ∧
    ∃ (es : List LegacySystem.Event) (t : St), run (fun _ => ⟨false, false⟩) s (es.map .sys) = some t ∧ t.sys.closer = .done := by
  refine ⟨_, _, rfl, Nat.le_refl 1, rfl, by nofun, rfl, rfl, rfl, rfl, ?_⟩
  obtain ⟨es, t, _, hr, hd, _⟩ := C103_leaves_partial (fun _ => ⟨false, false⟩) true (es := exampleEvents) rfl (Nat.le_refl 1)
    (by simp [exampleEvents]) (by nofun) (.inl rfl)
  exact ⟨es, t, hr, hd⟩

/-- The closing handshake takes place and the connection handler returns. -/
def exampleRest : List Event :=
  [.sys .snapshot, .sys (.conn 0 (.life (.call 0 .run))), .sys (.conn 0 (.life (.call 0 (.drained true)))),
   .sys (.conn 0 (.life (.receive (.close 1000)))), .sys (.conn 0 (.life .closerRun)), .sys (.conn 0 (.life (.lost false))),
   .sys (.conn 0 (.life .closerLost)), .sys (.conn 0 (.life (.call 0 .woken))), .sys .tasksEnded, .sys (.conn 0 .returned),
   .sys (.conn 0 (.life (.call 1 .run))), .sys (.conn 0 .closed), .sys .handlersEnded, .left 0]

theorem serve_list (cfg : Nat → Config) : ∀ (es : List Event) (s t : St),
    (∀ e ∈ es.filterMap Spec.server, ∀ u : Sys, LegacySystem.Spec.Ordinary u e) → run cfg s es = some t →
    Spec.Steps cfg s t := by
  intro es s t hord h
  have key : ∀ (es : List Event) (a : St), Spec.Steps cfg s a →
      (∀ e ∈ es.filterMap Spec.server, ∀ u : Sys, LegacySystem.Spec.Ordinary u e) → run cfg a es = some t →
      Spec.Steps cfg s t := by
    intro es
    induction es with
    | nil => intro a ha _ h; cases h; exact ha
    | cons e es ih =>
      intro a ha hord h
      simp only [run] at h
      split at h
      · cases h
      · rename_i ht
        refine ih _ (.step ha (fun e' he => hord e' ?_ _) ht) (fun e' he => hord e' ?_) h
        · exact List.mem_filterMap.2 ⟨e, .head _, he⟩
        · obtain ⟨x, hx, hxe⟩ := List.mem_filterMap.1 he
          exact List.mem_filterMap.2 ⟨x, .tail _ hx, hxe⟩
  exact key es s (.refl s) hord h

-- the statement ends
example : ∃ s, run (fun _ => ⟨false, false⟩) {} (exampleEvents ++ exampleRest) = some s ∧ Spec.Once s ∧
    User.ended ∈ s.users ∧ s.sys.closer = .done := by
  refine ⟨_, rfl, Nat.le_refl 1, by decide, rfl⟩

-- the connection is closed
example : ∃ s1 s2 s3, let cfg := fun _ => (⟨false, false⟩ : Config)
    Spec.Steps cfg {} s1 ∧ step cfg s1 (.sys .tasksEnded) = some s2 ∧ Spec.Steps cfg s2 s3 ∧ Spec.Once s3 ∧
    User.ended ∈ s3.users ∧ 0 < s1.sys.conns.length := by
  refine ⟨_, _, _, serve_list _ (exampleEvents ++ exampleRest.take 8) {} _ ?_ rfl, rfl,
    serve_list _ (exampleRest.drop 9) _ _ ?_ rfl, Nat.le_refl 1, by decide, Nat.le_refl 1⟩ <;>
  simp [-List.mem_filterMap, List.filterMap_cons, exampleEvents, exampleRest, Spec.server, LegacySystem.Spec.Ordinary, LegacyOwner.Spec.Ordinary]

end WS.LegacyServe
