import Verif.Lemmas.LegacyDrain

/-!
# C77: flow control when writing

Statements about all executions: what calls return or raise (`Obs`), which tasks are in lines 1097-1099
(`Flow.tasks`) and which of them may run.
-/

namespace WS.LegacyDrain

namespace Spec

/-- The task has done what it had to do in lines 1097-1099. -/
def Ends (t : Nat) (os : List Obs) : Prop :=
  Obs.returned t ∈ os ∨ ∃ e, Obs.raised t e ∈ os

/-- The task is in `_drain`, where there may be only one task. -/
def Drains (s : Flow) (t : Nat) : Prop :=
  (∃ c, s.tasks t = some (.sleeping c)) ∨ ∃ f c, s.tasks t = some (.draining f c)

/-- States of executions -/
def Reachable (s : Flow) : Prop := ∃ as os, ({} : Flow).exec as = some (s, os)

/-- Nothing happens unless something else happens: tasks wait. -/
def Stuck (s : Flow) : Prop := ∀ t, s.step (.run t) = none

/-- Only tasks that were suspended run. -/
def OnlyRuns (as : List Act) : Prop := ∀ a ∈ as, ∃ t, a = .run t

end Spec

open Spec

theorem Spec.Reachable.inv {s : Flow} (h : Reachable s) : Inv s none := by
  obtain ⟨as, os, h⟩ := h
  exact (inv_exec inv_start h).1

theorem exec_append {s : Flow} {as bs : List Act} :
    s.exec (as ++ bs) = match s.exec as with
      | none => none
      | some (s', os) => match s'.exec bs with
        | none => none
        | some (s'', os') => some (s'', os ++ os') := by
  induction as generalizing s with
  | nil =>
    simp only [List.nil_append, Flow.exec]
    cases s.exec bs <;> simp
  | cons a as ih =>
    simp only [List.cons_append, Flow.exec]
    cases hs : s.step a with
    | none => rfl
    | some r =>
      obtain ⟨s1, o1⟩ := r
      simp only [ih]
      cases h1 : s1.exec as with
      | none => rfl
      | some r =>
        obtain ⟨s2, o2⟩ := r
        simp only
        cases h2 : s2.exec bs with
        | none => rfl
        | some r => simp

theorem exec_cons {s : Flow} {a : Act} {as : List Act} {r : Flow × List Obs} (h : s.exec (a :: as) = some r) :
    ∃ s1 o1 o2, s.step a = some (s1, o1) ∧ s1.exec as = some (r.1, o2) ∧ r.2 = o1 ++ o2 := by
  simp only [Flow.exec] at h
  split at h
  · cases h
  · next s1 o1 h1 =>
    split at h
    · cases h
    · next s2 o2 h2 => cases h; exact ⟨s1, o1, o2, h1, h2, rfl⟩

theorem Spec.Reachable.step {s s' : Flow} (h : Reachable s) {a : Act} {os : List Obs} (hs : s.step a = some (s', os)) :
    Reachable s' := by
  obtain ⟨as, os0, h⟩ := h
  refine ⟨as ++ [a], os0 ++ os, ?_⟩
  rw [exec_append, h]
  simp [Flow.exec, hs]

theorem Spec.Reachable.exec {s s' : Flow} (h : Reachable s) {as : List Act} {os : List Obs}
    (hs : s.exec as = some (s', os)) : Reachable s' := by
  obtain ⟨as0, os0, h⟩ := h
  refine ⟨as0 ++ as, os0 ++ os, ?_⟩
  rw [exec_append, h]
  simp [hs]

theorem Spec.Drains.holds {s : Flow} {t : Nat} (h : Drains s t) : Holds s none t := by
  rcases h with ⟨c, h⟩ | ⟨f, c, h⟩
  · exact Or.inr ⟨_, h, rfl⟩
  · exact Or.inr ⟨_, h, rfl⟩

/-- C77: at most one task is in `_drain`. -/
theorem C77_exclusive {s : Flow} (h : Reachable s) {t t' : Nat} (ht : Drains s t) (ht' : Drains s t') : t = t' :=
  h.inv.holder ht.holds ht'.holds

/-- C77: the assertion in `_drain_helper` never fails, and the lock is never released when it isn't locked. -/
theorem C77_assertion {as : List Act} {s : Flow} {os : List Obs} (h : ({} : Flow).exec as = some (s, os)) (t : Nat) :
    Obs.raised t .assertionError ∉ os ∧ Obs.raised t .runtimeError ∉ os := by
  have hb := (inv_exec inv_start h).2
  constructor
  · intro hx; simpa [Obs.bad] using hb _ hx
  · intro hx; simpa [Obs.bad] using hb _ hx

theorem run_isSome {s : Flow} {t : Nat} (h : s.step (.run t) = none) :
    s.tasks t = none ∨ (∃ f c, s.tasks t = some (.acquiring f c) ∧ s.lockFuts f = .pending) ∨
      ∃ f c, s.tasks t = some (.draining f c) ∧ s.drainFuts f = .pending := by
  simp only [Flow.step, Flow.run] at h
  split at h
  · next ht => exact Or.inl ht
  · next f c ht =>
    split at h
    · next hf => exact Or.inr (Or.inl ⟨f, c, ht, hf⟩)
    · split at h <;> cases h
  · split at h <;> cases h
  · next f c ht =>
    dsimp only [Flow.suspend] at h
    split at h
    · next hf => exact Or.inr (Or.inr ⟨f, c, ht, hf⟩)
    all_goals cases h

/-- C77: no task waits for ever, in the lock or in `_drain`, unless the transport has paused writing. -/
theorem C77_progress {s : Flow} (h : Reachable s) (hs : Stuck s) (hp : s.paused = false ∨ s.lost = true) (t : Nat) :
    s.tasks t = none := by
  have hi := h.inv
  have hnd : ∀ t, ¬ Holds s none t := by
    rintro t (hx | ⟨pc, hx, hh⟩)
    · cases hx
    · rcases run_isSome (hs t) with h0 | ⟨f, c, h1, _⟩ | ⟨f, c, h1, h2⟩
      · simp [h0] at hx
      · rw [h1] at hx; cases hx; simp [Pc.holds] at hh
      · obtain ⟨_, h4, h5⟩ := hi.drain h1 h2
        rcases hp with hp | hp
        · simp [hp] at h4
        · simp [hp] at h5
  have hl : s.locked = false := by
    cases hl : s.locked with
    | false => rfl
    | true => obtain ⟨t, ht⟩ := hi.locked.mp hl; exact absurd ht (hnd t)
  have hw : s.waiters = [] := by
    cases hw : s.waiters with
    | nil => rfl
    | cons g l =>
      obtain ⟨t', c', h'⟩ := hi.own (f := g) (by simp [hw])
      have hne := hi.first hl (f := g) (by simp [hw])
      rcases run_isSome (hs t') with h0 | ⟨f, c, h1, h2⟩ | ⟨f, c, h1, _⟩
      · simp [h0] at h'
      · rw [h1] at h'; cases h'; exact absurd h2 hne
      · rw [h1] at h'; cases h'
  rcases run_isSome (hs t) with h0 | ⟨f, c, h1, _⟩ | ⟨f, c, h1, _⟩
  · exact h0
  · have := hi.acq h1; simp [hw] at this
  · exact absurd (Or.inr ⟨_, h1, rfl⟩) (hnd t)

/-! ## Every call ends -/

/-- How many times a task still runs -/
def rank : Option Pc → Nat
  | none => 0
  | some (.acquiring _ _) => 3
  | some (.sleeping _) => 2
  | some (.draining _ _) => 1

theorem wakeFirst_tasks {s : Flow} : s.wakeFirst.tasks = s.tasks := by
  unfold Flow.wakeFirst
  split
  · rfl
  · split <;> rfl

theorem wakeDrain_tasks {s : Flow} {r : Fut} : (s.wakeDrain r).tasks = s.tasks := by
  unfold Flow.wakeDrain
  split
  · rfl
  · split <;> rfl

theorem release_tasks {s : Flow} {t : Nat} {o : Obs} : (s.release t o).1.tasks = s.tasks := by
  unfold Flow.release
  split
  · rw [wakeFirst_tasks]
  · rfl

/-- The tasks are as before, except that `t` has at most `n` steps left. -/
def Limits (s s' : Flow) (t n : Nat) : Prop :=
  (∀ t', t' ≠ t → s'.tasks t' = s.tasks t') ∧ rank (s'.tasks t) ≤ n

theorem drainHelper_limits {s : Flow} {t : Nat} (ht : s.tasks t = none) : Limits s (s.drainHelper t).1 t 1 := by
  have hr : ∀ o, Limits s (s.release t o).1 t 1 := by
    intro o; simp [Limits, release_tasks, ht, rank]
  unfold Flow.drainHelper
  split
  · exact hr _
  · split
    · exact hr _
    · split
      · refine ⟨fun t' h' => ?_, ?_⟩
        · simp [Flow.suspend, set_other h']
        · simp [Flow.suspend, set_same, rank]
      · exact hr _

theorem drain_limits {s : Flow} {t : Nat} (ht : s.tasks t = none) : Limits s (s.drain t).1 t 2 := by
  unfold Flow.drain
  split
  · simp [Limits, release_tasks, ht, rank]
  · split
    · refine ⟨fun t' h' => ?_, ?_⟩
      · simp [Flow.suspend, set_other h']
      · simp [Flow.suspend, set_same, rank]
    · obtain ⟨h1, h2⟩ := drainHelper_limits ht
      exact ⟨h1, Nat.le_succ_of_le h2⟩

theorem write_limits {s : Flow} {t : Nat} (ht : s.tasks t = none) : Limits s (s.write t).1 t 3 := by
  unfold Flow.write
  split
  · obtain ⟨h1, h2⟩ := drain_limits (s := { s with locked := true }) ht
    exact ⟨h1, Nat.le_succ_of_le h2⟩
  · refine ⟨fun t' h' => ?_, ?_⟩
    · simp [Flow.suspend, set_other h']
    · simp [Flow.suspend, set_same, rank]

theorem Limits.mono {s s' : Flow} {t n m : Nat} (h : Limits s s' t n) (hm : n ≤ m) : Limits s s' t m :=
  ⟨h.1, Nat.le_trans h.2 hm⟩

theorem Limits.of_suspend {s s' : Flow} {t n : Nat} (h : Limits (s.suspend t none) s' t n) : Limits s s' t n :=
  ⟨fun t' h' => by rw [h.1 t' h']; simp [Flow.suspend, set_other h'], h.2⟩

theorem release_limits {s : Flow} {t n : Nat} {o : Obs} : Limits s ((s.suspend t none).release t o).1 t n := by
  refine Limits.of_suspend ⟨?_, ?_⟩ <;> simp [release_tasks, Flow.suspend, set_same, rank]

theorem run_limits {s : Flow} {t : Nat} {r : Flow × List Obs} (hr : s.run t = some r) :
    ∃ n, n < rank (s.tasks t) ∧ Limits s r.1 t n := by
  unfold Flow.run at hr
  split at hr
  · cases hr
  · next f c ht =>
    refine ⟨2, by simp [ht, rank], ?_⟩
    split at hr
    · cases hr
    · dsimp only at hr
      split at hr
      · cases hr
        refine Limits.of_suspend ?_
        dsimp only
        split
        · exact ⟨fun _ _ => rfl, by simp [Flow.suspend, set_same, rank]⟩
        · refine ⟨fun _ _ => ?_, ?_⟩ <;> rw [wakeFirst_tasks] <;> simp [Flow.suspend, set_same, rank]
      · cases hr
        refine Limits.of_suspend (s := s) ?_
        exact drain_limits (by simp [Flow.suspend, set_same])
  · next c ht =>
    refine ⟨1, by simp [ht, rank], ?_⟩
    dsimp only at hr
    split at hr
    · cases hr; exact release_limits
    · cases hr
      exact Limits.of_suspend (drainHelper_limits (by simp [Flow.suspend, set_same]))
  · next f c ht =>
    refine ⟨0, by simp [ht, rank], ?_⟩
    dsimp only at hr
    split at hr
    · cases hr
    all_goals cases hr; exact release_limits

/-- What each step does to the number of steps left -/
theorem step_rank {s s' : Flow} {a : Act} {os : List Obs} (hs : s.step a = some (s', os)) (t : Nat) :
    rank (s'.tasks t) + (if a = .run t then 1 else 0) ≤ rank (s.tasks t) + (if a = .write t then 3 else 0) := by
  cases a with
  | write t' =>
    simp only [Flow.step] at hs
    split at hs
    · next ht =>
      simp only [Option.some.injEq] at hs
      have hl := write_limits ht
      rw [hs] at hl
      dsimp only at hl
      by_cases h' : t = t'
      · subst h'; simp [ht]; exact Nat.le_trans hl.2 (by simp)
      · have := hl.1 t h'; simp [this]
    · cases hs
  | run t' =>
    obtain ⟨n, hn, hl⟩ := run_limits hs
    dsimp only at hl
    by_cases h' : t = t'
    · subst h'; have := hl.2; simp; omega
    · have := hl.1 t h'; simp [this, Ne.symm h']
  | cancel t' =>
    simp only [Flow.step, Option.map_eq_some_iff] at hs
    obtain ⟨s1, hs, he⟩ := hs
    cases he
    have : rank (s'.tasks t) = rank (s.tasks t) := by
      unfold Flow.cancel at hs
      split at hs
      · cases hs
      · next f c ht =>
        split at hs <;> cases hs
        · rfl
        · by_cases h' : t = t'
          · subst h'; simp [Flow.suspend, set_same, ht, rank]
          · simp [Flow.suspend, set_other h']
      · next c ht =>
        cases hs
        by_cases h' : t = t'
        · subst h'; simp [Flow.suspend, set_same, ht, rank]
        · simp [Flow.suspend, set_other h']
      · next f c ht =>
        split at hs <;> cases hs
        · rfl
        · by_cases h' : t = t'
          · subst h'; simp [Flow.suspend, set_same, ht, rank]
          · simp [Flow.suspend, set_other h']
    simp [this]
  | pause =>
    simp only [Flow.step] at hs
    split at hs <;> cases hs
    simp
  | resume =>
    simp only [Flow.step] at hs
    split at hs <;> cases hs
    simp [wakeDrain_tasks]
  | lost exc =>
    simp only [Flow.step] at hs
    split at hs <;> cases hs
    split <;> simp [wakeDrain_tasks]
  | close => cases hs; simp

theorem exec_rank {s s' : Flow} {as : List Act} {os : List Obs} (hs : s.exec as = some (s', os)) (t : Nat) :
    rank (s'.tasks t) + as.count (.run t) ≤ rank (s.tasks t) + 3 * as.count (.write t) := by
  induction as generalizing s os with
  | nil => cases hs; simp
  | cons a as ih =>
    obtain ⟨s1, o1, o2, h1, h2, _⟩ := exec_cons hs
    have e1 := step_rank h1 t
    have e2 := ih h2
    simp only [List.count_cons, beq_iff_eq]
    by_cases ha : a = .run t
    · have hb : a ≠ .write t := by rw [ha]; simp
      rw [if_pos ha, if_neg hb] at e1 ⊢
      omega
    · rw [if_neg ha] at e1 ⊢
      by_cases hb : a = .write t
      · rw [if_pos hb] at e1 ⊢; omega
      · rw [if_neg hb] at e1 ⊢; omega

theorem rank_le {p : Option Pc} : rank p ≤ 3 := by
  unfold rank; split <;> omega

/-- C77: a call runs at most three times after it was suspended. -/
theorem C77_three {s s' : Flow} {t : Nat} {as : List Act} {os : List Obs} (h : s.exec as = some (s', os))
    (hw : Act.write t ∉ as) : as.count (.run t) ≤ 3 := by
  have h1 := exec_rank h t
  rw [List.count_eq_zero.mpr hw] at h1
  have := rank_le (p := s.tasks t)
  omega

/-- The number of steps that tasks below `n` have left -/
def total (s : Flow) (n : Nat) : Nat := ((List.range n).map fun t => rank (s.tasks t)).sum

theorem total_succ {s : Flow} {n : Nat} : total s (n + 1) = total s n + rank (s.tasks n) := by
  simp [total, List.range_succ]

theorem total_mono {s s' : Flow} {n : Nat} (h : ∀ t, rank (s'.tasks t) ≤ rank (s.tasks t)) : total s' n ≤ total s n := by
  induction n with
  | zero => simp [total]
  | succ n ih => rw [total_succ, total_succ]; have := h n; omega

theorem total_lt {s s' : Flow} {n t : Nat} (h : ∀ t, rank (s'.tasks t) ≤ rank (s.tasks t)) (ht : t < n)
    (hl : rank (s'.tasks t) < rank (s.tasks t)) : total s' n < total s n := by
  induction n with
  | zero => omega
  | succ n ih =>
    rw [total_succ, total_succ]
    by_cases hn : t = n
    · subst hn; have := total_mono (n := t) h; omega
    · have := ih (by omega); have := h n; omega

/-- Only finitely many tasks have called `write_frame`. -/
theorem finite {as : List Act} {s s' : Flow} {os : List Obs} (h : s.exec as = some (s', os)) {n : Nat}
    (hn : ∀ t, n ≤ t → s.tasks t = none) : ∃ m, ∀ t, m ≤ t → s'.tasks t = none := by
  induction as generalizing s os n with
  | nil => cases h; exact ⟨n, hn⟩
  | cons a as ih =>
    obtain ⟨s1, o1, o2, h1, h2, _⟩ := exec_cons h
    have hz : ∀ p : Option Pc, rank p = 0 → p = none := by
      intro p hp
      unfold rank at hp
      split at hp <;> first | rfl | omega
    have hb : ∃ m, ∀ t, m ≤ t → a ≠ .write t := by
      cases a with
      | write t => exact ⟨t + 1, fun t' h' he => by cases he; omega⟩
      | _ => exact ⟨0, fun t _ he => by cases he⟩
    obtain ⟨m, hm⟩ := hb
    refine ih (n := max n m) h2 ?_
    intro t ht
    apply hz
    have hr := step_rank h1 t
    rw [if_neg (hm t (by omega)), hn t (by omega)] at hr
    have h0 : rank none = 0 := rfl
    omega

theorem run_flags {s s' : Flow} {t : Nat} {os : List Obs} (h : s.step (.run t) = some (s', os)) :
    s'.paused = s.paused ∧ s'.lost = s.lost := by
  have hw : ∀ s : Flow, s.wakeFirst.paused = s.paused ∧ s.wakeFirst.lost = s.lost := by
    intro s
    unfold Flow.wakeFirst
    split
    · exact ⟨rfl, rfl⟩
    · split <;> exact ⟨rfl, rfl⟩
  have hr : ∀ (s : Flow) o, (s.release t o).1.paused = s.paused ∧ (s.release t o).1.lost = s.lost := by
    intro s o
    unfold Flow.release
    split
    · simp [hw]
    · exact ⟨rfl, rfl⟩
  have hd : ∀ s : Flow, (s.drainHelper t).1.paused = s.paused ∧ (s.drainHelper t).1.lost = s.lost := by
    intro s
    unfold Flow.drainHelper
    split
    · exact hr _ _
    · split
      · exact hr _ _
      · split
        · exact ⟨rfl, rfl⟩
        · exact hr _ _
  have hdd : ∀ s : Flow, (s.drain t).1.paused = s.paused ∧ (s.drain t).1.lost = s.lost := by
    intro s
    unfold Flow.drain
    split
    · exact hr _ _
    · split
      · exact ⟨rfl, rfl⟩
      · exact hd _
  simp only [Flow.step, Flow.run] at h
  split at h
  · cases h
  · split at h
    · cases h
    · split at h
      · cases h
        split
        · exact ⟨rfl, rfl⟩
        · simp [hw, Flow.suspend]
      · simp only [Option.some.injEq] at h
        have := congrArg (fun r => (r.1.paused, r.1.lost)) h
        simp only [hdd, Prod.mk.injEq] at this
        exact ⟨this.1.symm, this.2.symm⟩
  · split at h
    · simp only [Option.some.injEq] at h
      have := hr (s.suspend t none) (.raised t .cancelled)
      rw [h] at this
      exact this
    · simp only [Option.some.injEq] at h
      have := hd (s.suspend t none)
      rw [h] at this
      exact this
  · split at h
    · cases h
    all_goals
      simp only [Option.some.injEq] at h
      have := congrArg (fun r => (r.1.paused, r.1.lost)) h
      simp only [hr] at this
      simp only [Prod.mk.injEq] at this
      exact ⟨this.1.symm, this.2.symm⟩

/-- C77: when writing isn't paused, or when the connection is lost, all calls end, whatever the order in which the
tasks run: as long as there is a task, a task can run (`C77_progress`), and there is a bound for the number of
times that they run. -/
theorem C77_completes {s : Flow} (h : Reachable s) (hp : s.paused = false ∨ s.lost = true) :
    ∃ bound, ∀ as, OnlyRuns as → ∀ s' os, s.exec as = some (s', os) →
      as.length ≤ bound ∧ (Stuck s' → ∀ t, s'.tasks t = none) := by
  obtain ⟨as0, os0, h0⟩ := h
  obtain ⟨n, hn⟩ := finite h0 (n := 0) (by simp)
  refine ⟨total s n, ?_⟩
  intro as
  have hr : Reachable s := ⟨as0, os0, h0⟩
  clear h0
  have key : ∀ (as : List Act) (s : Flow), Reachable s → (s.paused = false ∨ s.lost = true) →
      (∀ t, n ≤ t → s.tasks t = none) → OnlyRuns as → ∀ s' os, s.exec as = some (s', os) →
      as.length ≤ total s n ∧ (Stuck s' → ∀ t, s'.tasks t = none) := by
    intro as
    induction as with
    | nil =>
      intro s hr hp hn _ s' os he
      cases he
      exact ⟨by simp, fun hst t => C77_progress hr hst hp t⟩
    | cons a as ih =>
      intro s hr hp hn ho s' os he
      obtain ⟨s1, o1, o2, h1, h2, _⟩ := exec_cons he
      obtain ⟨t, rfl⟩ := ho a (by simp)
      obtain ⟨f1, f2⟩ := run_flags h1
      have hk := step_rank h1
      have hle : ∀ t, rank (s1.tasks t) ≤ rank (s.tasks t) := by
        intro t'; have := hk t'; simp at this; omega
      have hlt : rank (s1.tasks t) < rank (s.tasks t) := by
        have := hk t; simp at this; omega
      have htn : t < n := by
        rcases Nat.lt_or_ge t n with hx | hx
        · exact hx
        · rw [hn t hx] at hlt; simp [rank] at hlt
      have hz : ∀ p : Option Pc, rank p = 0 → p = none := by
        intro p hp
        unfold rank at hp
        split at hp <;> first | rfl | omega
      have := ih s1 (hr.step h1) (by rw [f1, f2]; exact hp)
        (fun t' ht' => hz _ (by have := hle t'; rw [hn t' ht'] at this; simp [rank] at this ⊢; omega))
        (fun a ha => ho a (by simp [ha])) s' o2 h2
      have h3 := total_lt hle htn hlt
      simp only [List.length_cons]
      exact ⟨by omega, this.2⟩
  exact key as s hr hp hn

/-! ## Back-pressure -/

/-- What a call does when it runs with the lock. -/
structure Calm (s : Flow) (t : Nat) (r : Flow × List Obs) : Prop where
  lock : ∀ f, s.lockFuts f ≠ .cancelled → r.1.lockFuts f ≠ .cancelled
  result : ∀ f, r.1.drainFuts f = .result → s.drainFuts f = .result
  paused : r.1.paused = s.paused
  lost : r.1.lost = s.lost
  obs : ∀ t', Ends t' r.2 → t' = t
  ends : r.1.tasks t = none → Ends t r.2
  next : s.next ≤ r.1.next

theorem wakeFirst_lock {s : Flow} {f : Nat} (h : s.lockFuts f ≠ .cancelled) : s.wakeFirst.lockFuts f ≠ .cancelled := by
  unfold Flow.wakeFirst
  split
  · exact h
  · next g l _ =>
    split
    · by_cases hf : f = g
      · subst hf; simp [set_same]
      · simpa [set_other hf] using h
    · exact h

theorem wakeFirst_drain {s : Flow} : s.wakeFirst.drainFuts = s.drainFuts ∧ s.wakeFirst.paused = s.paused ∧
    s.wakeFirst.lost = s.lost ∧ s.wakeFirst.next = s.next := by
  unfold Flow.wakeFirst
  split
  · exact ⟨rfl, rfl, rfl, rfl⟩
  · split <;> exact ⟨rfl, rfl, rfl, rfl⟩

theorem release_calm {s : Flow} {t : Nat} {o : Obs} (ho : Ends t [o]) : Calm s t (s.release t o) := by
  have hone : ∀ t', Ends t' [o] → t' = t := by
    intro t' h'
    simp only [Ends, List.mem_singleton] at ho h'
    rcases ho with ho | ⟨e, ho⟩ <;> rcases h' with h' | ⟨e', h'⟩ <;> rw [← ho] at h' <;> cases h' <;> rfl
  unfold Flow.release
  split
  · obtain ⟨h1, h2, h3, h4⟩ := wakeFirst_drain (s := { s with locked := false })
    exact ⟨fun f hf => wakeFirst_lock hf, fun f hf => by rw [h1] at hf; exact hf, h2, h3, hone, fun _ => ho, by simp [h4]⟩
  · refine ⟨fun f hf => hf, fun f hf => hf, rfl, rfl, ?_, fun _ => Or.inr ⟨_, List.mem_singleton.mpr rfl⟩, Nat.le_refl _⟩
    intro t' h'
    simpa [Ends] using h'

theorem ends_one {t : Nat} : Ends t [.returned t] ∧ ∀ e, Ends t [.raised t e] :=
  ⟨Or.inl (by simp), fun e => Or.inr ⟨e, by simp⟩⟩

theorem not_ends_nil {t : Nat} : ¬ Ends t [] := by simp [Ends]

theorem drainHelper_calm {s : Flow} {t : Nat} : Calm s t (s.drainHelper t) := by
  unfold Flow.drainHelper
  split
  · exact release_calm (ends_one.2 _)
  · split
    · exact release_calm ends_one.1
    · split
      · refine ⟨fun f hf => hf, ?_, rfl, rfl, fun t' h' => absurd h' not_ends_nil, ?_, ?_⟩
        · intro f hf
          simp only [Flow.suspend] at hf
          by_cases hx : f = s.next
          · subst hx; simp [set_same] at hf
          · rwa [set_other hx] at hf
        · simp [Flow.suspend, set_same]
        · simp [Flow.suspend]
      · exact release_calm (ends_one.2 _)

theorem drain_calm {s : Flow} {t : Nat} : Calm s t (s.drain t) := by
  unfold Flow.drain
  split
  · exact release_calm (ends_one.2 _)
  · split
    · exact ⟨fun f hf => hf, fun f hf => hf, rfl, rfl, fun t' h' => absurd h' not_ends_nil, by simp [Flow.suspend, set_same],
        Nat.le_refl _⟩
    · exact drainHelper_calm

theorem run_calm {s : Flow} {t : Nat} {r : Flow × List Obs} (hr : s.run t = some r) : Calm s t r := by
  unfold Flow.run at hr
  split at hr
  · cases hr
  · next f c ht =>
    split at hr
    · cases hr
    · dsimp only at hr
      split at hr
      · cases hr
        have hobs : ∀ t', Ends t' [Obs.raised t .cancelled] → t' = t := by
          intro t' h'; simpa [Ends] using h'
        split
        · exact ⟨fun f hf => hf, fun f hf => hf, rfl, rfl, hobs, fun _ => ends_one.2 _, Nat.le_refl _⟩
        · obtain ⟨h1, h2, h3, h4⟩ :=
            wakeFirst_drain (s := { s with waiters := s.waiters.filter (· ≠ f) }.suspend t none)
          exact ⟨fun f hf => wakeFirst_lock hf, fun f hf => by rw [h1] at hf; exact hf, h2, h3, hobs,
            fun _ => ends_one.2 _, by rw [h4]; exact Nat.le_refl _⟩
      · cases hr
        have := drain_calm (s := { { s with waiters := s.waiters.filter (· ≠ f) }.suspend t none with locked := true }) (t := t)
        exact ⟨this.1, this.2, this.3, this.4, this.5, this.6, this.7⟩
  · dsimp only at hr
    split at hr
    · cases hr
      have := release_calm (s := s.suspend t none) (t := t) (ends_one.2 .cancelled)
      exact ⟨this.1, this.2, this.3, this.4, this.5, this.6, this.7⟩
    · cases hr
      have := drainHelper_calm (s := s.suspend t none) (t := t)
      exact ⟨this.1, this.2, this.3, this.4, this.5, this.6, this.7⟩
  · next f c ht =>
    dsimp only at hr
    have hrel : ∀ o, Ends t [o] → Calm s t ((s.suspend t none).release t o) := by
      intro o ho
      have := release_calm (s := s.suspend t none) (t := t) ho
      exact ⟨this.1, this.2, this.3, this.4, this.5, this.6, this.7⟩
    split at hr
    · cases hr
    · cases hr; exact hrel _ (ends_one.2 _)
    · cases hr; refine hrel _ ?_; split <;> first | exact ends_one.2 _ | exact ends_one.1
    · cases hr; refine hrel _ ?_; split <;> exact ends_one.2 _

theorem write_calm {s : Flow} {t : Nat} : Calm s t (s.write t) := by
  unfold Flow.write
  split
  · have := drain_calm (s := { s with locked := true }) (t := t)
    exact ⟨this.1, this.2, this.3, this.4, this.5, this.6, this.7⟩
  · refine ⟨?_, fun f hf => hf, rfl, rfl, fun t' h' => absurd h' not_ends_nil, by simp [Flow.suspend, set_same],
      by simp [Flow.suspend]⟩
    intro f hf
    simp only [Flow.suspend]
    by_cases hx : f = s.next
    · subst hx; simp [set_same]
    · rwa [set_other hx]

theorem release_obs {s : Flow} {t : Nat} {o : Obs} {t' : Nat} (h : Obs.returned t' ∈ (s.release t o).2) :
    o = .returned t' := by
  unfold Flow.release at h
  split at h
  · exact (List.mem_singleton.mp h).symm
  · cases List.mem_singleton.mp h

theorem drainHelper_waits {s : Flow} {t : Nat} (h : s.paused = true ∨ s.lost = true) {t' : Nat} :
    Obs.returned t' ∉ (s.drainHelper t).2 := by
  intro hx
  unfold Flow.drainHelper at hx
  split at hx
  · cases release_obs hx
  · next hl =>
    split at hx
    · next hp => rcases h with h | h <;> simp [h] at hl hp
    · split at hx
      · simp at hx
      · cases release_obs hx

theorem drain_waits {s : Flow} {t : Nat} (h : s.paused = true ∨ s.lost = true) {t' : Nat} :
    Obs.returned t' ∉ (s.drain t).2 := by
  intro hx
  unfold Flow.drain at hx
  split at hx
  · cases release_obs hx
  · split at hx
    · simp at hx
    · exact drainHelper_waits h hx

theorem write_waits {s : Flow} {t : Nat} (h : s.paused = true ∨ s.lost = true) {t' : Nat} :
    Obs.returned t' ∉ (s.write t).2 := by
  intro hx
  unfold Flow.write at hx
  split at hx
  · exact drain_waits (s := { s with locked := true }) h hx
  · simp at hx

/-- A call returns when it runs, if it was waiting for the transport and the transport is ready. -/
theorem run_waits {s : Flow} {t : Nat} {r : Flow × List Obs} (h : s.paused = true ∨ s.lost = true)
    (hr : s.run t = some r) {t' : Nat} (hx : Obs.returned t' ∈ r.2) :
    t' = t ∧ ∃ f c, s.tasks t = some (.draining f c) ∧ s.drainFuts f = .result := by
  refine ⟨(run_calm hr).obs t' (Or.inl hx), ?_⟩
  unfold Flow.run at hr
  split at hr
  · cases hr
  · split at hr
    · cases hr
    · dsimp only at hr
      split at hr
      · cases hr; simp at hx
      · simp only [Option.some.injEq] at hr
        rw [← hr] at hx
        refine absurd hx (drain_waits ?_)
        exact h
  · dsimp only at hr
    split at hr
    · cases hr; cases release_obs hx
    · simp only [Option.some.injEq] at hr
      rw [← hr] at hx
      refine absurd hx (drainHelper_waits ?_)
      exact h
  · next f c ht =>
    dsimp only at hr
    split at hr
    · cases hr
    · cases hr; cases release_obs hx
    · next hf => exact ⟨f, c, ht, hf⟩
    · cases hr
      have := release_obs hx
      split at this <;> cases this

/-- The call by `t` waits: if it waits for the transport, the transport isn't ready. -/
def Waits (s : Flow) (t : Nat) : Prop :=
  s.paused = true ∧ s.lost = false ∧ ∀ f c, s.tasks t = some (.draining f c) → s.drainFuts f ≠ .result

theorem drainHelper_pending {s : Flow} {t f : Nat} {c : Bool} (ht : s.tasks t = none)
    (h : (s.drainHelper t).1.tasks t = some (.draining f c)) :
    (s.drainHelper t).1.drainFuts f = .pending ∧ s.lost = false := by
  have hr : ∀ o, (s.release t o).1.tasks t ≠ some (.draining f c) := by
    intro o; simp [release_tasks, ht]
  unfold Flow.drainHelper at h ⊢
  split at h
  · exact absurd h (hr _)
  · next hl =>
    rw [if_neg hl]
    split at h
    · exact absurd h (hr _)
    · next hp =>
      rw [if_neg hp]
      split at h
      · next hm =>
        rw [if_pos hm]
        simp only [Flow.suspend, set_same, Option.some.injEq, Pc.draining.injEq] at h
        obtain ⟨rfl, _⟩ := h
        exact ⟨by simp [Flow.suspend, set_same], by simpa using hl⟩
      · exact absurd h (hr _)

theorem drain_pending {s : Flow} {t f : Nat} {c : Bool} (ht : s.tasks t = none)
    (h : (s.drain t).1.tasks t = some (.draining f c)) : (s.drain t).1.drainFuts f = .pending ∧ s.lost = false := by
  unfold Flow.drain at h ⊢
  split at h
  · simp [release_tasks, ht] at h
  · next hb =>
    rw [if_neg hb]
    split at h
    · simp [Flow.suspend, set_same] at h
    · next hc => rw [if_neg hc]; exact drainHelper_pending ht h

theorem write_pending {s : Flow} {t f : Nat} {c : Bool} (ht : s.tasks t = none)
    (h : (s.write t).1.tasks t = some (.draining f c)) : (s.write t).1.drainFuts f = .pending ∧ s.lost = false := by
  unfold Flow.write at h ⊢
  split at h
  · next hc =>
    rw [if_pos hc]
    exact drain_pending (s := { s with locked := true }) ht h
  · simp [Flow.suspend, set_same] at h

/-- When a task starts waiting for the transport -/
theorem run_pending {s : Flow} {t f : Nat} {c : Bool} {r : Flow × List Obs} (hr : s.run t = some r)
    (h : r.1.tasks t = some (.draining f c)) : r.1.drainFuts f = .pending ∧ s.lost = false := by
  have hrel : ∀ {s' : Flow} {o}, ((s'.suspend t none).release t o).1.tasks t ≠ some (.draining f c) := by
    intro s' o; simp [release_tasks, Flow.suspend, set_same]
  unfold Flow.run at hr
  split at hr
  · cases hr
  · split at hr
    · cases hr
    · dsimp only at hr
      split at hr
      · cases hr
        dsimp only at h
        split at h
        · simp [Flow.suspend, set_same] at h
        · simp [wakeFirst_tasks, Flow.suspend, set_same] at h
      · cases hr
        exact drain_pending (by simp [Flow.suspend, set_same]) h
  · dsimp only at hr
    split at hr
    · cases hr; exact absurd h hrel
    · cases hr; exact drainHelper_pending (by simp [Flow.suspend, set_same]) h
  · dsimp only at hr
    split at hr
    · cases hr
    all_goals cases hr; exact absurd h hrel

theorem cancel_draining {s s' : Flow} {t' t f : Nat} {c : Bool} (h : s.cancel t' = some s')
    (ht : s'.tasks t = some (.draining f c)) : ∃ c', s.tasks t = some (.draining f c') := by
  unfold Flow.cancel at h
  split at h
  · cases h
  · next f' c' h' =>
    split at h
    · cases h; exact ⟨c, ht⟩
    · cases h
      by_cases hx : t = t'
      · subst hx; simp [Flow.suspend, set_same] at ht
      · simp only [Flow.suspend, set_other hx] at ht; exact ⟨c, ht⟩
  · cases h
    next c' h' =>
    by_cases hx : t = t'
    · subst hx; simp [Flow.suspend, set_same] at ht
    · simp only [Flow.suspend, set_other hx] at ht; exact ⟨c, ht⟩
  · next f' c' h' =>
    split at h
    · cases h; exact ⟨c, ht⟩
    · cases h
      by_cases hx : t = t'
      · subst hx
        simp only [Flow.suspend, set_same, Option.some.injEq, Pc.draining.injEq] at ht
        exact ⟨c', by rw [h', ht.1]⟩
      · simp only [Flow.suspend, set_other hx] at ht; exact ⟨c, ht⟩

theorem cancel_calm {s s' : Flow} {t : Nat} (h : s.cancel t = some s') :
    s'.paused = s.paused ∧ s'.lost = s.lost ∧ (∀ f, s'.drainFuts f = .result → s.drainFuts f = .result) ∧
      ∀ f, s'.lockFuts f = .cancelled → s.lockFuts f = .cancelled ∨ ∃ c, s.tasks t = some (.acquiring f c) := by
  unfold Flow.cancel at h
  split at h
  · cases h
  · next f' c' h' =>
    split at h
    · cases h
      refine ⟨rfl, rfl, fun _ hf => hf, ?_⟩
      intro f hf
      by_cases hx : f = f'
      · subst hx; exact Or.inr ⟨c', h'⟩
      · simp only [set_other hx] at hf; exact Or.inl hf
    · cases h; exact ⟨rfl, rfl, fun _ hf => hf, fun _ hf => Or.inl hf⟩
  · cases h; exact ⟨rfl, rfl, fun _ hf => hf, fun _ hf => Or.inl hf⟩
  · next f' c' h' =>
    split at h
    · cases h
      refine ⟨rfl, rfl, ?_, fun _ hf => Or.inl hf⟩
      intro f hf
      by_cases hx : f = f'
      · subst hx; simp [set_same] at hf
      · simpa only [set_other hx] using hf
    · cases h; exact ⟨rfl, rfl, fun _ hf => hf, fun _ hf => Or.inl hf⟩

theorem waits_step {s s' : Flow} {t : Nat} {a : Act} {os : List Obs} (h : Waits s t) (hs : s.step a = some (s', os))
    (ha : a ≠ .resume) (hl : ∀ exc, a ≠ .lost exc) : Waits s' t ∧ Obs.returned t ∉ os := by
  obtain ⟨hp, hlo, hd⟩ := h
  cases a with
  | write t' =>
    simp only [Flow.step] at hs
    split at hs
    · next ht =>
      simp only [Option.some.injEq] at hs
      have hc := write_calm (s := s) (t := t')
      have hw := write_waits (s := s) (t := t') (Or.inl hp) (t' := t)
      have hli := write_limits ht
      have hpe := @write_pending s t'
      rw [hs] at hc hw hli hpe
      refine ⟨⟨hc.paused.trans hp, hc.lost.trans hlo, ?_⟩, hw⟩
      intro f c hf hr
      by_cases hx : t = t'
      · subst hx; rw [(hpe ht hf).1] at hr; cases hr
      · rw [hli.1 t hx] at hf; exact hd f c hf (hc.result f hr)
    · cases hs
  | run t' =>
    have hs : s.run t' = some (s', os) := hs
    have hc := run_calm hs
    refine ⟨⟨hc.paused.trans hp, hc.lost.trans hlo, ?_⟩, ?_⟩
    · intro f c hf hr
      by_cases hx : t = t'
      · subst hx; rw [(run_pending hs hf).1] at hr; cases hr
      · obtain ⟨n, _, hli⟩ := run_limits hs
        rw [hli.1 t hx] at hf
        exact hd f c hf (hc.result f hr)
    · intro hx
      obtain ⟨he, f, c, h1, h2⟩ := run_waits (Or.inl hp) hs hx
      subst he
      exact hd f c h1 h2
  | cancel t' =>
    simp only [Flow.step, Option.map_eq_some_iff] at hs
    obtain ⟨s1, hs, he⟩ := hs
    cases he
    obtain ⟨c1, c2, c3, _⟩ := cancel_calm hs
    refine ⟨⟨c1.trans hp, c2.trans hlo, ?_⟩, by simp⟩
    intro f c hf hr
    obtain ⟨c', hf⟩ := cancel_draining hs hf
    exact hd f c' hf (c3 f hr)
  | pause =>
    simp only [Flow.step] at hs
    split at hs
    · cases hs
    · next hn => exact absurd hp hn
  | resume => exact absurd rfl ha
  | lost exc => exact absurd rfl (hl exc)
  | close => cases hs; exact ⟨⟨hp, hlo, hd⟩, by simp⟩

/-- C77: when the transport has paused writing, a call to `write_frame` doesn't return until the transport resumes
writing or the connection is lost. -/
theorem C77_backpressure {s s' : Flow} {t : Nat} {as : List Act} {os : List Obs} (hp : s.paused = true)
    (hl : s.lost = false) (h : s.exec (.write t :: as) = some (s', os)) (ha : Act.resume ∉ as)
    (hx : ∀ exc, Act.lost exc ∉ as) : Obs.returned t ∉ os := by
  have h0 : Waits s t := by
    refine ⟨hp, hl, ?_⟩
    intro f c ht
    obtain ⟨s1, o1, o2, h1, _⟩ := exec_cons h
    simp only [Flow.step] at h1
    split at h1
    · next hn => simp [hn] at ht
    · cases h1
  have key : ∀ (as : List Act) (s s' : Flow) (os : List Obs), Waits s t → s.exec as = some (s', os) → Act.resume ∉ as →
      (∀ exc, Act.lost exc ∉ as) → Obs.returned t ∉ os := by
    intro as
    induction as with
    | nil => intro s s' os _ he _ _; cases he; simp
    | cons a as ih =>
      intro s s' os hw he h1 h2
      obtain ⟨s1, o1, o2, e1, e2, e3⟩ := exec_cons he
      obtain ⟨w1, w2⟩ := waits_step hw e1 (fun hx => h1 (by simp [hx])) (fun exc hx => h2 exc (by simp [hx]))
      have := ih s1 s' o2 w1 e2 (fun hx => h1 (by simp [hx])) (fun exc hx => h2 exc (by simp [hx]))
      dsimp only at e3
      rw [e3, List.mem_append]
      exact fun hx => hx.elim w2 this
  exact key _ s s' os h0 h (by simpa using ha) (by simpa using hx)

/-- The connection is lost and the call by `t` doesn't wait for the transport. -/
def Fails (s : Flow) (t : Nat) : Prop := s.lost = true ∧ ∀ f c, s.tasks t ≠ some (.draining f c)

theorem fails_step {s s' : Flow} {t : Nat} {a : Act} {os : List Obs} (h : Fails s t) (hs : s.step a = some (s', os)) :
    Fails s' t ∧ Obs.returned t ∉ os := by
  obtain ⟨hl, hd⟩ := h
  cases a with
  | write t' =>
    simp only [Flow.step] at hs
    split at hs
    · next ht =>
      simp only [Option.some.injEq] at hs
      have hc := write_calm (s := s) (t := t')
      have hw := write_waits (s := s) (t := t') (Or.inr hl) (t' := t)
      have hli := write_limits ht
      have hpe := @write_pending s t'
      rw [hs] at hc hw hli hpe
      refine ⟨⟨hc.lost.trans hl, ?_⟩, hw⟩
      intro f c hf
      by_cases hx : t = t'
      · subst hx; have := (hpe ht hf).2; simp [hl] at this
      · rw [hli.1 t hx] at hf; exact hd f c hf
    · cases hs
  | run t' =>
    have hs : s.run t' = some (s', os) := hs
    have hc := run_calm hs
    refine ⟨⟨hc.lost.trans hl, ?_⟩, ?_⟩
    · intro f c hf
      by_cases hx : t = t'
      · subst hx; have := (run_pending hs hf).2; simp [hl] at this
      · obtain ⟨n, _, hli⟩ := run_limits hs
        rw [hli.1 t hx] at hf
        exact hd f c hf
    · intro hx
      obtain ⟨he, f, c, h1, h2⟩ := run_waits (Or.inr hl) hs hx
      subst he
      exact hd f c h1
  | cancel t' =>
    simp only [Flow.step, Option.map_eq_some_iff] at hs
    obtain ⟨s1, hs, he⟩ := hs
    cases he
    obtain ⟨c1, c2, c3, _⟩ := cancel_calm hs
    refine ⟨⟨c2.trans hl, ?_⟩, by simp⟩
    intro f c hf
    obtain ⟨c', hf⟩ := cancel_draining hs hf
    exact hd f c' hf
  | pause =>
    simp only [Flow.step] at hs
    split at hs
    · cases hs
    · cases hs; exact ⟨⟨hl, hd⟩, by simp⟩
  | resume =>
    simp only [Flow.step] at hs
    split at hs
    · cases hs
      refine ⟨⟨?_, ?_⟩, by simp⟩
      · unfold Flow.wakeDrain
        split
        · exact hl
        · split <;> exact hl
      · rw [wakeDrain_tasks]; exact hd
    · cases hs
  | lost exc => simp [Flow.step, hl] at hs
  | close => cases hs; exact ⟨⟨hl, hd⟩, by simp⟩

/-- C77: when the connection is lost, calls to `write_frame` don't return: they raise an exception. -/
theorem C77_lost {s s' : Flow} {t : Nat} {as : List Act} {os : List Obs} (hl : s.lost = true)
    (h : s.exec (.write t :: as) = some (s', os)) : Obs.returned t ∉ os := by
  have h0 : Fails s t := by
    refine ⟨hl, ?_⟩
    intro f c ht
    obtain ⟨s1, o1, o2, h1, _⟩ := exec_cons h
    simp only [Flow.step] at h1
    split at h1
    · next hn => simp [hn] at ht
    · cases h1
  have key : ∀ (as : List Act) (s s' : Flow) (os : List Obs), Fails s t → s.exec as = some (s', os) →
      Obs.returned t ∉ os := by
    intro as
    induction as with
    | nil => intro s s' os _ he; cases he; simp
    | cons a as ih =>
      intro s s' os hw he
      obtain ⟨s1, o1, o2, e1, e2, e3⟩ := exec_cons he
      obtain ⟨w1, w2⟩ := fails_step hw e1
      have := ih s1 s' o2 w1 e2
      dsimp only at e3
      rw [e3, List.mem_append]
      exact fun hx => hx.elim w2 this
  exact key _ s s' os h0 h

/-- C77: when writing isn't paused, a call returns at once, if there are no other calls. -/
theorem C77_open {s : Flow} (h : Reachable s) (hn : ∀ t, s.tasks t = none) (hp : s.paused = false)
    (hl : s.lost = false) (hb : s.broken = false) (hc : s.closing = false) (t : Nat) :
    ∃ s', s.step (.write t) = some (s', [.returned t]) ∧ ∀ t, s'.tasks t = none := by
  have hi := h.inv
  have hlo : s.locked = false := by
    cases hlo : s.locked with
    | false => rfl
    | true =>
      obtain ⟨t, hx | ⟨pc, hx, _⟩⟩ := hi.locked.mp hlo
      · cases hx
      · simp [hn] at hx
  have hw : s.waiters = [] := by
    cases hw : s.waiters with
    | nil => rfl
    | cons g l =>
      obtain ⟨t', c', h'⟩ := hi.own (f := g) (by simp [hw])
      simp [hn] at h'
  refine ⟨{ s with locked := false }, ?_, hn⟩
  simp [Flow.step, hn, Flow.write, hlo, hw, Flow.drain, hb, hc, Flow.drainHelper, hl, hp, Flow.release, Flow.wakeFirst]

/-! ## Calls end in order -/

theorem drain_waiters {s : Flow} {t : Nat} : (s.drain t).1.waiters = s.waiters := by
  have hw : ∀ s : Flow, s.wakeFirst.waiters = s.waiters := by
    intro s
    unfold Flow.wakeFirst
    split
    · rfl
    · split <;> rfl
  have hr : ∀ (s : Flow) o, (s.release t o).1.waiters = s.waiters := by
    intro s o
    unfold Flow.release
    split
    · simp [hw]
    · rfl
  unfold Flow.drain Flow.drainHelper
  repeat' split
  all_goals first | exact hr _ _ | rfl

theorem release_waiters {s : Flow} {t : Nat} {o : Obs} : (s.release t o).1.waiters = s.waiters := by
  have hw : ∀ s : Flow, s.wakeFirst.waiters = s.waiters := by
    intro s
    unfold Flow.wakeFirst
    split
    · rfl
    · split <;> rfl
  unfold Flow.release
  split
  · simp [hw]
  · rfl

theorem drainHelper_waiters {s : Flow} {t : Nat} : (s.drainHelper t).1.waiters = s.waiters := by
  unfold Flow.drainHelper
  repeat' split
  all_goals first | exact release_waiters | rfl

theorem wakeDrain_waiters {s : Flow} {r : Fut} :
    (s.wakeDrain r).waiters = s.waiters ∧ (s.wakeDrain r).lockFuts = s.lockFuts := by
  unfold Flow.wakeDrain
  split
  · exact ⟨rfl, rfl⟩
  · split <;> exact ⟨rfl, rfl⟩

theorem step_waiters {s s' : Flow} {a : Act} {os : List Obs} (hs : s.step a = some (s', os)) :
    (∃ p : Nat → Bool, s'.waiters = s.waiters.filter p) ∨ s'.waiters = s.waiters ++ [s.next] := by
  have hsame : s'.waiters = s.waiters → ∃ p : Nat → Bool, s'.waiters = s.waiters.filter p := by
    intro h; exact ⟨fun _ => true, by rw [h]; exact (List.filter_eq_self.mpr (by simp)).symm⟩
  cases a with
  | write t =>
    simp only [Flow.step] at hs
    split at hs
    · simp only [Option.some.injEq] at hs
      unfold Flow.write at hs
      split at hs
      · left
        apply hsame
        have := drain_waiters (s := { s with locked := true }) (t := t)
        rw [hs] at this
        exact this
      · cases hs; right; rfl
    · cases hs
  | run t =>
    left
    simp only [Flow.step] at hs
    unfold Flow.run at hs
    split at hs
    · cases hs
    · next f c ht =>
      split at hs
      · cases hs
      · dsimp only at hs
        refine ⟨fun x => decide (x ≠ f), ?_⟩
        split at hs
        · simp only [Option.some.injEq] at hs
          have h1 := congrArg (fun r => r.1.waiters) hs
          simp only at h1
          rw [← h1]
          split
          · rfl
          · unfold Flow.wakeFirst
            split
            · rfl
            · split <;> rfl
        · simp only [Option.some.injEq] at hs
          have := congrArg (fun r => r.1.waiters) hs
          simp only [drain_waiters] at this
          rw [← this]
          rfl
    · dsimp only at hs
      apply hsame
      split at hs
      · simp only [Option.some.injEq] at hs
        have := congrArg (fun r => r.1.waiters) hs
        simp only [release_waiters] at this
        exact this.symm
      · simp only [Option.some.injEq] at hs
        have := congrArg (fun r => r.1.waiters) hs
        simp only [drainHelper_waiters] at this
        exact this.symm
    · dsimp only at hs
      apply hsame
      split at hs
      · cases hs
      all_goals
        simp only [Option.some.injEq] at hs
        have := congrArg (fun r => r.1.waiters) hs
        simp only [release_waiters] at this
        exact this.symm
  | cancel t =>
    left
    apply hsame
    simp only [Flow.step, Option.map_eq_some_iff] at hs
    obtain ⟨s1, hs, he⟩ := hs
    cases he
    unfold Flow.cancel at hs
    split at hs
    · cases hs
    · split at hs <;> cases hs <;> rfl
    · cases hs; rfl
    · split at hs <;> cases hs <;> rfl
  | pause => left; apply hsame; simp only [Flow.step] at hs; split at hs <;> cases hs; rfl
  | resume =>
    left; apply hsame; simp only [Flow.step] at hs; split at hs <;> cases hs
    exact wakeDrain_waiters.1
  | lost exc =>
    left; apply hsame; simp only [Flow.step] at hs; split at hs <;> cases hs
    split
    · exact wakeDrain_waiters.1
    · rfl
  | close => left; apply hsame; cases hs; rfl

theorem sorted_exec {as : List Act} {s s' : Flow} {os : List Obs} (hi : Inv s none) (hp : s.waiters.Pairwise (· < ·))
    (h : s.exec as = some (s', os)) : s'.waiters.Pairwise (· < ·) := by
  induction as generalizing s os with
  | nil => cases h; exact hp
  | cons a as ih =>
    obtain ⟨s1, o1, o2, h1, h2, _⟩ := exec_cons h
    refine ih (inv_step hi h1).1 ?_ h2
    rcases step_waiters h1 with ⟨p, hw⟩ | hw
    · rw [hw]; exact hp.filter p
    · rw [hw, List.pairwise_append]
      exact ⟨hp, by simp, fun a ha b hb => by simp only [List.mem_singleton] at hb; subst hb; exact hi.lt ha⟩

/-- The queue is in the order of calls. -/
theorem Spec.Reachable.sorted {s : Flow} (h : Reachable s) : s.waiters.Pairwise (· < ·) := by
  obtain ⟨as, os, h⟩ := h
  exact sorted_exec inv_start (by simp) h

/-- `t` is before `t'`. -/
structure Ahead (s : Flow) (t t' : Nat) : Prop where
  ne : t ≠ t'
  last : ∃ f', s.tasks t' = some (.acquiring f' false) ∧ s.lockFuts f' ≠ .cancelled ∧
    ∀ f, s.tasks t = some (.acquiring f false) → f < f'
  first : Drains s t ∨ ∃ f, s.tasks t = some (.acquiring f false) ∧ s.lockFuts f ≠ .cancelled

theorem drains_of {s : Flow} {t : Nat} (h : rank (s.tasks t) ≤ 2) (hn : s.tasks t ≠ none) : Drains s t := by
  cases hp : s.tasks t with
  | none => exact absurd hp hn
  | some pc =>
    cases pc with
    | acquiring f c => rw [hp] at h; simp [rank] at h
    | sleeping c => exact Or.inl ⟨c, hp⟩
    | draining f c => exact Or.inr ⟨f, c, hp⟩

theorem rank_holds {s : Flow} {t : Nat} (h : Drains s t) : rank (s.tasks t) ≤ 2 ∧ 0 < rank (s.tasks t) := by
  rcases h with ⟨c, h⟩ | ⟨f, c, h⟩ <;> simp [h, rank]

/-- Only the task that has the lock or is at the head of the queue goes on. -/
theorem ahead_head {s : Flow} (hr : Reachable s) {t t' f' : Nat} (h : Ahead s t t')
    (ht' : s.tasks t' = some (.acquiring f' false)) : s.lockFuts f' ≠ .result := by
  intro hres
  obtain ⟨hl, hh⟩ := hr.inv.woken (hr.inv.acq ht') hres
  rcases h.first with hd | ⟨f, hf, _⟩
  · have := hr.inv.locked.mpr ⟨t, hd.holds⟩
    simp [hl] at this
  · obtain ⟨g, h1, _, h2⟩ := h.last
    rw [ht'] at h1
    cases h1
    have hlt := h2 f hf
    have hmem := hr.inv.acq hf
    have hs := hr.sorted
    cases hw : s.waiters with
    | nil => simp [hw] at hmem
    | cons a l =>
      have ha : a = f' := by simpa [hw] using hh
      subst ha
      rw [hw] at hs hmem
      rcases List.mem_cons.mp hmem with hx | hx
      · omega
      · have := (List.pairwise_cons.mp hs).1 f hx
        omega

theorem ahead_step {s s' : Flow} (hr : Reachable s) {t t' : Nat} (h : Ahead s t t') {a : Act} {os : List Obs}
    (hs : s.step a = some (s', os)) (hc : a ≠ .cancel t) (hc' : a ≠ .cancel t') (he : ¬ Ends t os) :
    Ahead s' t t' ∧ ¬ Ends t' os := by
  obtain ⟨f', l1, l2, l3⟩ := h.last
  have hnt : s.tasks t ≠ none := by
    rcases h.first with (⟨c, hx⟩ | ⟨f, c, hx⟩) | ⟨f, hx, _⟩ <;> simp [hx]
  -- both tasks stay where they are
  have hstay : s'.tasks t = s.tasks t → s'.tasks t' = s.tasks t' →
      (∀ f, (s.tasks t = some (.acquiring f false) ∨ s.tasks t' = some (.acquiring f false)) → s.lockFuts f ≠ .cancelled →
        s'.lockFuts f ≠ .cancelled) → Ahead s' t t' := by
    intro e1 e2 e3
    refine ⟨h.ne, ⟨f', by rw [e2]; exact l1, e3 f' (Or.inr l1) l2, by rw [e1]; exact l3⟩, ?_⟩
    rcases h.first with hd | ⟨f, hf, hf'⟩
    · left; unfold Drains; rw [e1]; exact hd
    · right; exact ⟨f, by rw [e1]; exact hf, e3 f (Or.inl hf) hf'⟩
  cases a with
  | write t'' =>
    simp only [Flow.step] at hs
    split at hs
    · next hn =>
      simp only [Option.some.injEq] at hs
      have hcal := write_calm (s := s) (t := t'')
      have hli := write_limits hn
      rw [hs] at hcal hli
      have n1 : t ≠ t'' := by rintro rfl; exact hnt hn
      have n2 : t' ≠ t'' := by rintro rfl; simp [l1] at hn
      exact ⟨hstay (hli.1 t n1) (hli.1 t' n2) (fun f _ => hcal.lock f), fun hx => n2 (hcal.obs t' hx)⟩
    · cases hs
  | run t'' =>
    have hs : s.run t'' = some (s', os) := hs
    have hcal := run_calm hs
    obtain ⟨n, hn, hli⟩ := run_limits hs
    dsimp only at hcal hli
    by_cases x1 : t = t''
    · subst x1
      have hne : s'.tasks t ≠ none := fun hx => he (hcal.ends hx)
      have hra := rank_le (p := s.tasks t)
      have hd : Drains s' t := drains_of (by have := hli.2; omega) hne
      refine ⟨⟨h.ne, ⟨f', ?_, hcal.lock f' l2, ?_⟩, Or.inl hd⟩, ?_⟩
      · rw [hli.1 t' (Ne.symm h.ne)]; exact l1
      · intro f hf
        have := (rank_holds hd).1
        rw [hf] at this
        simp [rank] at this
      · intro hx; exact h.ne (hcal.obs t' hx).symm
    · by_cases x2 : t' = t''
      · subst x2
        exfalso
        have h1 := ahead_head hr h l1
        have h2 : s.lockFuts f' = .pending := by
          cases hv : s.lockFuts f' with
          | pending => rfl
          | result => exact absurd hv h1
          | exception => exact absurd hv (hr.inv.noexc f')
          | cancelled => exact absurd hv l2
        simp [Flow.run, l1, h2] at hs
      · exact ⟨hstay (hli.1 t x1) (hli.1 t' x2) (fun f _ => hcal.lock f), fun hx => x2 (hcal.obs t' hx)⟩
  | cancel t'' =>
    simp only [Flow.step, Option.map_eq_some_iff] at hs
    obtain ⟨s1, hs, he⟩ := hs
    cases he
    have n1 : t ≠ t'' := by rintro rfl; exact hc rfl
    have n2 : t' ≠ t'' := by rintro rfl; exact hc' rfl
    have hta : ∀ x, x ≠ t'' → s'.tasks x = s.tasks x := by
      intro x hx
      unfold Flow.cancel at hs
      split at hs
      · cases hs
      · split at hs <;> cases hs
        · rfl
        · simp [Flow.suspend, set_other hx]
      · cases hs; simp [Flow.suspend, set_other hx]
      · split at hs <;> cases hs
        · rfl
        · simp [Flow.suspend, set_other hx]
    refine ⟨hstay (hta t n1) (hta t' n2) ?_, not_ends_nil⟩
    intro f hf hl hx
    rcases (cancel_calm hs).2.2.2 f hx with h1 | ⟨c, h1⟩
    · exact hl h1
    · rcases hf with hf | hf
      · exact n1 (hr.inv.one hf h1)
      · exact n2 (hr.inv.one hf h1)
  | pause =>
    simp only [Flow.step] at hs
    split at hs <;> cases hs
    exact ⟨hstay rfl rfl (fun _ _ hx => hx), not_ends_nil⟩
  | resume =>
    simp only [Flow.step] at hs
    split at hs <;> cases hs
    exact ⟨hstay (by rw [wakeDrain_tasks]) (by rw [wakeDrain_tasks]) (fun _ _ hx => by rw [wakeDrain_waiters.2]; exact hx),
      not_ends_nil⟩
  | lost exc =>
    simp only [Flow.step] at hs
    split at hs <;> cases hs
    refine ⟨hstay ?_ ?_ ?_, not_ends_nil⟩
    · split
      · rw [wakeDrain_tasks]
      · rfl
    · split
      · rw [wakeDrain_tasks]
      · rfl
    · split
      · intro _ _ hx; rw [wakeDrain_waiters.2]; exact hx
      · exact fun _ _ hx => hx
  | close => cases hs; exact ⟨hstay rfl rfl (fun _ _ hx => hx), not_ends_nil⟩

/-- The call by `t` goes on and isn't cancelled. -/
def Stays (s : Flow) (t : Nat) : Prop :=
  Drains s t ∨ ∃ f, s.tasks t = some (.acquiring f false) ∧ s.lockFuts f ≠ .cancelled

theorem stays_step {s s' : Flow} (hr : Reachable s) {t : Nat} (h : Stays s t) {a : Act} {os : List Obs}
    (hs : s.step a = some (s', os)) (hc : a ≠ .cancel t) (he : ¬ Ends t os) : Stays s' t := by
  have hnt : s.tasks t ≠ none := by
    rcases h with (⟨c, hx⟩ | ⟨f, c, hx⟩) | ⟨f, hx, _⟩ <;> simp [hx]
  have hstay : s'.tasks t = s.tasks t → (∀ f, s.tasks t = some (.acquiring f false) → s.lockFuts f ≠ .cancelled →
      s'.lockFuts f ≠ .cancelled) → Stays s' t := by
    intro e1 e3
    rcases h with hd | ⟨f, hf, hf'⟩
    · left; unfold Drains; rw [e1]; exact hd
    · right; exact ⟨f, by rw [e1]; exact hf, e3 f hf hf'⟩
  cases a with
  | write t'' =>
    simp only [Flow.step] at hs
    split at hs
    · next hn =>
      simp only [Option.some.injEq] at hs
      have hcal := write_calm (s := s) (t := t'')
      have hli := write_limits hn
      rw [hs] at hcal hli
      have n1 : t ≠ t'' := by rintro rfl; exact hnt hn
      exact hstay (hli.1 t n1) (fun f _ => hcal.lock f)
    · cases hs
  | run t'' =>
    have hs : s.run t'' = some (s', os) := hs
    have hcal := run_calm hs
    obtain ⟨n, hn, hli⟩ := run_limits hs
    dsimp only at hcal hli
    by_cases x1 : t = t''
    · subst x1
      have hne : s'.tasks t ≠ none := fun hx => he (hcal.ends hx)
      have hra := rank_le (p := s.tasks t)
      exact Or.inl (drains_of (by have := hli.2; omega) hne)
    · exact hstay (hli.1 t x1) (fun f _ => hcal.lock f)
  | cancel t'' =>
    simp only [Flow.step, Option.map_eq_some_iff] at hs
    obtain ⟨s1, hs, he⟩ := hs
    cases he
    have n1 : t ≠ t'' := by rintro rfl; exact hc rfl
    have hta : s'.tasks t = s.tasks t := by
      unfold Flow.cancel at hs
      split at hs
      · cases hs
      · split at hs <;> cases hs
        · rfl
        · simp [Flow.suspend, set_other n1]
      · cases hs; simp [Flow.suspend, set_other n1]
      · split at hs <;> cases hs
        · rfl
        · simp [Flow.suspend, set_other n1]
    refine hstay hta ?_
    intro f hf hl hx
    rcases (cancel_calm hs).2.2.2 f hx with h1 | ⟨c, h1⟩
    · exact hl h1
    · exact n1 (hr.inv.one hf h1)
  | pause =>
    simp only [Flow.step] at hs
    split at hs <;> cases hs
    exact hstay rfl (fun _ _ hx => hx)
  | resume =>
    simp only [Flow.step] at hs
    split at hs <;> cases hs
    exact hstay (by rw [wakeDrain_tasks]) (fun _ _ hx => by rw [wakeDrain_waiters.2]; exact hx)
  | lost exc =>
    simp only [Flow.step] at hs
    split at hs <;> cases hs
    refine hstay ?_ ?_
    · split
      · rw [wakeDrain_tasks]
      · rfl
    · split
      · intro _ _ hx; rw [wakeDrain_waiters.2]; exact hx
      · exact fun _ _ hx => hx
  | close => cases hs; exact hstay rfl (fun _ _ hx => hx)

theorem stays_write {s s' : Flow} {t : Nat} {os : List Obs} (hs : s.step (.write t) = some (s', os)) (he : ¬ Ends t os) :
    Stays s' t := by
  simp only [Flow.step] at hs
  split at hs
  · next hn =>
    simp only [Option.some.injEq] at hs
    unfold Flow.write at hs
    split at hs
    · left
      have hd := drain_limits (s := { s with locked := true }) hn
      have hc := drain_calm (s := { s with locked := true }) (t := t)
      rw [hs] at hd hc
      exact drains_of hd.2 (fun hx => he (hc.ends hx))
    · cases hs
      right
      exact ⟨s.next, by simp [Flow.suspend, set_same], by simp [Flow.suspend, set_same]⟩
  · cases hs

theorem ahead_write {s s' : Flow} (hr : Reachable s) {t t' : Nat} (h : Stays s t) {os : List Obs}
    (hs : s.step (.write t') = some (s', os)) : Ahead s' t t' ∧ os = [] := by
  simp only [Flow.step] at hs
  split at hs
  · next hn =>
    simp only [Option.some.injEq] at hs
    have hnt : t ≠ t' := by
      rintro rfl
      rcases h with (⟨c, hx⟩ | ⟨f, c, hx⟩) | ⟨f, hx, _⟩ <;> simp [hx] at hn
    unfold Flow.write at hs
    split at hs
    · next hc =>
      exfalso
      simp only [Bool.and_eq_true, Bool.not_eq_true', List.all_eq_true, decide_eq_true_eq] at hc
      rcases h with hd | ⟨f, hf, hf'⟩
      · have := hr.inv.locked.mpr ⟨t, hd.holds⟩
        simp [hc.1] at this
      · exact hf' (hc.2 f (hr.inv.acq hf))
    · cases hs
      refine ⟨⟨hnt, ⟨s.next, by simp [Flow.suspend, set_same], by simp [Flow.suspend, set_same], ?_⟩, ?_⟩, rfl⟩
      · intro f hf
        simp only [Flow.suspend, set_other hnt] at hf
        exact hr.inv.lt (hr.inv.acq hf)
      · rcases h with hd | ⟨f, hf, hf'⟩
        · left; simpa only [Drains, Flow.suspend, set_other hnt] using hd
        · right
          refine ⟨f, by simpa only [Flow.suspend, set_other hnt] using hf, ?_⟩
          have : f ≠ s.next := Nat.ne_of_lt (hr.inv.lt (hr.inv.acq hf))
          simpa only [Flow.suspend, set_other this] using hf'
  · cases hs

theorem not_ends_append {t : Nat} {o1 o2 : List Obs} (h : ¬ Ends t (o1 ++ o2)) : ¬ Ends t o1 ∧ ¬ Ends t o2 := by
  constructor
  · rintro (hx | ⟨e, hx⟩)
    · exact h (Or.inl (List.mem_append.mpr (Or.inl hx)))
    · exact h (Or.inr ⟨e, List.mem_append.mpr (Or.inl hx)⟩)
  · rintro (hx | ⟨e, hx⟩)
    · exact h (Or.inl (List.mem_append.mpr (Or.inr hx)))
    · exact h (Or.inr ⟨e, List.mem_append.mpr (Or.inr hx)⟩)

theorem ends_append {t : Nat} {o1 o2 : List Obs} (h : Ends t (o1 ++ o2)) : Ends t o1 ∨ Ends t o2 := by
  rcases h with hx | ⟨e, hx⟩
  · rcases List.mem_append.mp hx with hx | hx
    · exact Or.inl (Or.inl hx)
    · exact Or.inr (Or.inl hx)
  · rcases List.mem_append.mp hx with hx | hx
    · exact Or.inl (Or.inr ⟨e, hx⟩)
    · exact Or.inr (Or.inr ⟨e, hx⟩)

theorem stays_exec {as : List Act} {s s' : Flow} (hr : Reachable s) {t : Nat} (h : Stays s t) {os : List Obs}
    (hs : s.exec as = some (s', os)) (hc : Act.cancel t ∉ as) (he : ¬ Ends t os) : Stays s' t := by
  induction as generalizing s os with
  | nil => cases hs; exact h
  | cons a as ih =>
    obtain ⟨s1, o1, o2, h1, h2, h3⟩ := exec_cons hs
    dsimp only at h3
    rw [h3] at he
    obtain ⟨e1, e2⟩ := not_ends_append he
    exact ih (hr.step h1) (stays_step hr h h1 (fun hx => hc (by simp [hx])) e1) h2 (fun hx => hc (by simp [hx])) e2

theorem ahead_exec {as : List Act} {s s' : Flow} (hr : Reachable s) {t t' : Nat} (h : Ahead s t t') {os : List Obs}
    (hs : s.exec as = some (s', os)) (hc : Act.cancel t ∉ as) (hc' : Act.cancel t' ∉ as) (he : ¬ Ends t os) :
    ¬ Ends t' os := by
  induction as generalizing s os with
  | nil => cases hs; exact not_ends_nil
  | cons a as ih =>
    obtain ⟨s1, o1, o2, h1, h2, h3⟩ := exec_cons hs
    dsimp only at h3
    rw [h3] at he ⊢
    obtain ⟨e1, e2⟩ := not_ends_append he
    obtain ⟨i1, i2⟩ := ahead_step hr h h1 (fun hx => hc (by simp [hx])) (fun hx => hc' (by simp [hx])) e1
    have := ih (hr.step h1) i1 h2 (fun hx => hc (by simp [hx])) (fun hx => hc' (by simp [hx])) e2
    exact fun hx => (ends_append hx).elim i2 this

/-- C77: calls end in order: when the call by `t'` was made after the call by `t`, and neither is cancelled, it
doesn't end before it. -/
theorem C77_order {s s1 s2 : Flow} (hr : Reachable s) {t t' : Nat} {as bs : List Act} {os os' : List Obs}
    (h1 : s.exec (.write t :: as) = some (s1, os)) (h2 : s1.exec (.write t' :: bs) = some (s2, os'))
    (hc : Act.cancel t ∉ as ++ bs) (hc' : Act.cancel t' ∉ bs) (he : Ends t' os') : Ends t (os ++ os') := by
  refine Classical.byContradiction fun hn => ?_
  obtain ⟨n1, n2⟩ := not_ends_append hn
  obtain ⟨x1, o1, o2, a1, a2, a3⟩ := exec_cons h1
  obtain ⟨y1, p1, p2, b1, b2, b3⟩ := exec_cons h2
  dsimp only at a2 a3 b2 b3
  rw [a3] at n1
  obtain ⟨n11, n12⟩ := not_ends_append n1
  rw [b3] at n2 he
  obtain ⟨n21, n22⟩ := not_ends_append n2
  have hr1 := hr.step a1
  have hst := stays_exec hr1 (stays_write a1 n11) a2 (fun hx => hc (by simp [hx])) n12
  have hr2 := hr1.exec a2
  obtain ⟨ha, hp⟩ := ahead_write hr2 hst b1
  rw [hp, List.nil_append] at he
  exact ahead_exec (hr2.step b1) ha b2 (fun hx => hc (by simp [hx])) hc' n22 he

/-! ## Examples -/

/-- Three calls while writing is paused; the second is cancelled; writing resumes. -/
def drainActs : List Act :=
  [.pause, .write 1, .write 2, .write 3, .cancel 2, .run 2, .resume, .run 1, .run 3]

example : (({} : Flow).exec drainActs).map (fun r => decide (r.2 =
    [.raised 2 .cancelled, .returned 1, .returned 3])) = some true := by decide +kernel

/-- A call waits for the transport while another waits for the lock (`C77_progress`, `C77_backpressure`,
`C77_exclusive`); `connection_lost` wakes it up. -/
example : (({} : Flow).exec [.pause, .write 1, .write 2]).map (fun r => decide (r.2 = [] ∧
    r.1.tasks 1 = some (.draining 0 false) ∧ r.1.tasks 2 = some (.acquiring 1 false) ∧
    (r.1.step (.run 1)).isNone ∧ (r.1.step (.run 2)).isNone)) = some true := by decide +kernel

example : (({} : Flow).exec [.pause, .write 1, .write 2, .lost false, .run 1, .run 2]).map (fun r => decide (r.2 =
    [.returned 1, .raised 2 .connectionReset])) = some true := by decide +kernel

/-- With an exception, all calls raise it: `write_frame` handles it only if it's a `ConnectionError`. -/
example : (({} : Flow).exec [.pause, .write 1, .write 2, .lost true, .run 1, .run 2, .write 3]).map (fun r => decide
    (r.2 = [.raised 1 .lost, .raised 2 .lost, .raised 3 .lost])) = some true := by decide +kernel

/-- A task is woken by the lock and cancelled before it runs: the next one is woken. -/
example : (({} : Flow).exec [.pause, .write 1, .write 2, .write 3, .resume, .run 1, .cancel 2, .run 2, .run 3]).map
    (fun r => decide (r.2 = [.returned 1, .raised 2 .cancelled, .returned 3])) = some true := by decide +kernel

/-- Hypotheses of `C77_order` -/
example : ∃ s s1 s2 os os', Reachable s ∧ s.exec [.write 1] = some (s1, os) ∧
    s1.exec [.write 2, .resume, .run 1, .run 2] = some (s2, os') ∧ Ends 2 os' := by
  have h : (((({} : Flow).step .pause).bind fun r => (r.1.exec [.write 1]).bind fun r1 =>
      (r1.1.exec [.write 2, .resume, .run 1, .run 2]).map fun r2 => decide (Obs.returned 2 ∈ r2.2))) = some true := by
    decide +kernel
  simp only [Option.bind_eq_some_iff, Option.map_eq_some_iff] at h
  obtain ⟨⟨s, o⟩, h0, ⟨s1, o1⟩, h1, ⟨s2, o2⟩, h2, h3⟩ := h
  exact ⟨s, s1, s2, o1, o2, ⟨[.pause], o, by simp [Flow.exec, h0]⟩, h1, h2, Or.inl (of_decide_eq_true h3)⟩

end WS.LegacyDrain
