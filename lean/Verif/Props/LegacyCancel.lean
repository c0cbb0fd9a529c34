import Verif.Props.LegacyDrain

/-!
# C77: cancelling a call that writes

A call that is cancelled while it waits for the lock or for the transport can run at once, whatever its future
was; it raises `CancelledError` and doesn't return.
-/

namespace WS.LegacyDrain

open Spec

/-- Futures that are done don't change. -/
def Steady (s s' : Flow) : Prop :=
  ∀ f, f < s.next → (s.lockFuts f ≠ .pending → s'.lockFuts f = s.lockFuts f) ∧
    (s.drainFuts f ≠ .pending → s'.drainFuts f = s.drainFuts f)

theorem wakeFirst_steady {s : Flow} : Steady s s.wakeFirst := by
  intro f _
  refine ⟨fun h => ?_, fun _ => by rw [wakeFirst_drain.1]⟩
  unfold Flow.wakeFirst
  split
  · rfl
  · next g l _ =>
    split
    · next hg =>
      have : f ≠ g := by rintro rfl; exact h hg
      simp [set_other this]
    · rfl

theorem release_steady {s : Flow} {t : Nat} {o : Obs} : Steady s (s.release t o).1 := by
  unfold Flow.release
  split
  · exact fun f hf => wakeFirst_steady (s := { s with locked := false }) f hf
  · exact fun f _ => ⟨fun _ => rfl, fun _ => rfl⟩

theorem drainHelper_steady {s : Flow} {t : Nat} : Steady s (s.drainHelper t).1 := by
  unfold Flow.drainHelper
  split
  · exact release_steady
  · split
    · exact release_steady
    · split
      · intro f hf
        refine ⟨fun _ => rfl, fun _ => ?_⟩
        simp only [Flow.suspend]
        rw [set_other (by omega)]
      · exact release_steady

theorem drain_steady {s : Flow} {t : Nat} : Steady s (s.drain t).1 := by
  unfold Flow.drain
  split
  · exact release_steady
  · split
    · exact fun f _ => ⟨fun _ => rfl, fun _ => rfl⟩
    · exact drainHelper_steady

theorem write_steady {s : Flow} {t : Nat} : Steady s (s.write t).1 := by
  unfold Flow.write
  split
  · exact fun f hf => drain_steady (s := { s with locked := true }) f hf
  · intro f hf
    refine ⟨fun _ => ?_, fun _ => rfl⟩
    simp only [Flow.suspend]
    rw [set_other (by omega)]

theorem run_steady {s : Flow} {t : Nat} {r : Flow × List Obs} (hr : s.run t = some r) : Steady s r.1 := by
  unfold Flow.run at hr
  split at hr
  · cases hr
  · next f c ht =>
    split at hr
    · cases hr
    · dsimp only at hr
      split at hr
      · cases hr
        split
        · exact fun f _ => ⟨fun _ => rfl, fun _ => rfl⟩
        · exact fun g hg =>
            wakeFirst_steady (s := { s with waiters := s.waiters.filter (· ≠ f) }.suspend t none) g hg
      · cases hr
        exact fun g hg => drain_steady
          (s := { { s with waiters := s.waiters.filter (· ≠ f) }.suspend t none with locked := true }) g hg
  · dsimp only at hr
    split at hr
    · cases hr; exact fun g hg => release_steady (s := s.suspend t none) g hg
    · cases hr; exact fun g hg => drainHelper_steady (s := s.suspend t none) g hg
  · dsimp only at hr
    split at hr
    · cases hr
    all_goals cases hr; exact fun g hg => release_steady (s := s.suspend t none) g hg

theorem wakeDrain_steady {s : Flow} {r : Fut} : Steady s (s.wakeDrain r) := by
  intro f _
  unfold Flow.wakeDrain
  split
  · exact ⟨fun _ => rfl, fun _ => rfl⟩
  · next g _ =>
    split
    · next hg =>
      refine ⟨fun _ => rfl, fun h => ?_⟩
      have : f ≠ g := by rintro rfl; exact h hg
      simp [set_other this]
    · exact ⟨fun _ => rfl, fun _ => rfl⟩

theorem cancel_steady {s s' : Flow} {t : Nat} (h : s.cancel t = some s') : Steady s s' := by
  unfold Flow.cancel at h
  intro f _
  split at h
  · cases h
  · next g c ht =>
    split at h
    · next hg =>
      cases h
      refine ⟨fun hf => ?_, fun _ => rfl⟩
      have : f ≠ g := by rintro rfl; exact hf hg
      simp [set_other this]
    · cases h; exact ⟨fun _ => rfl, fun _ => rfl⟩
  · cases h; exact ⟨fun _ => rfl, fun _ => rfl⟩
  · next g c ht =>
    split at h
    · next hg =>
      cases h
      refine ⟨fun _ => rfl, fun hf => ?_⟩
      have : f ≠ g := by rintro rfl; exact hf hg
      simp [set_other this]
    · cases h; exact ⟨fun _ => rfl, fun _ => rfl⟩

/-- The call of `t`, if there's one, will raise `CancelledError`. -/
def Doomed (s : Flow) (t : Nat) : Prop :=
  match s.tasks t with
  | none => True
  | some (.acquiring f c) => s.lockFuts f = .cancelled ∨ s.lockFuts f ≠ .pending ∧ c = true
  | some (.sleeping c) => c = true
  | some (.draining f c) => s.drainFuts f = .cancelled ∨ s.drainFuts f ≠ .pending ∧ c = true

theorem Doomed.steady {s s' : Flow} {t : Nat} (h : Doomed s t) (hi : Inv s none) (hs : Steady s s')
    (ht : s'.tasks t = s.tasks t) : Doomed s' t := by
  unfold Doomed at *
  rw [ht]
  split
  · trivial
  · next f c hf =>
    rw [hf] at h
    dsimp only at h
    have hlt := hi.lt (hi.acq hf)
    rcases h with h | ⟨h, hc⟩
    · exact Or.inl (by rw [(hs f hlt).1 (by simp [h]), h])
    · exact Or.inr ⟨by rw [(hs f hlt).1 h]; exact h, hc⟩
  · next c hf => rw [hf] at h; exact h
  · next f c hf =>
    rw [hf] at h
    dsimp only at h
    have hlt := hi.dlt hf
    rcases h with h | ⟨h, hc⟩
    · exact Or.inl (by rw [(hs f hlt).2 (by simp [h]), h])
    · exact Or.inr ⟨by rw [(hs f hlt).2 h]; exact h, hc⟩

/-- `cancel` dooms the call. -/
theorem cancel_doomed {s s' : Flow} {t : Nat} (h : s.cancel t = some s') : Doomed s' t ∧ s'.tasks t ≠ none := by
  unfold Flow.cancel at h
  unfold Doomed
  split at h
  · cases h
  · next f c ht =>
    split at h
    · next hg => cases h; simp [ht, set_same]
    · next hg => cases h; simp [Flow.suspend, set_same, hg]
  · next c ht => cases h; simp [Flow.suspend, set_same]
  · next f c ht =>
    split at h
    · next hg => cases h; simp [ht, set_same]
    · next hg => cases h; simp [Flow.suspend, set_same, hg]

theorem cancel_other {s s' : Flow} {t t' : Nat} (h : s.cancel t' = some s') (hx : t ≠ t') :
    s'.tasks t = s.tasks t := by
  unfold Flow.cancel at h
  split at h
  · cases h
  · split at h <;> cases h
    · rfl
    · simp [Flow.suspend, set_other hx]
  · cases h; simp [Flow.suspend, set_other hx]
  · split at h <;> cases h
    · rfl
    · simp [Flow.suspend, set_other hx]

theorem release_locked {s : Flow} {t : Nat} {o : Obs} (h : s.locked = true) : (s.release t o).2 = [o] := by
  simp [Flow.release, h]

/-- A call that is doomed runs and raises `CancelledError`. -/
theorem run_doomed {s : Flow} {t : Nat} (hi : Inv s none) (h : Doomed s t) (ht : s.tasks t ≠ none) :
    ∃ s', s.run t = some (s', [.raised t .cancelled]) ∧ s'.tasks t = none := by
  have hl : ∀ pc, s.tasks t = some pc → pc.holds = true → (s.suspend t none).locked = true := fun pc hp hh =>
    hi.locked.mpr ⟨t, Or.inr ⟨pc, hp, hh⟩⟩
  have hrel : (s.suspend t none).locked = true →
      ∃ s', some ((s.suspend t none).release t (.raised t .cancelled)) = some (s', [Obs.raised t .cancelled]) ∧
        s'.tasks t = none := by
    intro hx
    refine ⟨((s.suspend t none).release t (.raised t .cancelled)).1, ?_, ?_⟩
    · rw [← release_locked (t := t) hx]
    · rw [release_tasks]; simp [Flow.suspend, set_same]
  unfold Doomed at h
  unfold Flow.run
  split at h
  · next hn => exact absurd hn ht
  · next f c hf =>
    have hp : s.lockFuts f ≠ .pending := by
      rcases h with h | h
      · simp [h]
      · exact h.1
    have hc : s.lockFuts f = .cancelled ∨ c = true := h.imp_right And.right
    simp only [hf, hp, if_false]
    dsimp only [Flow.suspend]
    simp only [hc, if_true]
    refine ⟨_, rfl, ?_⟩
    by_cases hk : s.locked = true
    · simp only [hk, if_true]; simp [set_same]
    · simp only [hk, Bool.false_eq_true, if_false]; rw [wakeFirst_tasks]; simp [set_same]
  · next c hf =>
    simp only [hf, h, if_true]
    exact hrel (hl _ hf rfl)
  · next f c hf =>
    have := hrel (hl _ hf rfl)
    simp only [hf]
    dsimp only [Flow.suspend] at *
    rcases h with h | ⟨h, hc⟩
    · simp only [h]; exact this
    · subst hc
      cases hd : s.drainFuts f with
      | pending => exact absurd hd h
      | cancelled => exact this
      | result => exact this
      | exception => exact this

theorem doomed_step {s s' : Flow} {t : Nat} {a : Act} {os : List Obs} (hi : Inv s none) (h : Doomed s t)
    (hs : s.step a = some (s', os)) (ha : a ≠ .write t) :
    Doomed s' t ∧ Obs.returned t ∉ os ∧ ∀ e, Obs.raised t e ∈ os → e = .cancelled := by
  have hnone : ∀ t', Calm s t' (s', os) → t ≠ t' → Obs.returned t ∉ os ∧ ∀ e, Obs.raised t e ∈ os → e = .cancelled :=
    fun t' hc hx => ⟨fun hr => hx (hc.obs t (Or.inl hr)), fun e hr => absurd (hc.obs t (Or.inr ⟨e, hr⟩)) hx⟩
  cases a with
  | write t' =>
    have hx : t ≠ t' := by rintro rfl; exact ha rfl
    simp only [Flow.step] at hs
    split at hs
    · next ht =>
      simp only [Option.some.injEq] at hs
      have hc := write_calm (s := s) (t := t')
      have hst := write_steady (s := s) (t := t')
      have hli := write_limits ht
      rw [hs] at hc hst hli
      exact ⟨h.steady hi hst (hli.1 t hx), hnone t' hc hx⟩
    · cases hs
  | run t' =>
    have hs : s.run t' = some (s', os) := hs
    by_cases hx : t = t'
    · subst hx
      by_cases hn : s.tasks t = none
      · simp [Flow.run, hn] at hs
      · obtain ⟨s1, h1, h2⟩ := run_doomed hi h hn
        rw [h1] at hs
        cases hs
        refine ⟨by simp [Doomed, h2], by simp, by simp⟩
    · obtain ⟨n, _, hli⟩ := run_limits hs
      exact ⟨h.steady hi (run_steady hs) (hli.1 t hx), hnone t' (run_calm hs) hx⟩
  | cancel t' =>
    simp only [Flow.step, Option.map_eq_some_iff] at hs
    obtain ⟨s1, hs, he⟩ := hs
    cases he
    refine ⟨?_, by simp, by simp⟩
    by_cases hx : t = t'
    · subst hx; exact (cancel_doomed hs).1
    · exact h.steady hi (cancel_steady hs) (cancel_other hs hx)
  | pause =>
    simp only [Flow.step] at hs
    split at hs
    · cases hs
    · cases hs; exact ⟨h, by simp, by simp⟩
  | resume =>
    simp only [Flow.step] at hs
    split at hs
    · cases hs
      exact ⟨h.steady hi (fun f hf => wakeDrain_steady (s := { s with paused := false }) f hf)
        (by rw [wakeDrain_tasks]),
        by simp, by simp⟩
    · cases hs
  | lost exc =>
    simp only [Flow.step] at hs
    split at hs
    · cases hs
    · cases hs
      refine ⟨?_, by simp, by simp⟩
      split
      · exact h.steady hi (fun f hf => wakeDrain_steady (s := { s with lost := true, broken := exc }) f hf)
          (by rw [wakeDrain_tasks])
      · exact h
  | close => cases hs; exact ⟨h, by simp, by simp⟩

/-- C77: when a call is cancelled, wherever it's suspended and even if it's about to be woken up, it doesn't wait any
more: when it runs, it raises `CancelledError`; until then nothing else makes it end; it doesn't raise another exception
and it doesn't return. -/
theorem C77_cancelled {s s1 s2 : Flow} (hr : Reachable s) {t : Nat} {o os : List Obs} {as : List Act}
    (hc : s.step (.cancel t) = some (s1, o)) (hs : s1.exec as = some (s2, os)) (hw : Act.write t ∉ as) :
    (∃ s', s1.step (.run t) = some (s', [.raised t .cancelled]) ∧ s'.tasks t = none) ∧
    (s2.tasks t ≠ none → ∃ s', s2.step (.run t) = some (s', [.raised t .cancelled]) ∧ s'.tasks t = none) ∧
    Obs.returned t ∉ os ∧ ∀ e, Obs.raised t e ∈ os → e = .cancelled := by
  have hr1 := hr.step hc
  have hcan : s.cancel t = some s1 := by
    simp only [Flow.step, Option.map_eq_some_iff] at hc
    obtain ⟨s1, hs, he⟩ := hc
    cases he
    exact hs
  obtain ⟨hd, hn⟩ := cancel_doomed hcan
  have key : ∀ (as : List Act) (s s' : Flow) (os : List Obs), Reachable s → Doomed s t → s.exec as = some (s', os) →
      Act.write t ∉ as → Doomed s' t ∧ Obs.returned t ∉ os ∧ ∀ e, Obs.raised t e ∈ os → e = .cancelled := by
    intro as
    induction as with
    | nil => intro s s' os _ hd he _; cases he; exact ⟨hd, by simp, by simp⟩
    | cons a as ih =>
      intro s s' os hr hd he h1
      obtain ⟨s1, o1, o2, e1, e2, e3⟩ := exec_cons he
      obtain ⟨w1, w2, w3⟩ := doomed_step hr.inv hd e1 (fun hx => h1 (by simp [hx]))
      obtain ⟨i1, i2, i3⟩ := ih s1 s' o2 (hr.step e1) w1 e2 (fun hx => h1 (by simp [hx]))
      dsimp only at e3
      refine ⟨i1, ?_, ?_⟩
      · rw [e3, List.mem_append]; exact fun hx => hx.elim w2 i2
      · intro e he
        rw [e3, List.mem_append] at he
        exact he.elim (w3 e) (i3 e)
  obtain ⟨k1, k2, k3⟩ := key as s1 s2 os hr1 hd hs hw
  exact ⟨run_doomed hr1.inv hd hn, fun hx => run_doomed (hr1.exec hs).inv k1 hx, k2, k3⟩

/-! ## Calls that aren't cancelled -/

/-- The call of `t`, if there's one, isn't cancelled. -/
def Clear (s : Flow) (t : Nat) : Prop :=
  match s.tasks t with
  | none => True
  | some (.acquiring f c) => c = false ∧ s.lockFuts f ≠ .cancelled
  | some (.sleeping c) => c = false
  | some (.draining f c) => c = false ∧ s.drainFuts f ≠ .cancelled

theorem Clear.idle {s : Flow} {t : Nat} (h : s.tasks t = none) : Clear s t := by simp [Clear, h]

theorem Clear.keep {s s' : Flow} {t : Nat} (h : Clear s t) (ht : s'.tasks t = s.tasks t)
    (hl : ∀ f c, s.tasks t = some (.acquiring f c) → s.lockFuts f ≠ .cancelled → s'.lockFuts f ≠ .cancelled)
    (hd : ∀ f c, s.tasks t = some (.draining f c) → s.drainFuts f ≠ .cancelled → s'.drainFuts f ≠ .cancelled) :
    Clear s' t := by
  unfold Clear at *
  rw [ht]
  split
  · trivial
  · next f c hf => rw [hf] at h; exact ⟨h.1, hl f c hf h.2⟩
  · next c hf => rw [hf] at h; exact h
  · next f c hf => rw [hf] at h; exact ⟨h.1, hd f c hf h.2⟩

/-- A step of `t` doesn't cancel it, and doesn't cancel other futures in which tasks drain. -/
structure Sound (s : Flow) (t : Nat) (r : Flow × List Obs) : Prop where
  clear : Clear r.1 t
  obs : ∀ t', Obs.raised t' .cancelled ∉ r.2
  drain : ∀ f, s.drainFuts f ≠ .cancelled → r.1.drainFuts f ≠ .cancelled

theorem release_sound {s : Flow} {t : Nat} {o : Obs} (ht : s.tasks t = none) (ho : ∀ t', o ≠ .raised t' .cancelled) :
    Sound s t (s.release t o) := by
  refine ⟨.idle (by rw [release_tasks]; exact ht), ?_, ?_⟩
  · intro t'
    unfold Flow.release
    split
    · simpa using (ho t').symm
    · simp
  · intro f hf
    unfold Flow.release
    split
    · rw [wakeFirst_drain.1]; exact hf
    · exact hf

theorem drainHelper_sound {s : Flow} {t : Nat} (ht : s.tasks t = none) : Sound s t (s.drainHelper t) := by
  unfold Flow.drainHelper
  split
  · exact release_sound ht (by simp)
  · split
    · exact release_sound ht (by simp)
    · split
      · refine ⟨by simp [Clear, Flow.suspend, set_same], by simp, ?_⟩
        intro f hf
        simp only [Flow.suspend]
        by_cases hx : f = s.next
        · subst hx; simp [set_same]
        · rwa [set_other hx]
      · exact release_sound ht (by simp)

theorem drain_sound {s : Flow} {t : Nat} (ht : s.tasks t = none) : Sound s t (s.drain t) := by
  unfold Flow.drain
  split
  · exact release_sound ht (by simp)
  · split
    · exact ⟨by simp [Clear, Flow.suspend, set_same], by simp, fun _ hf => hf⟩
    · exact drainHelper_sound ht

theorem write_sound {s : Flow} {t : Nat} (ht : s.tasks t = none) : Sound s t (s.write t) := by
  unfold Flow.write
  split
  · have := drain_sound (s := { s with locked := true }) (t := t) ht
    exact ⟨this.1, this.2, this.3⟩
  · exact ⟨by simp [Clear, Flow.suspend, set_same], by simp, fun _ hf => hf⟩

theorem run_sound {s : Flow} {t : Nat} {r : Flow × List Obs} (h : Clear s t) (hr : s.run t = some r) : Sound s t r := by
  have h0 : (s.suspend t none).tasks t = none := by simp [Flow.suspend, set_same]
  have hrel : ∀ o, (∀ t', o ≠ .raised t' .cancelled) → Sound s t ((s.suspend t none).release t o) := by
    intro o ho
    have := release_sound h0 ho
    exact ⟨this.1, this.2, this.3⟩
  unfold Flow.run at hr
  unfold Clear at h
  split at hr
  · cases hr
  · next f c hf =>
    rw [hf] at h
    split at hr
    · cases hr
    · dsimp only at hr
      split at hr
      · next hx =>
        rcases hx with hx | hx
        · exact absurd hx h.2
        · rw [h.1] at hx; cases hx
      · cases hr
        have := drain_sound (s := { { s with waiters := s.waiters.filter (· ≠ f) }.suspend t none with locked := true })
          (t := t) (by simp [Flow.suspend, set_same])
        exact ⟨this.1, this.2, this.3⟩
  · next c hf =>
    rw [hf] at h
    dsimp only at hr h
    subst h
    cases hr
    have := drainHelper_sound h0
    exact ⟨this.1, this.2, this.3⟩
  · next f c hf =>
    rw [hf] at h
    obtain ⟨rfl, h⟩ := h
    dsimp only at hr
    split at hr
    · cases hr
    · next hx => exact absurd hx h
    · cases hr; exact hrel _ (by simp)
    · cases hr; exact hrel _ (by simp)

/-- A step of another task doesn't cancel the future of the lock (`Calm.lock`), and a cancellation concerns one task. -/
theorem cancel_drain {s s' : Flow} {t f : Nat} (h : s.cancel t = some s') (hf : s'.drainFuts f = .cancelled) :
    s.drainFuts f = .cancelled ∨ ∃ c, s.tasks t = some (.draining f c) := by
  unfold Flow.cancel at h
  split at h
  · cases h
  · split at h <;> cases h <;> exact .inl hf
  · cases h; exact .inl hf
  · next g c ht =>
    split at h
    · cases h
      by_cases hx : f = g
      · subst hx; exact .inr ⟨c, ht⟩
      · simp only [set_other hx] at hf; exact .inl hf
    · cases h; exact .inl hf

theorem wakeDrain_clear {s : Flow} {r : Fut} (hr : r ≠ .cancelled) {f : Nat} (hf : s.drainFuts f ≠ .cancelled) :
    (s.wakeDrain r).drainFuts f ≠ .cancelled := by
  unfold Flow.wakeDrain
  split
  · exact hf
  · next g _ =>
    split
    · by_cases hx : f = g
      · subst hx; simpa [set_same] using hr
      · simpa [set_other hx] using hf
    · exact hf

theorem clear_step {s s' : Flow} {t : Nat} {a : Act} {os : List Obs} (hi : Inv s none) (h : Clear s t)
    (hs : s.step a = some (s', os)) (ha : a ≠ .cancel t) : Clear s' t ∧ Obs.raised t .cancelled ∉ os := by
  cases a with
  | write t' =>
    simp only [Flow.step] at hs
    split at hs
    · next ht =>
      simp only [Option.some.injEq] at hs
      have hc := write_calm (s := s) (t := t')
      have hw := write_sound ht
      have hli := write_limits ht
      rw [hs] at hc hw hli
      refine ⟨?_, hw.obs t⟩
      by_cases hx : t = t'
      · subst hx; exact hw.clear
      · exact h.keep (hli.1 t hx) (fun f _ _ => hc.lock f) (fun f _ _ => hw.drain f)
    · cases hs
  | run t' =>
    have hs : s.run t' = some (s', os) := hs
    by_cases hx : t = t'
    · subst hx
      have := run_sound h hs
      exact ⟨this.clear, this.obs t⟩
    · have hc := run_calm hs
      obtain ⟨n, _, hli⟩ := run_limits hs
      have hst := run_steady hs
      refine ⟨h.keep (hli.1 t hx) (fun f _ _ => hc.lock f) ?_, ?_⟩
      · intro f c hf hn hcan
        by_cases hp : s.drainFuts f = .pending
        · -- `t'` isn't the holder: it waits for the lock, so that it doesn't change these futures
          have hlt := hi.dlt hf
          have hhold : Holds s none t := Or.inr ⟨_, hf, rfl⟩
          have hnot : ∀ pc, s.tasks t' = some pc → pc.holds = false := by
            intro pc hpc
            cases hh : pc.holds with
            | false => rfl
            | true => exact absurd (hi.holder hhold (Or.inr ⟨pc, hpc, hh⟩)) hx
          have hlk : s.locked = true := hi.locked.mpr ⟨t, hhold⟩
          unfold Flow.run at hs
          split at hs
          · cases hs
          · next g c' hg =>
            split at hs
            · cases hs
            · next hgp =>
              dsimp only at hs
              split at hs
              · simp only [Option.some.injEq, Prod.mk.injEq] at hs
                have e : s'.drainFuts f = s.drainFuts f := by
                  rw [← hs.1]
                  split
                  · rfl
                  · rw [wakeFirst_drain.1]; rfl
                rw [e] at hcan
                exact hn hcan
              · next hne =>
                exfalso
                have hres : s.lockFuts g = .result := by
                  cases hgv : s.lockFuts g with
                  | pending => exact absurd hgv hgp
                  | cancelled => exact absurd (Or.inl hgv) hne
                  | result => rfl
                  | exception => exact absurd hgv (hi.noexc g)
                have := (hi.woken (hi.acq hg) hres).1
                rw [hlk] at this
                cases this
          · next hg => exact absurd (hnot _ hg) (by simp [Pc.holds])
          · next hg => exact absurd (hnot _ hg) (by simp [Pc.holds])
        · rw [(hst f (hi.dlt hf)).2 hp] at hcan
          exact hn hcan
      · exact fun hr => hx (hc.obs t (Or.inr ⟨_, hr⟩))
  | cancel t' =>
    simp only [Flow.step, Option.map_eq_some_iff] at hs
    obtain ⟨s1, hs, he⟩ := hs
    cases he
    have hx : t ≠ t' := by rintro rfl; exact ha rfl
    refine ⟨h.keep (cancel_other hs hx) ?_ ?_, by simp⟩
    · intro f c hf hn hcan
      rcases (cancel_calm hs).2.2.2 f hcan with h1 | ⟨c', h1⟩
      · exact hn h1
      · exact hx (hi.one hf h1)
    · intro f c hf hn hcan
      rcases cancel_drain hs hcan with h1 | ⟨c', h1⟩
      · exact hn h1
      · exact hx (hi.holder (Or.inr ⟨_, hf, rfl⟩) (Or.inr ⟨_, h1, rfl⟩))
  | pause =>
    simp only [Flow.step] at hs
    split at hs
    · cases hs
    · cases hs; exact ⟨h, by simp⟩
  | resume =>
    simp only [Flow.step] at hs
    split at hs
    · cases hs
      refine ⟨h.keep (by rw [wakeDrain_tasks]) ?_ (fun f _ _ hf => wakeDrain_clear (by simp) hf), by simp⟩
      intro f _ _ hf
      rw [wakeDrain_waiters.2]
      exact hf
    · cases hs
  | lost exc =>
    simp only [Flow.step] at hs
    split at hs
    · cases hs
    · cases hs
      refine ⟨?_, by simp⟩
      split
      · refine h.keep (by rw [wakeDrain_tasks]) ?_ (fun f _ _ hf => wakeDrain_clear (by split <;> simp) hf)
        intro f _ _ hf
        rw [wakeDrain_waiters.2]
        exact hf
      · exact h
  | close => cases hs; exact ⟨h, by simp⟩

/-- C77: a call that isn't cancelled doesn't raise `CancelledError`, even if other calls are cancelled. -/
theorem C77_uncancelled {s s' : Flow} (hr : Reachable s) {t : Nat} {as : List Act} {os : List Obs}
    (ht : s.tasks t = none) (hs : s.exec as = some (s', os)) (hc : Act.cancel t ∉ as) :
    Obs.raised t .cancelled ∉ os := by
  have key : ∀ (as : List Act) (s s' : Flow) (os : List Obs), Reachable s → Clear s t → s.exec as = some (s', os) →
      Act.cancel t ∉ as → Obs.raised t .cancelled ∉ os := by
    intro as
    induction as with
    | nil => intro s s' os _ _ he _; cases he; simp
    | cons a as ih =>
      intro s s' os hr hd he h1
      obtain ⟨s1, o1, o2, e1, e2, e3⟩ := exec_cons he
      obtain ⟨w1, w2⟩ := clear_step hr.inv hd e1 (fun hx => h1 (by simp [hx]))
      have := ih s1 s' o2 (hr.step e1) w1 e2 (fun hx => h1 (by simp [hx]))
      dsimp only at e3
      rw [e3, List.mem_append]
      exact fun hx => hx.elim w2 this
  exact key as s s' os hr (.idle ht) hs hc

/-- Two calls wait for the transport and for the lock; writing resumes and both are cancelled before they run. -/
example : (({} : Flow).exec [.pause, .write 1, .write 2, .resume, .cancel 1, .cancel 2, .run 1, .run 2]).map
    (fun r => decide (r.2 = [.raised 1 .cancelled, .raised 2 .cancelled] ∧ r.1.locked = false)) = some true := by
  decide +kernel

end WS.LegacyDrain
