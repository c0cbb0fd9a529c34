import Verif.Model.LegacyDrain

/-! # An invariant of flow control -/

namespace WS.LegacyDrain

/-- Past the lock -/
def Pc.holds : Pc → Bool
  | .acquiring _ _ => false
  | _ => true

theorem set_same {α : Type} {f : Nat → α} {n : Nat} {a : α} : set f n a n = a := by simp [set]

theorem set_other {α : Type} {f : Nat → α} {n m : Nat} {a : α} (h : m ≠ n) : set f n a m = f m := by
  simp [set, h]

/-- `t` holds the lock; `run` is the task that is running while it holds the lock. -/
def Holds (s : Flow) (run : Option Nat) (t : Nat) : Prop :=
  run = some t ∨ ∃ pc, s.tasks t = some pc ∧ pc.holds = true

structure Inv (s : Flow) (run : Option Nat) : Prop where
  acq : ∀ {t f c}, s.tasks t = some (.acquiring f c) → f ∈ s.waiters
  own : ∀ {f}, f ∈ s.waiters → ∃ t c, s.tasks t = some (.acquiring f c)
  one : ∀ {t t' f c c'}, s.tasks t = some (.acquiring f c) → s.tasks t' = some (.acquiring f c') → t = t'
  nodup : s.waiters.Nodup
  lt : ∀ {f}, f ∈ s.waiters → f < s.next
  holder : ∀ {t t'}, Holds s run t → Holds s run t' → t = t'
  locked : s.locked = true ↔ ∃ t, Holds s run t
  woken : ∀ {f}, f ∈ s.waiters → s.lockFuts f = .result → s.locked = false ∧ s.waiters.head? = some f
  first : s.locked = false → ∀ {f}, s.waiters.head? = some f → s.lockFuts f ≠ .pending
  drain : ∀ {t f c}, s.tasks t = some (.draining f c) → s.drainFuts f = .pending →
    s.drainWaiter = some f ∧ s.paused = true ∧ s.lost = false
  dlt : ∀ {t f c}, s.tasks t = some (.draining f c) → f < s.next
  wlt : ∀ {f}, s.drainWaiter = some f → f < s.next
  dw : ∀ {f}, s.drainWaiter = some f → s.drainFuts f = .cancelled ∨
    s.drainFuts f = .pending ∧ ∃ t c, s.tasks t = some (.draining f c)
  idle : ∀ {t}, run = some t → s.tasks t = none
  noexc : ∀ f, s.lockFuts f ≠ .exception

theorem inv_start : Inv {} none := by
  constructor <;> simp [Holds]

/-- Nobody holds the lock any more and nobody was woken yet. -/
structure Free (s : Flow) : Prop where
  acq : ∀ {t f c}, s.tasks t = some (.acquiring f c) → f ∈ s.waiters
  own : ∀ {f}, f ∈ s.waiters → ∃ t c, s.tasks t = some (.acquiring f c)
  one : ∀ {t t' f c c'}, s.tasks t = some (.acquiring f c) → s.tasks t' = some (.acquiring f c') → t = t'
  nodup : s.waiters.Nodup
  lt : ∀ {f}, f ∈ s.waiters → f < s.next
  holder : ∀ {t}, ¬ Holds s none t
  locked : s.locked = false
  woken : ∀ {f}, f ∈ s.waiters → s.lockFuts f = .result → s.waiters.head? = some f
  wlt : ∀ {f}, s.drainWaiter = some f → f < s.next
  dw : ∀ {f}, s.drainWaiter = some f → s.drainFuts f = .cancelled
  noexc : ∀ f, s.lockFuts f ≠ .exception

theorem Free.not_holds {s : Flow} (h : Free s) {t : Nat} {pc : Pc} (hp : s.tasks t = some pc) : pc.holds = false := by
  cases hh : pc.holds
  · rfl
  · exact absurd (Or.inr ⟨pc, hp, hh⟩) h.holder

theorem Free.not_draining {s : Flow} (h : Free s) {t f : Nat} {c : Bool} : s.tasks t ≠ some (.draining f c) := by
  intro hp
  simpa [Pc.holds] using h.not_holds hp

theorem Free.inv {s : Flow} (h : Free s) : Inv s.wakeFirst none := by
  have hwt : s.wakeFirst.tasks = s.tasks := by
    unfold Flow.wakeFirst
    split
    · rfl
    · split <;> rfl
  have hww : s.wakeFirst.waiters = s.waiters := by
    unfold Flow.wakeFirst
    split
    · rfl
    · split <;> rfl
  have hwn : s.wakeFirst.next = s.next := by
    unfold Flow.wakeFirst
    split
    · rfl
    · split <;> rfl
  have hwl : s.wakeFirst.locked = s.locked := by
    unfold Flow.wakeFirst
    split
    · rfl
    · split <;> rfl
  have hwd : s.wakeFirst.drainWaiter = s.drainWaiter := by
    unfold Flow.wakeFirst
    split
    · rfl
    · split <;> rfl
  have hwf : s.wakeFirst.drainFuts = s.drainFuts := by
    unfold Flow.wakeFirst
    split
    · rfl
    · split <;> rfl
  have hh : ∀ {t}, ¬ Holds s.wakeFirst none t := by
    intro t ht
    exact h.holder (by simpa [Holds, hwt] using ht)
  constructor
  · rw [hwt, hww]; exact h.acq
  · rw [hwt, hww]; exact h.own
  · rw [hwt]; exact h.one
  · rw [hww]; exact h.nodup
  · rw [hww, hwn]; exact h.lt
  · intro t _ ht; exact absurd ht hh
  · rw [hwl, h.locked]; simp [hh]
  · rw [hwl, hww]
    intro f hf hr
    refine ⟨h.locked, ?_⟩
    revert hr
    unfold Flow.wakeFirst
    split
    · next heq => rw [heq] at hf; simp at hf
    · next g l heq =>
      split
      · next hg =>
        intro hr
        by_cases hfg : f = g
        · simp [heq, hfg]
        · simp only [set_other hfg] at hr
          exact h.woken hf hr
      · exact h.woken hf
  · rw [hww]
    intro _ f hf
    unfold Flow.wakeFirst
    split
    · next heq => simp [heq] at hf
    · next g l heq =>
      have : f = g := by simpa [heq] using hf.symm
      subst this
      split
      · simp [set_same]
      · assumption
  · rw [hwt]; intro t f c hd; exact absurd hd h.not_draining
  · rw [hwt]; intro t f c hd; exact absurd hd h.not_draining
  · rw [hwd, hwn]; exact h.wlt
  · rw [hwd, hwf]; intro f hd; exact Or.inl (h.dw hd)
  · simp
  · intro f
    unfold Flow.wakeFirst
    split
    · exact h.noexc f
    · next g l heq =>
      split
      · by_cases hfg : f = g
        · subst hfg; simp [set_same]
        · simp only [set_other hfg]; exact h.noexc f
      · exact h.noexc f

theorem Inv.not_holds {s : Flow} {t : Nat} (h : Inv s (some t)) {t' : Nat} {pc : Pc} (hp : s.tasks t' = some pc) :
    pc.holds = false := by
  cases hh : pc.holds
  · rfl
  · have := h.holder (t := t) (t' := t') (Or.inl rfl) (Or.inr ⟨pc, hp, hh⟩)
    subst this
    simp [h.idle rfl] at hp

theorem Inv.is_locked {s : Flow} {t : Nat} (h : Inv s (some t)) : s.locked = true :=
  h.locked.mpr ⟨t, Or.inl rfl⟩

theorem Inv.waiter_cancelled {s : Flow} {t f : Nat} (h : Inv s (some t)) (hd : s.drainWaiter = some f) :
    s.drainFuts f = .cancelled := by
  rcases h.dw hd with hc | ⟨_, t', c, ht⟩
  · exact hc
  · simpa [Pc.holds] using h.not_holds ht

theorem Inv.free {s : Flow} {t : Nat} (h : Inv s (some t)) : Free { s with locked := false } where
  acq := h.acq
  own := h.own
  one := h.one
  nodup := h.nodup
  lt := h.lt
  holder := by
    intro t' ht
    rcases ht with ht | ⟨pc, hp, hh⟩
    · simp at ht
    · simp [h.not_holds hp] at hh
  locked := rfl
  woken := by intro f hf hr; exact (h.woken hf hr).2
  wlt := h.wlt
  dw := h.waiter_cancelled
  noexc := h.noexc

/-- A task leaves the lock. -/
theorem Inv.release {s : Flow} {t : Nat} (h : Inv s (some t)) (o : Obs) :
    Inv (s.release t o).1 none ∧ (s.release t o).2 = [o] := by
  simp only [Flow.release, h.is_locked, if_true]
  exact ⟨h.free.inv, trivial⟩

/-- A task is suspended past the lock. -/
theorem Inv.suspend {s : Flow} {t : Nat} (h : Inv s (some t)) {pc : Pc} (hpc : pc.holds = true)
    (hd : ∀ {f c}, pc = .draining f c → f < s.next ∧ s.drainFuts f ≠ .pending) :
    Inv (s.suspend t (some pc)) none := by
  have hacq : ∀ {t' f c}, (s.suspend t (some pc)).tasks t' = some (.acquiring f c) ↔
      s.tasks t' = some (.acquiring f c) := by
    intro t' f c
    by_cases ht : t' = t
    · subst ht
      simp only [Flow.suspend, set_same, h.idle rfl]
      constructor
      · intro hx; cases hx; simp [Pc.holds] at hpc
      · intro hx; cases hx
    · simp only [Flow.suspend, set_other ht]
  have hhold : ∀ {t'}, Holds (s.suspend t (some pc)) none t' ↔ t' = t := by
    intro t'
    by_cases ht : t' = t
    · subst ht; simp [Holds, Flow.suspend, set_same, hpc]
    · simp only [Holds, Flow.suspend, set_other ht, ht, iff_false]
      rintro (hx | ⟨pc', hp, hh⟩)
      · cases hx
      · simp [h.not_holds hp] at hh
  have hdr : ∀ {t' f c}, (s.suspend t (some pc)).tasks t' = some (.draining f c) → pc = .draining f c := by
    intro t' f c hx
    by_cases ht : t' = t
    · subst ht; simpa [Flow.suspend, set_same] using hx
    · simp only [Flow.suspend, set_other ht] at hx
      simpa [Pc.holds] using h.not_holds hx
  refine ⟨?_, ?_, ?_, h.nodup, h.lt, ?_, ?_, h.woken, h.first, ?_, ?_, h.wlt, ?_, ?_, h.noexc⟩
  · intro t' f c hx; exact h.acq (hacq.mp hx)
  · intro f hf; obtain ⟨t', c, hx⟩ := h.own hf; exact ⟨t', c, hacq.mpr hx⟩
  · intro t1 t2 f c c' h1 h2; exact h.one (hacq.mp h1) (hacq.mp h2)
  · intro t1 t2 h1 h2; rw [hhold.mp h1, hhold.mp h2]
  · exact ⟨fun _ => ⟨t, hhold.mpr rfl⟩, fun _ => h.is_locked⟩
  · intro t' f c hx hp; exact absurd hp (hd (hdr hx)).2
  · intro t' f c hx; exact (hd (hdr hx)).1
  · intro f hf; exact Or.inl (h.waiter_cancelled hf)
  · simp

/-- A task waits for the transport. -/
theorem Inv.wait {s : Flow} {t : Nat} (h : Inv s (some t)) (hp : s.paused = true) (hl : s.lost = false) :
    Inv ({ s with drainWaiter := some s.next, drainFuts := set s.drainFuts s.next .pending
                  next := s.next + 1 }.suspend t (some (.draining s.next false))) none := by
  have h' : Inv { s with drainWaiter := none, drainFuts := set s.drainFuts s.next .cancelled
                         next := s.next + 1 } (some t) := by
    refine ⟨h.acq, h.own, h.one, h.nodup, ?_, h.holder, h.locked, h.woken, h.first, ?_, ?_, by simp, by simp, h.idle, h.noexc⟩
    · intro f hf; exact Nat.lt_succ_of_lt (h.lt hf)
    · intro t' f c hx; simpa [Pc.holds] using h.not_holds hx
    · intro t' f c hx; simpa [Pc.holds] using h.not_holds hx
  have h2 := h'.suspend (pc := .draining s.next false) rfl (by
    intro f c hx; cases hx; exact ⟨Nat.lt_succ_self _, by simp [set_same]⟩)
  have hdr : ∀ {t' f c}, set s.tasks t (some (.draining s.next false)) t' = some (.draining f c) →
      f = s.next := by
    intro t' f c hx
    by_cases ht : t' = t
    · subst ht; simp [set_same] at hx; exact hx.1.symm
    · rw [set_other ht] at hx; simpa [Pc.holds] using h.not_holds hx
  refine ⟨h2.acq, h2.own, h2.one, h2.nodup, h2.lt, h2.holder, h2.locked, h2.woken, h2.first, ?_, h2.dlt, ?_, ?_, by simp, h.noexc⟩
  · intro t' f c hx _
    simp only [Flow.suspend] at hx ⊢
    rw [hdr hx]
    exact ⟨rfl, hp, hl⟩
  · intro f hf; simp only [Flow.suspend, Option.some.injEq] at hf ⊢; omega
  · intro f hf
    simp only [Flow.suspend, Option.some.injEq] at hf ⊢
    subst hf
    exact Or.inr ⟨set_same, t, false, set_same⟩

/-- The exceptions that would be bugs -/
def Obs.bad : Obs → Bool
  | .raised _ .assertionError => true
  | .raised _ .runtimeError => true
  | _ => false

theorem Inv.drainHelper {s : Flow} {t : Nat} (h : Inv s (some t)) :
    Inv (s.drainHelper t).1 none ∧ ∀ o ∈ (s.drainHelper t).2, o.bad = false := by
  have hr : ∀ o : Obs, o.bad = false → Inv (s.release t o).1 none ∧ ∀ o' ∈ (s.release t o).2, o'.bad = false := by
    intro o ho
    obtain ⟨h1, h2⟩ := h.release o
    refine ⟨h1, ?_⟩
    rw [h2]
    simpa using ho
  unfold Flow.drainHelper
  split
  · exact hr _ rfl
  · next hl =>
    split
    · exact hr _ rfl
    · next hp =>
      have hok : s.mayWait = true := by
        unfold Flow.mayWait
        split
        · rfl
        · next f hf => simp [h.waiter_cancelled hf]
      rw [if_pos hok]
      exact ⟨h.wait (by simpa using hp) (by simpa using hl), by simp⟩

theorem Inv.drain_step {s : Flow} {t : Nat} (h : Inv s (some t)) :
    Inv (s.drain t).1 none ∧ ∀ o ∈ (s.drain t).2, o.bad = false := by
  unfold Flow.drain
  split
  · obtain ⟨h1, h2⟩ := h.release (.raised t .lost)
    refine ⟨h1, ?_⟩
    rw [h2]
    simp [Obs.bad]
  · split
    · exact ⟨h.suspend rfl (by intro f c hx; cases hx), by simp⟩
    · exact h.drainHelper

/-- A task takes the lock. -/
theorem Inv.take {s : Flow} {t : Nat} (h : Inv s none) (ht : s.tasks t = none) (hl : s.locked = false)
    (hw : ∀ f ∈ s.waiters, s.lockFuts f ≠ .result) : Inv { s with locked := true } (some t) := by
  have hn : ∀ {t'}, ¬ Holds s none t' := by
    intro t' hx
    have := h.locked.mpr ⟨t', hx⟩
    simp [hl] at this
  have hh : ∀ {t'}, Holds { s with locked := true } (some t) t' → t' = t := by
    intro t' hx
    rcases hx with hx | hx
    · simpa using hx.symm
    · exact absurd (Or.inr hx) hn
  refine ⟨h.acq, h.own, h.one, h.nodup, h.lt, ?_, ?_, ?_, by simp, h.drain, h.dlt, h.wlt, h.dw, ?_, h.noexc⟩
  · intro t1 t2 h1 h2; rw [hh h1, hh h2]
  · exact ⟨fun _ => ⟨t, Or.inl rfl⟩, fun _ => rfl⟩
  · intro f hf hr; exact absurd hr (hw f hf)
  · intro t' hx; cases hx; exact ht

theorem Inv.write {s : Flow} {t : Nat} (h : Inv s none) (ht : s.tasks t = none) :
    Inv (s.write t).1 none ∧ ∀ o ∈ (s.write t).2, o.bad = false := by
  unfold Flow.write
  split
  · next hc =>
    simp only [Bool.and_eq_true, Bool.not_eq_true', List.all_eq_true, decide_eq_true_eq] at hc
    refine Inv.drain_step (h.take ht hc.1 ?_)
    intro f hf; simp [hc.2 f hf]
  · next hc =>
    refine ⟨?_, by simp⟩
    have hnext : s.next ∉ s.waiters := fun hx => Nat.lt_irrefl _ (h.lt hx)
    have hacq : ∀ {t' f c}, set s.tasks t (some (.acquiring s.next false)) t' = some (.acquiring f c) →
        t' = t ∧ f = s.next ∨ t' ≠ t ∧ s.tasks t' = some (.acquiring f c) := by
      intro t' f c hx
      by_cases h' : t' = t
      · subst h'; simp [set_same] at hx; exact Or.inl ⟨rfl, hx.1.symm⟩
      · rw [set_other h'] at hx; exact Or.inr ⟨h', hx⟩
    have hne : ∀ {t' pc}, s.tasks t' = some pc → t' ≠ t := by
      intro t' pc hx heq; subst heq; simp [ht] at hx
    have hold : ∀ {t' pc}, pc.holds = true → (set s.tasks t (some (.acquiring s.next false)) t' = some pc ↔
        s.tasks t' = some pc) := by
      intro t' pc hpc
      by_cases h' : t' = t
      · subst h'
        simp only [set_same, ht]
        constructor
        · intro hx; cases hx; simp [Pc.holds] at hpc
        · intro hx; cases hx
      · rw [set_other h']
    have hholds : ∀ {t'}, Holds ({ s with waiters := s.waiters ++ [s.next]
                                          lockFuts := set s.lockFuts s.next .pending
                                          next := s.next + 1 }.suspend t (some (.acquiring s.next false))) none t' ↔
        Holds s none t' := by
      intro t'
      simp only [Holds, Flow.suspend]
      constructor
      · rintro (hx | ⟨pc, hx, hh⟩)
        · exact Or.inl hx
        · exact Or.inr ⟨pc, (hold hh).mp hx, hh⟩
      · rintro (hx | ⟨pc, hx, hh⟩)
        · exact Or.inl hx
        · exact Or.inr ⟨pc, (hold hh).mpr hx, hh⟩
    refine ⟨?_, ?_, ?_, ?_, ?_, ?_, ?_, ?_, ?_, ?_, ?_, ?_, ?_, by simp, ?_⟩
    · intro t' f c hx
      simp only [Flow.suspend, List.mem_append, List.mem_singleton] at hx ⊢
      rcases hacq hx with ⟨_, hf⟩ | ⟨_, hf⟩
      · exact Or.inr hf
      · exact Or.inl (h.acq hf)
    · intro f hf
      simp only [Flow.suspend, List.mem_append, List.mem_singleton] at hf ⊢
      rcases hf with hf | hf
      · obtain ⟨t', c, hx⟩ := h.own hf
        exact ⟨t', c, by rw [set_other (hne hx)]; exact hx⟩
      · subst hf; exact ⟨t, false, set_same⟩
    · intro t1 t2 f c c' h1 h2
      simp only [Flow.suspend] at h1 h2
      rcases hacq h1 with ⟨h1, e1⟩ | ⟨_, h1⟩ <;> rcases hacq h2 with ⟨h2, e2⟩ | ⟨_, h2⟩
      · rw [h1, h2]
      · subst e1; exact absurd (h.acq h2) hnext
      · subst e2; exact absurd (h.acq h1) hnext
      · exact h.one h1 h2
    · simp only [Flow.suspend]
      rw [List.nodup_append]
      refine ⟨h.nodup, by simp, ?_⟩
      intro a ha b hb heq
      simp only [List.mem_singleton] at hb
      subst hb heq
      exact hnext ha
    · intro f hf
      simp only [Flow.suspend, List.mem_append, List.mem_singleton] at hf ⊢
      rcases hf with hf | hf
      · exact Nat.lt_succ_of_lt (h.lt hf)
      · omega
    · intro t1 t2 h1 h2; exact h.holder (hholds.mp h1) (hholds.mp h2)
    · simp only [hholds]; exact h.locked
    · intro f hf hr
      simp only [Flow.suspend, List.mem_append, List.mem_singleton] at hf hr ⊢
      by_cases hx : f = s.next
      · subst hx; simp [set_same] at hr
      · rw [set_other hx] at hr
        rcases hf with hf | hf
        · obtain ⟨h1, h2⟩ := h.woken hf hr
          refine ⟨h1, ?_⟩
          cases hw : s.waiters with
          | nil => simp [hw] at h2
          | cons a l => simpa [hw] using h2
        · exact absurd hf hx
    · intro hl f hf
      simp only [Flow.suspend] at hl hf ⊢
      cases hw : s.waiters with
      | nil => simp [hl, hw] at hc
      | cons a l =>
        have hfa : f = a := by simpa [hw] using hf.symm
        subst hfa
        have hm : f ∈ s.waiters := by simp [hw]
        have hfn : f ≠ s.next := by intro hx; rw [hx] at hm; exact hnext hm
        rw [set_other hfn]
        exact h.first hl (by simp [hw])
    · intro t' f c hx hp
      exact h.drain ((hold rfl).mp hx) hp
    · intro t' f c hx
      exact Nat.lt_succ_of_lt (h.dlt ((hold rfl).mp hx))
    · intro f hf; exact Nat.lt_succ_of_lt (h.wlt hf)
    · intro f hf
      rcases h.dw hf with hx | ⟨hx, t', c, hy⟩
      · exact Or.inl hx
      · exact Or.inr ⟨hx, t', c, (hold rfl).mpr hy⟩
    · intro f
      by_cases hx : f = s.next
      · subst hx; simp [Flow.suspend, set_same]
      · simp only [Flow.suspend, set_other hx]; exact h.noexc f

/-- A task leaves the queue of the lock. -/
theorem Inv.leave {s : Flow} {t f : Nat} {c : Bool} (h : Inv s none) (ht : s.tasks t = some (.acquiring f c)) :
    let s' := { s with waiters := s.waiters.filter (· ≠ f) }.suspend t none
    (∀ {t' pc}, s'.tasks t' = some pc ↔ t' ≠ t ∧ s.tasks t' = some pc) ∧
    (∀ {t'}, Holds s' none t' ↔ Holds s none t') ∧
    (∀ {t f c}, s'.tasks t = some (.acquiring f c) → f ∈ s'.waiters) ∧
    (∀ {f}, f ∈ s'.waiters → ∃ t c, s'.tasks t = some (.acquiring f c)) ∧
    (∀ {g}, g ∈ s'.waiters → s.lockFuts g = .result → s'.waiters.head? = some g) := by
  have htask : ∀ {t' pc}, set s.tasks t none t' = some pc ↔ t' ≠ t ∧ s.tasks t' = some pc := by
    intro t' pc
    by_cases h' : t' = t
    · subst h'; simp [set_same]
    · simp [set_other h', h']
  refine ⟨htask, ?_, ?_, ?_, ?_⟩
  · intro t'
    simp only [Holds, Flow.suspend, htask]
    constructor
    · rintro (hx | ⟨pc, ⟨_, hx⟩, hh⟩)
      · exact Or.inl hx
      · exact Or.inr ⟨pc, hx, hh⟩
    · rintro (hx | ⟨pc, hx, hh⟩)
      · exact Or.inl hx
      · refine Or.inr ⟨pc, ⟨?_, hx⟩, hh⟩
        intro heq
        subst heq
        rw [ht] at hx
        cases hx
        simp [Pc.holds] at hh
  · intro t' g c' hx
    obtain ⟨hne, hx⟩ := htask.mp hx
    simp only [Flow.suspend, List.mem_filter, decide_eq_true_eq]
    exact ⟨h.acq hx, fun heq => hne (h.one (heq ▸ hx) ht)⟩
  · intro g hg
    simp only [Flow.suspend, List.mem_filter, decide_eq_true_eq] at hg
    obtain ⟨t', c', hx⟩ := h.own hg.1
    refine ⟨t', c', htask.mpr ⟨?_, hx⟩⟩
    intro heq
    subst heq
    rw [ht] at hx
    cases hx
    exact hg.2 rfl
  · intro g hg hr
    simp only [Flow.suspend, List.mem_filter, decide_eq_true_eq] at hg ⊢
    obtain ⟨_, h2⟩ := h.woken hg.1 hr
    cases hw : s.waiters with
    | nil => simp [hw] at h2
    | cons a l =>
      have : a = g := by simpa [hw] using h2
      subst this
      simp [hg.2]

/-- A task past the lock runs. -/
theorem Inv.resumed {s : Flow} {t : Nat} {pc : Pc} (h : Inv s none) (ht : s.tasks t = some pc)
    (hpc : pc.holds = true) (hd : ∀ {f c}, pc = .draining f c → s.drainFuts f ≠ .pending) :
    Inv (s.suspend t none) (some t) := by
  have htask : ∀ {t' pc}, set s.tasks t none t' = some pc ↔ t' ≠ t ∧ s.tasks t' = some pc := by
    intro t' pc
    by_cases h' : t' = t
    · subst h'; simp [set_same]
    · simp [set_other h', h']
  have hhold : ∀ {t'}, s.tasks t' = some pc → Holds s none t' := fun hx => Or.inr ⟨pc, hx, hpc⟩
  have hh : ∀ {t'}, Holds (s.suspend t none) (some t) t' ↔ t' = t := by
    intro t'
    simp only [Holds, Flow.suspend, htask]
    constructor
    · rintro (hx | ⟨pc', ⟨hne, hx⟩, hh⟩)
      · simpa using hx.symm
      · exact h.holder (Or.inr ⟨pc', hx, hh⟩) (hhold ht)
    · intro hx; exact Or.inl (by rw [hx])
  have hacq : ∀ {t' f c}, set s.tasks t none t' = some (.acquiring f c) ↔ s.tasks t' = some (.acquiring f c) := by
    intro t' f c
    rw [htask]
    refine ⟨fun hx => hx.2, fun hx => ⟨?_, hx⟩⟩
    intro heq
    subst heq
    rw [ht] at hx
    cases hx
    simp [Pc.holds] at hpc
  refine ⟨?_, ?_, ?_, h.nodup, h.lt, ?_, ?_, h.woken, h.first, ?_, ?_, h.wlt, ?_, ?_, h.noexc⟩
  · intro t' f c hx; exact h.acq (hacq.mp hx)
  · intro f hf; obtain ⟨t', c, hx⟩ := h.own hf; exact ⟨t', c, hacq.mpr hx⟩
  · intro t1 t2 f c c' h1 h2; exact h.one (hacq.mp h1) (hacq.mp h2)
  · intro t1 t2 h1 h2; rw [hh.mp h1, hh.mp h2]
  · exact ⟨fun _ => ⟨t, hh.mpr rfl⟩, fun _ => h.locked.mpr ⟨t, hhold ht⟩⟩
  · intro t' f c hx; exact h.drain (htask.mp hx).2
  · intro t' f c hx; exact h.dlt (htask.mp hx).2
  · intro f hf
    rcases h.dw hf with hx | ⟨hx, t', c, hy⟩
    · exact Or.inl hx
    · have := h.holder (hhold ht) (t' := t') (Or.inr ⟨_, hy, rfl⟩)
      subst this
      rw [ht] at hy
      cases hy
      exact absurd hx (hd rfl)
  · intro t' hx
    cases hx
    simp [Flow.suspend, set_same]

theorem Inv.run {s : Flow} {t : Nat} (h : Inv s none) {r : Flow × List Obs} (hr : s.run t = some r) :
    Inv r.1 none ∧ ∀ o ∈ r.2, o.bad = false := by
  have hrel : ∀ {s' : Flow}, Inv s' (some t) → ∀ o : Obs, o.bad = false →
      Inv (s'.release t o).1 none ∧ ∀ o' ∈ (s'.release t o).2, o'.bad = false := by
    intro s' h' o ho
    obtain ⟨h1, h2⟩ := h'.release o
    refine ⟨h1, ?_⟩
    rw [h2]
    simpa using ho
  unfold Flow.run at hr
  split at hr
  · cases hr
  · next f c ht =>
    split at hr
    · cases hr
    · next hf =>
      have hl := h.leave ht
      simp only at hl
      obtain ⟨l1, l2, l3, l4, l5⟩ := hl
      have hlocked : s.lockFuts f = .result → s.locked = false ∧ s.waiters.head? = some f := h.woken (h.acq ht)
      generalize hs' : ({ s with waiters := s.waiters.filter (· ≠ f) }.suspend t none : Flow) = s' at *
      have e1 : s'.lockFuts = s.lockFuts := by rw [← hs']; rfl
      have e2 : s'.locked = s.locked := by rw [← hs']; rfl
      have e3 : s'.waiters = s.waiters.filter (· ≠ f) := by rw [← hs']; rfl
      have e4 : s'.next = s.next := by rw [← hs']; rfl
      have e5 : s'.drainFuts = s.drainFuts := by rw [← hs']; rfl
      have e6 : s'.drainWaiter = s.drainWaiter := by rw [← hs']; rfl
      have e7 : s'.paused = s.paused := by rw [← hs']; rfl
      have e8 : s'.lost = s.lost := by rw [← hs']; rfl
      have hone : ∀ {t1 t2 f c c'}, s'.tasks t1 = some (.acquiring f c) → s'.tasks t2 = some (.acquiring f c') → t1 = t2 :=
        fun h1 h2 => h.one (l1.mp h1).2 (l1.mp h2).2
      have hnd : s'.waiters.Nodup := by rw [e3]; exact h.nodup.filter _
      have hlt : ∀ {g}, g ∈ s'.waiters → g < s'.next := by
        intro g hg; rw [e3] at hg; rw [e4]; exact h.lt ((List.mem_filter.mp hg).1)
      have hfree : s.locked = false → Free s' := by
        intro hlo
        have hno : ∀ {t'}, ¬ Holds s none t' := by
          intro t' hx
          have := h.locked.mpr ⟨t', hx⟩
          simp [hlo] at this
        refine ⟨l3, l4, hone, hnd, hlt, ?_, by rw [e2, hlo], ?_, ?_, ?_, by rw [e1]; exact h.noexc⟩
        · intro t' hx; exact hno (l2.mp hx)
        · rw [e1]; exact l5
        · rw [e6, e4]; exact h.wlt
        · rw [e6, e5]
          intro g hg
          rcases h.dw hg with hx | ⟨_, t', c', hy⟩
          · exact hx
          · exact absurd (Or.inr ⟨_, hy, rfl⟩) hno
      simp only [e1, e2] at hr
      split at hr
      · cases hr
        refine ⟨?_, by simp [Obs.bad]⟩
        dsimp only
        split
        · next hlo =>
          refine ⟨l3, l4, hone, hnd, hlt, ?_, ?_, ?_, ?_, ?_, ?_, ?_, ?_, by simp, by rw [e1]; exact h.noexc⟩
          · intro t1 t2 h1 h2; exact h.holder (l2.mp h1) (l2.mp h2)
          · rw [e2]; simp only [l2]; exact h.locked
          · intro g hg hx
            rw [e1] at hx
            rw [e3] at hg
            have := (h.woken ((List.mem_filter.mp hg).1) hx).1
            simp [hlo] at this
          · rw [e2]; simp [hlo]
          · intro t' g c' hx
            rw [e5, e6, e7, e8]
            exact h.drain (l1.mp hx).2
          · intro t' g c' hx; rw [e4]; exact h.dlt (l1.mp hx).2
          · rw [e6, e4]; exact h.wlt
          · rw [e6, e5]
            intro g hg
            rcases h.dw hg with hx | ⟨hx, t', c', hy⟩
            · exact Or.inl hx
            · refine Or.inr ⟨hx, t', c', l1.mpr ⟨?_, hy⟩⟩
              intro heq
              subst heq
              rw [ht] at hy
              cases hy
        · next hlo => exact (hfree (by simpa using hlo)).inv
      · next hx =>
        cases hr
        have hres : s.lockFuts f = .result := by
          cases hv : s.lockFuts f with
          | pending => exact absurd hv hf
          | result => rfl
          | exception => exact absurd hv (h.noexc f)
          | cancelled => exact absurd (Or.inl hv) hx
        obtain ⟨hlo, hhead⟩ := hlocked hres
        · have hfr := hfree hlo
          refine Inv.drain_step ?_
          have hno := @Free.holder s' hfr
          have hh : ∀ {t'}, Holds { s' with locked := true } (some t) t' → t' = t := by
            intro t' hx
            rcases hx with hx | hx
            · simpa using hx.symm
            · exact absurd (Or.inr hx) hno
          refine ⟨l3, l4, hone, hnd, hlt, ?_, ?_, ?_, by simp, ?_, ?_, hfr.wlt, ?_, ?_, h.noexc⟩
          · intro t1 t2 h1 h2; rw [hh h1, hh h2]
          · exact ⟨fun _ => ⟨t, Or.inl rfl⟩, fun _ => rfl⟩
          · intro g hg hr
            simp only at hr
            have hg' : g ∈ s'.waiters := hg
            rw [e3] at hg'
            have hgw := h.woken ((List.mem_filter.mp hg').1) hr
            rw [hhead] at hgw
            have hfg : f = g := by simpa using hgw.2
            exact absurd hfg.symm (by simpa using (List.mem_filter.mp hg').2)
          · intro t' g c' hx; exact absurd hx hfr.not_draining
          · intro t' g c' hx; exact absurd hx hfr.not_draining
          · intro g hg; exact Or.inl (hfr.dw hg)
          · intro t' hx; cases hx
            cases hy : s'.tasks t with
            | none => rfl
            | some pc => exact absurd rfl (l1.mp hy).1
  · next c ht =>
    have h' := h.resumed ht rfl (by intro f c hx; cases hx)
    split at hr
    · cases hr; exact hrel h' _ rfl
    · cases hr; exact h'.drainHelper
  · next f c ht =>
    dsimp only [Flow.suspend] at hr
    split at hr
    · cases hr
    all_goals
      next hf =>
      have h' := h.resumed ht rfl (by intro f c hx; cases hx; simp [hf])
      cases hr
      refine hrel h' _ ?_
      first | rfl | (split <;> rfl)

/-- Cancelling doesn't change where a task is. -/
theorem inv_flag {s : Flow} {t : Nat} {pc pc' : Pc} (h : Inv s none) (ht : s.tasks t = some pc)
    (hpc : pc'.holds = pc.holds) (ha : ∀ {f}, (∃ c, pc' = .acquiring f c) ↔ ∃ c, pc = .acquiring f c)
    (hd : ∀ {f}, (∃ c, pc' = .draining f c) ↔ ∃ c, pc = .draining f c) : Inv (s.suspend t (some pc')) none := by
  have hacq : ∀ {t' f}, (∃ c, set s.tasks t (some pc') t' = some (.acquiring f c)) ↔
      ∃ c, s.tasks t' = some (.acquiring f c) := by
    intro t' f
    by_cases h' : t' = t
    · subst h'; simpa [set_same, ht] using ha
    · simp [set_other h']
  have hdr : ∀ {t' f}, (∃ c, set s.tasks t (some pc') t' = some (.draining f c)) ↔
      ∃ c, s.tasks t' = some (.draining f c) := by
    intro t' f
    by_cases h' : t' = t
    · subst h'; simpa [set_same, ht] using hd
    · simp [set_other h']
  have hh : ∀ {t'}, Holds (s.suspend t (some pc')) none t' ↔ Holds s none t' := by
    intro t'
    by_cases h' : t' = t
    · subst h'; simp [Holds, Flow.suspend, set_same, ht, hpc]
    · simp [Holds, Flow.suspend, set_other h']
  refine ⟨?_, ?_, ?_, h.nodup, h.lt, ?_, ?_, h.woken, h.first, ?_, ?_, h.wlt, ?_, by simp, h.noexc⟩
  · intro t' f c hx; obtain ⟨c', hx⟩ := hacq.mp ⟨c, hx⟩; exact h.acq hx
  · intro f hf; obtain ⟨t', c, hx⟩ := h.own hf; exact ⟨t', hacq.mpr ⟨c, hx⟩⟩
  · intro t1 t2 f c c' h1 h2
    obtain ⟨_, h1⟩ := hacq.mp ⟨c, h1⟩
    obtain ⟨_, h2⟩ := hacq.mp ⟨c', h2⟩
    exact h.one h1 h2
  · intro t1 t2 h1 h2; exact h.holder (hh.mp h1) (hh.mp h2)
  · simp only [hh]; exact h.locked
  · intro t' f c hx; obtain ⟨_, hx⟩ := hdr.mp ⟨c, hx⟩; exact h.drain hx
  · intro t' f c hx; obtain ⟨_, hx⟩ := hdr.mp ⟨c, hx⟩; exact h.dlt hx
  · intro f hf
    rcases h.dw hf with hx | ⟨hx, t', c, hy⟩
    · exact Or.inl hx
    · exact Or.inr ⟨hx, t', hdr.mpr ⟨c, hy⟩⟩

theorem Inv.cancel {s s' : Flow} {t : Nat} (h : Inv s none) (hs : s.cancel t = some s') : Inv s' none := by
  unfold Flow.cancel at hs
  split at hs
  · cases hs
  · next f c ht =>
    split at hs
    · next hf =>
      cases hs
      refine ⟨h.acq, h.own, h.one, h.nodup, h.lt, h.holder, h.locked, ?_, ?_, h.drain, h.dlt, h.wlt, h.dw, h.idle, ?_⟩
      · intro g hg hr
        by_cases hx : g = f
        · subst hx; simp [set_same] at hr
        · simp only [set_other hx] at hr; exact h.woken hg hr
      · intro hl g hg
        by_cases hx : g = f
        · subst hx; simp [set_same]
        · simp only [set_other hx]; exact h.first hl hg
      · intro g
        by_cases hx : g = f
        · subst hx; simp [set_same]
        · simp only [set_other hx]; exact h.noexc g
    · cases hs
      exact inv_flag h ht rfl (by simp) (by simp)
  · next c ht =>
    cases hs
    exact inv_flag h ht rfl (by simp) (by simp)
  · next f c ht =>
    split at hs
    · next hf =>
      cases hs
      refine ⟨h.acq, h.own, h.one, h.nodup, h.lt, h.holder, h.locked, h.woken, h.first, ?_, h.dlt, h.wlt, ?_, h.idle,
        h.noexc⟩
      · intro t' g c' hx hp
        by_cases hg : g = f
        · subst hg; simp [set_same] at hp
        · simp only [set_other hg] at hp; exact h.drain hx hp
      · intro g hg
        by_cases hx : g = f
        · subst hx; exact Or.inl set_same
        · simp only [set_other hx]; exact h.dw hg
    · cases hs
      exact inv_flag h ht rfl (by simp) (by simp)

/-- The waiter wakes up. -/
theorem inv_wakeDrain {s : Flow} {r : Fut} (h : Inv s none) (hr : r ≠ .pending) (p l b : Bool) :
    Inv ({ s with paused := p, lost := l, broken := b }.wakeDrain r) none := by
  unfold Flow.wakeDrain
  split
  · next hw =>
    have hw : s.drainWaiter = none := hw
    refine ⟨h.acq, h.own, h.one, h.nodup, h.lt, h.holder, h.locked, h.woken, h.first, ?_, h.dlt, h.wlt, h.dw, h.idle,
      h.noexc⟩
    intro t f c hx hp
    have := (h.drain hx hp).1
    rw [hw] at this
    cases this
  · next f hw =>
    have hw : s.drainWaiter = some f := hw
    split
    · refine ⟨h.acq, h.own, h.one, h.nodup, h.lt, h.holder, h.locked, h.woken, h.first, ?_, h.dlt, by simp, by simp,
        h.idle, h.noexc⟩
      intro t g c hx hp
      by_cases hg : g = f
      · subst hg; simp only [set_same] at hp; exact absurd hp hr
      · simp only [set_other hg] at hp
        have := (h.drain hx hp).1
        rw [hw] at this
        cases this
        exact absurd rfl hg
    · next hf =>
      refine ⟨h.acq, h.own, h.one, h.nodup, h.lt, h.holder, h.locked, h.woken, h.first, ?_, h.dlt, by simp, by simp,
        h.idle, h.noexc⟩
      intro t g c hx hp
      have := (h.drain hx hp).1
      rw [hw] at this
      cases this
      exact absurd hp hf

theorem inv_step {s : Flow} {a : Act} {r : Flow × List Obs} (h : Inv s none) (hs : s.step a = some r) :
    Inv r.1 none ∧ ∀ o ∈ r.2, o.bad = false := by
  cases a with
  | write t =>
    simp only [Flow.step] at hs
    split at hs
    · next ht => cases hs; exact h.write ht
    · cases hs
  | run t => exact h.run hs
  | cancel t =>
    simp only [Flow.step, Option.map_eq_some_iff] at hs
    obtain ⟨s', hs, rfl⟩ := hs
    exact ⟨h.cancel hs, by simp⟩
  | pause =>
    simp only [Flow.step] at hs
    split at hs
    · cases hs
    · cases hs
      refine ⟨⟨h.acq, h.own, h.one, h.nodup, h.lt, h.holder, h.locked, h.woken, h.first, ?_, h.dlt, h.wlt, h.dw, h.idle,
        h.noexc⟩, by simp⟩
      intro t f c hx hp
      obtain ⟨h1, _, h3⟩ := h.drain hx hp
      exact ⟨h1, rfl, h3⟩
  | resume =>
    simp only [Flow.step] at hs
    split at hs
    · cases hs; exact ⟨inv_wakeDrain h (by simp) false s.lost s.broken, by simp⟩
    · cases hs
  | lost exc =>
    simp only [Flow.step] at hs
    split at hs
    · cases hs
    · cases hs
      refine ⟨?_, by simp⟩
      dsimp only
      split
      · exact inv_wakeDrain h (by cases exc <;> simp) s.paused true exc
      · next hp =>
        refine ⟨h.acq, h.own, h.one, h.nodup, h.lt, h.holder, h.locked, h.woken, h.first, ?_, h.dlt, h.wlt, h.dw, h.idle,
          h.noexc⟩
        intro t f c hx hpe
        exact absurd (h.drain hx hpe).2.1 hp
  | close =>
    cases hs
    exact ⟨⟨h.acq, h.own, h.one, h.nodup, h.lt, h.holder, h.locked, h.woken, h.first, h.drain, h.dlt, h.wlt, h.dw, h.idle,
      h.noexc⟩, by simp⟩

theorem inv_exec {s : Flow} (h : Inv s none) {as : List Act} {r : Flow × List Obs} (hs : s.exec as = some r) :
    Inv r.1 none ∧ ∀ o ∈ r.2, o.bad = false := by
  induction as generalizing s r with
  | nil => cases hs; exact ⟨h, by simp⟩
  | cons a as ih =>
    simp only [Flow.exec] at hs
    split at hs
    · cases hs
    · next s1 o1 h1 =>
      split at hs
      · cases hs
      · next s2 o2 h2 =>
        cases hs
        obtain ⟨i1, g1⟩ := inv_step h h1
        obtain ⟨i2, g2⟩ := ih i1 h2
        refine ⟨i2, ?_⟩
        intro o ho
        rcases List.mem_append.mp ho with ho | ho
        · exact g1 o ho
        · exact g2 o ho

end WS.LegacyDrain
