import Verif.Lemmas.LegacyQueue

/-!
# C51, C52, C53: the queue of received messages

Executions are arbitrary sequences of `Act`: any number of tasks call `recv`, are woken up or
cancelled at any time; messages arrive; the task that reads them ends or is cancelled.
-/

namespace WS.Legacy

variable {M : Type}

theorem Queue.recvLoop_transfer (q : Queue M) (t : Nat) :
    (q.recvLoop t).1.transfer = q.transfer := by
  unfold Queue.recvLoop Queue.notifyPut Queue.setResult
  grind

theorem Queue.step_exited {q q' : Queue M} {a : Act M} {o : List (Obs M)} (hs : q.step a = some (q', o))
    (he : q.transfer = .exited) : q'.transfer = .exited ∧ Spec.received [a] = [] ∧ q.loses a = [] := by
  have hx : q.transfer.isExited = true := by rw [he]; rfl
  have hr : q.transfer.isReading = false := by rw [he]; rfl
  have hloop : ∀ (p : Queue M) t, p.transfer = .exited → (p.recvLoop t).1.transfer = .exited :=
    fun p t hp => (Queue.recvLoop_transfer p t).trans hp
  cases a with
  | recv t =>
    refine ⟨?_, rfl, rfl⟩
    simp only [Queue.step] at hs
    split at hs
    · cases hs
    · split at hs
      · cases hs; exact he
      · have := hloop q t he
        rw [Option.some.inj hs] at this
        exact this
  | wake t =>
    refine ⟨?_, rfl, rfl⟩
    simp only [Queue.step] at hs
    split at hs
    · cases hs
    · split at hs
      · split at hs
        · have := hloop { q.drop t with popWaiter := none } t he
          rw [Option.some.inj hs] at this
          exact this
        · cases hs; exact he
      · cases hs
    · rw [if_pos hx] at hs
      cases hs; exact he
  | cancel t =>
    refine ⟨?_, rfl, rfl⟩
    simp only [Queue.step] at hs
    split at hs <;> cases hs <;> exact he
  | message m => simp [Queue.step, hr] at hs
  | wakeTransfer => simp [Queue.step, he] at hs
  | exit => simp [Queue.step, hr] at hs
  | cancelTransfer => simp [Queue.step, he] at hs

theorem Queue.exec_cons {q q' : Queue M} {a : Act M} {as : List (Act M)} {os : List (Obs M)}
    (h : q.exec (a :: as) = some (q', os)) :
    ∃ p o os', q.step a = some (p, o) ∧ p.exec as = some (q', os') ∧ os = o ++ os' := by
  simp only [Queue.exec] at h
  split at h
  · cases h
  · rename_i p o hp
    split at h
    · cases h
    · rename_i p' os' hp'
      cases h
      exact ⟨p, o, os', hp, hp', rfl⟩

theorem Queue.Ok.exec_exited {q q' : Queue M} {as : List (Act M)} {os : List (Obs M)} (h : q.Ok)
    (hs : q.exec as = some (q', os)) (he : q.transfer = .exited) :
    q'.Ok ∧ q'.transfer = .exited ∧ Spec.received as = [] ∧ q'.maxQueue = q.maxQueue ∧
      .invalidState ∉ os ∧ Spec.returned os ++ q'.messages = q.messages := by
  induction as generalizing q os with
  | nil => cases hs; exact ⟨h, he, rfl, rfl, by simp, rfl⟩
  | cons a as ih =>
    obtain ⟨p, o, os', h1, h2, rfl⟩ := Queue.exec_cons hs
    obtain ⟨g1, g2, g3⟩ := Queue.step_exited h1 he
    obtain ⟨hp, f⟩ := h.step h1
    obtain ⟨k1, k2, k3, k4, k5, k6⟩ := ih hp h2 g1
    refine ⟨k1, k2, ?_, k4.trans f.max, ?_, ?_⟩
    · have := Spec.received_append [a] as
      rw [g2, k3] at this
      exact this
    · simp only [List.mem_append, not_or]; exact ⟨f.valid, k5⟩
    · have e := f.flow
      rw [g1, he, g2, g3] at e
      simp only [Transfer.inHand, List.append_nil] at e
      rw [Spec.returned_append, List.append_assoc, k6, e]

theorem Queue.Ok.exec {q q' : Queue M} {as : List (Act M)} {os : List (Obs M)} (h : q.Ok)
    (hs : q.exec as = some (q', os)) :
    q'.Ok ∧ ∃ lost, Flow q q' os (Spec.received as) lost ∧ lost.length ≤ 1 ∧
      (lost ≠ [] → q'.transfer = .exited) ∧ (.cancelTransfer ∉ as → lost = []) := by
  induction as generalizing q os with
  | nil =>
    cases hs
    exact ⟨h, [], ⟨rfl, by simp, by simp [Spec.returned, Spec.received]⟩, by simp, by simp, by simp⟩
  | cons a as ih =>
    obtain ⟨p, o, os', h1, h2, rfl⟩ := Queue.exec_cons hs
    obtain ⟨hp, f1⟩ := h.step h1
    have hrec : Spec.received (a :: as) = Spec.received [a] ++ Spec.received as :=
      Spec.received_append [a] as
    have e1 := f1.flow
    by_cases hz : ∃ _ : a = .cancelTransfer, True
    · obtain ⟨rfl, -⟩ := hz
      have hpx : p.transfer = .exited := by
        simp only [Queue.step] at h1
        split at h1 <;> cases h1 <;> rfl
      obtain ⟨k1, k2, k3, k4, k5, k6⟩ := hp.exec_exited h2 hpx
      refine ⟨k1, q.transfer.inHand, ⟨k4.trans f1.max, ?_, ?_⟩, ?_, fun _ => k2, ?_⟩
      · simp only [List.mem_append, not_or]; exact ⟨f1.valid, k5⟩
      · rw [hpx] at e1
        rw [hrec, k2, k3, Spec.returned_append]
        simp only [Transfer.inHand, List.append_nil, List.append_assoc, Queue.loses] at e1 k6 ⊢
        rw [← e1, ← k6, List.append_assoc]
      · cases q.transfer <;> simp [Transfer.inHand]
      · simp
    · have hz' : q.loses a = [] := by
        cases a <;> first | rfl | exact absurd ⟨rfl, trivial⟩ hz
      obtain ⟨hq, lost, f2, hl, hx, hc⟩ := ih hp h2
      refine ⟨hq, lost, ⟨f2.max.trans f1.max, ?_, ?_⟩, hl, hx, fun hn => hc ?_⟩
      · simp only [List.mem_append, not_or]; exact ⟨f1.valid, f2.valid⟩
      · have e2 := f2.flow
        rw [hz'] at e1
        rw [hrec, Spec.returned_append]
        simp only [List.append_assoc, List.append_nil] at e1 e2 ⊢
        rw [e2, ← List.append_assoc q.transfer.inHand, ← List.append_assoc q.messages, ← e1]
        simp only [List.append_assoc]
      · simp only [List.mem_cons, not_or] at hn
        exact hn.2

/-! ## C51 -/

/-- In every execution, the messages that `recv` returned, followed by those in the queue, by the one
that `transfer_data` holds, and by at most one that was lost, are the messages that were received, in
the same order.  The last one is lost only if `transfer_data` is cancelled; cancelling `recv` loses
nothing. -/
theorem C51_order_partial {n : Option Nat} {as : List (Act M)} {q : Queue M} {os : List (Obs M)}
    (h : (Queue.init n).exec as = some (q, os)) :
    ∃ lost, Spec.returned os ++ q.messages ++ q.transfer.inHand ++ lost = Spec.received as ∧
      lost.length ≤ 1 ∧ (.cancelTransfer ∉ as → lost = []) := by
  obtain ⟨-, lost, f, h1, -, h3⟩ := (Queue.Ok.init n).exec h
  exact ⟨lost, f.flow, h1, h3⟩

/-- `Future.set_result` is never called twice on the same waiter. -/
theorem C51_no_invalid_state {n : Option Nat} {as : List (Act M)} {q : Queue M} {os : List (Obs M)}
    (h : (Queue.init n).exec as = some (q, os)) : .invalidState ∉ os := by
  obtain ⟨-, lost, f, -⟩ := (Queue.Ok.init n).exec h
  exact f.valid

/-- When no other call is waiting, `recv` returns the first message of the queue at once, even if the
connection is closed. -/
theorem C51_recv_available {n : Option Nat} {as : List (Act M)} {q : Queue M} {os : List (Obs M)}
    (h : (Queue.init n).exec as = some (q, os)) {m : M} {ms : List M} (hm : q.messages = m :: ms)
    {t : Nat} (ht : q.find t = none) :
    ∃ q', q.step (.recv t) = some (q', [.returned t m]) ∧ q'.messages = ms ∧
      q'.transfer = q.transfer := by
  obtain ⟨hok, -⟩ := (Queue.Ok.init n).exec h
  have hp : q.popWaiter = none := by
    cases hq : q.popWaiter with
    | none => rfl
    | some f => have := (hok.popTask f hq).1; rw [hm] at this; cases this
  simp only [Queue.step, ht, hp, ne_eq, not_true_eq_false, if_false, Queue.recvLoop, hm]
  rw [Queue.notifyPut_eq (by
    intro f hf
    exact (hok.putFresh f hf).2.1)]
  exact ⟨_, rfl, rfl, rfl⟩

/-! ## C52 -/

/-- The queue is bounded. -/
theorem C52_bounded {n : Nat} {as : List (Act M)} {q : Queue M} {os : List (Obs M)}
    (h : (Queue.init (some n)).exec as = some (q, os)) : q.messages.length ≤ n := by
  obtain ⟨hok, lost, f, -⟩ := (Queue.Ok.init (some n)).exec h
  exact hok.bound n f.max

/-- Backpressure: at most `n + 1` messages are read beyond those that `recv` returned. -/
theorem C52_backpressure {n : Nat} {as : List (Act M)} {q : Queue M} {os : List (Obs M)}
    (h : (Queue.init (some n)).exec as = some (q, os)) :
    (Spec.received as).length ≤ (Spec.returned os).length + n + 1 := by
  obtain ⟨hok, lost, f, h1, h2, -⟩ := (Queue.Ok.init (some n)).exec h
  have hb := hok.bound n f.max
  have e : Spec.returned os ++ q.messages ++ q.transfer.inHand ++ lost = Spec.received as := f.flow
  have e := congrArg List.length e
  simp only [List.length_append] at e
  have hh : q.transfer.inHand.length + lost.length ≤ 1 := by
    by_cases hl : lost = []
    · rw [hl]; cases q.transfer <;> simp [Transfer.inHand]
    · rw [h2 hl]; simpa [Transfer.inHand] using h1
  omega

/-- No lost wakeup: when there's room in the queue, the task that reads messages is either reading,
or ready to run, or done. -/
theorem C52_resumes {n : Nat} {as : List (Act M)} {q : Queue M} {os : List (Obs M)}
    (h : (Queue.init (some n)).exec as = some (q, os)) (hroom : q.messages.length < n) :
    q.transfer = .exited ∨ (∀ m, q.step (.message m) ≠ none) ∨ q.step .wakeTransfer ≠ none := by
  obtain ⟨hok, lost, f, -⟩ := (Queue.Ok.init (some n)).exec h
  cases ht : q.transfer with
  | exited => exact .inl rfl
  | reading => exact .inr (.inl (by simp [Queue.step, ht, Transfer.isReading]))
  | full m g =>
    refine .inr (.inr ?_)
    have hd : g ∈ q.done := Classical.byContradiction fun hd =>
      absurd (hok.room m g n ht f.max hd) (by omega)
    simp [Queue.step, ht, hd]

/-! ## C53 -/

/-- A call that is refused changes nothing. -/
theorem C53_refused {q q' : Queue M} {t : Nat} {o : List (Obs M)}
    (h : q.step (.recv t) = some (q', o)) (hr : .refused t ∈ o) : q' = q ∧ o = [.refused t] := by
  simp only [Queue.step] at h
  split at h
  · cases h
  · split at h
    · cases h; exact ⟨rfl, rfl⟩
    · exfalso
      have h := Option.some.inj h
      unfold Queue.recvLoop Queue.notifyPut Queue.setResult at h
      grind

/-- `recv` is called only when no other call is about to resume with its waiter notified.  This holds
in particular when a single task at a time calls `recv`. -/
def Spec.Prompt (q : Queue M) : List (Act M) → Prop
  | [] => True
  | a :: as =>
    (∀ t, a = .recv t → ∀ t' f, (t', Recv.waiting f) ∈ q.recvs → f ∉ q.done) ∧
      ∀ q' o, q.step a = some (q', o) → Prompt q' as

/-- Invariant of the executions where `recv` is called as above. -/
structure Queue.Tidy (q : Queue M) : Prop where
  waiter : ∀ t f, (t, Recv.waiting f) ∈ q.recvs → q.popWaiter = some f ∨ f ∈ q.done
  single : ∀ t f t' f', (t, Recv.waiting f) ∈ q.recvs → (t', Recv.waiting f') ∈ q.recvs → t = t'
  empty : ∀ t, (t, Recv.ensuring) ∈ q.recvs → q.messages = []

theorem Queue.Tidy.recvLoop {q : Queue M} {t : Nat} (h : q.Tidy) (hput : ∀ f, q.putWaiter = some f → f ∉ q.done)
    (hno : ∀ t f, (t, Recv.waiting f) ∉ q.recvs) : (q.recvLoop t).1.Tidy := by
  unfold Queue.recvLoop
  split
  · rename_i hm
    refine ⟨?_, ?_, fun _ _ => hm⟩
    · intro t' f hf
      simp only [List.mem_cons, Prod.mk.injEq, Recv.waiting.injEq] at hf
      rcases hf with ⟨_, rfl⟩ | hf
      · exact .inl rfl
      · exact absurd hf (hno _ _)
    · intro t1 f1 t2 f2 h1 h2
      simp only [List.mem_cons, Prod.mk.injEq, Recv.waiting.injEq] at h1 h2
      rcases h1 with ⟨rfl, _⟩ | h1
      · rcases h2 with ⟨rfl, _⟩ | h2
        · rfl
        · exact absurd h2 (hno _ _)
      · exact absurd h1 (hno _ _)
  · rename_i m ms hm
    rw [Queue.notifyPut_eq (q := { q with messages := ms }) hput]
    refine ⟨fun t f hf => absurd hf (hno _ _), fun t f _ _ hf => absurd hf (hno _ _), ?_⟩
    intro t' ht'
    have := h.empty t' ht'
    rw [hm] at this
    cases this

theorem Queue.Tidy.putLoop {q : Queue M} {m : M} (h : q.Tidy) (hok : q.Ok) (hx : q.transfer ≠ .exited) :
    (q.putLoop m).1.Tidy := by
  have hno : ∀ t, (t, Recv.ensuring) ∉ q.recvs := fun t ht => hx (hok.ensured t ht)
  unfold Queue.putLoop
  split
  · exact ⟨h.waiter, h.single, h.empty⟩
  · rw [Queue.notifyPop_eq (q := { q with messages := q.messages ++ [m], transfer := .reading })
      (fun f hf => (hok.popFresh f hf).2)]
    refine ⟨?_, h.single, fun t ht => absurd ht (hno t)⟩
    intro t f hf
    refine .inr ?_
    simp only [List.mem_append, Option.mem_toList]
    exact h.waiter t f hf

theorem Queue.Tidy.step {q q' : Queue M} {a : Act M} {o : List (Obs M)} (h : q.Tidy) (hok : q.Ok)
    (hp : ∀ t, a = .recv t → ∀ t' f, (t', Recv.waiting f) ∈ q.recvs → f ∉ q.done)
    (hs : q.step a = some (q', o)) : q'.Tidy := by
  have hput : ∀ f, q.putWaiter = some f → f ∉ q.done := fun f hf => (hok.putFresh f hf).2.1
  have hdrop : ∀ t f, (t, Recv.waiting f) ∈ q.recvs →
      ∀ t' f', (t', Recv.waiting f') ∉ (q.drop t).recvs := by
    intro t f hf t' f' hf'
    obtain ⟨h1, h2⟩ := Queue.mem_drop.1 hf'
    exact h2 (h.single _ _ _ _ h1 hf)
  have hempty : ∀ t t', (t', Recv.ensuring) ∈ (q.drop t).recvs → q.messages = [] :=
    fun t t' ht' => h.empty t' (Queue.mem_drop.1 ht').1
  cases a with
  | recv t =>
    simp only [Queue.step] at hs
    split at hs
    · cases hs
    · split at hs
      · cases hs; exact h
      · rename_i hpop
        simp only [ne_eq, Classical.not_not] at hpop
        have := h.recvLoop (t := t) hput (by
          intro t' f hf
          rcases h.waiter t' f hf with h1 | h1
          · rw [hpop] at h1; cases h1
          · exact hp t rfl t' f hf h1)
        rw [Option.some.inj hs] at this
        exact this
  | wake t =>
    simp only [Queue.step] at hs
    split at hs
    · cases hs
    · rename_i f hf
      have hf := Queue.find_some hf
      split at hs
      · split at hs
        · have := Queue.Tidy.recvLoop (q := { q.drop t with popWaiter := none }) (t := t)
            ⟨fun _ _ hm => absurd hm (hdrop t f hf _ _), fun _ _ _ _ hm => absurd hm (hdrop t f hf _ _),
              hempty t⟩ hput (hdrop t f hf)
          rw [Option.some.inj hs] at this
          exact this
        · rename_i hnd
          cases hs
          have hm : q.messages = [] := by
            rcases h.waiter t f hf with h1 | h1
            · exact (hok.popTask f h1).1
            · exact absurd h1 hnd
          have hno : ∀ t' f', (t', Recv.waiting f') ∉ (t, Recv.ensuring) :: (q.drop t).recvs := by
            intro t' f' hm'
            simp only [List.mem_cons, Prod.mk.injEq, reduceCtorEq, and_false, false_or] at hm'
            exact hdrop t f hf _ _ hm'
          exact ⟨fun _ _ hm => absurd hm (hno _ _), fun _ _ _ _ hm => absurd hm (hno _ _),
            fun _ _ => hm⟩
      · cases hs
    · rename_i hf
      have hf := Queue.find_some hf
      have hx := (Transfer.isExited_iff _).2 (hok.ensured t hf)
      rw [if_pos hx] at hs
      cases hs
      exact ⟨fun t' f hm => h.waiter t' f (Queue.mem_drop.1 hm).1,
        fun t1 f1 t2 f2 h1 h2 => h.single _ _ _ _ (Queue.mem_drop.1 h1).1 (Queue.mem_drop.1 h2).1,
        hempty t⟩
  | cancel t =>
    simp only [Queue.step] at hs
    split at hs
    · cases hs
    · rename_i f hf
      cases hs
      have hf := Queue.find_some hf
      exact ⟨fun _ _ hm => absurd hm (hdrop t f hf _ _), fun _ _ _ _ hm => absurd hm (hdrop t f hf _ _),
        hempty t⟩
    · cases hs
      exact ⟨fun t' f hm => h.waiter t' f (Queue.mem_drop.1 hm).1,
        fun t1 f1 t2 f2 h1 h2 => h.single _ _ _ _ (Queue.mem_drop.1 h1).1 (Queue.mem_drop.1 h2).1,
        hempty t⟩
  | message m =>
    simp only [Queue.step] at hs
    split at hs
    · rename_i hr
      rw [Transfer.isReading_iff] at hr
      have := h.putLoop (m := m) hok (by simp [hr])
      rw [Option.some.inj hs] at this
      exact this
    · cases hs
  | wakeTransfer =>
    simp only [Queue.step] at hs
    split at hs
    · rename_i m f hm
      split at hs
      · rename_i hd
        have hok' : ({ q with putWaiter := none } : Queue M).Ok :=
          ⟨hok.popFresh, by simp, hok.doneOld, hok.waitOld, fun m' f' hf' => by
              simp only at hf'
              rw [hm] at hf'
              cases hf'
              exact ⟨(hok.fullOld m f hm).1, .inr hd⟩,
            hok.disjoint, hok.popTask, hok.bound, hok.room, hok.unique, hok.ensured⟩
        have := Queue.Tidy.putLoop (q := { q with putWaiter := none }) (m := m)
          ⟨h.waiter, h.single, h.empty⟩ hok' (by simp [hm])
        rw [Option.some.inj hs] at this
        exact this
      · cases hs
    · cases hs
  | exit =>
    simp only [Queue.step] at hs
    split at hs
    · cases hs; exact ⟨h.waiter, h.single, h.empty⟩
    · cases hs
  | cancelTransfer =>
    simp only [Queue.step] at hs
    split at hs
    · cases hs
    · cases hs; exact ⟨h.waiter, h.single, h.empty⟩
    · cases hs; exact ⟨h.waiter, h.single, h.empty⟩

theorem Queue.Tidy.exec {q q' : Queue M} {as : List (Act M)} {os : List (Obs M)} (h : q.Tidy)
    (hok : q.Ok) (hp : Spec.Prompt q as) (hs : q.exec as = some (q', os)) : q'.Tidy := by
  induction as generalizing q os with
  | nil => cases hs; exact h
  | cons a as ih =>
    obtain ⟨p, o, os', h1, h2, rfl⟩ := Queue.exec_cons hs
    exact ih (h.step hok hp.1 h1) (hok.step h1).1 (hp.2 _ _ h1) h2

theorem Queue.Tidy.init (n : Option Nat) : (Queue.init n : Queue M).Tidy := by
  constructor <;> simp [Queue.init]

/-- While a call is waiting, every other call is refused, and changes nothing.  Missing: executions
where a third call starts after a waiter was notified, and before the call that waits for it
resumes. -/
theorem C53_concurrent_partial {n : Option Nat} {as : List (Act M)} {q : Queue M} {os : List (Obs M)}
    (h : (Queue.init n).exec as = some (q, os)) (hp : Spec.Prompt (Queue.init n) as)
    {t f : Nat} (ht : (t, Recv.waiting f) ∈ q.recvs) (hf : f ∉ q.done) {t' : Nat}
    (ht' : q.find t' = none) : q.step (.recv t') = some (q, [.refused t']) := by
  have hti := (Queue.Tidy.init n).exec (Queue.Ok.init n) hp h
  have hpop := (hti.waiter t f ht).resolve_right hf
  simp [Queue.step, ht', hpop]

/-- A call that waits is woken up by the next message, in the same executions. -/
theorem C53_notified_partial {n : Option Nat} {as : List (Act M)} {q q' : Queue M} {os o : List (Obs M)}
    (h : (Queue.init n).exec as = some (q, os)) (hp : Spec.Prompt (Queue.init n) as)
    (hn : n ≠ some 0) {t f : Nat} (ht : (t, Recv.waiting f) ∈ q.recvs) {m : M}
    (hs : q.step (.message m) = some (q', o)) : f ∈ q'.done := by
  obtain ⟨hok, lost, fl, -⟩ := (Queue.Ok.init n).exec h
  have hti := (Queue.Tidy.init n).exec (Queue.Ok.init n) hp h
  simp only [Queue.step] at hs
  split at hs
  · have hs := Option.some.inj hs
    unfold Queue.putLoop at hs
    split at hs
    · rename_i hfull
      cases hs
      rcases hti.waiter t f ht with h1 | h1
      · exfalso
        have hm := (hok.popTask f h1).1
        have hmax : q.maxQueue = n := fl.max
        simp only [Queue.isFull, hm, hmax] at hfull
        cases n with
        | none => simp at hfull
        | some k => simp at hfull; exact hn (by rw [hfull])
      · exact h1
    · rw [Queue.notifyPop_eq (q := { q with messages := q.messages ++ [m], transfer := .reading })
        (fun g hg => (hok.popFresh g hg).2)] at hs
      cases hs
      simp only [List.mem_append, Option.mem_toList]
      exact hti.waiter t f ht
  · cases hs

/-- `recv` raises `ConnectionClosed` only if the queue is empty.  Missing: as above. -/
theorem C51_closed_partial {n : Option Nat} {as : List (Act M)} {q q' : Queue M} {os o : List (Obs M)}
    (h : (Queue.init n).exec as = some (q, os)) (hp : Spec.Prompt (Queue.init n) as)
    {a : Act M} (hs : q.step a = some (q', o)) {t : Nat} (hc : .closed t ∈ o) :
    q.messages = [] ∧ q.transfer = .exited := by
  obtain ⟨hok, -⟩ := (Queue.Ok.init n).exec h
  have hti := (Queue.Tidy.init n).exec (Queue.Ok.init n) hp h
  have hloop : ∀ (p : Queue M) t', .closed t ∉ (p.recvLoop t').2 := by
    intro p t'
    unfold Queue.recvLoop Queue.notifyPut Queue.setResult
    grind
  have hput : ∀ (p : Queue M) m, .closed t ∉ (p.putLoop m).2 := by
    intro p m
    unfold Queue.putLoop Queue.notifyPop Queue.setResult
    grind
  cases a with
  | recv t' =>
    simp only [Queue.step] at hs
    split at hs
    · cases hs
    · split at hs
      · cases hs; simp at hc
      · have := hloop q t'; rw [Option.some.inj hs] at this; exact absurd hc this
  | wake t' =>
    simp only [Queue.step] at hs
    split at hs
    · cases hs
    · split at hs
      · split at hs
        · have := hloop { q.drop t' with popWaiter := none } t'
          rw [Option.some.inj hs] at this; exact absurd hc this
        · cases hs; cases hc
      · cases hs
    · rename_i hf
      have hf := Queue.find_some hf
      exact ⟨hti.empty _ hf, hok.ensured _ hf⟩
  | cancel t' =>
    simp only [Queue.step] at hs
    split at hs <;> cases hs <;> simp at hc
  | message m =>
    simp only [Queue.step] at hs
    split at hs
    · have := hput q m; rw [Option.some.inj hs] at this; exact absurd hc this
    · cases hs
  | wakeTransfer =>
    simp only [Queue.step] at hs
    split at hs
    · rename_i m f hm
      split at hs
      · have := hput { q with putWaiter := none } m
        rw [Option.some.inj hs] at this; exact absurd hc this
      · cases hs
    · cases hs
  | exit =>
    simp only [Queue.step] at hs
    split at hs <;> cases hs; cases hc
  | cancelTransfer =>
    simp only [Queue.step] at hs
    split at hs <;> cases hs <;> cases hc

/-- So every message that was received is returned before `ConnectionClosed` is raised, unless
`transfer_data` was cancelled. -/
theorem C51_complete_partial {n : Option Nat} {as : List (Act M)} {q q' : Queue M} {os o : List (Obs M)}
    (h : (Queue.init n).exec as = some (q, os)) (hp : Spec.Prompt (Queue.init n) as)
    (hn : .cancelTransfer ∉ as)
    {a : Act M} (hs : q.step a = some (q', o)) {t : Nat} (hc : .closed t ∈ o) :
    Spec.returned os = Spec.received as := by
  obtain ⟨h1, h2⟩ := C51_closed_partial h hp hs hc
  obtain ⟨lost, h3, -, h4⟩ := C51_order_partial h
  rw [h4 hn, h1, h2] at h3
  simpa [Transfer.inHand] using h3

/-! ## Executions -/

/-- Two messages; the first call is cancelled; the next ones return them, the last one after the end. -/
example : ((Queue.init (some 1) : Queue Nat).exec
    [.recv 0, .message 10, .cancel 0, .message 11, .recv 1, .wakeTransfer, .exit, .recv 2]).map (·.2) =
    some [.cancelled 0, .returned 1 10, .returned 2 11] := by decide +kernel

/-- A concurrent call is refused, and the first one gets its message. -/
example : ((Queue.init none : Queue Nat).exec [.recv 0, .recv 1, .message 5, .wake 0]).map (·.2) =
    some [.refused 1, .returned 0 5] := by decide +kernel

/-- The schedule of the previous example is prompt. -/
example : Spec.Prompt (Queue.init none : Queue Nat) [.recv 0, .recv 1, .message 5, .wake 0] := by
  refine ⟨?_, ?_⟩
  · simp [Queue.init]
  · intro q o h
    simp only [Queue.step, Queue.init, Queue.find, Queue.recvLoop] at h
    cases h
    refine ⟨?_, ?_⟩
    · simp
    · intro q o h
      cases h
      refine ⟨by simp, fun q o h => ⟨by simp, fun q o h => trivial⟩⟩

/-- After the end, `ConnectionClosed`. -/
example : ((Queue.init none : Queue Nat).exec
    [.recv 0, .message 5, .wake 0, .recv 0, .exit, .wake 0, .wake 0]).map (·.2) =
    some [.returned 0 5, .closed 0] := by decide +kernel

/-- C51 fails when `transfer_data` is cancelled (by `fail_connection`, or by a timeout in `close`)
while it waits for room in the queue: the message that it holds is lost. -/
theorem C51_lost_false : ¬ ∀ (n : Option Nat) (as : List (Act Nat)) (q : Queue Nat) (os : List (Obs Nat)),
    (Queue.init n).exec as = some (q, os) → q.transfer = .exited → q.messages = [] →
    Spec.returned os = Spec.received as := by
  intro h
  have := h (some 1) [.message 1, .message 2, .cancelTransfer, .recv 0] _ _ rfl rfl rfl
  revert this
  decide +kernel

/-- Task 0 is notified; task 1 takes the message; task 2 starts waiting; task 0 resumes, forgets the
waiter of task 2, and waits as well. -/
def clobbered : List (Act Nat) := [.recv 0, .message 1, .recv 1, .recv 2, .wake 0]

/-- C53 fails in general: a call that starts while two others are waiting isn't refused
(the queue isn't empty, and it takes the message that both are waiting for), and the call in task 2,
which waited first, isn't woken up by the message. -/
theorem C53_concurrent_false : ∃ (q : Queue Nat) (os : List (Obs Nat)) (f : Nat),
    (Queue.init none).exec (clobbered ++ [.message 2]) = some (q, os) ∧
    (2, Recv.waiting f) ∈ q.recvs ∧ f ∉ q.done ∧ q.messages = [2] ∧ q.step (.wake 2) = none ∧
    ∃ q', q.step (.recv 3) = some (q', [.returned 3 2]) :=
  ⟨_, _, 1, rfl, by decide +kernel, by decide +kernel, rfl, rfl, _, rfl⟩

/-- `ConnectionClosed` can be raised when there are messages in the queue. -/
theorem C51_closed_false : ∃ (q : Queue Nat) (os : List (Obs Nat)) (q' : Queue Nat),
    (Queue.init none).exec (clobbered ++ [.message 2, .exit, .wake 2]) = some (q, os) ∧
    q.step (.wake 2) = some (q', [.closed 2]) ∧ q'.messages = [2] :=
  ⟨_, _, _, rfl, rfl, rfl⟩

/-- With `max_queue=0`, a message isn't delivered, although `recv` waits for it. -/
example : ((Queue.init (some 0) : Queue Nat).exec [.recv 0, .message 1]).map
    (fun (q, os) => (os, q.messages, (q.step .wakeTransfer).isNone, (q.step (.wake 0)).isNone)) =
    some ([], [], true, true) := by decide +kernel

end WS.Legacy
