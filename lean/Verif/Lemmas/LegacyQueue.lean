import Verif.Model.LegacyQueue

/-!
# Invariants of the queue of received messages
-/

namespace WS.Legacy

variable {M : Type}

/-- The message that `transfer_data` has in hand while it waits. -/
def Transfer.inHand : Transfer M → List M
  | full m _ => [m]
  | _ => []

/-- Messages that were received from the network in a sequence of events. -/
def Spec.received : List (Act M) → List M
  | [] => []
  | .message m :: as => m :: received as
  | _ :: as => received as

/-- Messages that calls to `recv` returned. -/
def Spec.returned : List (Obs M) → List M
  | [] => []
  | .returned _ m :: os => m :: returned os
  | _ :: os => returned os

theorem Spec.received_append (a b : List (Act M)) : received (a ++ b) = received a ++ received b := by
  induction a with
  | nil => rfl
  | cons x xs ih => cases x <;> simp [received, ih]

theorem Spec.returned_append (a b : List (Obs M)) : returned (a ++ b) = returned a ++ returned b := by
  induction a with
  | nil => rfl
  | cons x xs ih => cases x <;> simp [returned, ih]

/-- Invariant. -/
structure Queue.Ok (q : Queue M) : Prop where
  popFresh : ∀ f, q.popWaiter = some f → f < q.next ∧ f ∉ q.done
  putFresh : ∀ f, q.putWaiter = some f → f < q.next ∧ f ∉ q.done ∧ ∃ m, q.transfer = .full m f
  doneOld : ∀ f, f ∈ q.done → f < q.next
  waitOld : ∀ t f, (t, Recv.waiting f) ∈ q.recvs → f < q.next
  fullOld : ∀ m f, q.transfer = .full m f → f < q.next ∧ (q.putWaiter = some f ∨ f ∈ q.done)
  disjoint : ∀ t f m g, (t, Recv.waiting f) ∈ q.recvs → q.transfer = .full m g → f ≠ g
  popTask : ∀ f, q.popWaiter = some f → q.messages = [] ∧ ∃ t, (t, Recv.waiting f) ∈ q.recvs
  bound : ∀ n, q.maxQueue = some n → q.messages.length ≤ n
  room : ∀ m f n, q.transfer = .full m f → q.maxQueue = some n → f ∉ q.done →
    n ≤ q.messages.length
  unique : (q.recvs.map (·.1)).Nodup
  ensured : ∀ t, (t, Recv.ensuring) ∈ q.recvs → q.transfer = .exited

theorem Queue.notifyPut_eq {q : Queue M} (h : ∀ f, q.putWaiter = some f → f ∉ q.done) :
    q.notifyPut = ({ q with done := q.putWaiter.toList ++ q.done, putWaiter := none }, []) := by
  unfold Queue.notifyPut
  cases hp : q.putWaiter with
  | none => simp only [Option.toList_none, List.nil_append]; rw [← hp]
  | some f => simp [Queue.setResult, h f hp]

theorem Queue.notifyPop_eq {q : Queue M} (h : ∀ f, q.popWaiter = some f → f ∉ q.done) :
    q.notifyPop = ({ q with done := q.popWaiter.toList ++ q.done, popWaiter := none }, []) := by
  unfold Queue.notifyPop
  cases hp : q.popWaiter with
  | none => simp only [Option.toList_none, List.nil_append]; rw [← hp]
  | some f => simp [Queue.setResult, h f hp]

theorem Queue.find_some {q : Queue M} {t : Nat} {r : Recv} (h : q.find t = some r) :
    (t, r) ∈ q.recvs := by
  unfold Queue.find at h
  simp only [Option.map_eq_some_iff] at h
  obtain ⟨⟨t', r'⟩, h1, rfl⟩ := h
  have h2 := List.find?_some h1
  simp only [decide_eq_true_eq] at h2
  subst h2
  exact List.mem_of_find?_eq_some h1

theorem Queue.find_none {q : Queue M} {t : Nat} (h : q.find t = none) (r : Recv) :
    (t, r) ∉ q.recvs := by
  intro hm
  unfold Queue.find at h
  simp only [Option.map_eq_none_iff, List.find?_eq_none] at h
  exact h _ hm (by simp)

theorem Queue.mem_drop {q : Queue M} {t t' : Nat} {r : Recv} :
    (t', r) ∈ (q.drop t).recvs ↔ (t', r) ∈ q.recvs ∧ t' ≠ t := by
  simp [Queue.drop]

theorem Queue.drop_unique {q : Queue M} (h : (q.recvs.map (·.1)).Nodup) (t : Nat) :
    ((q.drop t).recvs.map (·.1)).Nodup :=
  h.sublist (List.Sublist.map _ List.filter_sublist)

/-- The effects of a step on messages. -/
structure Flow (q q' : Queue M) (o : List (Obs M)) (inp lost : List M) : Prop where
  max : q'.maxQueue = q.maxQueue
  valid : Obs.invalidState ∉ o
  flow : Spec.returned o ++ q'.messages ++ q'.transfer.inHand ++ lost =
    q.messages ++ q.transfer.inHand ++ inp

/-- Removing a task, and its waiter. -/
theorem Queue.Ok.drop {q : Queue M} (h : q.Ok) (t : Nat) :
    ({ q.drop t with popWaiter := none } : Queue M).Ok where
  popFresh := by simp
  putFresh := h.putFresh
  doneOld := h.doneOld
  waitOld t' f hm := h.waitOld t' f (Queue.mem_drop.1 hm).1
  fullOld := h.fullOld
  disjoint t' f m g hm := h.disjoint t' f m g (Queue.mem_drop.1 hm).1
  popTask := by simp
  bound := h.bound
  room := h.room
  unique := drop_unique h.unique t
  ensured t' hm := h.ensured t' (Queue.mem_drop.1 hm).1

/-- Removing a task that isn't waiting. -/
theorem Queue.Ok.dropEnsuring {q : Queue M} (h : q.Ok) {t : Nat} (ht : (t, Recv.ensuring) ∈ q.recvs) :
    (q.drop t).Ok where
  popFresh := h.popFresh
  putFresh := h.putFresh
  doneOld := h.doneOld
  waitOld t' f hm := h.waitOld t' f (Queue.mem_drop.1 hm).1
  fullOld := h.fullOld
  disjoint t' f m g hm := h.disjoint t' f m g (Queue.mem_drop.1 hm).1
  popTask f hf := by
    obtain ⟨h1, t', h2⟩ := h.popTask f hf
    refine ⟨h1, t', Queue.mem_drop.2 ⟨h2, ?_⟩⟩
    rintro rfl
    have hu := h.unique
    generalize q.recvs = l at hu h2 ht
    induction l with
    | nil => cases h2
    | cons x xs ih =>
      simp only [List.map_cons, List.nodup_cons, List.mem_map, not_exists, not_and] at hu
      simp only [List.mem_cons] at h2 ht
      rcases h2 with rfl | h2
      · rcases ht with ht | ht
        · cases ht
        · exact hu.1 _ ht rfl
      · rcases ht with rfl | ht
        · exact hu.1 _ h2 rfl
        · exact ih hu.2 h2 ht
  bound := h.bound
  room := h.room
  unique := drop_unique h.unique t
  ensured t' hm := h.ensured t' (Queue.mem_drop.1 hm).1

theorem Queue.Ok.recvLoop {q q' : Queue M} {o : List (Obs M)} {t : Nat} (h : q.Ok)
    (hp : q.popWaiter = none) (ht : ∀ r, (t, r) ∉ q.recvs) (hr : q.recvLoop t = (q', o)) :
    q'.Ok ∧ Flow q q' o [] [] := by
  unfold Queue.recvLoop at hr
  split at hr
  · rename_i hm
    cases hr
    refine ⟨⟨?_, ?_, ?_, ?_, ?_, ?_, ?_, h.bound, h.room, ?_, ?_⟩, rfl, by simp,
      by simp [Spec.returned]⟩
    · intro f hf
      cases hf
      exact ⟨Nat.lt_succ_self _, fun hd => Nat.lt_irrefl _ (h.doneOld _ hd)⟩
    · intro f hf
      obtain ⟨h1, h2, h3⟩ := h.putFresh f hf
      exact ⟨Nat.lt_succ_of_lt h1, h2, h3⟩
    · intro f hf
      exact Nat.lt_succ_of_lt (h.doneOld f hf)
    · intro t' f hf
      simp only [List.mem_cons, Prod.mk.injEq, Recv.waiting.injEq] at hf
      rcases hf with ⟨_, rfl⟩ | hf
      · exact Nat.lt_succ_self _
      · exact Nat.lt_succ_of_lt (h.waitOld t' f hf)
    · intro m f hf
      obtain ⟨h1, h2⟩ := h.fullOld m f hf
      exact ⟨Nat.lt_succ_of_lt h1, h2⟩
    · intro t' f m g hf hg
      simp only [List.mem_cons, Prod.mk.injEq, Recv.waiting.injEq] at hf
      rcases hf with ⟨_, rfl⟩ | hf
      · intro he; have := (h.fullOld m g hg).1; rw [← he] at this; exact Nat.lt_irrefl _ this
      · exact h.disjoint t' f m g hf hg
    · intro f hf
      cases hf
      exact ⟨hm, t, by simp⟩
    · simp only [List.map_cons, List.nodup_cons, List.mem_map, not_exists, not_and]
      refine ⟨?_, h.unique⟩
      rintro ⟨t', r⟩ hx rfl
      exact ht r hx
    · intro t' hm
      simp only [List.mem_cons, Prod.mk.injEq, reduceCtorEq, and_false, false_or] at hm
      exact h.ensured t' hm
  · rename_i m ms hm
    rw [Queue.notifyPut_eq (by
      intro f hf
      exact (h.putFresh f hf).2.1)] at hr
    cases hr
    refine ⟨⟨?_, by simp, ?_, h.waitOld, ?_, h.disjoint, ?_, ?_, ?_, h.unique, h.ensured⟩, rfl, by simp, ?_⟩
    · intro f hf; simp only at hf; rw [hp] at hf; cases hf
    · intro f hf
      simp only [List.mem_append, Option.mem_toList] at hf
      rcases hf with hf | hf
      · exact (h.putFresh f hf).1
      · exact h.doneOld f hf
    · intro m' f hf
      obtain ⟨h1, h2⟩ := h.fullOld m' f hf
      refine ⟨h1, .inr ?_⟩
      simp only [List.mem_append, Option.mem_toList]
      exact h2
    · intro f hf; simp only at hf; rw [hp] at hf; cases hf
    · intro n hn
      have := h.bound n hn
      rw [hm] at this
      simp only [List.length_cons] at this
      simp only
      omega
    · intro m' f n hf hn hd
      exfalso
      apply hd
      simp only [List.mem_append, Option.mem_toList]
      exact (h.fullOld m' f hf).2
    · simp [Spec.returned, hm]

theorem Queue.Ok.putLoop {q q' : Queue M} {o : List (Obs M)} {m : M} (h : q.Ok)
    (hr : q.putLoop m = (q', o)) (hput : q.putWaiter = none) (hex : q.transfer ≠ .exited) :
    q'.Ok ∧ q'.maxQueue = q.maxQueue ∧ .invalidState ∉ o ∧ Spec.returned o = [] ∧
      q'.messages ++ q'.transfer.inHand = q.messages ++ [m] := by
  unfold Queue.putLoop at hr
  split at hr
  · rename_i hfull
    cases hr
    refine ⟨⟨?_, ?_, ?_, ?_, ?_, ?_, h.popTask, h.bound, ?_, h.unique, ?_⟩, rfl, by simp,
      rfl, rfl⟩
    · intro f hf
      obtain ⟨h1, h2⟩ := h.popFresh f hf
      exact ⟨Nat.lt_succ_of_lt h1, h2⟩
    · intro f hf
      cases hf
      exact ⟨Nat.lt_succ_self _, fun hd => Nat.lt_irrefl _ (h.doneOld _ hd), m, rfl⟩
    · intro f hf
      exact Nat.lt_succ_of_lt (h.doneOld f hf)
    · intro t f hf
      exact Nat.lt_succ_of_lt (h.waitOld t f hf)
    · intro m' f hf
      cases hf
      exact ⟨Nat.lt_succ_self _, .inl rfl⟩
    · intro t f m' g hf hg
      cases hg
      intro he
      have := h.waitOld t f hf
      omega
    · intro m' f n hf hn hd
      simp only [Queue.isFull] at hfull
      simp only at hn
      rw [hn] at hfull
      simpa using hfull
    · intro t ht
      exact absurd (h.ensured t ht) hex
  · rename_i hfull
    rw [Queue.notifyPop_eq (by
      intro f hf
      exact (h.popFresh f hf).2)] at hr
    cases hr
    refine ⟨⟨by simp, ?_, ?_, h.waitOld, by simp, by simp, by simp, ?_, by simp, h.unique,
      fun t ht => absurd (h.ensured t ht) hex⟩, rfl,
      by simp, rfl, by simp [Transfer.inHand]⟩
    · intro f hf; simp only at hf; rw [hput] at hf; cases hf
    · intro f hf
      simp only [List.mem_append, Option.mem_toList] at hf
      rcases hf with hf | hf
      · exact (h.popFresh f hf).1
      · exact h.doneOld f hf
    · intro n hn
      simp only [Queue.isFull] at hfull
      simp only at hn
      rw [hn] at hfull
      simp only [decide_eq_true_eq, Nat.not_le] at hfull
      simp only [List.length_append, List.length_cons, List.length_nil]
      omega

/-- The message that a step loses. -/
def Queue.loses (q : Queue M) : Act M → List M
  | .cancelTransfer => q.transfer.inHand
  | _ => []

theorem Transfer.isExited_iff (t : Transfer M) : t.isExited = true ↔ t = .exited := by
  cases t <;> simp [Transfer.isExited]

theorem Transfer.isReading_iff (t : Transfer M) : t.isReading = true ↔ t = .reading := by
  cases t <;> simp [Transfer.isReading]

theorem Queue.Ok.exit {q : Queue M} (h : q.Ok) (hp : q.putWaiter = none) :
    ({ q with transfer := .exited } : Queue M).Ok where
  popFresh := h.popFresh
  putFresh f hf := by simp only at hf; rw [hp] at hf; cases hf
  doneOld := h.doneOld
  waitOld := h.waitOld
  fullOld := by simp
  disjoint := by simp
  popTask := h.popTask
  bound := h.bound
  room := by simp
  unique := h.unique
  ensured _ _ := rfl

theorem Queue.Ok.put_none {q : Queue M} (h : q.Ok) (hr : ∀ m f, q.transfer ≠ .full m f) :
    q.putWaiter = none := by
  cases hp : q.putWaiter with
  | none => rfl
  | some f => obtain ⟨_, _, m, hm⟩ := h.putFresh f hp; exact absurd hm (hr m f)

theorem Queue.Ok.step {q q' : Queue M} {a : Act M} {o : List (Obs M)} (h : q.Ok)
    (hs : q.step a = some (q', o)) :
    q'.Ok ∧ Flow q q' o (Spec.received [a]) (q.loses a) := by
  cases a with
  | recv t =>
    simp only [Queue.step] at hs
    split at hs
    · cases hs
    · rename_i hf
      simp only [ne_eq, Classical.not_not] at hf
      split at hs
      · cases hs
        exact ⟨h, rfl, by simp, by simp [Spec.returned, Spec.received, Queue.loses]⟩
      · rename_i hp
        simp only [ne_eq, Classical.not_not] at hp
        exact h.recvLoop hp (Queue.find_none hf) (Option.some.inj hs)
  | wake t =>
    simp only [Queue.step] at hs
    split at hs
    · cases hs
    · rename_i f hf
      split at hs
      · rename_i hw
        have hd := h.drop t
        split at hs
        · have := hd.recvLoop rfl (fun r hr => (Queue.mem_drop.1 hr).2 rfl) (Option.some.inj hs)
          exact ⟨this.1, this.2.max, this.2.valid, this.2.flow⟩
        · rename_i hnd
          cases hs
          refine ⟨⟨by simp, hd.putFresh, hd.doneOld, ?_, hd.fullOld, ?_, by simp, hd.bound, hd.room, ?_,
            ?_⟩,
            rfl, by simp, by simp [Spec.returned, Spec.received, Queue.loses, Queue.drop]⟩
          · intro t' f' hm
            simp only [List.mem_cons, Prod.mk.injEq, reduceCtorEq, and_false, false_or] at hm
            exact hd.waitOld t' f' hm
          · intro t' f' m g hm
            simp only [List.mem_cons, Prod.mk.injEq, reduceCtorEq, and_false, false_or] at hm
            exact hd.disjoint t' f' m g hm
          · simp only [List.map_cons, List.nodup_cons, List.mem_map, not_exists, not_and]
            refine ⟨?_, hd.unique⟩
            rintro ⟨t', r⟩ hx rfl
            exact (Queue.mem_drop.1 hx).2 rfl
          · intro t' _
            rcases hw with hw | hw
            · exact absurd hw hnd
            · exact (Transfer.isExited_iff _).1 hw
      · cases hs
    · rename_i hf
      have hm := Queue.find_some hf
      have hd := h.dropEnsuring hm
      split at hs
      · cases hs
        exact ⟨hd, rfl, by simp, by simp [Spec.returned, Spec.received, Queue.loses, Queue.drop]⟩
      · rename_i hx
        exact absurd ((Transfer.isExited_iff _).2 (h.ensured t hm)) hx
  | cancel t =>
    simp only [Queue.step] at hs
    split at hs
    · cases hs
    · cases hs
      exact ⟨h.drop t, rfl, by simp, by simp [Spec.returned, Spec.received, Queue.loses, Queue.drop]⟩
    · rename_i hf
      cases hs
      exact ⟨h.dropEnsuring (Queue.find_some hf), rfl, by simp,
        by simp [Spec.returned, Spec.received, Queue.loses, Queue.drop]⟩
  | message m =>
    simp only [Queue.step] at hs
    split at hs
    · rename_i hr
      rw [Transfer.isReading_iff] at hr
      obtain ⟨g1, g2, g3, g4, g5⟩ := h.putLoop (Option.some.inj hs) (h.put_none (by simp [hr]))
        (by simp [hr])
      refine ⟨g1, g2, g3, ?_⟩
      rw [g4, List.nil_append, g5, hr]
      simp [Transfer.inHand, Spec.received, Queue.loses]
    · cases hs
  | wakeTransfer =>
    simp only [Queue.step] at hs
    split at hs
    · rename_i m f hm
      split at hs
      · rename_i hd
        have hok : ({ q with putWaiter := none } : Queue M).Ok :=
          ⟨h.popFresh, by simp, h.doneOld, h.waitOld, fun m' f' hf' => by
              simp only at hf'
              rw [hm] at hf'
              cases hf'
              exact ⟨(h.fullOld m f hm).1, .inr hd⟩,
            h.disjoint, h.popTask, h.bound, h.room, h.unique, h.ensured⟩
        obtain ⟨g1, g2, g3, g4, g5⟩ := hok.putLoop (Option.some.inj hs) rfl (by simp [hm])
        refine ⟨g1, g2, g3, ?_⟩
        rw [g4, List.nil_append, g5, hm]
        simp [Transfer.inHand, Spec.received, Queue.loses]
      · cases hs
    · cases hs
  | exit =>
    simp only [Queue.step] at hs
    split at hs
    · rename_i hr
      rw [Transfer.isReading_iff] at hr
      cases hs
      refine ⟨h.exit (h.put_none (by simp [hr])), rfl, by simp, ?_⟩
      simp [hr, Spec.returned, Spec.received, Queue.loses, Transfer.inHand]
    · cases hs
  | cancelTransfer =>
    simp only [Queue.step] at hs
    split at hs
    · cases hs
    · rename_i hr
      cases hs
      refine ⟨h.exit (h.put_none (by simp [hr])), rfl, by simp, ?_⟩
      simp [hr, Spec.returned, Spec.received, Queue.loses, Transfer.inHand]
    · rename_i m f hm
      cases hs
      refine ⟨⟨h.popFresh, by simp, h.doneOld, h.waitOld, by simp, by simp, h.popTask, h.bound, by simp,
        h.unique, fun _ _ => rfl⟩, rfl, by simp, ?_⟩
      simp [hm, Spec.returned, Spec.received, Queue.loses, Transfer.inHand]

theorem Queue.Ok.init (maxQueue : Option Nat) : (Queue.init maxQueue : Queue M).Ok := by
  constructor <;> simp [Queue.init]

/-- The messages that a sequence of steps loses. -/
def Queue.losses (q : Queue M) : List (Act M) → List M
  | [] => []
  | a :: as =>
    match q.step a with
    | none => []
    | some (q', _) => q.loses a ++ q'.losses as

end WS.Legacy
