import Verif.Model.Interactive
import Verif.Props.LegacyQueue

/-!
# C86: The interactive client shows the messages received and sends the lines typed

Executions are arbitrary sequences of `Act`: messages arrive, the user types lines and interrupts the client, and tasks
run in any order that asyncio allows.
-/

namespace WS.Interactive

open WS.Legacy (Queue Recv Transfer)

variable {M : Type}

/-! ## Specification -/

/-- What the connection does, in a sequence of steps. -/
def Spec.transfers : List (Act M) → List (Legacy.Act M)
  | [] => []
  | .transfer a :: as => a :: transfers as
  | _ :: as => transfers as

/-- The messages that the connection receives. -/
def Spec.received (as : List (Act M)) : List M := Legacy.Spec.received (transfers as)

/-- The lines that the user types. -/
def Spec.typed : List (Act M) → List PyStr
  | [] => []
  | .type line :: as => line :: typed as
  | _ :: as => typed as

/-- The messages that are displayed. -/
def Spec.shown : List (Obs M) → List M
  | [] => []
  | .shown m :: os => m :: shown os
  | _ :: os => shown os

/-- The lines for which `send` is called. -/
def Spec.sent : List (Obs M) → List PyStr
  | [] => []
  | .sent line :: os => line :: sent os
  | _ :: os => sent os

open Spec

theorem Spec.transfers_append (a b : List (Act M)) : transfers (a ++ b) = transfers a ++ transfers b := by
  induction a with
  | nil => rfl
  | cons x xs ih => cases x <;> simp [transfers, ih]

theorem Spec.received_cons (a : Act M) (as : List (Act M)) : Spec.received (a :: as) = Spec.received [a] ++ Spec.received as := by
  cases a <;> simp [Spec.received, transfers, Legacy.Spec.received]
  rename_i a
  cases a <;> simp [Legacy.Spec.received]

theorem Spec.typed_cons (a : Act M) (as : List (Act M)) : typed (a :: as) = typed [a] ++ typed as := by
  cases a <;> simp [typed]

theorem Spec.shown_append (a b : List (Obs M)) : shown (a ++ b) = shown a ++ shown b := by
  induction a with
  | nil => rfl
  | cons x xs ih => cases x <;> simp [shown, ih]

theorem Spec.sent_append (a b : List (Obs M)) : sent (a ++ b) = sent a ++ sent b := by
  induction a with
  | nil => rfl
  | cons x xs ih => cases x <;> simp [sent, ih]

/-! ## Steps of `recv` when there's one task -/

theorem recvLoop_single {q q' : Queue M} {t : Nat} {o : List (Legacy.Obs M)} (hok : q.Ok) (hr : q.recvs = [])
    (h : q.recvLoop t = (q', o)) :
    (o = [] ∧ q'.recvs.map (·.1) = [t]) ∨ ∃ m, o = [.returned t m] ∧ q'.recvs = [] := by
  unfold Queue.recvLoop at h
  split at h
  · cases h
    exact .inl ⟨rfl, by simp [hr]⟩
  · rename_i m ms hm
    rw [Queue.notifyPut_eq (q := { q with messages := ms }) (fun f hf => (hok.putFresh f hf).2.1)] at h
    simp only at h
    cases h
    exact .inr ⟨m, rfl, hr⟩

theorem recv_single {q q' : Queue M} {t : Nat} {o : List (Legacy.Obs M)} (hok : q.Ok) (hr : q.recvs = [])
    (h : q.step (.recv t) = some (q', o)) :
    (o = [] ∧ q'.recvs.map (·.1) = [t]) ∨ ∃ m, o = [.returned t m] ∧ q'.recvs = [] := by
  have hp : q.popWaiter = none := by
    cases hp : q.popWaiter with
    | none => rfl
    | some f =>
      obtain ⟨-, t, ht⟩ := hok.popTask f hp
      rw [hr] at ht
      cases ht
  simp only [Queue.step, hp] at h
  split at h
  · cases h
  · rw [if_neg (by simp)] at h
    exact recvLoop_single hok hr (Option.some.inj h)

theorem wake_single {q q' : Queue M} {t : Nat} {o : List (Legacy.Obs M)} (hok : q.Ok) (hti : q.Tidy)
    (hr : q.recvs.map (·.1) = [t]) (h : q.step (.wake t) = some (q', o)) :
    (o = [] ∧ q'.recvs.map (·.1) = [t]) ∨ (∃ m, o = [.returned t m] ∧ q'.recvs = []) ∨
      (o = [.closed t] ∧ q'.recvs = [] ∧ q'.messages = [] ∧ q'.transfer = .exited) := by
  obtain ⟨r, hr⟩ : ∃ r, q.recvs = [(t, r)] := by
    match hq : q.recvs, hr with
    | [(t', r)], hr => simp at hr; exact ⟨r, by rw [hr]⟩
  have hd : (q.drop t).recvs = [] := by simp [Queue.drop, hr]
  have hf : q.find t = some r := by simp [Queue.find, hr]
  simp only [Queue.step, hf] at h
  cases r with
  | waiting f =>
    simp only at h
    split at h
    · split at h
      · rcases recvLoop_single (q := { q.drop t with popWaiter := none }) (hok.drop t) hd (Option.some.inj h) with h | h
        · exact .inl h
        · exact .inr (.inl h)
      · cases h
        exact .inl ⟨rfl, by simp [hd]⟩
    · cases h
  | ensuring =>
    simp only at h
    have hx : q.transfer = .exited := hok.ensured t (by simp [hr])
    rw [if_pos (by rw [hx]; rfl)] at h
    cases h
    exact .inr (.inr ⟨rfl, hd, hti.empty t (by simp [hr]), hx⟩)

theorem cancel_single {q q' : Queue M} {t : Nat} {o : List (Legacy.Obs M)}
    (hr : q.recvs.map (·.1) = [t]) (h : q.step (.cancel t) = some (q', o)) :
    q'.recvs = [] ∧ Legacy.Spec.returned o = [] := by
  obtain ⟨r, hr⟩ : ∃ r, q.recvs = [(t, r)] := by
    match hq : q.recvs, hr with
    | [(t', r)], hr => simp at hr; exact ⟨r, by rw [hr]⟩
  have hd : (q.drop t).recvs = [] := by simp [Queue.drop, hr]
  have hf : q.find t = some r := by simp [Queue.find, hr]
  simp only [Queue.step, hf] at h
  cases r <;> · cases h; exact ⟨hd, rfl⟩

theorem transfer_recvs {q q' : Queue M} {a : Legacy.Act M} {o : List (Legacy.Obs M)} (ha : isTransfer a = true)
    (h : q.step a = some (q', o)) : q'.recvs = q.recvs ∧ Legacy.Spec.returned o = [] := by
  have hput : ∀ (q : Queue M) m, (q.putLoop m).1.recvs = q.recvs ∧ Legacy.Spec.returned (q.putLoop m).2 = [] := by
    intro q m
    unfold Queue.putLoop Queue.notifyPop Queue.setResult
    grind [Legacy.Spec.returned]
  cases a with
  | recv t => cases ha
  | wake t => cases ha
  | cancel t => cases ha
  | message m =>
    simp only [Queue.step] at h
    split at h
    · have := hput q m
      rw [Option.some.inj h] at this
      exact this
    · cases h
  | wakeTransfer =>
    simp only [Queue.step] at h
    split at h
    · rename_i m f _
      split at h
      · have := hput { q with putWaiter := none } m
        rw [Option.some.inj h] at this
        exact this
      · cases h
    · cases h
  | exit =>
    simp only [Queue.step] at h
    split at h
    · cases h; exact ⟨rfl, rfl⟩
    · cases h
  | cancelTransfer =>
    simp only [Queue.step] at h
    split at h
    · cases h
    · cases h; exact ⟨rfl, rfl⟩
    · cases h; exact ⟨rfl, rfl⟩

/-! ## Invariant -/

namespace Client

/-- The tasks that are suspended in `recv`. -/
def receivers (c : Client M) : List Nat :=
  match c.cancelled, c.phase with
  | some t, _ => [t]
  | none, .waiting .running _ => [c.task]
  | none, _ => []

/-- A message that `recv` returned, and that isn't displayed yet. -/
def pending (c : Client M) : List M :=
  match c.phase with
  | .waiting (.returned m) _ => [m]
  | _ => []

/-- A line taken from `inputs`, and that isn't sent yet. -/
def taken (c : Client M) : List PyStr :=
  match c.phase with
  | .waiting _ (.got line) => [line]
  | _ => []

structure Good (c : Client M) : Prop where
  ok : c.queue.Ok
  tidy : c.queue.Tidy
  tasks : c.queue.recvs.map (·.1) = c.receivers
  single : c.cancelled ≠ none → ∀ inc out, c.phase = .waiting inc out → inc = .new
  fine : ∀ out, c.phase ≠ .waiting .failed out
  closed : ∀ out, c.phase = .waiting .closed out → c.queue.messages = [] ∧ c.queue.transfer = .exited

theorem Good.init (n : Option Nat) : (Client.init n : Client M).Good where
  ok := .init n
  tidy := .init n
  tasks := rfl
  single := by simp [Client.init]
  fine := by simp [Client.init]
  closed := by simp [Client.init]

/-- The line that `get` returned. -/
def _root_.WS.Interactive.Outgoing.lines : Outgoing → List PyStr
  | .got line => [line]
  | _ => []

/-- Messages and lines are kept, in order, by a step.  `lost` is the message that `transfer_data` holds when it's
cancelled; `dropped` is the line taken from `inputs` when the connection is closed. -/
structure Keeps (c c' : Client M) (a : Act M) (o : List (Obs M)) (lost : List M) (dropped : List PyStr) : Prop where
  messages : shown o ++ c'.pending ++ c'.queue.messages ++ c'.queue.transfer.inHand ++ lost =
    c.pending ++ c.queue.messages ++ c.queue.transfer.inHand ++ Spec.received [a]
  lines : sent o ++ dropped ++ c'.taken ++ c'.inputs = c.taken ++ c.inputs ++ typed [a]
  lostOne : lost.length ≤ 1
  lostExited : lost ≠ [] → c'.queue.transfer = .exited
  lostCancel : a ≠ .transfer .cancelTransfer → lost = []
  droppedOne : dropped.length ≤ 1
  droppedClosing : dropped ≠ [] → c'.phase = .closing ∧ ∃ inc out, c.phase = .waiting inc out

theorem Good.iterate {c : Client M} (h : c.Good) (hr : c.receivers = c.cancelled.toList) :
    c.iterate.Good := by
  refine ⟨h.ok, h.tidy, ?_, ?_, ?_, ?_⟩
  · show c.queue.recvs.map (·.1) = _
    rw [h.tasks, hr]
    unfold receivers Client.iterate
    cases c.cancelled <;> rfl
  · intro _ inc out hp
    simp only [Client.iterate, Phase.waiting.injEq] at hp
    exact hp.1.symm
  · intro out hp; simp [Client.iterate] at hp
  · intro out hp; simp [Client.iterate] at hp

/-- The loop of `run_client` isn't running any more. -/
theorem Good.halt {c : Client M} (h : c.Good) (hr : c.receivers = c.cancelled.toList) {p : Phase M}
    (hp : ∀ inc out, p ≠ .waiting inc out) : Good { c with phase := p } := by
  refine ⟨h.ok, h.tidy, ?_, ?_, ?_, ?_⟩
  · show c.queue.recvs.map (·.1) = _
    rw [h.tasks, hr]
    unfold receivers
    cases c.cancelled with
    | some t => rfl
    | none =>
      cases p with
      | waiting inc out => exact absurd rfl (hp inc out)
      | _ => rfl
  · intro _ inc out hq; exact absurd hq (hp inc out)
  · intro out hq; exact absurd hq (hp _ out)
  · intro out hq; exact absurd hq (hp _ out)

/-- `c.proceed out`, when no task is suspended in `recv` but one that was cancelled -/
theorem Good.proceed {c c' : Client M} (h : c.Good) (hr : c.receivers = c.cancelled.toList) {out : Outgoing}
    {o : List (Obs M)} (hs : c.proceed out = (c', o)) :
    c'.Good ∧ c'.queue = c.queue ∧ c'.inputs = c.inputs ∧ c'.pending = [] ∧ c'.taken = [] ∧ shown o = [] ∧
      sent o = out.lines := by
  unfold Client.proceed at hs
  split at hs
  · cases hs
    exact ⟨h.halt hr (by simp), rfl, rfl, rfl, rfl, rfl, rfl⟩
  · split at hs
    · cases hs
      refine ⟨h.halt hr (by simp), rfl, rfl, rfl, rfl, rfl, ?_⟩
      cases out <;> first | rfl | (exfalso; simp_all)
    · cases hs
      refine ⟨h.iterate hr, rfl, rfl, rfl, rfl, rfl, ?_⟩
      cases out <;> first | rfl | (exfalso; simp_all)

theorem Good.step {c c' : Client M} {a : Act M} {o : List (Obs M)} (h : c.Good) (hs : c.step a = some (c', o)) :
    c'.Good ∧ ∃ lost dropped, Keeps c c' a o lost dropped := by
  cases a with
  | connect ok =>
    simp only [Client.step] at hs
    split at hs
    · rename_i hp
      have hr : c.receivers = c.cancelled.toList := by
        unfold receivers; rw [hp]; cases c.cancelled <;> rfl
      split at hs
      · cases hs
        refine ⟨h.iterate hr, [], [], ⟨?_, ?_, by simp, by simp, by simp, by simp, by simp⟩⟩
        · simp [shown, hp, Client.iterate, pending, Spec.received, transfers, Legacy.Spec.received]
        · simp [sent, hp, Client.iterate, taken, typed]
      · cases hs
        refine ⟨h.halt hr (by simp), [], [], ⟨?_, ?_, by simp, by simp, by simp, by simp, by simp⟩⟩
        · simp [shown, hp, pending, Spec.received, transfers, Legacy.Spec.received]
        · simp [sent, hp, taken, typed]
    · cases hs
  | transfer a =>
    simp only [Client.step] at hs
    split at hs
    · rename_i ha
      split at hs
      · cases hs
      · rename_i q o1 hq
        cases hs
        obtain ⟨hok, hflow⟩ := h.ok.step hq
        obtain ⟨hrecvs, hret⟩ := transfer_recvs ha hq
        have hti := h.tidy.step h.ok (fun t ht => by subst ht; cases ha) hq
        have hex : c.queue.transfer ≠ .exited := by
          intro he
          cases a <;> simp [Queue.step, he, Transfer.isReading, isTransfer] at hq ha
        refine ⟨⟨hok, hti, ?_, h.single, h.fine, ?_⟩, c.queue.loses a, [], ⟨?_, ?_, ?_, ?_, ?_, by simp, by simp⟩⟩
        · show q.recvs.map (·.1) = _
          rw [hrecvs, h.tasks]
          rfl
        · intro out hp
          exact absurd (h.closed out hp).2 hex
        · have := hflow.flow
          rw [hret, List.nil_append] at this
          have hp : pending { c with queue := q } = c.pending := rfl
          simp only [shown, List.nil_append, hp, Spec.received, transfers, List.append_assoc] at this ⊢
          rw [this]
        · simp [sent, typed, taken]
        · cases a <;> simp [Queue.loses]
          cases c.queue.transfer <;> simp [Transfer.inHand]
        · intro hl
          cases a <;> simp [Queue.loses] at hl
          show q.transfer = .exited
          simp only [Queue.step] at hq
          split at hq <;> cases hq <;> rfl
        · intro hne
          cases a <;> simp [Queue.loses] at hne ⊢
    · cases hs
  | startIncoming =>
    simp only [Client.step] at hs
    split at hs
    · rename_i out hp hc
      split at hs
      · cases hs
      · rename_i q o1 hq
        cases hs
        have hr : c.queue.recvs = [] := by
          have := h.tasks
          unfold receivers at this
          rw [hc, hp] at this
          simpa using this
        obtain ⟨hok, hflow⟩ := h.ok.step hq
        have hti := h.tidy.step h.ok (fun t _ t' f hf => by rw [hr] at hf; cases hf) hq
        have hf := hflow.flow
        simp only [Queue.loses, Legacy.Spec.received, List.append_nil] at hf
        have htake : sent ([] : List (Obs M)) ++ [] ++ taken { c with queue := q, phase := .waiting (outcome o1) out } ++ c.inputs =
            c.taken ++ c.inputs ++ typed [(Act.startIncoming : Act M)] := by
          simp only [sent, typed, taken, hp]
          cases out <;> simp
        rcases recv_single h.ok hr hq with ⟨rfl, h1⟩ | ⟨m, rfl, h1⟩
        · refine ⟨⟨hok, hti, ?_, by simp [hc], by simp [outcome], by simp [outcome]⟩, [], [],
            ⟨?_, htake, by simp, by simp, by simp, by simp, by simp⟩⟩
          · show q.recvs.map (·.1) = _
            rw [h1]
            simp [receivers, hc, outcome]
          · simp only [outcome, pending, hp, shown, Spec.received, transfers, Legacy.Spec.received] at hf ⊢
            simpa [Legacy.Spec.returned] using hf
        · refine ⟨⟨hok, hti, ?_, by simp [hc], by simp [outcome], by simp [outcome]⟩, [], [],
            ⟨?_, htake, by simp, by simp, by simp, by simp, by simp⟩⟩
          · show q.recvs.map (·.1) = _
            rw [h1]
            simp [receivers, hc, outcome]
          · simp only [outcome, pending, hp, shown, Spec.received, transfers, Legacy.Spec.received] at hf ⊢
            simpa [Legacy.Spec.returned] using hf
    · cases hs
  | wakeIncoming =>
    simp only [Client.step] at hs
    split at hs
    · rename_i out hp
      split at hs
      · cases hs
      · rename_i q o1 hq
        cases hs
        have hc : c.cancelled = none := by
          cases hc : c.cancelled with
          | none => rfl
          | some t => exact absurd (h.single (by simp [hc]) _ _ hp) (by simp)
        have hr : c.queue.recvs.map (·.1) = [c.task] := by
          rw [h.tasks]
          unfold receivers
          rw [hc, hp]
        obtain ⟨hok, hflow⟩ := h.ok.step hq
        have hti := h.tidy.step h.ok (fun t ht => by cases ht) hq
        have hf := hflow.flow
        simp only [Queue.loses, Legacy.Spec.received, List.append_nil] at hf
        have htake : sent ([] : List (Obs M)) ++ [] ++ taken { c with queue := q, phase := .waiting (outcome o1) out } ++ c.inputs =
            c.taken ++ c.inputs ++ typed [(Act.wakeIncoming : Act M)] := by
          simp only [sent, typed, taken, hp]
          cases out <;> simp
        rcases wake_single h.ok h.tidy hr hq with ⟨rfl, h1⟩ | ⟨m, rfl, h1⟩ | ⟨rfl, h1, h2, h3⟩
        · refine ⟨⟨hok, hti, ?_, by simp [hc], by simp [outcome], by simp [outcome]⟩, [], [],
            ⟨?_, htake, by simp, by simp, by simp, by simp, by simp⟩⟩
          · show q.recvs.map (·.1) = _
            rw [h1]
            simp [receivers, hc, outcome]
          · simp only [outcome, pending, hp, shown, Spec.received, transfers, Legacy.Spec.received] at hf ⊢
            simpa [Legacy.Spec.returned] using hf
        · refine ⟨⟨hok, hti, ?_, by simp [hc], by simp [outcome], by simp [outcome]⟩, [], [],
            ⟨?_, htake, by simp, by simp, by simp, by simp, by simp⟩⟩
          · show q.recvs.map (·.1) = _
            rw [h1]
            simp [receivers, hc, outcome]
          · simp only [outcome, pending, hp, shown, Spec.received, transfers, Legacy.Spec.received] at hf ⊢
            simpa [Legacy.Spec.returned] using hf
        · refine ⟨⟨hok, hti, ?_, by simp [hc], by simp [outcome], fun _ _ => ⟨h2, h3⟩⟩, [], [],
            ⟨?_, htake, by simp, by simp, by simp, by simp, by simp⟩⟩
          · show q.recvs.map (·.1) = _
            rw [h1]
            simp [receivers, hc, outcome]
          · simp only [outcome, pending, hp, shown, Spec.received, transfers, Legacy.Spec.received] at hf ⊢
            simpa [Legacy.Spec.returned] using hf
    · cases hs
  | runCancelled =>
    simp only [Client.step] at hs
    split at hs
    · cases hs
    · rename_i t hc
      split at hs
      · cases hs
      · rename_i q o1 hq
        cases hs
        have hr : c.queue.recvs.map (·.1) = [t] := by
          rw [h.tasks]
          unfold receivers
          rw [hc]
        obtain ⟨hok, hflow⟩ := h.ok.step hq
        have hti := h.tidy.step h.ok (fun t ht => by cases ht) hq
        obtain ⟨h1, h2⟩ := cancel_single hr hq
        have hf := hflow.flow
        simp only [Queue.loses, Legacy.Spec.received, List.append_nil, h2, List.nil_append] at hf
        refine ⟨⟨hok, hti, ?_, by simp, h.fine, ?_⟩, [], [], ⟨?_, ?_, by simp, by simp, by simp, by simp, by simp⟩⟩
        · show q.recvs.map (·.1) = _
          rw [h1]
          unfold receivers
          cases hp : c.phase with
          | waiting inc out =>
            have := h.single (by simp [hc]) _ _ hp
            subst this
            simp
          | _ => simp
        · intro out hp
          exact absurd (h.single (by simp [hc]) _ _ hp) (by simp)
        · have hp : pending { c with queue := q, cancelled := none } = c.pending := rfl
          simp only [shown, List.nil_append, hp, Spec.received, transfers, Legacy.Spec.received, List.append_assoc,
            List.append_nil] at hf ⊢
          rw [hf]
        · simp [sent, typed, taken]
  | startOutgoing =>
    simp only [Client.step] at hs
    have key : ∀ inc (out out' : Outgoing) inputs, c.phase = .waiting inc out →
        Good { c with phase := .waiting inc out', inputs := inputs } ∧
        pending { c with phase := .waiting inc out', inputs := inputs } = c.pending := by
      intro inc out out' inputs hp
      refine ⟨⟨h.ok, h.tidy, ?_, ?_, ?_, ?_⟩, ?_⟩
      · show c.queue.recvs.map (·.1) = _
        rw [h.tasks]
        unfold receivers
        rw [hp]
        cases c.cancelled <;> cases inc <;> rfl
      · intro hc inc' out1 he
        cases he
        exact h.single hc _ _ hp
      · intro out1 he
        cases he
        exact h.fine _ hp
      · intro out1 he
        cases he
        exact h.closed _ hp
      · unfold pending
        rw [hp]
        cases inc <;> rfl
    split at hs
    · rename_i inc hp hi
      cases hs
      have := key inc .new .waiting c.inputs hp
      refine ⟨this.1, [], [], ⟨?_, ?_, by simp, by simp, by simp, by simp, by simp⟩⟩
      · rw [this.2]
        simp [shown, Spec.received, transfers, Legacy.Spec.received]
      · simp [sent, typed, taken, hp]
    · rename_i inc line inputs hp hi
      cases hs
      have := key inc .new (.got line) inputs hp
      refine ⟨this.1, [], [], ⟨?_, ?_, by simp, by simp, by simp, by simp, by simp⟩⟩
      · rw [this.2]
        simp [shown, Spec.received, transfers, Legacy.Spec.received]
      · simp [sent, typed, taken, hp, hi]
    · cases hs
  | wakeOutgoing =>
    simp only [Client.step] at hs
    split at hs
    · rename_i inc line inputs hp hi
      cases hs
      refine ⟨⟨h.ok, h.tidy, ?_, ?_, ?_, ?_⟩, [], [], ⟨?_, ?_, by simp, by simp, by simp, by simp, by simp⟩⟩
      · show c.queue.recvs.map (·.1) = _
        rw [h.tasks]
        unfold receivers
        rw [hp]
        cases c.cancelled <;> cases inc <;> rfl
      · intro hc inc' out1 he
        cases he
        exact h.single hc _ _ hp
      · intro out1 he
        cases he
        exact h.fine _ hp
      · intro out1 he
        cases he
        exact h.closed _ hp
      · have : pending { c with phase := .waiting inc (.got line), inputs := inputs } = c.pending := by
          unfold pending
          rw [hp]
          cases inc <;> rfl
        rw [this]
        simp [shown, Spec.received, transfers, Legacy.Spec.received]
      · simp [sent, typed, taken, hp, hi]
    · cases hs
  | type line =>
    cases hs
    refine ⟨⟨h.ok, h.tidy, h.tasks, h.single, h.fine, h.closed⟩, [], [], ⟨?_, ?_, by simp, by simp, by simp, by simp, by simp⟩⟩
    · have : pending { c with inputs := c.inputs ++ [line] } = c.pending := rfl
      rw [this]
      simp [shown, Spec.received, transfers, Legacy.Spec.received]
    · have : taken { c with inputs := c.inputs ++ [line] } = c.taken := rfl
      rw [this]
      simp [sent, typed]
  | interrupt =>
    cases hs
    refine ⟨⟨h.ok, h.tidy, h.tasks, h.single, h.fine, h.closed⟩, [], [], ⟨?_, ?_, by simp, by simp, by simp, by simp, by simp⟩⟩
    · have : pending { c with stop := true } = c.pending := rfl
      rw [this]
      simp [shown, Spec.received, transfers, Legacy.Spec.received]
    · have : taken { c with stop := true } = c.taken := rfl
      rw [this]
      simp [sent, typed]
  | resume =>
    simp only [Client.step] at hs
    split at hs
    · rename_i inc out hp
      split at hs
      · rename_i hcond
        have hcn : inc ≠ .new → c.cancelled = none := by
          intro hne
          cases hc : c.cancelled with
          | none => rfl
          | some t => exact absurd (h.single (by simp [hc]) _ _ hp) hne
        replace hs := Option.some.inj hs
        have htaken : c.taken = out.lines := by
          unfold taken; rw [hp]; cases out <;> rfl
        have hrest : ∀ {c1 c2 : Client M} {o1 : List (Obs M)}, c1.Good → c1.receivers = c1.cancelled.toList →
            c1.queue = c.queue → c1.inputs = c.inputs → c1.proceed out = (c2, o1) →
            c2.Good ∧ c2.queue = c.queue ∧ c2.pending = [] ∧ shown o1 = [] ∧
            sent o1 ++ [] ++ c2.taken ++ c2.inputs = c.taken ++ c.inputs ++ typed [(Act.resume : Act M)] := by
          intro c1 c2 o1 g1 g2 g3 g4 g5
          obtain ⟨k1, k2, k3, k4, k5, k6, k7⟩ := g1.proceed g2 g5
          refine ⟨k1, k2.trans g3, k4, k6, ?_⟩
          rw [k7, k5, k3, g4, htaken]
          simp [typed]
        cases inc with
        | new => simp [Incoming.isNew] at hcond
        | running =>
          simp only [Client.process] at hs
          have hc := hcn (by simp)
          have hcase : ∃ c1 : Client M, c1 = { c with cancelled := some c.task, phase := .closing } ∧
              c1.Good ∧ c1.receivers = c1.cancelled.toList := by
            refine ⟨_, rfl, ⟨h.ok, h.tidy, ?_, by simp, by simp, by simp⟩, rfl⟩
            show c.queue.recvs.map (·.1) = _
            rw [h.tasks]
            unfold receivers
            rw [hc, hp]
          obtain ⟨c1, hc1, g1, g2⟩ := hcase
          have hpr : c1.proceed out = (c', o) := by
            rw [← hs, hc1]
            unfold Client.proceed
            cases out <;> cases hst : c.stop <;> simp [Client.iterate]
          obtain ⟨k1, k2, k3, k4, k5⟩ := hrest g1 g2 (by rw [hc1]) (by rw [hc1]) hpr
          refine ⟨k1, [], [], ⟨?_, k5, by simp, by simp, by simp, by simp, by simp⟩⟩
          rw [k2, k3, k4]
          simp [pending, hp, Spec.received, transfers, Legacy.Spec.received]
        | returned m =>
          simp only [Client.process] at hs
          have hc := hcn (by simp)
          cases hpr : c.proceed out with
          | mk c1 o1 =>
            rw [hpr] at hs
            simp only [Prod.mk.injEq] at hs
            obtain ⟨rfl, rfl⟩ := hs
            obtain ⟨k1, k2, k3, k4, k5⟩ := hrest h (by unfold receivers; rw [hc, hp]; rfl) rfl rfl hpr
            refine ⟨k1, [], [], ⟨?_, ?_, by simp, by simp, by simp, by simp, by simp⟩⟩
            · rw [k2, k3]
              simp [pending, hp, shown, k4, Spec.received, transfers, Legacy.Spec.received]
            · exact k5
        | closed =>
          simp only [Client.process] at hs
          have hc := hcn (by simp)
          cases hs
          refine ⟨h.halt (by unfold receivers; rw [hc, hp]; rfl) (by simp), [], c.taken,
            ⟨?_, ?_, by simp, by simp, by simp, ?_, fun _ => ⟨rfl, _, _, hp⟩⟩⟩
          · simp [pending, hp, shown, Spec.received, transfers, Legacy.Spec.received]
          · simp [sent, typed, taken]
          · rw [htaken]; cases out <;> simp [Outgoing.lines]
        | failed => exact absurd hp (h.fine out)
      · cases hs
    · cases hs
  | sendEnds ok =>
    simp only [Client.step] at hs
    split at hs
    · rename_i last hp
      have hr : c.receivers = c.cancelled.toList := by
        unfold receivers; rw [hp]; cases c.cancelled <;> rfl
      split at hs
      · cases hs
        refine ⟨h.iterate hr, [], [], ⟨?_, ?_, by simp, by simp, by simp, by simp, by simp⟩⟩
        · simp [shown, hp, Client.iterate, pending, Spec.received, transfers, Legacy.Spec.received]
        · simp [sent, hp, Client.iterate, taken, typed]
      · cases hs
        refine ⟨h.halt hr (by simp), [], [], ⟨?_, ?_, by simp, by simp, by simp, by simp, by simp⟩⟩
        · simp [shown, hp, pending, Spec.received, transfers, Legacy.Spec.received]
        · simp [sent, hp, taken, typed]
    · cases hs
  | closeEnds =>
    simp only [Client.step] at hs
    split at hs
    · rename_i hp
      have hr : c.receivers = c.cancelled.toList := by
        unfold receivers; rw [hp]; cases c.cancelled <;> rfl
      cases hs
      refine ⟨h.halt hr (by simp), [], [], ⟨?_, ?_, by simp, by simp, by simp, by simp, by simp⟩⟩
      · simp [shown, hp, pending, Spec.received, transfers, Legacy.Spec.received]
      · simp [sent, hp, taken, typed]
    · cases hs

theorem exec_cons {c c' : Client M} {a : Act M} {as : List (Act M)} {os : List (Obs M)}
    (h : c.exec (a :: as) = some (c', os)) :
    ∃ c1 o os', c.step a = some (c1, o) ∧ c1.exec as = some (c', os') ∧ os = o ++ os' := by
  simp only [Client.exec] at h
  split at h
  · cases h
  · rename_i c1 o h1
    split at h
    · cases h
    · rename_i c2 os' h2
      cases h
      exact ⟨c1, o, os', h1, h2, rfl⟩

/-- `run_client` left its loop. -/
def left (c : Client M) : Prop := c.phase = .closing ∨ c.phase = .exited

theorem left_step {c c' : Client M} {a : Act M} {o : List (Obs M)} (h : c.left) (hs : c.step a = some (c', o)) :
    c'.left ∧ shown o = [] ∧ sent o = [] ∧ c'.taken = [] ∧ c'.pending = [] := by
  have ht : ∀ p : Client M, p.left → p.taken = [] ∧ p.pending = [] := by
    rintro p (h | h) <;> simp [taken, pending, h]
  have : c'.left ∧ shown o = [] ∧ sent o = [] := by
    unfold left at h ⊢
    cases a with
    | transfer a =>
      simp only [Client.step] at hs
      split at hs
      · split at hs
        · cases hs
        · cases hs; exact ⟨h, rfl, rfl⟩
      · cases hs
    | runCancelled =>
      simp only [Client.step] at hs
      split at hs
      · cases hs
      · split at hs
        · cases hs
        · cases hs; exact ⟨h, rfl, rfl⟩
    | type line => cases hs; exact ⟨h, rfl, rfl⟩
    | interrupt => cases hs; exact ⟨h, rfl, rfl⟩
    | closeEnds =>
      simp only [Client.step] at hs
      split at hs
      · cases hs; exact ⟨.inr rfl, rfl, rfl⟩
      · cases hs
    | _ => rcases h with h | h <;> simp [Client.step, h] at hs
  exact ⟨this.1, this.2.1, this.2.2, ht _ this.1⟩

theorem step_exited {c c' : Client M} {a : Act M} {o : List (Obs M)} (hs : c.step a = some (c', o))
    (he : c.queue.transfer = .exited) :
    c'.queue.transfer = .exited ∧ Spec.received [a] = [] ∧ a ≠ .transfer .cancelTransfer := by
  have hq : (c'.queue = c.queue ∨ ∃ qa o1, c.queue.step qa = some (c'.queue, o1)) ∧
      (∀ qa, a = .transfer qa → ∃ o1, c.queue.step qa = some (c'.queue, o1)) := by
    cases a with
    | transfer qa =>
      simp only [Client.step] at hs
      split at hs
      · split at hs
        · cases hs
        · rename_i h1
          cases hs
          exact ⟨.inr ⟨_, _, h1⟩, fun _ he => by cases he; exact ⟨_, h1⟩⟩
      · cases hs
    | startIncoming =>
      refine ⟨?_, fun _ he => by cases he⟩
      simp only [Client.step] at hs
      split at hs
      · split at hs
        · cases hs
        · rename_i h1; cases hs; exact .inr ⟨_, _, h1⟩
      · cases hs
    | wakeIncoming =>
      refine ⟨?_, fun _ he => by cases he⟩
      simp only [Client.step] at hs
      split at hs
      · split at hs
        · cases hs
        · rename_i h1; cases hs; exact .inr ⟨_, _, h1⟩
      · cases hs
    | runCancelled =>
      refine ⟨?_, fun _ he => by cases he⟩
      simp only [Client.step] at hs
      split at hs
      · cases hs
      · split at hs
        · cases hs
        · rename_i h1; cases hs; exact .inr ⟨_, _, h1⟩
    | resume =>
      refine ⟨.inl ?_, fun _ he => by cases he⟩
      have hpr : ∀ (c : Client M) out, (c.proceed out).1.queue = c.queue := by
        intro c out
        unfold Client.proceed
        split
        · rfl
        · split <;> rfl
      simp only [Client.step] at hs
      split at hs
      · split at hs
        · replace hs := congrArg (fun x => x.1.queue) (Option.some.inj hs)
          rw [← hs]
          unfold Client.process
          split
          · exact hpr _ _
          · exact hpr _ _
          · exact hpr _ _
          · rfl
          · rfl
        · cases hs
      · cases hs
    | _ =>
      refine ⟨.inl ?_, fun _ he => by cases he⟩
      simp only [Client.step] at hs
      grind [Client.iterate, Client.leave]
  have hx : c'.queue.transfer = .exited := by
    rcases hq.1 with h | ⟨qa, o1, h⟩
    · rw [h, he]
    · exact (Queue.step_exited h he).1
  refine ⟨hx, ?_, ?_⟩
  · cases a with
    | transfer qa =>
      obtain ⟨o1, h1⟩ := hq.2 qa rfl
      exact (Queue.step_exited h1 he).2.1
    | _ => rfl
  · rintro rfl
    obtain ⟨o1, h1⟩ := hq.2 _ rfl
    simp [Queue.step, he] at h1

theorem exec_append {c c' : Client M} {as bs : List (Act M)} {os : List (Obs M)}
    (h : c.exec (as ++ bs) = some (c', os)) :
    ∃ c1 o1 o2, c.exec as = some (c1, o1) ∧ c1.exec bs = some (c', o2) ∧ os = o1 ++ o2 := by
  induction as generalizing c os with
  | nil => exact ⟨c, [], os, rfl, h, rfl⟩
  | cons a as ih =>
    obtain ⟨c1, o, os', h1, h2, rfl⟩ := exec_cons h
    obtain ⟨c2, o1, o2, h3, h4, rfl⟩ := ih h2
    exact ⟨c2, o ++ o1, o2, by simp [Client.exec, h1, h3], h4, by simp⟩

/-- Messages and lines are kept, in order, by an execution. -/
structure Kept (c : Client M) (as : List (Act M)) (os : List (Obs M)) (lost : List M) (dropped : List PyStr) : Prop where
  messages : shown os ++ c.pending ++ c.queue.messages ++ c.queue.transfer.inHand ++ lost = Spec.received as
  lines : sent os ++ dropped ++ c.taken ++ c.inputs = typed as
  lostOne : lost.length ≤ 1
  lostExited : lost ≠ [] → c.queue.transfer = .exited
  lostCancel : .transfer .cancelTransfer ∉ as → lost = []
  droppedOne : dropped.length ≤ 1
  droppedLeft : dropped ≠ [] → c.left

theorem Spec.received_append (a b : List (Act M)) : Spec.received (a ++ b) = Spec.received a ++ Spec.received b := by
  unfold Spec.received
  rw [transfers_append, Legacy.Spec.received_append]

theorem Spec.typed_append (a b : List (Act M)) : typed (a ++ b) = typed a ++ typed b := by
  induction a with
  | nil => rfl
  | cons x xs ih => rw [List.cons_append, typed_cons, ih, typed_cons x xs, List.append_assoc]

theorem Good.exec {n : Option Nat} (k : Nat) : ∀ {as : List (Act M)} {c' : Client M} {os : List (Obs M)},
    as.length = k → (Client.init n).exec as = some (c', os) → c'.Good ∧ ∃ lost dropped, Kept c' as os lost dropped := by
  induction k with
  | zero =>
    intro as c' os hk hs
    rw [List.length_eq_zero_iff] at hk
    subst hk
    cases hs
    refine ⟨.init n, [], [], ⟨rfl, rfl, by simp, by simp, by simp, by simp, by simp⟩⟩
  | succ k ih =>
    intro as c' os hk hs
    rcases List.eq_nil_or_concat as with rfl | ⟨as, a, rfl⟩
    · simp at hk
    rw [List.concat_eq_append] at hs hk ⊢
    obtain ⟨c1, o1, o2, h1, h2, rfl⟩ := exec_append hs
    obtain ⟨hg, lost, dropped, hK⟩ := ih (by simpa using hk) h1
    obtain ⟨c2, o3, o4, h3, h4, rfl⟩ := exec_cons h2
    cases h4
    rw [List.append_nil]
    obtain ⟨hg', lost', dropped', hS⟩ := hg.step h3
    have hm : shown (o1 ++ o3) ++ c'.pending ++ c'.queue.messages ++ c'.queue.transfer.inHand ++ (lost ++ lost') =
        Spec.received (as ++ [a]) ∧ (lost ++ lost').length ≤ 1 ∧ (lost ++ lost' ≠ [] → c'.queue.transfer = .exited) := by
      rw [shown_append, Spec.received_append, ← hK.messages]
      by_cases hl : lost = []
      · subst hl
        have := hS.messages
        refine ⟨?_, by simpa using hS.lostOne, by simpa using hS.lostExited⟩
        simp only [List.append_assoc, List.nil_append, List.append_nil] at this ⊢
        rw [this]
      · have hx := hK.lostExited hl
        obtain ⟨hx', hr, hnc⟩ := step_exited h3 hx
        have hl' := hS.lostCancel hnc
        subst hl'
        have := hS.messages
        rw [hr, hx, hx'] at this
        refine ⟨?_, by simpa using hK.lostOne, fun _ => hx'⟩
        rw [hr, hx, hx']
        simp only [Transfer.inHand, List.append_assoc, List.append_nil] at this ⊢
        rw [← List.append_assoc (shown o3), ← List.append_assoc (shown o3 ++ _), List.append_assoc (shown o3), this]
        simp
    have hli : sent (o1 ++ o3) ++ (dropped ++ dropped') ++ c'.taken ++ c'.inputs = typed (as ++ [a]) ∧
        (dropped ++ dropped').length ≤ 1 ∧ (dropped ++ dropped' ≠ [] → c'.left) := by
      rw [sent_append, Spec.typed_append, ← hK.lines]
      have := hS.lines
      by_cases hd : dropped = []
      · subst hd
        refine ⟨?_, by simpa using hS.droppedOne, fun h => .inl (hS.droppedClosing (by simpa using h)).1⟩
        simp only [List.append_assoc, List.nil_append, List.append_nil] at this ⊢
        rw [this]
      · obtain ⟨k1, -, k3, k4, -⟩ := left_step (hK.droppedLeft hd) h3
        have hd' : dropped' = [] := by
          cases hd' : dropped' with
          | nil => rfl
          | cons x y =>
            obtain ⟨-, inc, out, h5⟩ := hS.droppedClosing (by simp [hd'])
            rcases hK.droppedLeft hd with h | h <;> rw [h] at h5 <;> cases h5
        subst hd'
        rw [k3, k4] at this ⊢
        have ht : c1.taken = [] := by rcases hK.droppedLeft hd with h | h <;> simp [taken, h]
        rw [ht] at this ⊢
        refine ⟨?_, by simpa using hK.droppedOne, fun _ => k1⟩
        simp only [List.append_assoc, List.nil_append, List.append_nil] at this ⊢
        rw [this]
    exact ⟨hg', lost ++ lost', dropped ++ dropped', hm.1, hli.1, hm.2.1, hm.2.2,
      fun hn => by
        rw [List.mem_append, not_or] at hn
        rw [hK.lostCancel hn.1, hS.lostCancel (fun h => hn.2 (by simp [h]))]; rfl,
      hli.2.1, hli.2.2⟩

/-! ## Properties -/

/-- **C86, partial**: the messages displayed are the first messages received, in order.  All of them are displayed, except one that
`recv` just returned and those that are in the queue; `lost` is the message that `transfer_data` holds when it's cancelled.  What is
missing: the messages in the queue when `run_client` ends (`C86_shown_false`). -/
theorem C86_shown_partial {n : Option Nat} {as : List (Act M)} {c : Client M} {os : List (Obs M)}
    (h : (Client.init n).exec as = some (c, os)) :
    ∃ lost, shown os ++ c.pending ++ c.queue.messages ++ c.queue.transfer.inHand ++ lost = Spec.received as ∧
      c.pending.length ≤ 1 ∧ lost.length ≤ 1 ∧ (.transfer .cancelTransfer ∉ as → lost = []) := by
  obtain ⟨-, lost, dropped, hk⟩ := Good.exec _ rfl h
  refine ⟨lost, hk.messages, ?_, hk.lostOne, hk.lostCancel⟩
  unfold pending
  split <;> simp

/-- **C86, partial**: the lines that are sent are the first lines typed, in order.  All of them are sent, except one that
were just taken from `inputs` and those that are in `inputs`.  What is missing: the lines in `inputs` when `run_client`
ends (`C86_sent_false`). -/
theorem C86_sent_partial {n : Option Nat} {as : List (Act M)} {c : Client M} {os : List (Obs M)}
    (h : (Client.init n).exec as = some (c, os)) :
    ∃ taken, sent os ++ taken ++ c.inputs = typed as ∧ taken.length ≤ 1 := by
  obtain ⟨-, lost, dropped, hk⟩ := Good.exec _ rfl h
  refine ⟨dropped ++ c.taken, by simpa using hk.lines, ?_⟩
  by_cases hd : dropped = []
  · subst hd
    unfold taken
    split <;> simp
  · have : c.taken = [] := by rcases hk.droppedLeft hd with h | h <;> simp [taken, h]
    rw [this, List.append_nil]
    exact hk.droppedOne

/-- **C86**: `recv` is never called while another call is waiting: it never raises `RuntimeError`. -/
theorem C86_no_conflict {n : Option Nat} {as : List (Act M)} {c : Client M} {os : List (Obs M)}
    (h : (Client.init n).exec as = some (c, os)) (out : Outgoing) : c.phase ≠ .waiting .failed out :=
  (Good.exec _ rfl h).1.fine out

/-- Why `run_client` leaves its loop. -/
structure Reason (c : Client M) : Prop where
  why : c.left → c.stop = true ∨ c.queue.messages = [] ∧ c.queue.transfer = .exited
  last : c.phase = .sending true → c.stop = true

theorem Reason.step {c c' : Client M} {a : Act M} {o : List (Obs M)} (h : c.Reason) (hg : c.Good)
    (hs : c.step a = some (c', o)) (h1 : a ≠ .connect false) (h2 : a ≠ .sendEnds false) : c'.Reason := by
  obtain ⟨hg', lost, dropped, hk⟩ := hg.step hs
  by_cases hl : c.left
  · obtain ⟨k1, k2, -, -, k5⟩ := left_step hl hs
    refine ⟨fun _ => ?_, fun hp => ?_⟩
    · rcases h.why hl with hw | ⟨hw1, hw2⟩
      · left
        cases a <;> rcases hl with hl | hl <;>
          simp only [Client.step, hl, reduceCtorEq] at hs <;> grind [Client.leave]
      · right
        obtain ⟨e1, e2, -⟩ := step_exited hs hw2
        refine ⟨?_, e1⟩
        have := congrArg List.length hk.messages
        have hp : c.pending = [] := by rcases hl with h | h <;> simp [pending, h]
        rw [k2, k5, hp, hw1, hw2, e1, e2] at this
        simp only [Transfer.inHand, List.append_nil, List.nil_append, List.length_append, List.length_nil] at this
        exact List.length_eq_zero_iff.1 (by omega)
    · rcases k1 with k | k <;> rw [k] at hp <;> cases hp
  · have keep : ∀ {q i t k}, Reason (⟨q, i, c.stop, c.phase, t, k⟩ : Client M) := by
      intro q i t k
      exact ⟨fun h => absurd h hl, h.last⟩
    have wait : ∀ {q i s t k inc out}, Reason (⟨q, i, s, .waiting inc out, t, k⟩ : Client M) := by
      intro q i s t k inc out
      exact ⟨(fun h => by rcases h with h | h <;> cases h), (fun h => by cases h)⟩
    cases a with
    | connect ok =>
      cases ok with
      | false => exact absurd rfl h1
      | true =>
        simp only [Client.step] at hs
        split at hs
        · cases hs; exact wait
        · cases hs
    | transfer a =>
      simp only [Client.step] at hs
      split at hs
      · split at hs
        · cases hs
        · cases hs; exact keep
      · cases hs
    | startIncoming =>
      simp only [Client.step] at hs
      split at hs
      · split at hs
        · cases hs
        · cases hs; exact wait
      · cases hs
    | wakeIncoming =>
      simp only [Client.step] at hs
      split at hs
      · split at hs
        · cases hs
        · cases hs; exact wait
      · cases hs
    | runCancelled =>
      simp only [Client.step] at hs
      split at hs
      · cases hs
      · split at hs
        · cases hs
        · cases hs; exact keep
    | startOutgoing =>
      simp only [Client.step] at hs
      split at hs
      · cases hs; exact wait
      · cases hs; exact wait
      · cases hs
    | wakeOutgoing =>
      simp only [Client.step] at hs
      split at hs
      · cases hs; exact wait
      · cases hs
    | type line => cases hs; exact keep
    | interrupt => cases hs; exact ⟨fun _ => .inl rfl, fun _ => rfl⟩
    | resume =>
      simp only [Client.step] at hs
      split at hs
      · rename_i inc out hp
        split at hs
        · have hpr : ∀ (c1 : Client M) (out : Outgoing), (c1.proceed out).1.Reason := by
            intro c1 out
            unfold Client.proceed
            split
            · exact ⟨(fun h => by rcases h with h | h <;> cases h), (fun h => by injection h)⟩
            · split
              · rename_i hst
                exact ⟨fun _ => .inl hst, fun h => by cases h⟩
              · exact wait
          replace hs := congrArg (fun x => x.1) (Option.some.inj hs)
          simp only at hs
          rw [← hs]
          unfold Client.process
          split
          · exact hpr _ _
          · exact hpr _ _
          · exact hpr _ _
          · exact ⟨fun _ => .inr (hg.closed _ hp), fun h => by cases h⟩
          · exact absurd hp (hg.fine _)
        · cases hs
      · cases hs
    | sendEnds ok =>
      simp only [Client.step] at hs
      split at hs
      · rename_i last hp
        split at hs
        · cases hs; exact wait
        · rename_i hc
          cases hs
          refine ⟨fun _ => .inl ?_, fun h => by cases h⟩
          cases ok with
          | false => exact absurd rfl h2
          | true =>
            cases last with
            | false => exact absurd ⟨rfl, rfl⟩ hc
            | true => exact h.last hp
      · cases hs
    | closeEnds =>
      simp only [Client.step] at hs
      split at hs
      · rename_i hp
        exact absurd (.inl hp) hl
      · cases hs

theorem Reason.exec {c c' : Client M} {as : List (Act M)} {os : List (Obs M)} (h : c.Reason) (hg : c.Good)
    (hs : c.exec as = some (c', os)) (h1 : .connect false ∉ as) (h2 : .sendEnds false ∉ as) : c'.Reason := by
  induction as generalizing c os with
  | nil => cases hs; exact h
  | cons a as ih =>
    obtain ⟨c1, o, os', e1, e2, rfl⟩ := exec_cons hs
    rw [List.mem_cons, not_or] at h1 h2
    exact ih (h.step hg e1 (Ne.symm h1.1) (Ne.symm h2.1)) (hg.step e1).1 e2 h1.2 h2.2

/-- **C86**: when `run_client` ends because the connection is closed — the user doesn't interrupt it, and neither
`connect` nor `send` raises an exception — all messages received were displayed. -/
theorem C86_all_shown {n : Option Nat} {as : List (Act M)} {c : Client M} {os : List (Obs M)}
    (h : (Client.init n).exec as = some (c, os)) (he : c.phase = .exited) (hst : c.stop = false)
    (h1 : .connect false ∉ as) (h2 : .sendEnds false ∉ as) (h3 : .transfer .cancelTransfer ∉ as) :
    shown os = Spec.received as := by
  obtain ⟨-, lost, dropped, hk⟩ := Good.exec _ rfl h
  have hr : c.Reason := Reason.exec ⟨(fun h => by rcases h with h | h <;> cases h), (fun h => by cases h)⟩ (.init n) h h1 h2
  have hm := hk.messages
  rcases hr.why (.inr he) with hs | ⟨hq, hx⟩
  · rw [hst] at hs; cases hs
  · have hp : c.pending = [] := by simp [pending, he]
    rw [hq, hx, hp, hk.lostCancel h3] at hm
    simpa [Transfer.inHand] using hm

/-- How many more iterations of the loop are possible, once `stop` is done. -/
def budget (c : Client M) : Nat :=
  match c.phase with
  | .connecting | .waiting .. | .sending false => 1
  | _ => 0

theorem budget_step {c c' : Client M} {a : Act M} {o : List (Obs M)} (hst : c.stop = true)
    (hs : c.step a = some (c', o)) :
    c'.stop = true ∧ (shown o).length + c'.budget ≤ c.budget ∧ (sent o).length + c'.budget ≤ c.budget := by
  cases a with
  | resume =>
    simp only [Client.step] at hs
    split at hs
    · rename_i inc out hp
      split at hs
      · have hb : c.budget = 1 := by simp [budget, hp]
        rw [hb]
        have hpr : ∀ (c1 : Client M) (out : Outgoing), c1.stop = true → (c1.proceed out).1.stop = true ∧
            (c1.proceed out).1.budget = 0 ∧ shown (c1.proceed out).2 = [] ∧ (sent (c1.proceed out).2).length ≤ 1 := by
          intro c1 out h1
          unfold Client.proceed
          split
          · simp [h1, budget, shown, sent]
          · simp [h1, budget, shown, sent]
        replace hs := Option.some.inj hs
        cases inc with
        | returned m =>
          have := hpr c out hst
          simp only [Client.process] at hs
          cases hs
          simp only [shown, sent]
          simp only [List.length_cons]
          refine ⟨this.1, ?_, ?_⟩
          · rw [this.2.1, this.2.2.1]; simp
          · rw [this.2.1]; omega
        | closed => cases hs; simp [hst, budget, shown, sent]
        | failed => cases hs; simp [hst, budget, shown, sent]
        | new =>
          have := hpr { c with cancelled := some c.task } out hst
          simp only [Client.process] at hs
          rw [hs] at this
          simp only at this
          refine ⟨this.1, ?_, ?_⟩
          · rw [this.2.1, this.2.2.1]; simp
          · rw [this.2.1]; omega
        | running =>
          have := hpr { c with cancelled := some c.task } out hst
          simp only [Client.process] at hs
          rw [hs] at this
          simp only at this
          refine ⟨this.1, ?_, ?_⟩
          · rw [this.2.1, this.2.2.1]; simp
          · rw [this.2.1]; omega
      · cases hs
    · cases hs
  | sendEnds ok =>
    simp only [Client.step] at hs
    split at hs
    · rename_i last hp
      split at hs
      · rename_i hc
        cases hs
        simp [Client.iterate, hst, budget, hp, hc.2, shown, sent]
      · cases hs
        simp [hst, budget, shown, sent]
    · cases hs
  | _ =>
    simp only [Client.step] at hs
    grind [Client.iterate, Client.leave, budget, shown, sent]

/-- **C86**: after the user interrupts the client, it displays at most one message and sends at most one line. -/
theorem C86_interrupt {c c' : Client M} {as : List (Act M)} {os : List (Obs M)} (hst : c.stop = true)
    (h : c.exec as = some (c', os)) : (shown os).length ≤ 1 ∧ (sent os).length ≤ 1 := by
  have key : ∀ {as : List (Act M)} {c c' : Client M} {os : List (Obs M)}, c.stop = true → c.exec as = some (c', os) →
      (shown os).length ≤ c.budget ∧ (sent os).length ≤ c.budget := by
    intro as
    induction as with
    | nil => intro c c' os _ h; cases h; simp [shown, sent]
    | cons a as ih =>
      intro c c' os hst h
      obtain ⟨c1, o, os', e1, e2, rfl⟩ := exec_cons h
      obtain ⟨k1, k2, k3⟩ := budget_step hst e1
      have := ih k1 e2
      rw [shown_append, sent_append, List.length_append, List.length_append]
      omega
  have hb : c.budget ≤ 1 := by unfold budget; split <;> simp
  have := key hst h
  omega

/-- Whether another call to `recv` is due. -/
def due (c : Client M) : Nat :=
  match c.phase with
  | .connecting | .waiting .new _ | .sending _ => 1
  | _ => 0

/-- The calls to `recv` (__main__.py 108) in an execution. -/
def Spec.calls : List (Act M) → Nat
  | [] => 0
  | .startIncoming :: as => Spec.calls as + 1
  | _ :: as => Spec.calls as

theorem outcome_ne (o : List (Legacy.Obs M)) : outcome o ≠ .new := by
  unfold outcome
  split <;> simp

theorem due_step {c c' : Client M} {a : Act M} {o : List (Obs M)} (hs : c.step a = some (c', o)) :
    Spec.calls [a] + c'.due ≤ c.due + (shown o).length + (sent o).length := by
  cases a with
  | resume =>
    simp only [Client.step] at hs
    split at hs
    · rename_i inc out hp
      split at hs
      · rename_i hc
        replace hs := Option.some.inj hs
        cases inc with
        | returned m =>
          simp only [Client.process, Client.proceed, Client.iterate] at hs
          cases out <;> grind [due, shown, sent, Spec.calls]
        | closed => cases hs; simp [due, Spec.calls]
        | failed => cases hs; simp [due, Spec.calls]
        | new => simp [Incoming.isNew] at hc
        | running =>
          simp only [Client.process, Client.proceed, Client.iterate] at hs
          cases out <;> grind [due, shown, sent, Spec.calls, Incoming.isDone]
      · cases hs
    · cases hs
  | startIncoming =>
    simp only [Client.step] at hs
    split at hs
    · rename_i out hp hc
      split at hs
      · cases hs
      · rename_i q o' _
        cases hs
        have := outcome_ne o'
        have h1 : c.due = 1 := by simp [due, hp]
        have h2 : Client.due { c with queue := q, phase := .waiting (outcome o') out } = 0 := by
          unfold due
          simp only
          split <;> simp_all
        simp only [Spec.calls, h1]
        omega
    · cases hs
  | wakeIncoming =>
    simp only [Client.step] at hs
    split at hs
    · rename_i out hp
      split at hs
      · cases hs
      · rename_i q o' _
        cases hs
        have := outcome_ne o'
        have h2 : Client.due { c with queue := q, phase := .waiting (outcome o') out } = 0 := by
          unfold due
          simp only
          split <;> simp_all
        rw [h2]
        simp [Spec.calls]
    · cases hs
  | _ =>
    simp only [Client.step] at hs
    grind [Client.iterate, Client.leave, due, shown, sent, Spec.calls]

/-- **C86**: `run_client` doesn't loop while there's nothing to do: it calls `recv` at most once, and once more for each message
that it displays and each line that it sends. -/
theorem C86_calls {n : Option Nat} {as : List (Act M)} {c : Client M} {os : List (Obs M)}
    (h : (Client.init n).exec as = some (c, os)) :
    Spec.calls as ≤ 1 + (shown os).length + (sent os).length := by
  have key : ∀ {as : List (Act M)} {c c' : Client M} {os : List (Obs M)}, c.exec as = some (c', os) →
      Spec.calls as + c'.due ≤ c.due + (shown os).length + (sent os).length := by
    intro as
    induction as with
    | nil => intro c c' os h; cases h; simp only [Spec.calls]; omega
    | cons a as ih =>
      intro c c' os h
      obtain ⟨c1, o, os', e1, e2, rfl⟩ := exec_cons h
      have h1 := due_step e1
      have h2 := ih e2
      have h3 : Spec.calls (a :: as) = Spec.calls [a] + Spec.calls as := by
        cases a <;> simp [Spec.calls, Nat.add_comm]
      rw [shown_append, sent_append, List.length_append, List.length_append]
      omega
  have := key h
  have hd : (Client.init n : Client M).due = 1 := rfl
  omega

/-- What tasks of the client do, without the user or the connection. -/
def Spec.own : List (Act M) :=
  [.startIncoming, .wakeIncoming, .runCancelled, .startOutgoing, .wakeOutgoing, .resume]

/-- **C86**: `run_client` doesn't wait in `asyncio.wait` while there's a message to display or a line to send, or after it was
interrupted, or after the connection was closed: a task can run. -/
theorem C86_progress {n : Option Nat} {as : List (Act M)} {c : Client M} {os : List (Obs M)}
    (h : (Client.init n).exec as = some (c, os)) {inc : Incoming M} {out : Outgoing} (hp : c.phase = .waiting inc out)
    (hw : c.queue.messages ≠ [] ∨ c.inputs ≠ [] ∨ c.stop = true ∨ c.queue.transfer = .exited) :
    ∃ a ∈ (Spec.own : List (Act M)), c.step a ≠ none := by
  have hg := (Good.exec _ rfl h).1
  cases hc : c.cancelled with
  | some t =>
    have hr : c.queue.recvs.map (·.1) = [t] := by rw [hg.tasks]; unfold receivers; rw [hc]
    obtain ⟨r, hr⟩ : ∃ r, c.queue.recvs = [(t, r)] := by
      match hq : c.queue.recvs, hr with
      | [(t', r)], hr => simp at hr; exact ⟨r, by rw [hr]⟩
    refine ⟨.runCancelled, by simp [Spec.own], ?_⟩
    have hf : c.queue.find t = some r := by simp [Queue.find, hr]
    cases r <;> simp [Client.step, hc, Queue.step, hf]
  | none =>
    cases inc with
    | new =>
      have hr : c.queue.recvs = [] := by
        have := hg.tasks
        unfold receivers at this
        rw [hc, hp] at this
        simpa using this
      refine ⟨.startIncoming, by simp [Spec.own], ?_⟩
      have hf : c.queue.find c.task = none := by simp [Queue.find, hr]
      simp only [Client.step, hp, hc, Queue.step, hf]
      by_cases hpw : c.queue.popWaiter = none <;> simp [hpw]
    | _ =>
      cases out with
      | new =>
        refine ⟨.startOutgoing, by simp [Spec.own], ?_⟩
        cases hi : c.inputs <;> simp [Client.step, hp, hi]
      | got line => exact ⟨.resume, by simp [Spec.own], by simp [Client.step, hp, Incoming.isNew]⟩
      | waiting =>
        first
        | (refine ⟨.resume, by simp [Spec.own], ?_⟩
           simp [Client.step, hp, Incoming.isNew, Incoming.isDone]; done)
        | skip
          by_cases hst : c.stop = true
          · exact ⟨.resume, by simp [Spec.own], by simp [Client.step, hp, Incoming.isNew, hst]⟩
          by_cases hi : c.inputs = []
          · refine ⟨.wakeIncoming, by simp [Spec.own], ?_⟩
            have hr : c.queue.recvs.map (·.1) = [c.task] := by rw [hg.tasks]; unfold receivers; rw [hc, hp]
            obtain ⟨r, hr⟩ : ∃ r, c.queue.recvs = [(c.task, r)] := by
              match hq : c.queue.recvs, hr with
              | [(t', r)], hr => simp at hr; exact ⟨r, by rw [hr]⟩
            have hf : c.queue.find c.task = some r := by simp [Queue.find, hr]
            cases r with
            | ensuring =>
              simp only [Client.step, hp, Queue.step, hf]
              by_cases hx : c.queue.transfer.isExited = true <;> simp [hx]
            | waiting f =>
              have hcond : f ∈ c.queue.done ∨ c.queue.transfer.isExited = true := by
                rcases hw with hw | hw | hw | hw
                · rcases hg.tidy.waiter c.task f (by simp [hr]) with h1 | h1
                  · exact absurd (hg.ok.popTask f h1).1 hw
                  · exact .inl h1
                · exact absurd hi hw
                · exact absurd hw hst
                · exact .inr (by rw [hw]; rfl)
              simp only [Client.step, hp, Queue.step, hf]
              rw [if_pos hcond]
              by_cases hd : f ∈ c.queue.done <;> simp [Queue.drop, hd]
          · refine ⟨.wakeOutgoing, by simp [Spec.own], ?_⟩
            cases hi' : c.inputs with
            | nil => exact absurd hi' hi
            | cons x y => simp [Client.step, hp, hi']

end Client

/-! ## Concrete cases -/

/-- The user types two lines, then presses Ctrl-D. -/
def hastyActs : List (Act Nat) :=
  [.connect true, .startIncoming, .startOutgoing, .type p!"a", .type p!"b", .interrupt, .wakeOutgoing, .resume,
    .runCancelled, .sendEnds true, .closeEnds]

/-- **C86 is false**: lines that were typed before the user pressed Ctrl-D aren't sent (for instance, if the standard input is
a file). -/
theorem C86_sent_false : ¬∀ (n : Option Nat) (as : List (Act Nat)) (c : Client Nat) (os : List (Obs Nat)),
    (Client.init n).exec as = some (c, os) → c.phase = .exited → .connect false ∉ as → .sendEnds false ∉ as →
    c.queue.transfer ≠ .exited → sent os = typed as := by
  intro h
  have := h (some 32) hastyActs _ _ rfl rfl (by simp [hastyActs]) (by simp [hastyActs]) (by decide +kernel)
  revert this
  decide +kernel

/-- The server sends two messages, then a close frame, while the user types a line. -/
def lateLine : List (Act Nat) :=
  [.connect true, .startIncoming, .startOutgoing, .type p!"a", .transfer (.message 1), .transfer (.message 2),
    .transfer .exit, .wakeIncoming, .wakeOutgoing, .resume, .sendEnds false, .closeEnds]

/-- **C86 is false**: messages that were received before the connection was closed aren't displayed, if the user types a
line at this time: `send` raises an exception. -/
theorem C86_shown_false : ¬∀ (n : Option Nat) (as : List (Act Nat)) (c : Client Nat) (os : List (Obs Nat)),
    (Client.init n).exec as = some (c, os) → c.phase = .exited → .connect false ∉ as → c.stop = false →
    shown os = Spec.received as := by
  intro h
  have := h (some 32) lateLine _ _ rfl rfl (by simp [lateLine]) rfl
  revert this
  decide +kernel

-- Messages and lines are interleaved; a call to `recv` is cancelled after it was notified; the server closes
-- the connection.
example : ((Client.init (some 32)).exec ([.connect true, .startIncoming, .startOutgoing, .type p!"a", .wakeOutgoing,
      .transfer (.message 1), .resume, .runCancelled, .sendEnds true, .startIncoming, .startOutgoing, .resume,
      .transfer (.message 2), .transfer .exit, .startIncoming, .startOutgoing, .type p!"b", .resume, .startOutgoing,
      .startIncoming, .resume, .runCancelled, .sendEnds true, .startIncoming, .startOutgoing, .wakeIncoming, .wakeIncoming,
      .resume, .closeEnds] : List (Act Nat))).map (fun r => (r.1.phase, r.2)) =
    some (.exited, [.sent p!"a", .shown 1, .shown 2, .sent p!"b", .exits true]) := by decide +kernel

-- The user presses Ctrl-D while a message and a line are waiting: the hypotheses of `C86_interrupt` and `C86_progress`.
example : ∃ c c' os os', (Client.init (some 32)).exec ([.connect true, .startIncoming, .startOutgoing, .type p!"a",
      .type p!"b", .transfer (.message 1), .interrupt] : List (Act Nat)) = some (c, os) ∧ c.stop = true ∧
    c.phase = .waiting .running .waiting ∧ c.inputs = [p!"a", p!"b"] ∧
    c.exec [.wakeOutgoing, .resume, .runCancelled, .sendEnds true, .closeEnds] = some (c', os') ∧
    os' = [.sent p!"a", .exits false] := by
  refine ⟨_, _, _, _, rfl, ?_, ?_, ?_, rfl, ?_⟩ <;> decide +kernel

end WS.Interactive
