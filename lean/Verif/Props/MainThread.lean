import Verif.Model.MainThread
import Verif.Props.Interactive

/-!
# C97: The process of the interactive client terminates

Executions are arbitrary sequences of `Ev`: steps of the main thread and of the thread that runs the event loop, actions
of the user, and signals.
-/

namespace WS.MainThread

open WS.Interactive

variable {M : Type}

/-! ## Specification -/

/-- The lines that the user types. -/
def Spec.typed : List (Ev M) → List PyStr
  | [] => []
  | .typed line :: es => line :: Spec.typed es
  | _ :: es => Spec.typed es

/-- The lines that the event loop didn't see yet. -/
def Spec.puts : List Callback → List PyStr
  | [] => []
  | .put line :: cs => line :: Spec.puts cs
  | .setStop :: cs => Spec.puts cs

/-- The line that `input` just returned. -/
def Spec.inHand : Main → List PyStr
  | .scheduling line => [line]
  | _ => []

/-- What the threads do to terminate the process, without the user and the network. -/
def Spec.isOwn : Ev M → Bool
  | .started | .deliver | .schedule | .joined | .closeLoop | .threadEnds => true
  | _ => false

/-- How many times something interrupts the main thread: the user, or `run_client` when it exits. -/
def Spec.interrupts : List (Ev M) → Nat
  | [] => 0
  | .eof :: es | .ctrlC :: es => Spec.interrupts es + 1
  | _ :: es => Spec.interrupts es

/-- `run_client` exited and sent SIGINT. -/
def Spec.killed (os : List (Obs M)) : Nat := os.countP fun | .exits b => b | _ => false

/-! ## Lemmas about `run_client` -/

/-- What the steps of `run_client` do to `stop` and to its phase. -/
theorem client_step {c c' : Client M} {a : Act M} {o : List (Obs M)} (h : c.step a = some (c', o)) :
    (a ≠ .interrupt → c'.stop = c.stop) ∧ (a = .interrupt → c'.stop = true) ∧
      (isClient a = false → o = [] ∧ c'.phase = c.phase) ∧
      (c.phase = .exited → c'.phase = .exited ∧ o = []) ∧
      (c.phase ≠ .exited → c'.phase = .exited → o = [.exits (!c.stop)]) ∧
      (c'.phase ≠ .exited → interrupts o = false) := by
  have hp : ∀ (c c' : Client M) out o, c.proceed out = (c', o) →
      c'.stop = c.stop ∧ c'.phase ≠ .exited ∧ interrupts o = false := by
    intro c c' out o h
    unfold Client.proceed Client.iterate at h
    split at h
    · cases h; simp [interrupts]
    · split at h <;> cases h <;> simp [interrupts]
  have hr : ∀ (c c' : Client M) inc out o, c.process inc out = (c', o) →
      c'.stop = c.stop ∧ c'.phase ≠ .exited ∧ interrupts o = false := by
    intro c c' inc out o h
    unfold Client.process at h
    split at h
    · have := hp _ _ _ _ h; exact this
    · have := hp _ _ _ _ h; exact this
    · cases h
      have := hp c _ out _ rfl
      refine ⟨this.1, this.2.1, ?_⟩
      have h3 := this.2.2
      simp only [interrupts, List.any_cons, Bool.false_or] at h3 ⊢
      exact h3
    · cases h; simp [interrupts]
    · cases h; simp [interrupts]
  cases a with
  | resume =>
    simp only [Client.step] at h
    split at h
    · next hph =>
      split at h
      · have := hr _ _ _ _ _ (Option.some.inj h)
        simp [isClient, this, hph]
      · cases h
    · cases h
  | _ =>
    simp only [Client.step, Client.leave, Client.iterate] at h
    grind [isClient, interrupts]

/-! ## Invariants -/

/-- The main thread is in the `try` clause, or before. -/
def Main.early : Main → Bool
  | .starting | .reading | .scheduling _ => true
  | _ => false

structure Inv (p : Proc M) : Prop where
  /-- `stop` isn't set before line 202. -/
  stop : p.main.early = true ∨ p.main = .caught → p.client.stop = false ∧ .setStop ∉ p.callbacks
  once : p.callbacks.count .setStop + (if p.client.stop then 1 else 0) ≤ 1
  exit : p.client.phase = .exited → p.main.early = true → p.signal = true
  ended : p.ended = true → p.client.phase = .exited
  joined : p.main = .closing ∨ p.main = .done → p.ended = true
  closed : p.loopClosed = true ↔ p.main = .done
  valid : p.invalidState = false

theorem Inv.init (n : Option Nat) : Inv (init n : Proc M) := by
  constructor <;> simp [MainThread.init, Client.init, Main.early]

theorem Inv.stepClient {p p' : Proc M} {a : Act M} {o : List (Obs M)} (h : Inv p)
    (he : p.stepClient a = some (p', o)) (ha : a ≠ .interrupt) : Inv p' := by
  unfold Proc.stepClient at he
  split at he
  · cases he
  · next c o' hs =>
    obtain ⟨h1, -, -, h4, h5, -⟩ := client_step hs
    cases he
    have h1 := h1 ha
    refine ⟨?_, ?_, ?_, ?_, h.joined, h.closed, h.valid⟩
    · intro hm; have := h.stop hm; exact ⟨by rw [h1]; exact this.1, this.2⟩
    · have := h.once; rw [h1]; exact this
    · intro he hm
      have h2 := h.exit
      by_cases hp : p.client.phase = .exited
      · simp [h2 hp hm]
      · rw [h5 hp he, (h.stop (.inl hm)).1]; simp [interrupts]
    · intro hd; exact (h4 (h.ended hd)).1

theorem Inv.step {p p' : Proc M} {e : Ev M} {o : List (Obs M)} (h : Inv p) (he : step p e = some (p', o)) : Inv p' := by
  obtain ⟨h1, h2, h3, h4, h5, h6, h7⟩ := h
  cases e with
  | client a =>
    simp only [MainThread.step] at he
    split at he
    · cases he
    · next hc => exact Inv.stepClient ⟨h1, h2, h3, h4, h5, h6, h7⟩ he (by rintro rfl; simp [isClient] at hc)
  | callback =>
    simp only [MainThread.step] at he
    split at he
    · cases he
    · split at he
      · cases he
      · next line cs hc =>
        refine Inv.stepClient (p := { p with callbacks := cs }) ⟨?_, ?_, h3, h4, h5, h6, h7⟩ he (by simp)
        · grind
        · simpa [hc] using h2
      · next cs hc =>
        split at he
        · next hst => simp [hc, hst] at h2
        · next hst =>
          simp only [Proc.stepClient, Client.step, Option.some.injEq, Prod.mk.injEq] at he
          obtain ⟨rfl, rfl⟩ := he
          refine ⟨?_, ?_, ?_, h4, h5, h6, h7⟩
          · intro hm; have := (h1 hm).2; simp [hc] at this
          · simpa [hc, hst] using h2
          · simpa [interrupts] using h3
  | deliver =>
    simp only [MainThread.step] at he
    split at he
    · next h =>
      cases he
      have ho := h.2
      cases hm : p.main <;> constructor <;> simp_all [Main.early, Main.interrupted, Proc.over]
    · cases he
  | _ =>
    simp only [MainThread.step] at he
    constructor <;> grind [Main.early]

theorem exec_cons {p p' : Proc M} {e : Ev M} {es : List (Ev M)} {os : List (Obs M)}
    (h : exec p (e :: es) = some (p', os)) :
    ∃ p1 o os', step p e = some (p1, o) ∧ exec p1 es = some (p', os') ∧ os = o ++ os' := by
  simp only [exec] at h
  split at h
  · cases h
  · next p1 o h1 =>
    split at h
    · cases h
    · next p2 os' h2 => cases h; exact ⟨p1, o, os', h1, h2, rfl⟩

theorem Inv.exec {p p' : Proc M} {es : List (Ev M)} {os : List (Obs M)} (h : Inv p)
    (he : exec p es = some (p', os)) : Inv p' := by
  induction es generalizing p os with
  | nil => cases he; exact h
  | cons e es ih =>
    obtain ⟨p1, o, os', h1, h2, rfl⟩ := exec_cons he
    exact ih (h.step h1) h2

/-- **C97**: the result of `stop` is set at most once, and `KeyboardInterrupt` isn't lost: `InvalidStateError` is never
raised. -/
theorem C97_once {n : Option Nat} {es : List (Ev M)} {p : Proc M} {os : List (Obs M)}
    (h : exec (init n) es = some (p, os)) : p.invalidState = false := ((Inv.init n).exec h).valid

/-- **C97**: the event loop is closed exactly when `main` returns; then the other thread has ended, and `run_client`
has returned: `loop.close` never raises an exception. -/
theorem C97_loop_closed {n : Option Nat} {es : List (Ev M)} {p : Proc M} {os : List (Obs M)}
    (h : exec (init n) es = some (p, os)) :
    (p.loopClosed = true ↔ p.main = .done) ∧
      (p.main = .closing ∨ p.main = .done → p.ended = true ∧ p.client.phase = .exited) := by
  have hi := (Inv.init n).exec h
  exact ⟨hi.closed, fun hm => ⟨hi.joined hm, hi.ended (hi.joined hm)⟩⟩

/-! ## Termination -/

def Main.weight : Main → Nat
  | .starting => 7
  | .scheduling _ => 6
  | .reading => 5
  | .caught => 4
  | .joining => 3
  | .closing => 2
  | .crashed => 1
  | .done => 0
  | .killed => 0

def Proc.weight (p : Proc M) : Nat := p.main.weight + if p.ended then 0 else 1

theorem weight_step {p p' : Proc M} {e : Ev M} {o : List (Obs M)} (hi : Inv p) (hx : p.client.phase = .exited)
    (he : step p e = some (p', o)) :
    p'.client.phase = .exited ∧ p'.weight + (if Spec.isOwn e then 1 else 0) ≤ p.weight := by
  have hs := hi.exit hx
  have hc : ∀ (q : Proc M) a, q.client = p.client → q.main = p.main → q.ended = p.ended → q.stepClient a = some (p', o) →
      p'.client.phase = .exited ∧ p'.weight ≤ p.weight := by
    intro q a h1 h2 h3 h4
    unfold Proc.stepClient at h4
    split at h4
    · cases h4
    · next c o' h5 =>
      cases h4
      obtain ⟨-, -, -, h6, -⟩ := client_step h5
      exact ⟨(h6 (by rw [h1]; exact hx)).1, by simp [Proc.weight, h2, h3]⟩
  cases e with
  | client a =>
    simp only [MainThread.step] at he
    split at he
    · cases he
    · exact hc p a rfl rfl rfl he
  | callback =>
    simp only [MainThread.step] at he
    split at he
    · cases he
    · split at he
      · cases he
      · refine hc _ _ ?_ ?_ ?_ he <;> rfl
      · split at he
        · cases he; exact ⟨hx, by simp [Proc.weight, Spec.isOwn]⟩
        · refine hc _ _ ?_ ?_ ?_ he <;> rfl
  | deliver =>
    simp only [MainThread.step] at he
    split at he
    · next h =>
      cases he
      refine ⟨hx, ?_⟩
      have h2 := h.2
      cases hm : p.main <;> simp_all [Proc.weight, Main.weight, Main.interrupted, Spec.isOwn, Proc.over] <;>
        omega
    · cases he
  | _ =>
    simp only [MainThread.step] at he
    constructor <;> grind [Main.early, Main.weight, Proc.weight, Spec.isOwn]

/-- **C97**: when `run_client` returned, at most 8 steps of the threads follow, whatever else happens, and as long as the
process isn't over, a thread can go on: the process terminates, without waiting for the user. -/
theorem C97_terminates {n : Option Nat} {es : List (Ev M)} {p : Proc M} {os : List (Obs M)}
    (h : exec (init n) es = some (p, os)) (hx : p.client.phase = .exited) :
    (∀ {es' p' os'}, exec p es' = some (p', os') → es'.countP Spec.isOwn ≤ 8) ∧
      (p.over = false → ∃ e, Spec.isOwn e = true ∧ step p e ≠ none) := by
  have hi := (Inv.init n).exec h
  constructor
  · have : ∀ {es' : List (Ev M)} {p p' os'}, Inv p → p.client.phase = .exited → exec p es' = some (p', os') →
        es'.countP Spec.isOwn + p'.weight ≤ p.weight := by
      intro es'
      induction es' with
      | nil => intro p p' os' _ _ h; cases h; simp
      | cons e es' ih =>
        intro p p' os' hi hx h
        obtain ⟨p1, o, os1, h1, h2, rfl⟩ := exec_cons h
        obtain ⟨h3, h4⟩ := weight_step hi hx h1
        have := ih (hi.step h1) h3 h2
        rw [List.countP_cons]
        omega
    intro es' p' os' h'
    have := this hi hx h'
    have hw : p.weight ≤ 8 := by unfold Proc.weight; cases p.main <;> simp [Main.weight] <;> split <;> omega
    omega
  · intro ho
    by_cases hd : p.ended = true
    · cases hm : p.main with
      | starting => exact ⟨.started, rfl, by simp [MainThread.step, hm]⟩
      | reading =>
        have := hi.exit hx (by simp [hm, Main.early])
        exact ⟨.deliver, rfl, by simp [MainThread.step, this, ho]⟩
      | scheduling line => exact ⟨.schedule, rfl, by simp [MainThread.step, hm]⟩
      | caught => exact ⟨.schedule, rfl, by simp [MainThread.step, hm]⟩
      | joining => exact ⟨.joined, rfl, by simp [MainThread.step, hm, hd]⟩
      | closing => exact ⟨.closeLoop, rfl, by simp [MainThread.step, hm]⟩
      | done => simp [Proc.over, hm] at ho
      | crashed => simp [Proc.over, hm, hd] at ho
      | killed => simp [Proc.over, hm] at ho
    · exact ⟨.threadEnds, rfl, by simp [MainThread.step, hx, hd]⟩

/-! ## Lines, and waiting -/

/-- The steps of `run_client`, and the lines typed -/
structure Track (n : Option Nat) (es : List (Ev M)) (p : Proc M) (os : List (Obs M)) (as : List (Act M))
    (lost : List PyStr) : Prop where
  run : (Client.init n).exec as = some (p.client, os)
  lines : Interactive.Spec.typed as ++ Spec.puts p.callbacks ++ Spec.inHand p.main ++ lost = Spec.typed es
  one : lost.length ≤ 1
  late : lost ≠ [] → p.main.early = false

theorem typed_append (es es' : List (Ev M)) : Spec.typed (es ++ es') = Spec.typed es ++ Spec.typed es' := by
  induction es with
  | nil => rfl
  | cons e es ih => cases e <;> simp [Spec.typed, ih]

theorem puts_append (cs cs' : List Callback) : Spec.puts (cs ++ cs') = Spec.puts cs ++ Spec.puts cs' := by
  induction cs with
  | nil => rfl
  | cons c cs ih => cases c <;> simp [Spec.puts, ih]

theorem client_typed_append (as : List (Act M)) (a : Act M) :
    Interactive.Spec.typed (as ++ [a]) = Interactive.Spec.typed as ++ Interactive.Spec.typed [a] := by
  induction as with
  | nil => rfl
  | cons b as ih => cases b <;> simp [Interactive.Spec.typed, ih]

theorem exec_snoc {c c' c2 : Client M} {as : List (Act M)} {a : Act M} {os o : List (Obs M)}
    (h : c.exec as = some (c', os)) (h2 : c'.step a = some (c2, o)) : c.exec (as ++ [a]) = some (c2, os ++ o) := by
  induction as generalizing c os with
  | nil => cases h; simp [Client.exec, h2]
  | cons b as ih =>
    obtain ⟨c1, o1, os1, h3, h4, rfl⟩ := Interactive.Client.exec_cons h
    have := ih h4
    simp [Client.exec, h3, this]

theorem Track.step {n : Option Nat} {es : List (Ev M)} {p p' : Proc M} {os o : List (Obs M)} {as : List (Act M)}
    {lost : List PyStr} {e : Ev M} (h : Track n es p os as lost) (he : step p e = some (p', o)) :
    ∃ as' lost', Track n (es ++ [e]) p' (os ++ o) as' lost' := by
  obtain ⟨h1, h2, h3, h4⟩ := h
  have same : o = [] → p'.client = p.client →
      (∃ l, l.length ≤ 1 ∧ (l ≠ [] → p'.main.early = false) ∧ Interactive.Spec.typed as ++ Spec.puts p'.callbacks ++
        Spec.inHand p'.main ++ l = Spec.typed (es ++ [e])) → ∃ as' lost', Track n (es ++ [e]) p' (os ++ o) as' lost' := by
    rintro rfl k1 ⟨l, k2, k3, k4⟩
    exact ⟨as, l, by rw [k1, List.append_nil]; exact h1, k4, k2, k3⟩
  have run : ∀ (q : Proc M) a, q.client = p.client → q.main = p.main → q.stepClient a = some (p', o) →
      Interactive.Spec.typed (as ++ [a]) ++ Spec.puts q.callbacks ++ Spec.inHand q.main ++ lost = Spec.typed (es ++ [e]) →
      ∃ as' lost', Track n (es ++ [e]) p' (os ++ o) as' lost' := by
    intro q a k1 k2 k3 k4
    unfold Proc.stepClient at k3
    split at k3
    · cases k3
    · next c o' k5 =>
      cases k3
      exact ⟨as ++ [a], lost, exec_snoc h1 (k1 ▸ k5), k4, h3, by rw [k2]; exact h4⟩
  cases e with
  | client a =>
    simp only [MainThread.step] at he
    split at he
    · cases he
    · next hc =>
      refine run p a rfl rfl he ?_
      rw [typed_append, ← h2, client_typed_append]
      cases a <;> simp [isClient] at hc <;> simp [Interactive.Spec.typed, Spec.typed]
  | callback =>
    simp only [MainThread.step] at he
    split at he
    · cases he
    · split at he
      · cases he
      · next line cs hc =>
        refine run _ (.type line) ?_ ?_ he ?_ <;> try rfl
        rw [typed_append, ← h2, client_typed_append, hc]
        simp [Interactive.Spec.typed, Spec.typed, Spec.puts]
      · next cs hc =>
        split at he
        · cases he
          refine same rfl rfl ⟨lost, h3, h4, ?_⟩
          rw [typed_append, ← h2, hc]
          simp [Spec.typed, Spec.puts]
        · refine run _ .interrupt ?_ ?_ he ?_ <;> try rfl
          rw [typed_append, ← h2, client_typed_append, hc]
          simp [Interactive.Spec.typed, Spec.typed, Spec.puts]
  | deliver =>
    simp only [MainThread.step] at he
    split at he
    · cases he
      refine same rfl rfl ?_
      rw [typed_append, ← h2]
      cases hm : p.main with
      | scheduling line =>
        have : lost = [] := by
          false_or_by_contra
          rename_i hl
          have := h4 hl
          simp [hm, Main.early] at this
        exact ⟨[line], by simp, by simp [Main.interrupted, Main.early],
          by simp [this, Spec.inHand, Main.interrupted, Spec.typed]⟩
      | _ =>
        refine ⟨lost, h3, fun hl => ?_, by simp [Spec.inHand, Main.interrupted, Spec.typed]⟩
        have := h4 hl
        simp_all [Main.early, Main.interrupted]
    · cases he
  | _ =>
    simp only [MainThread.step] at he
    refine same (by grind) (by grind) ⟨lost, h3, by grind [Main.early], ?_⟩
    rw [typed_append, ← h2]
    grind [Spec.inHand, Spec.typed, Spec.puts, puts_append, Main.early]

theorem Track.exec {n : Option Nat} {es es0 : List (Ev M)} {p p' : Proc M} {os os0 : List (Obs M)} {as : List (Act M)}
    {lost : List PyStr} (h : Track n es0 p os0 as lost) (he : exec p es = some (p', os)) :
    ∃ as' lost', Track n (es0 ++ es) p' (os0 ++ os) as' lost' := by
  induction es generalizing p es0 os0 os as lost with
  | nil => cases he; exact ⟨as, lost, by simpa using h⟩
  | cons e es ih =>
    obtain ⟨p1, o, os', h1, h2, rfl⟩ := exec_cons he
    obtain ⟨as', lost', h3⟩ := h.step h1
    simpa using ih h3 h2

theorem Track.init (n : Option Nat) : Track n [] (init n : Proc M) [] [] [] :=
  ⟨rfl, rfl, by simp, by simp⟩

/-- **C97**: the lines that are sent are the first lines typed, in order, without gaps or duplicates; the other lines are
waiting to be sent, except at most one that is being sent and at most one that `KeyboardInterrupt` discards. -/
theorem C97_lines {n : Option Nat} {es : List (Ev M)} {p : Proc M} {os : List (Obs M)}
    (h : exec (init n) es = some (p, os)) :
    ∃ taken lost, Interactive.Spec.sent os ++ taken ++ p.client.inputs ++ Spec.puts p.callbacks ++ Spec.inHand p.main ++
      lost = Spec.typed es ∧ taken.length ≤ 1 ∧ lost.length ≤ 1 ∧
      (lost ≠ [] → ∀ line, p.main ≠ .reading ∧ p.main ≠ .scheduling line) := by
  obtain ⟨as, lost, h1, h2, h3, h4⟩ := (Track.init n).exec h
  obtain ⟨taken, h5, h6⟩ := Client.C86_sent_partial h1
  refine ⟨taken, lost, ?_, h6, h3, fun hl line => ?_⟩
  · rw [List.nil_append] at h2 h5
    rw [h5]; exact h2
  · have := h4 hl
    constructor <;> intro hm <;> simp [hm, Main.early] at this

/-- `stop` is set, or it will be. -/
def Asked (p : Proc M) : Prop := p.main = .joining → p.client.stop = true ∨ .setStop ∈ p.callbacks

theorem Asked.step {p p' : Proc M} {e : Ev M} {o : List (Obs M)} (h : Asked p) (he : step p e = some (p', o)) :
    Asked p' := by
  unfold Asked at *
  cases e with
  | client a =>
    simp only [MainThread.step] at he
    split at he
    · cases he
    · next hc =>
      unfold Proc.stepClient at he
      split at he
      · cases he
      · next c o' hs =>
        cases he
        have := (client_step hs).1 (by rintro rfl; simp [isClient] at hc)
        simpa [this] using h
  | callback =>
    simp only [MainThread.step] at he
    split at he
    · cases he
    · split at he
      · cases he
      · next line cs hc =>
        simp only [Proc.stepClient, Client.step, Option.some.injEq, Prod.mk.injEq] at he
        obtain ⟨rfl, -⟩ := he
        simpa [hc] using h
      · next cs hc =>
        split at he
        · next hst => cases he; exact fun _ => .inl hst
        · simp only [Proc.stepClient, Client.step, Option.some.injEq, Prod.mk.injEq] at he
          obtain ⟨rfl, -⟩ := he
          exact fun _ => .inl rfl
  | deliver =>
    simp only [MainThread.step] at he
    split at he
    · cases he
      intro hm
      revert hm
      cases hm : p.main <;> simp [Main.interrupted]
    · cases he
  | _ => simp only [MainThread.step] at he; grind

theorem Asked.exec {p p' : Proc M} {es : List (Ev M)} {os : List (Obs M)} (h : Asked p)
    (he : exec p es = some (p', os)) : Asked p' := by
  induction es generalizing p os with
  | nil => cases he; exact h
  | cons e es ih =>
    obtain ⟨p1, o, os', h1, h2, rfl⟩ := exec_cons he
    exact ih (h.step h1) h2

/-- What the threads do, without the user and the network. -/
def Spec.isLocal : Ev M → Bool
  | .callback => true
  | .client .startIncoming | .client .wakeIncoming | .client .runCancelled | .client .startOutgoing
  | .client .wakeOutgoing | .client .resume => true
  | e => isOwn e

/-- `run_client` waits for the network. -/
def Spec.Network (c : Client M) : Prop := c.phase = .connecting ∨ (∃ last, c.phase = .sending last) ∨ c.phase = .closing

/-- **C97, partial**: after the user pressed Ctrl-C or Ctrl-D, the threads don't wait for anything, except for `connect`,
`send` or `close`.  What is missing: executions where `close` raises an exception, see `C97_hang_false`. -/
theorem C97_no_deadlock_partial {n : Option Nat} {es : List (Ev M)} {p : Proc M} {os : List (Obs M)}
    (h : exec (init n) es = some (p, os)) (hm : p.main = .caught ∨ p.main = .joining ∨ p.main = .closing)
    (hr : p.raised = false) : Spec.Network p.client ∨ ∃ e, Spec.isLocal e = true ∧ step p e ≠ none := by
  rcases hm with hm | hm | hm
  · exact .inr ⟨.schedule, rfl, by simp [MainThread.step, hm]⟩
  · have ha : Asked (init n : Proc M) := by intro h; simp [MainThread.init] at h
    have hq := ha.exec h hm
    by_cases hd : p.ended = true
    · exact .inr ⟨.joined, rfl, by simp [MainThread.step, hm, hd]⟩
    · cases hc : p.callbacks with
      | cons c cs =>
        refine .inr ⟨.callback, rfl, ?_⟩
        cases c with
        | put line => simp [MainThread.step, hd, hc, Proc.stepClient, Client.step]
        | setStop =>
          by_cases hst : p.client.stop = true <;> simp [MainThread.step, hd, hc, Proc.stepClient, Client.step, hst]
      | nil =>
        have hst : p.client.stop = true := by simpa [hc] using hq
        obtain ⟨as, lost, ht⟩ := (Track.init n).exec h
        cases hp : p.client.phase with
        | connecting => exact .inl (.inl hp)
        | sending last => exact .inl (.inr (.inl ⟨last, hp⟩))
        | closing => exact .inl (.inr (.inr hp))
        | exited => exact .inr ⟨.threadEnds, rfl, by simp [MainThread.step, hp, hd]⟩
        | waiting inc out =>
          obtain ⟨a, ha, hs⟩ := Client.C86_progress ht.run hp (.inr (.inr (.inl hst)))
          have hl : Spec.isLocal (.client a) = true := by
            simp only [Interactive.Client.Spec.own, List.mem_cons, List.not_mem_nil, or_false] at ha
            rcases ha with rfl | rfl | rfl | rfl | rfl | rfl <;> rfl
          have hi : isClient a = true := by
            simp only [Interactive.Client.Spec.own, List.mem_cons, List.not_mem_nil, or_false] at ha
            rcases ha with rfl | rfl | rfl | rfl | rfl | rfl <;> rfl
          refine .inr ⟨.client a, hl, ?_⟩
          simp only [MainThread.step, hd, hr, hi, Proc.stepClient]
          cases hs' : p.client.step a with
          | none => exact absurd hs' hs
          | some x => simp
  · exact .inr ⟨.closeLoop, rfl, by simp [MainThread.step, hm]⟩

/-! ## Interruptions -/

/-- What may still happen if the main thread is interrupted `k` more times. -/
def Calm (p : Proc M) (k : Nat) : Prop :=
  (p.main = .reading ∨ ∃ line, p.main = .scheduling line) ∧ (p.signal = true → k = 0) ∧ k ≤ 1 ∨
    (p.main = .caught ∨ p.main = .joining ∨ p.main = .closing ∨ p.main = .done) ∧ p.signal = false ∧ k = 0

theorem killed_interrupts {c c' : Client M} {a : Act M} {o : List (Obs M)} (h : c.step a = some (c', o)) :
    interrupts o = false ∧ Spec.killed o = 0 ∨ interrupts o = true ∧ Spec.killed o = 1 := by
  obtain ⟨-, -, -, h4, h5, h6⟩ := client_step h
  by_cases hp : c'.phase = .exited
  · by_cases hp' : c.phase = .exited
    · rw [(h4 hp').2]; exact .inl ⟨rfl, rfl⟩
    · rw [h5 hp' hp]
      cases c.stop <;> simp [interrupts, Spec.killed]
  · refine .inl ⟨h6 hp, ?_⟩
    have := h6 hp
    simp only [interrupts, Spec.killed] at *
    rw [List.countP_eq_zero]
    intro x hx hb
    rw [List.any_eq_false] at this
    exact this x hx hb

theorem Calm.step {p p' : Proc M} {e : Ev M} {o : List (Obs M)} {k : Nat}
    (h : Calm p (k + (Spec.interrupts [e] + Spec.killed o))) (he : step p e = some (p', o)) : Calm p' k := by
  have run : ∀ (q : Proc M) a, q.main = p.main → q.signal = p.signal → q.stepClient a = some (p', o) →
      Spec.interrupts [e] = 0 → Calm p' k := by
    intro q a h1 h2 h3 h4
    unfold Proc.stepClient at h3
    split at h3
    · cases h3
    · next c o' h5 =>
      cases h3
      have := killed_interrupts h5
      unfold Calm at *
      simp only [h1, h2]
      grind
  cases e with
  | client a =>
    simp only [MainThread.step] at he
    split at he
    · cases he
    · exact run p a rfl rfl he rfl
  | callback =>
    simp only [MainThread.step] at he
    split at he
    · cases he
    · split at he
      · cases he
      · refine run _ _ ?_ ?_ he rfl <;> rfl
      · split at he
        · cases he; simpa [Calm, Spec.interrupts, Spec.killed] using h
        · refine run _ _ ?_ ?_ he rfl <;> rfl
  | deliver =>
    simp only [MainThread.step] at he
    split at he
    · cases he
      simp only [Calm, Spec.interrupts, Spec.killed, List.countP_nil, Nat.add_zero] at *
      cases hm : p.main <;> simp_all [Main.interrupted]
    · cases he
  | _ =>
    simp only [MainThread.step] at he
    simp only [Calm, Spec.interrupts, Spec.killed] at *
    grind

theorem interrupts_cons (e : Ev M) (es : List (Ev M)) :
    Spec.interrupts (e :: es) = Spec.interrupts [e] + Spec.interrupts es := by
  cases e <;> simp [Spec.interrupts, Nat.add_comm]

/-- **C97, partial**: when the main thread is reading lines and it's interrupted at most once, by the user or by the end
of `run_client`, `main` doesn't raise `KeyboardInterrupt`.  What is missing: `C97_start_false`, `C97_traceback_false`,
`C97_twice_false`. -/
theorem C97_normal_partial {n : Option Nat} {es0 es : List (Ev M)} {p p' : Proc M} {os0 os : List (Obs M)}
    (_ : exec (init n) es0 = some (p, os0)) (hm : p.main = .reading) (hs : p.signal = false)
    (h : exec p es = some (p', os)) (hk : Spec.interrupts es + Spec.killed os ≤ 1) :
    p'.main ≠ .crashed ∧ p'.main ≠ .killed := by
  have hc : Calm p (Spec.interrupts es + Spec.killed os) := .inl ⟨.inl hm, by simp [hs], hk⟩
  have : ∀ {es : List (Ev M)} {p os}, Calm p (Spec.interrupts es + Spec.killed os) → exec p es = some (p', os) →
      Calm p' 0 := by
    intro es
    induction es with
    | nil => intro p os hc h; cases h; exact hc
    | cons e es ih =>
      intro p os hc h
      obtain ⟨p1, o, os', h1, h2, rfl⟩ := exec_cons h
      refine ih (Calm.step ?_ h1) h2
      have hk : Spec.killed (o ++ os') = Spec.killed o + Spec.killed os' := List.countP_append
      rw [interrupts_cons, hk] at hc
      have e : Spec.interrupts es + Spec.killed os' + (Spec.interrupts [e] + Spec.killed o) =
          Spec.interrupts [e] + Spec.interrupts es + (Spec.killed o + Spec.killed os') := by omega
      rw [e]; exact hc
  have := this hc h
  unfold Calm at this
  grind

/-! ## Concrete cases -/

/-- The user types a line, which is sent, then presses Ctrl-D. -/
def session : List (Ev Nat) :=
  [.started, .client (.connect true), .client .startIncoming, .client .startOutgoing, .typed p!"a", .schedule, .callback,
    .client .wakeOutgoing, .client .resume, .client (.sendEnds true), .client .runCancelled, .client .startIncoming,
    .client .startOutgoing, .eof, .schedule, .callback, .client .resume, .client .closeEnds, .threadEnds, .joined,
    .closeLoop]

example : ∃ p os, exec (init (some 32)) session = some (p, os) ∧ p.main = .done ∧ p.over = true ∧
    Interactive.Spec.sent os = [p!"a"] ∧ Spec.interrupts session + Spec.killed os = 1 := by
  refine ⟨_, _, rfl, ?_⟩
  decide +kernel

/-- The server closes the connection. -/
def closedByServer : List (Ev Nat) :=
  [.started, .client (.connect true), .client .startIncoming, .client .startOutgoing, .client (.transfer .exit),
    .client .wakeIncoming, .client .wakeIncoming, .client .resume, .client .closeEnds]

/-- Then `run_client` returned, and the process ends after 5 steps. -/
example : ∃ p p' os os', exec (init (some 32)) closedByServer = some (p, os) ∧ p.client.phase = .exited ∧
    exec p [.deliver, .schedule, .threadEnds, .callback, .joined, .closeLoop] = none ∧
    exec p [.deliver, .schedule, .threadEnds, .joined, .closeLoop] = some (p', os') ∧ p'.over = true ∧
    p'.main = .done := by
  refine ⟨_, _, _, _, rfl, ?_, ?_, rfl, ?_, ?_⟩ <;> decide +kernel

/-- The user presses Ctrl-D, and `close` raises an exception. -/
def hanging : List (Ev Nat) :=
  [.started, .client (.connect true), .client .startIncoming, .client .startOutgoing, .eof, .schedule, .callback,
    .client .resume, .clientRaises]

structure Hung (p : Proc M) : Prop where
  main : p.main = .joining
  ended : p.ended = false
  raised : p.raised = true
  signal : p.signal = false
  phase : p.client.phase = .closing

theorem Hung.step {p p' : Proc M} {e : Ev M} {o : List (Obs M)} (h : Hung p) (hc : e ≠ .ctrlC)
    (he : step p e = some (p', o)) : Hung p' := by
  obtain ⟨h1, h2, h3, h4, h5⟩ := h
  have run : ∀ (q : Proc M) a, q.main = p.main → q.ended = p.ended → q.raised = p.raised → q.signal = p.signal →
      q.client = p.client → isClient a = false → q.stepClient a = some (p', o) → Hung p' := by
    intro q a k1 k2 k3 k4 k5 k6 k7
    unfold Proc.stepClient at k7
    split at k7
    · cases k7
    · next c o' k8 =>
      cases k7
      obtain ⟨-, -, k9, -⟩ := client_step k8
      obtain ⟨rfl, k10⟩ := k9 k6
      exact ⟨k1.trans h1, k2.trans h2, k3.trans h3, by simp [k4, h4, interrupts], by simp only; rw [k10, k5]; exact h5⟩
  cases e with
  | ctrlC => exact absurd rfl hc
  | callback =>
    simp only [MainThread.step] at he
    split at he
    · cases he
    · split at he
      · cases he
      · refine run _ _ ?_ ?_ ?_ ?_ ?_ ?_ he <;> rfl
      · split at he
        · cases he; exact ⟨h1, h2, h3, h4, h5⟩
        · refine run _ _ ?_ ?_ ?_ ?_ ?_ ?_ he <;> rfl
  | _ => simp [MainThread.step, h1, h2, h3, h4, h5] at he

/-- **C97 is false** when `close` raises an exception (`C58`): nothing stops the event loop, `thread.join` doesn't return,
and the process doesn't end until the user presses Ctrl-C again. -/
theorem C97_hang_false : ∃ (p : Proc Nat) (os : List (Obs Nat)), exec (init (some 32)) hanging = some (p, os) ∧
    ∀ es p' os', .ctrlC ∉ es → exec p es = some (p', os') → p'.main = .joining ∧ p'.over = false := by
  refine ⟨_, _, rfl, fun es p' os' hc h => ?_⟩
  have : Hung p' := by
    generalize hp : Proc.mk (M := Nat) _ _ _ _ _ _ _ _ = p at h
    have hh : Hung p := by subst hp; constructor <;> rfl
    clear hp
    induction es generalizing p os' with
    | nil => cases h; exact hh
    | cons e es ih =>
      obtain ⟨p1, o, os1, h1, h2, rfl⟩ := exec_cons h
      simp only [List.mem_cons, not_or] at hc
      exact ih _ hc.2 _ h2 (hh.step (Ne.symm hc.1) h1)
  exact ⟨this.main, by simp [Proc.over, this.main]⟩

/-- **C97 is false** when `connect` raises an exception at once, for instance because the URI is invalid: the main thread
may be interrupted before it enters the `try` clause. -/
theorem C97_start_false : ∃ (p : Proc Nat) (os : List (Obs Nat)),
    exec (init (some 32)) [.client (.connect false), .deliver] = some (p, os) ∧ p.main = .crashed ∧
      p.loopClosed = false := ⟨_, _, rfl, rfl, rfl⟩

/-- **C97 is false** when the connection is closed at the time when the user presses Ctrl-D: `main` is interrupted outside
of the `try` clause. -/
theorem C97_traceback_false : ∃ (es : List (Ev Nat)) (p : Proc Nat) (os : List (Obs Nat)),
    exec (init (some 32)) es = some (p, os) ∧ .ctrlC ∉ es ∧ .clientRaises ∉ es ∧ Spec.interrupts es = 1 ∧
      p.main = .crashed ∧ p.loopClosed = false :=
  ⟨[.started, .client (.connect true), .client .startIncoming, .client .startOutgoing, .client (.transfer .exit),
    .client .wakeIncoming, .client .wakeIncoming, .client .resume, .eof, .schedule, .client .closeEnds, .deliver], _, _, rfl,
    by simp, by simp, rfl, by decide +kernel, by decide +kernel⟩

/-- Nothing will set `stop`. -/
structure Deaf (p : Proc M) : Prop where
  main : p.main = .crashed ∨ p.main = .killed
  callbacks : p.callbacks = []
  stop : p.client.stop = false

theorem Deaf.step {p p' : Proc M} {e : Ev M} {o : List (Obs M)} (h : Deaf p) (he : step p e = some (p', o)) :
    Deaf p' := by
  obtain ⟨h1, h2, h3⟩ := h
  cases e with
  | client a =>
    simp only [MainThread.step] at he
    split at he
    · cases he
    · next hc =>
      unfold Proc.stepClient at he
      split at he
      · cases he
      · next c o' hs =>
        cases he
        have := (client_step hs).1 (by rintro rfl; simp [isClient] at hc)
        exact ⟨h1, h2, by simp only; rw [this]; exact h3⟩
  | deliver =>
    simp only [MainThread.step] at he
    split at he
    · cases he
      refine ⟨?_, h2, h3⟩
      rcases h1 with h1 | h1 <;> simp [h1, Main.interrupted]
    · cases he
  | callback => simp [MainThread.step, h2] at he
  | _ =>
    simp only [MainThread.step] at he
    constructor <;> grind

/-- **C97 is false** when the user presses Ctrl-C twice quickly: `run_client` is never told to stop, and the interpreter
waits until the connection is closed, unless the user presses Ctrl-C a third time. -/
theorem C97_twice_false : ∃ (p : Proc Nat) (os : List (Obs Nat)),
    exec (init (some 32)) [.started, .client (.connect true), .ctrlC, .deliver, .ctrlC, .deliver] = some (p, os) ∧
      p.main = .crashed ∧ p.over = false ∧ ∀ es p' os', exec p es = some (p', os') → p'.client.stop = false := by
  refine ⟨_, _, rfl, rfl, rfl, fun es p' os' h => ?_⟩
  have : Deaf p' := by
    generalize hp : Proc.mk (M := Nat) _ _ _ _ _ _ _ _ = p at h
    have hh : Deaf p := by subst hp; exact ⟨.inl rfl, rfl, rfl⟩
    clear hp
    induction es generalizing p os' with
    | nil => cases h; exact hh
    | cons e es ih =>
      obtain ⟨p1, o, os1, h1, h2, rfl⟩ := exec_cons h
      exact ih _ _ h2 (hh.step h1)
  exact this.stop

end WS.MainThread
