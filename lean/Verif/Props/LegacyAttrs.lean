import Verif.Model.LegacyAttrs
import Verif.Props.LegacyLife

/-!
# C92: `open`, `closed` and `wait_closed()` of legacy connections
-/

namespace WS.LegacyLife

/-! ## Specifications -/

/-- A call to `send()`, `ping()` or `pong()` that doesn't succeed: it waits for the end of the connection, or it
ended with an exception, which isn't `InvalidState`. -/
def Spec.refused : Call → Bool
  | .ensuring | .ended (.connectionClosed _) | .ended .cancelled | .ended .attributeError => true
  | _ => false

/-! ## Invariants -/

theorem openAttr_true {s : St} : s.openAttr = some true ↔
    s.state = .opened ∧ s.transfer ≠ .absent ∧ s.transfer ≠ .ended := by
  unfold St.openAttr
  split
  · split <;> simp_all
  · simp_all

theorem openAttr_false {s : St} : s.openAttr = some false ↔ s.state ≠ .opened ∨ s.transfer = .ended := by
  unfold St.openAttr
  split
  · split <;> simp_all
  · simp_all

/-- The code exists only when the connection is closing or closed. -/
theorem coded_step {cfg : Config} {s s' : St} {e : Ev} (hi : Inv s) (h : s.closeCode ≠ none → 2 ≤ Spec.rank s.state)
    (he : step cfg s e = some s') (hc : s'.closeCode ≠ none) : 2 ≤ Spec.rank s'.state := by
  obtain ⟨f1, f2, -, -, f5⟩ := step_frame he
  rcases f5 with f5 | ⟨code, rfl, -⟩ | ⟨f5, -, -⟩
  · exact Nat.le_trans (h (by rw [← f5]; exact hc)) f2
  · simp only [step] at he
    split at he
    · next ht =>
      cases he
      have hcon := hi.connecting
      simp only [St.receive]
      cases hst : s.state <;> simp_all [Spec.rank]
    · cases he
  · have := (hi.step he).lost.2 (f1.2 (.inr f5))
    rw [this]
    decide

theorem coded_run {cfg : Config} : ∀ {es : List Ev} {s s' : St}, Inv s →
    (s.closeCode ≠ none → 2 ≤ Spec.rank s.state) → run cfg s es = some s' →
    (s'.closeCode ≠ none → 2 ≤ Spec.rank s'.state)
  | [], _, _, _, h, he => by cases he; exact h
  | e :: es, s, s', hi, h, he => by
    simp only [run, Option.bind_eq_some_iff] at he
    obtain ⟨s1, h1, h2⟩ := he
    exact coded_run (hi.step h1) (coded_step hi h h1) h2

/-- `transfer_data_task` stays, and once ended, it remains ended. -/
theorem transfer_step {cfg : Config} {s s' : St} {e : Ev} (hi : Inv s) (he : step cfg s e = some s')
    (ht : s.transfer ≠ .absent) : s'.transfer ≠ .absent ∧ (s.transfer = .ended → s'.transfer = .ended) := by
  have hcon := hi.connecting
  cases e with
  | call i e =>
    simp only [step] at he
    split at he
    · cases he
    · split at he
      · cases he
      · next hs =>
        have h := callStep_frame hs
        cases he
        simp only [h.2.2.2.1]
        exact ⟨ht, id⟩
  | closerRun => rw [(closes_closerRun he).transfer]; exact ⟨ht, id⟩
  | closerLost =>
    simp only [step] at he
    split at he
    · rw [(closes_closerWoken he).transfer]; exact ⟨ht, id⟩
    · cases he
  | closerTimeout => rw [(closes_closerWoken he).transfer]; exact ⟨ht, id⟩
  | cancelCloser => rw [(closes_cancelCloser he).transfer]; exact ⟨ht, id⟩
  | receive i =>
    simp only [step] at he
    split at he
    · next h =>
      cases he
      have := fail_transfer s
      cases i <;> simp only [St.receive, St.failTransfer] <;> grind
    · cases he
  | refused => have := fail_transfer s 1006; simp only [step] at he; grind
  | fail code => have := fail_transfer s code; simp only [step] at he; grind
  | _ => simp only [step, St.failTransfer] at he; grind

/-- Steps keep the results of calls; other calls change only by their own steps. -/
theorem step_calls {cfg : Config} {s s' : St} {e : Ev} (he : step cfg s e = some s') {i : Nat} {c : Call}
    (hc : s.calls[i]? = some c) : s'.calls[i]? = some c ∨
      ∃ e' s1 c', s.callStep c e' = some (s1, c') ∧ s'.calls[i]? = some c' := by
  have hlt : i < s.calls.length := by
    rw [List.getElem?_eq_some_iff] at hc; exact hc.1
  have happ : ∀ x, (s.calls ++ [x])[i]? = some c := by
    intro x; rw [List.getElem?_append_left hlt]; exact hc
  cases e with
  | call j e =>
    simp only [step] at he
    split at he
    · cases he
    · next c0 hc0 =>
      split at he
      · cases he
      · next s1 c' hs =>
        have h := callStep_frame hs
        cases he
        simp only [h.2.1]
        by_cases hj : j = i
        · subst hj
          rw [hc0] at hc
          cases hc
          exact .inr ⟨e, s1, c', hs, by rw [List.getElem?_set_self hlt]⟩
        · exact .inl (by rw [List.getElem?_set_ne hj]; exact hc)
  | closerRun => rw [(closes_closerRun he).calls]; exact .inl hc
  | closerLost =>
    simp only [step] at he
    split at he
    · rw [(closes_closerWoken he).calls]; exact .inl hc
    · cases he
  | closerTimeout => rw [(closes_closerWoken he).calls]; exact .inl hc
  | cancelCloser => rw [(closes_cancelCloser he).calls]; exact .inl hc
  | receive j => have := receive_frame s j; simp only [step] at he; grind
  | refused => have := fail_frame s 1006; simp only [step] at he; grind
  | fail code => have := fail_frame s code; simp only [step] at he; grind
  | transferDrained ok =>
    have h1 := fail_frame s 1011
    have h2 := fail_frame s 1006
    simp only [step, St.failTransfer] at he; grind
  | transferWoken => have h1 := fail_frame s 1011; simp only [step, St.failTransfer] at he; grind
  | close => simp only [step] at he; cases he; exact .inl (happ _)
  | ensure => simp only [step] at he; cases he; exact .inl (happ _)
  | write => simp only [step] at he; split at he <;> cases he <;> exact .inl (happ _)
  | _ => simp only [step] at he; grind

theorem refused_shield {s : St} : Spec.refused (s.shield .ensuring s.closedExc) = true := by
  unfold St.shield St.closedExc
  split
  · split
    · rfl
    · split <;> rfl
  · rfl

theorem refused_ensureOpen {s : St} (h : s.openAttr = some false) (hc : s.state ≠ .connecting) :
    Spec.refused s.ensureOpen = true := by
  rw [openAttr_false] at h
  unfold St.ensureOpen
  split
  · rw [if_pos (by simp_all)]; exact refused_shield
  · unfold St.closedExc; split <;> rfl
  · exact refused_shield
  · contradiction

theorem refused_callStep {s s' : St} {c c' : Call} {e : CallEv} (h : Spec.refused c = true)
    (he : s.callStep c e = some (s', c')) : Spec.refused c' = true := by
  unfold St.callStep at he
  split at he <;> try cases h
  · split at he <;> cases he; exact refused_shield
  · cases he; rfl
  · cases he

theorem refused_run {cfg : Config} : ∀ {es : List Ev} {s s' : St} {i : Nat} {c : Call}, run cfg s es = some s' →
    s.calls[i]? = some c → Spec.refused c = true → ∃ c', s'.calls[i]? = some c' ∧ Spec.refused c' = true
  | [], _, _, _, c, he, hc, h => by cases he; exact ⟨c, hc, h⟩
  | e :: es, s, s', i, c, he, hc, h => by
    simp only [run, Option.bind_eq_some_iff] at he
    obtain ⟨s1, h1, h2⟩ := he
    rcases step_calls h1 hc with hc' | ⟨e', s2, c', h3, h4⟩
    · exact refused_run h2 hc' h
    · exact refused_run h2 h4 (refused_callStep h h3)

/-! ## C92 -/

/-- `open` is always available. -/
theorem C92_open {cfg : Config} {es : List Ev} {s : St} (h : run cfg {} es = some s) :
    s.openAttr = some true ∨ s.openAttr = some false := by
  have hi := inv_init.run h
  unfold St.openAttr
  split
  · next hs =>
    have := hi.closing (.inl hs)
    split <;> simp_all
  · simp

/-- When `open` is true, `send()`, `ping()` and `pong()` write their frame immediately; when it's false, they don't
write anything at that time. -/
theorem C92_write {cfg : Config} {es : List Ev} {s : St} (h : run cfg {} es = some s) :
    ∃ s', step cfg s .write = some s' ∧
      s'.sent = s.sent ++ (if s.openAttr = some true then [.other] else []) := by
  have hi := inv_init.run h
  simp only [step]
  split
  · next hs =>
    refine ⟨_, rfl, ?_⟩
    rw [if_pos (openAttr_true.2 ⟨hs.1, hi.closing (.inl hs.1), hs.2⟩)]
  · next hs =>
    refine ⟨_, rfl, ?_⟩
    rw [if_neg (by rw [openAttr_true]; exact fun h => hs ⟨h.1, h.2.2⟩)]
    simp

/-- When `open` is true, no close frame was written, and there's no close code: in particular no close frame was
received, and the connection isn't lost. -/
theorem C92_pristine {cfg : Config} {es : List Ev} {s : St} (h : run cfg {} es = some s)
    (ho : s.openAttr = some true) :
    .close ∉ s.sent ∧ s.closeCode = none ∧ (∀ code, Spec.reads code ∉ es) ∧ ∀ exc, Ev.lost exc ∉ es := by
  have hi := inv_init.run h
  obtain ⟨h1, -, -⟩ := openAttr_true.1 ho
  have hcode : s.closeCode = none := by
    by_cases hc : s.closeCode = none
    · exact hc
    · have := coded_run inv_init (by simp) h hc
      rw [h1] at this
      exact absurd this (by decide)
  refine ⟨hi.before (.inr h1), hcode, ?_⟩
  rcases C82_code h with ⟨code, -, h2, -⟩ | ⟨h2, ⟨-, h3⟩ | ⟨h3, -⟩⟩
  · rw [hcode] at h2; cases h2
  · rw [hcode] at h3; cases h3
  · exact ⟨h2, h3⟩

/-- After the opening handshake, once `open` is false, it remains false. -/
theorem C92_forever {cfg : Config} {es es' : List Ev} {s s' : St} (h : run cfg {} es = some s)
    (hs : s.state ≠ .connecting) (ho : s.openAttr = some false) (h' : run cfg s es' = some s') :
    s'.openAttr = some false := by
  have hi := inv_init.run h
  clear h
  induction es' generalizing s with
  | nil => cases h'; exact ho
  | cons e es ih =>
    simp only [run, Option.bind_eq_some_iff] at h'
    obtain ⟨s1, h1, h2⟩ := h'
    have hr := (step_frame h1).2.1
    refine ih ?_ ?_ h2 (hi.step h1)
    · intro h
      rw [h] at hr
      cases hst : s.state <;> simp_all [Spec.rank]
    · rw [openAttr_false] at ho ⊢
      by_cases hop : s.state = .opened
      · have he : s.transfer = .ended := by simpa [hop] using ho
        exact .inr ((transfer_step hi h1 (by rw [he]; simp)).2 he)
      · left
        intro h
        rw [h] at hr
        cases hst : s.state <;> simp_all [Spec.rank]

/-- After the opening handshake, a call to `send()`, `ping()` or `pong()` that begins when `open` is false never
succeeds. -/
theorem C92_refused {cfg : Config} {es es' : List Ev} {s s' : St} (h : run cfg {} es = some s)
    (hs : s.state ≠ .connecting) (ho : s.openAttr = some false) (h' : run cfg s (.write :: es') = some s') :
    ∃ c, s'.calls[s.calls.length]? = some c ∧ Spec.refused c = true := by
  simp only [run, Option.bind_eq_some_iff] at h'
  obtain ⟨s1, h1, h2⟩ := h'
  refine refused_run h2 (c := s.ensureOpen) ?_ (refused_ensureOpen ho hs)
  rw [openAttr_false] at ho
  simp only [step] at h1
  rw [if_neg (by rcases ho with ho | ho <;> simp [ho])] at h1
  cases h1
  simp

/-- `closed` is true if and only if the connection is lost; this is when `wait_closed()` returns; it remains true.
`open` and `closed` are never true at the same time. When `closed` is true, there's a close code. -/
theorem C92_closed {cfg : Config} {es es' : List Ev} {s s' : St} (h : run cfg {} es = some s)
    (h' : run cfg s es' = some s') :
    (s.closedAttr = true ↔ ∃ exc, Ev.lost exc ∈ es) ∧ s.waitClosed = s.closedAttr ∧
      (s.closedAttr = true → s.openAttr = some false ∧ s.closeCode ≠ none ∧ s'.closedAttr = true) := by
  have hi := inv_init.run h
  have hi' := hi.run h'
  have hl := run_lost h
  simp only [Bool.false_eq_true, false_or] at hl
  have hcl : s.closedAttr = s.lost := by
    unfold St.closedAttr
    rw [Bool.eq_iff_iff, decide_eq_true_iff]
    exact hi.lost
  refine ⟨by rw [hcl]; exact hl, hcl.symm, fun hc => ⟨?_, hi.code (hcl ▸ hc), ?_⟩⟩
  · rw [openAttr_false]
    unfold St.closedAttr at hc
    left
    rw [of_decide_eq_true hc]
    simp
  · rw [hcl] at hc
    unfold St.closedAttr
    rw [decide_eq_true_iff, hi'.lost, run_lost h']
    exact .inl hc

/-- Example: the connection opens; the peer closes it; `send()` is refused; then the connection is lost. -/
example :
    (run ⟨true, true⟩ {} [.opened, .closerRun]).map (fun s => (s.openAttr, s.closedAttr)) = some (some true, false) ∧
    (run ⟨true, true⟩ {} [.opened, .closerRun, .receive (.close 1000)]).map (fun s => (s.openAttr, s.closedAttr)) =
      some (some false, false) ∧
    (run ⟨true, true⟩ {} [.opened, .closerRun, .receive (.close 1000), .write, .transferDrained true, .closerRun,
      .lost false, .closerLost, .call 0 .woken]).map (fun s => (s.openAttr, s.closedAttr, s.calls)) =
      some (some false, true, [.ended (.connectionClosed 1000)]) := by decide +kernel

/-- Example: `transfer_data_task` ends with an exception; `open` is false although the state is OPEN. -/
example : (run ⟨true, true⟩ {} [.opened, .closerRun, .receive (.error 1006)]).map
    (fun s => (s.state, s.openAttr)) = some (.opened, some false) := by decide +kernel

/-- Before the opening handshake, calls raise `InvalidState`. -/
example : (run ⟨true, true⟩ {} [.write]).map (fun s => (s.openAttr, s.calls)) =
    some (some false, [.ended .invalidState]) := by decide +kernel

end WS.LegacyLife
