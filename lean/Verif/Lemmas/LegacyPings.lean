import Verif.Lemmas.LegacyConn

/-!
# Pings
-/

namespace WS.LegacyConn

/-- The calls that wrote ping frames. -/
def pingIds (log : List (Option Nat × Frame)) : List Nat :=
  log.filterMap fun (i, f) => if f.opcode = .ping then i else none

theorem pingIds_append (a b : List (Option Nat × Frame)) : pingIds (a ++ b) = pingIds a ++ pingIds b :=
  List.filterMap_append

/-- The part of the state that pings depend on. -/
def Conn.pp (s : Conn) : List (Bytes × Nat) × List Nat × List Nat × List Call × List Nat :=
  (s.pings, s.acked, s.aborted, s.calls, pingIds s.log)

@[simp] theorem Conn.setTask_pp (s : Conn) (i : Nat) (pc : Option Pc) : (s.setTask i pc).pp = s.pp := rfl

theorem Conn.write_pp {s s' : Conn} {i : Option Nat} {fin : Bool} {op : Opcode} {data : Bytes}
    {expected : State} (h : s.write i fin op data expected = .ok s') (hop : op ≠ .ping) :
    s'.pp = s.pp := by
  obtain ⟨-, rfl⟩ := Conn.write_ok h
  simp [Conn.pp, pingIds, hop]

@[simp] theorem Conn.fail_pp (s : Conn) (code : Int) : (s.fail code).pp = s.pp := by
  unfold Conn.fail
  split
  · split
    · rfl
    · simp [Conn.pp, pingIds]
  · rfl

@[simp] theorem Conn.writeClose_pp (s : Conn) (i : Option Nat) (data : Bytes) :
    (s.writeClose i data).1.pp = s.pp := by
  unfold Conn.writeClose
  split
  · simp only
    split
    · rfl
    · rename_i hw
      have := Conn.write_pp hw (by simp)
      exact this
  · rfl

@[simp] theorem Conn.release_pp (s : Conn) (i : Nat) (o : Obs) : (s.release i o).1.pp = s.pp := by
  unfold Conn.release
  split <;> rfl

@[simp] theorem Conn.failFragment_pp (s : Conn) (i : Nat) (e : Exn) :
    (s.failFragment i e).1.pp = s.pp := by
  simp [Conn.failFragment]

@[simp] theorem Conn.sendNext_pp (s : Conn) (i : Nat) (async text : Bool) (items : List Chunk) :
    (s.sendNext i async text items).1.pp = s.pp := by
  unfold Conn.sendNext
  split
  · split
    · simp
    · rename_i hw; simpa using Conn.write_pp hw (by simp)
  · simp
  · split
    · simp
    · split
      · simp
      · rename_i hw; simpa using Conn.write_pp hw (by simp)

theorem opcodeOf_ne_ping (text : Bool) : opcodeOf text ≠ .ping := by cases text <;> simp [opcodeOf]

@[simp] theorem Conn.sendFirst_pp (s : Conn) (i : Nat) (async : Bool) (items : List Chunk) :
    (s.sendFirst i async items).1.pp = s.pp := by
  unfold Conn.sendFirst
  split
  · simp
  · simp
  · simp only
    split
    · simp; rfl
    · rename_i hw
      have := Conn.write_pp hw (opcodeOf_ne_ping _)
      exact this

@[simp] theorem Conn.sendLoop_pp (s : Conn) (i : Nat) (m : Msg) : (s.sendLoop i m).1.pp = s.pp := by
  unfold Conn.sendLoop
  split
  · simp
  · split
    · split
      · simp
      · rename_i hw; simpa using Conn.write_pp hw (opcodeOf_ne_ping _)
    · simp
    · simp
    · simp

@[simp] theorem Conn.afterFragment_pp (s : Conn) (i : Nat) (async text : Bool) (items : List Chunk) :
    (s.afterFragment i async text items).1.pp = s.pp := by
  unfold Conn.afterFragment
  split <;> simp

@[simp] theorem Conn.afterPing_pp (s : Conn) (i : Nat) (data : Bytes) :
    (s.afterPing i data).1.pp = s.pp := by
  unfold Conn.afterPing
  split <;> simp

theorem pp_of_eq {s s' : Conn} {o : List Obs} {p : Conn × List Obs} (h : some p = some (s', o))
    (hg : p.1.pp = s.pp) : s'.pp = s.pp := by
  cases h; exact hg

theorem Conn.resume_pp {s s' : Conn} {i : Nat} {d : Drain} {o : List Obs}
    (h : s.resume i d = some (s', o)) : s'.pp = s.pp := by
  unfold Conn.resume at h
  simp only [Conn.fail_1006] at h
  split at h
  · cases h
  all_goals (try split at h) <;> (try split at h) <;>
    first | exact pp_of_eq h (by simp) | cases h

theorem Conn.cancel_pp {s s' : Conn} {i : Nat} {o : List Obs}
    (h : s.cancel i = some (s', o)) : s'.pp = s.pp := by
  unfold Conn.cancel at h
  split at h
  · cases h
  all_goals exact pp_of_eq h (by simp)

@[simp] theorem Conn.transferFails_pp (s : Conn) (code : Int) : (s.transferFails code).pp = s.pp := by
  have : (s.transferFails code).pp = (s.fail code).pp := rfl
  simp [this]

theorem Conn.ensureTransfer_pp {s opened closed : Conn} (h1 : opened.pp = s.pp)
    (h2 : closed.pp = s.pp) : (s.ensureTransfer opened closed).pp = s.pp := by
  unfold Conn.ensureTransfer
  split
  · exact h1
  · exact h2
  · rfl

@[simp] theorem Conn.recvClose_pp (s : Conn) (data : Bytes) : (s.recvClose data).pp = s.pp := by
  unfold Conn.recvClose
  split
  · simp
  · simp
  · rename_i info _
    have := ({ s with closeInfo := some info } : Conn).writeClose_pp none data
    split
    all_goals
      rename_i s1 hw
      rw [hw] at this
      first
        | exact this
        | (rw [Conn.transferFails_pp]; exact this)

@[simp] theorem Conn.recvPing_pp (s : Conn) (data : Bytes) : (s.recvPing data).pp = s.pp := by
  unfold Conn.recvPing
  refine Conn.ensureTransfer_pp ?_ (by simp)
  split
  · simp
  · simp
  · rename_i hw
    have := Conn.write_pp hw (by simp)
    exact this

theorem Conn.resumeTransfer_pp {s s' : Conn} {d : Drain} (h : s.resumeTransfer d = some s') :
    s'.pp = s.pp := by
  unfold Conn.resumeTransfer at h
  simp only [Conn.fail_1006] at h
  split at h
  · split at h
    · cases h; rfl
    · cases h; exact Conn.ensureTransfer_pp rfl (by simp)
    · cases h; simp
  · split at h
    · cases h; rfl
    · cases h; exact Conn.ensureTransfer_pp rfl rfl
    · cases h; simp
  · cases h

/-- A connection is closed neither before nor after, or both. -/
def Shut (s s' : Conn) : Prop := s'.state = .closed ↔ s.state = .closed

theorem Shut.same {s s' : Conn} (h : s'.state = s.state) : Shut s s' := by rw [Shut, h]

theorem Shut.trans {s t u : Conn} (h : Shut s t) (h' : Shut t u) : Shut s u := Iff.trans h' h

/-- The effect of a step on pings. -/
inductive PingStep (s : Conn) : Act → Conn → Prop where
  /-- none, apart from the list of calls -/
  | other {a : Act} {s' : Conn} (cs : List Call)
      (h : s'.pp = (s.pings, s.acked, s.aborted, s.calls ++ cs, pingIds s.log))
      (hc : Shut s s')
      (hn : a ≠ .lost) (hp : ∀ d, a = .recvPong d → s' = s ∧ d ∉ s.pings.map (·.1)) : PingStep s a s'
  /-- a ping is registered, and written, or refused by `write_frame` -/
  | ping {explicit : Bool} {d : Bytes} {s' : Conn} {w : List Nat} (hw : w = [s.calls.length] ∨ w = [])
      (hd : d ∉ s.pings.map (·.1)) (ho : s.state = .opened)
      (hst : s'.state = s.state)
      (h : s'.pp = (s.pings ++ [(d, s.calls.length)], s.acked, s.aborted,
        s.calls ++ [.ping explicit d], pingIds s.log ++ w)) : PingStep s (.call (.ping explicit d)) s'
  /-- a pong is received -/
  | pong {d : Bytes} {s' : Conn} {futs : List Nat} {rest : List (Bytes × Nat)}
      (hs : splitPings d s.pings = some (futs, rest)) (hst : s'.state = s.state)
      (h : s'.pp = (rest, futs.filter (fun f => f ∉ s.acked ∧ f ∉ s.aborted) ++ s.acked, s.aborted,
        s.calls, pingIds s.log)) : PingStep s (.recvPong d) s'
  /-- the connection is lost -/
  | lost {s' : Conn} (hs : s.state ≠ .closed) (hst : s'.state = .closed)
      (h : s'.pp = (s.pings, s.acked, s.pings.map (·.2) ++ s.aborted, s.calls, pingIds s.log)) :
      PingStep s .lost s'

theorem splitPings_none {d : Bytes} {l : List (Bytes × Nat)} (h : splitPings d l = none) :
    d ∉ l.map (·.1) := by
  induction l with
  | nil => simp
  | cons x xs ih =>
    obtain ⟨id, fut⟩ := x
    simp only [splitPings] at h
    split at h
    · cases h
    · rename_i hne
      split at h
      · rename_i hs
        simp only [List.map_cons, List.mem_cons, not_or]
        exact ⟨fun e => hne e.symm, ih hs⟩
      · cases h

theorem splitPings_some {d : Bytes} {l rest : List (Bytes × Nat)} {futs : List Nat}
    (h : splitPings d l = some (futs, rest)) :
    ∃ pre fut, l = pre ++ (d, fut) :: rest ∧ futs = pre.map (·.2) ++ [fut] ∧ d ∉ pre.map (·.1) := by
  induction l generalizing futs with
  | nil => cases h
  | cons x xs ih =>
    obtain ⟨id, fut⟩ := x
    simp only [splitPings] at h
    split at h
    · rename_i he; subst he; cases h; exact ⟨[], fut, rfl, rfl, by simp⟩
    · rename_i hne
      split at h
      · cases h
      · rename_i futs' rest' hs
        cases h
        obtain ⟨pre, fut', h1, h2, h3⟩ := ih hs
        refine ⟨(id, fut) :: pre, fut', by simp [h1], by simp [h2], ?_⟩
        simp only [List.map_cons, List.mem_cons, not_or]
        exact ⟨fun e => hne e.symm, h3⟩

theorem Conn.write_state {s s' : Conn} {i : Option Nat} {fin : Bool} {op : Opcode} {data : Bytes}
    {expected : State} (h : s.write i fin op data expected = .ok s') : s'.state = s.state := by
  obtain ⟨-, rfl⟩ := Conn.write_ok h; rfl

theorem Conn.fail_shut (s : Conn) (code : Int) : Shut s (s.fail code) := by
  unfold Conn.fail
  split
  · rename_i hc
    split
    · exact .same rfl
    · simp [Shut, hc.2]
  · exact .same rfl

theorem Conn.writeClose_shut (s : Conn) (i : Option Nat) (data : Bytes) :
    Shut s (s.writeClose i data).1 := by
  unfold Conn.writeClose
  split
  · rename_i hs
    simp only
    split
    · simp [Shut, hs]
    · rename_i hw
      have := Conn.write_state hw
      simp [Shut, hs, this]
  · exact .same rfl

theorem Conn.release_shut (s : Conn) (i : Nat) (o : Obs) : Shut s (s.release i o).1 := by
  unfold Conn.release
  split <;> exact .same rfl

theorem Conn.failFragment_shut (s : Conn) (i : Nat) (e : Exn) : Shut s (s.failFragment i e).1 :=
  (s.fail_shut 1011).trans (Conn.release_shut _ _ _)

theorem Conn.sendNext_shut (s : Conn) (i : Nat) (async text : Bool) (items : List Chunk) :
    Shut s (s.sendNext i async text items).1 := by
  unfold Conn.sendNext
  split
  · split
    · exact Conn.failFragment_shut _ _ _
    · rename_i hw; have := Conn.write_state hw; exact .same this
  · exact Conn.failFragment_shut _ _ _
  · split
    · exact Conn.failFragment_shut _ _ _
    · split
      · exact Conn.failFragment_shut _ _ _
      · rename_i hw; have := Conn.write_state hw; exact .same this

theorem Conn.sendFirst_shut (s : Conn) (i : Nat) (async : Bool) (items : List Chunk) :
    Shut s (s.sendFirst i async items).1 := by
  unfold Conn.sendFirst
  split
  · exact .same rfl
  · exact .same rfl
  · simp only
    split
    · exact Shut.trans (t := { s with frag := some i }) (.same rfl) (Conn.failFragment_shut _ _ _)
    · rename_i hw
      have := Conn.write_state hw
      exact .same this

theorem Conn.sendLoop_shut (s : Conn) (i : Nat) (m : Msg) : Shut s (s.sendLoop i m).1 := by
  unfold Conn.sendLoop
  split
  · exact .same rfl
  · split
    · split
      · exact .same rfl
      · rename_i hw; have := Conn.write_state hw; exact .same this
    · exact Conn.sendFirst_shut _ _ _ _
    · exact .same rfl
    · exact Conn.sendFirst_shut _ _ _ _

theorem Conn.afterFragment_shut (s : Conn) (i : Nat) (async text : Bool) (items : List Chunk) :
    Shut s (s.afterFragment i async text items).1 := by
  unfold Conn.afterFragment
  split
  · exact .same rfl
  · exact Conn.sendNext_shut _ _ _ _ _

theorem Conn.afterPing_shut (s : Conn) (i : Nat) (data : Bytes) : Shut s (s.afterPing i data).1 := by
  unfold Conn.afterPing
  split <;> exact .same rfl

theorem Shut.of_eq {s s' : Conn} {o : List Obs} {p : Conn × List Obs} (h : some p = some (s', o))
    (hg : Shut s p.1) : Shut s s' := by
  cases h; exact hg

theorem Conn.resume_shut {s s' : Conn} {i : Nat} {d : Drain} {o : List Obs}
    (h : s.resume i d = some (s', o)) : Shut s s' := by
  unfold Conn.resume at h
  simp only [Conn.fail_1006] at h
  split at h
  · cases h
  all_goals (try split at h) <;> (try split at h) <;> first
    | exact .of_eq h (.same rfl)
    | exact .of_eq h (Conn.sendLoop_shut _ _ _)
    | exact .of_eq h (Conn.sendFirst_shut _ _ _ _)
    | exact .of_eq h (Conn.sendNext_shut _ _ _ _ _)
    | exact .of_eq h (Conn.afterFragment_shut _ _ _ _ _)
    | exact .of_eq h (Conn.afterPing_shut _ _ _)
    | exact .of_eq h (Conn.failFragment_shut _ _ _)
    | exact .of_eq h (Conn.release_shut _ _ _)
    | cases h

theorem Conn.cancel_shut {s s' : Conn} {i : Nat} {o : List Obs}
    (h : s.cancel i = some (s', o)) : Shut s s' := by
  unfold Conn.cancel at h
  split at h
  · cases h
  all_goals first
    | exact .of_eq h (.same rfl)
    | exact .of_eq h (Conn.release_shut _ _ _)

theorem Conn.transferFails_shut (s : Conn) (code : Int) : Shut s (s.transferFails code) :=
  (s.fail_shut code).trans (.same rfl)

theorem Conn.ensureTransfer_shut {s opened closed : Conn} (h1 : Shut s opened)
    (h2 : Shut s closed) : Shut s (s.ensureTransfer opened closed) := by
  unfold Conn.ensureTransfer
  split
  · exact h1
  · exact h2
  · exact .same rfl

theorem Conn.recvClose_shut (s : Conn) (data : Bytes) : Shut s (s.recvClose data) := by
  unfold Conn.recvClose
  split
  · exact s.transferFails_shut _
  · exact s.transferFails_shut _
  · rename_i info _
    have key : Shut s { s with closeInfo := some info } := .same rfl
    have := ({ s with closeInfo := some info } : Conn).writeClose_shut none data
    split
    all_goals
      rename_i s1 hw
      rw [hw] at this
      first
        | exact (key.trans this).trans (.same rfl)
        | exact (key.trans this).trans (Conn.transferFails_shut _ _)

theorem Conn.recvPing_shut (s : Conn) (data : Bytes) : Shut s (s.recvPing data) := by
  unfold Conn.recvPing
  refine Conn.ensureTransfer_shut ?_ (s.transferFails_shut _)
  split
  · exact s.transferFails_shut _
  · exact s.transferFails_shut _
  · rename_i hw; have := Conn.write_state hw; exact .same this

theorem Conn.resumeTransfer_shut {s s' : Conn} {d : Drain} (h : s.resumeTransfer d = some s') :
    Shut s s' := by
  unfold Conn.resumeTransfer at h
  simp only [Conn.fail_1006] at h
  split at h
  · split at h
    · cases h; exact .same rfl
    · cases h; exact Conn.ensureTransfer_shut (.same rfl) (s.transferFails_shut _)
    · cases h; exact s.transferFails_shut _
  · split at h
    · cases h; exact .same rfl
    · cases h; exact Conn.ensureTransfer_shut (.same rfl) (.same rfl)
    · cases h; exact s.transferFails_shut _
  · cases h

theorem Conn.call_pings {s s' : Conn} {c : Call} {o : List Obs} (h : s.call c = some (s', o)) :
    PingStep s (.call c) s' := by
  unfold Conn.call at h
  simp only at h
  split at h
  · rename_i data
    have h1 := ({ s with calls := s.calls ++ [.close data] } : Conn).writeClose_pp
      (some s.calls.length) data
    have h2 := ({ s with calls := s.calls ++ [.close data] } : Conn).writeClose_shut
      (some s.calls.length) data
    split at h
    all_goals
      rename_i s1 hw
      rw [hw] at h1 h2
      cases h
      exact .other [.close data] h1 h2 (by simp) (by simp)
  · rename_i c hc
    split at h
    · rename_i hopen
      have hop : s.state = .opened := by
        simp only [Conn.isOpen, Bool.and_eq_true, decide_eq_true_eq] at hopen
        exact hopen.1
      have hcl : s.state ≠ .closed := by rw [hop]; simp
      unfold Conn.callOpen at h
      split at h
      · rename_i m
        refine .other [.send m] ?_ (Shut.of_eq h (Conn.sendLoop_shut _ _ _)) (by simp) (by simp)
        have := pp_of_eq h (Conn.sendLoop_pp _ _ _)
        exact this
      · rename_i explicit d
        split at h
        · split at h
          · cases h
            exact .other [.ping explicit d] rfl (.same rfl) (by simp) (by simp)
          · cases h
        · rename_i hnot
          simp only at h
          split at h
          · cases h
            exact .ping (.inr rfl) hnot hop rfl (by simp [Conn.pp])
          · rename_i hw
            cases h
            obtain ⟨-, rfl⟩ := Conn.write_ok hw
            exact .ping (.inl rfl) hnot hop rfl (by simp [Conn.pp, pingIds, Conn.setTask])
      · rename_i data
        split at h
        · cases h
          exact .other [.pong data] rfl (.same rfl) (by simp) (by simp)
        · rename_i hw
          cases h
          refine .other [.pong data] ?_ (by have := Conn.write_state hw; exact .same this) (by simp) (by simp)
          rw [Conn.setTask_pp, Conn.write_pp hw (by simp)]
          rfl
      · cases h
    · split at h
      · cases h
        exact .other [_] rfl (.same rfl) (by simp) (by simp)
      · cases h
        exact .other [_] rfl (.same rfl) (by simp) (by simp)

theorem Conn.step_pings {s s' : Conn} {a : Act} {o : List Obs} (h : s.step a = some (s', o)) :
    PingStep s a s' := by
  have key : ∀ {t : Conn}, t.pp = s.pp →
      t.pp = (s.pings, s.acked, s.aborted, s.calls ++ [], pingIds s.log) := by
    intro t ht; rw [ht]; simp [Conn.pp]
  cases a <;> simp only [Conn.step] at h
  case call c => exact Conn.call_pings h
  case resume =>
    exact .other [] (key (Conn.resume_pp h)) (Conn.resume_shut h) (by simp) (by simp)
  case cancel => exact .other [] (key (Conn.cancel_pp h)) (Conn.cancel_shut h) (by simp) (by simp)
  case recvClose =>
    split at h
    · cases h; exact .other [] (key (s.recvClose_pp _)) (s.recvClose_shut _) (by simp) (by simp)
    · cases h
  case recvPing =>
    split at h
    · cases h; exact .other [] (key (s.recvPing_pp _)) (s.recvPing_shut _) (by simp) (by simp)
    · cases h
  case recvPong d =>
    split at h
    · cases h
      cases hs : splitPings d s.pings with
      | none =>
        have hr : s.recvPong d = s := by simp [Conn.recvPong, hs]
        rw [hr]
        refine .other [] (key rfl) (.same rfl) (by simp) ?_
        intro d' hd'
        cases hd'
        exact ⟨rfl, splitPings_none hs⟩
      | some p =>
        obtain ⟨futs, rest⟩ := p
        refine .pong hs ?_ ?_ <;> simp [Conn.recvPong, hs, Conn.pp]
    · cases h
  case resumeTransfer =>
    simp only [Option.map_eq_some_iff, Prod.mk.injEq] at h
    obtain ⟨s1, h1, rfl, rfl⟩ := h
    exact .other [] (key (Conn.resumeTransfer_pp h1)) (Conn.resumeTransfer_shut h1) (by simp) (by simp)
  case transferFails =>
    split at h
    · cases h
      exact .other [] (key (s.transferFails_pp _)) (s.transferFails_shut _) (by simp) (by simp)
    · cases h
  case cancelTransfer =>
    split at h
    · cases h
    · cases h; exact .other [] (key rfl) (.same rfl) (by simp) (by simp)
  case fail => cases h; exact .other [] (key (s.fail_pp _)) (s.fail_shut _) (by simp) (by simp)
  case lost =>
    split at h
    · cases h
    · rename_i hc
      cases h; exact .lost hc rfl rfl

theorem Conn.exec_snoc {s0 s s' : Conn} {as : List Act} {a : Act} {os o : List Obs}
    (h : s0.exec as = some (s, os)) (h1 : s.step a = some (s', o)) :
    s0.exec (as ++ [a]) = some (s', os ++ o) := by
  induction as generalizing s0 os with
  | nil => cases h; simp [Conn.exec, h1]
  | cons b as ih =>
    obtain ⟨u, o', os'', g1, g2, rfl⟩ := Conn.exec_cons h
    simp [Conn.exec, g1, ih g2]

/-- Executions, one step at a time. -/
theorem Conn.exec_induction {P : List Act → Conn → List Obs → Prop} {s0 : Conn} (nil : P [] s0 [])
    (snoc : ∀ as a s s' os o, s0.exec as = some (s, os) → P as s os → s.step a = some (s', o) →
      P (as ++ [a]) s' (os ++ o)) :
    ∀ {as s os}, s0.exec as = some (s, os) → P as s os := by
  have key : ∀ bs as s os s' os', s0.exec as = some (s, os) → P as s os →
      s.exec bs = some (s', os') → P (as ++ bs) s' (os ++ os') := by
    intro bs
    induction bs with
    | nil => intro as s os s' os' _ hp h; cases h; simpa using hp
    | cons b bs ih =>
      intro as s os s' os' hs hp h
      obtain ⟨t, o, os1, h1, h2, rfl⟩ := Conn.exec_cons h
      have := ih (as ++ [b]) t (os ++ o) s' os1 (Conn.exec_snoc hs h1)
        (snoc as b s t os o hs hp h1) h2
      simpa using this
  intro as s os h
  have := key as [] s0 [] s os rfl nil h
  simpa using this

end WS.LegacyConn
