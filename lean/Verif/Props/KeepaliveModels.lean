import Verif.Props.LegacyKeepalive
import Verif.Props.LegacyModels

/-!
# The models of legacy/protocol.py agree: keepalive

Executions of `Verif.Model.LegacyKeepalive`, in which time passes, are executions of `Verif.Model.LegacyConn`.
-/

namespace WS.KeepaliveModels

open Spec
open LegacyKeepalive (St Ev Item Hist Config Phase)
open LegacyConn (Act)
open LegacyModels (closeData closeData_parse exec_append exec_one conn_fail_frame)

/-- What `transfer_data` does in `LegacyConn` -/
def transferActs (s : St) : List Act :=
  match s.transfer, s.incoming with
  | .reading, (.ping, _) :: _ =>
    if s.state = .opened ∧ s.paused = false then [.recvPing [], .resumeTransfer .ok] else [.recvPing []]
  | .reading, (.pong data, _) :: _ => [.recvPong data]
  | .ponging, _ => [.resumeTransfer .ok]
  | _, _ => []

/-- What `keepalive_ping` does in `LegacyConn` -/
def keepaliveActs (s : St) (data : Bytes) : List Act :=
  match s.phase with
  | .sleeping _ => if s.state = .opened ∧ s.transfer ≠ .exited then [.call (.ping false data)] else []
  | .waiting d _ =>
    if (d, true) ∈ s.pings ∧ s.state ≠ .closed then
      .fail 1011 :: if s.transfer = .exited then [] else [.cancelTransfer]
    else []
  | _ => []

/-- What happens in `LegacyConn` when `e` happens in `LegacyKeepalive`.  (Payloads of received pings and of the close
frame of `close()` are arbitrary.) -/
def acts (s : St) : Ev → List Act
  | .transfer => transferActs s
  | .transferEnds => if s.transfer = .exited then [] else [.cancelTransfer]
  | .userPing data => [.call (.ping true data)]
  | .keepalive data => keepaliveActs s data
  | .close => [.call (.close (closeData 1000))]
  | .lost => if s.state = .closed then [] else [.lost]
  | _ => []

/-- What happens in `LegacyConn` during an execution of `LegacyKeepalive` -/
def actsOf (cfg : Config) (s : St) : List Ev → List Act
  | [] => []
  | e :: es =>
    match LegacyKeepalive.step cfg s e with
    | none => []
    | some s' => acts s e ++ actsOf cfg s' es

/-- The application sends pings that fit in a control frame. -/
def Valid : Ev → Prop
  | .userPing data => data.length ≤ 125
  | _ => True

/-- Payloads of the pings in the log -/
def loggedPings (log : List (Option Nat × Frame)) : List Bytes :=
  log.filterMap fun x => if x.2.opcode = .ping then some x.2.data else none

/-- Payloads of the pings in the history -/
def sentPings (trace : List (Nat × Hist)) : List Bytes :=
  trace.filterMap fun x => match x.2 with | .sent data => some data | _ => none

/-- Where `transfer_data` is suspended -/
inductive SameTransfer : LegacyKeepalive.Transfer → LegacyConn.Transfer → Prop
  | reading : SameTransfer .reading .reading
  | putting : SameTransfer .putting .reading
  | ponging : SameTransfer .ponging .ponging
  | stuck : SameTransfer .stuck .stuck
  | exited : SameTransfer .exited .exited

/-- The states represent the same connection. -/
structure Same (s : St) (c : LegacyConn.Conn) : Prop where
  state : c.state = s.state
  transfer : SameTransfer s.transfer c.transfer
  pings : c.pings.map (·.1) = s.keys
  sent : loggedPings c.log = sentPings s.trace

structure Sim (s : St) (c : LegacyConn.Conn) : Prop extends Same s c where
  started : s.state ≠ .connecting

theorem SameTransfer.reading_eq {t : LegacyConn.Transfer} (h : SameTransfer .reading t) : t = .reading := by cases h; rfl
theorem SameTransfer.ponging_eq {t : LegacyConn.Transfer} (h : SameTransfer .ponging t) : t = .ponging := by cases h; rfl
theorem SameTransfer.putting_eq {t : LegacyConn.Transfer} (h : SameTransfer .putting t) : t = .reading := by cases h; rfl
theorem SameTransfer.exited_iff {t : LegacyKeepalive.Transfer} {t' : LegacyConn.Transfer} (h : SameTransfer t t') :
    t' = .exited ↔ t = .exited := by cases h <;> simp

theorem loggedPings_snoc (log : List (Option Nat × Frame)) (i : Option Nat) (f : Frame) :
    loggedPings (log ++ [(i, f)]) = loggedPings log ++ if f.opcode = .ping then [f.data] else [] := by
  unfold loggedPings
  rw [List.filterMap_append]
  congr 1
  simp only [List.filterMap_cons, List.filterMap_nil]
  split <;> simp_all

theorem sentPings_snoc (trace : List (Nat × Hist)) (t : Nat) (x : Hist) :
    sentPings (trace ++ [(t, x)]) = sentPings trace ++ match x with | .sent data => [data] | _ => [] := by
  unfold sentPings
  rw [List.filterMap_append]
  congr 1
  cases x <;> rfl

/-- Pongs acknowledge the same pings. -/
theorem splitPings_ack (data : Bytes) (ps : List (Bytes × Nat)) (qs : List (Bytes × Bool)) (h : ps.map (·.1) = qs.map (·.1)) :
    (data ∉ qs.map (·.1) ∧ LegacyConn.splitPings data ps = none) ∨
    (data ∈ qs.map (·.1) ∧ ∃ futs rest, LegacyConn.splitPings data ps = some (futs, rest) ∧
      rest.map (·.1) = (LegacyKeepalive.ack data qs).map (·.1)) := by
  induction ps generalizing qs with
  | nil =>
    cases qs with
    | nil => exact .inl ⟨by simp, rfl⟩
    | cons q qs => cases h
  | cons p ps ih =>
    cases qs with
    | nil => cases h
    | cons q qs =>
      simp only [List.map_cons, List.cons.injEq] at h
      obtain ⟨id, fut⟩ := p
      simp only at h
      by_cases hd : id = data
      · refine .inr ⟨by simp [← h.1, hd], [fut], ps, by simp [LegacyConn.splitPings, hd], ?_⟩
        simp [LegacyKeepalive.ack, ← h.1, hd, h.2]
      · have hq : q.1 ≠ data := by rw [← h.1]; exact hd
        rcases ih qs h.2 with ⟨h1, h2⟩ | ⟨h1, futs, rest, h2, h3⟩
        · exact .inl ⟨by simp [Ne.symm hq, h1], by simp [LegacyConn.splitPings, hd, h2]⟩
        · exact .inr ⟨by simp [h1], fut :: futs, rest, by simp [LegacyConn.splitPings, hd, h2],
            by simp [LegacyKeepalive.ack, hq, h3]⟩

theorem Sim.of {s s' : St} {c c' : LegacyConn.Conn} (h : Sim s c) (h1 : s'.state = s.state)
    (h2 : s'.keys = s.keys) (h3 : sentPings s'.trace = sentPings s.trace) (h4 : SameTransfer s'.transfer c'.transfer)
    (h5 : c'.state = c.state) (h6 : c'.pings = c.pings) (h7 : loggedPings c'.log = loggedPings c.log) : Sim s' c' :=
  ⟨⟨by rw [h5, h.state, h1], h4, by rw [h6, h.pings, h2], by rw [h7, h.sent, h3]⟩, by rw [h1]; exact h.started⟩

theorem call_ping {c : LegacyConn.Conn} {explicit : Bool} {data : Bytes} (ho : c.state = .opened) (ht : c.transfer ≠ .exited)
    (hd : data ∉ c.pings.map (·.1)) (hl : data.length ≤ 125) :
    c.step (.call (.ping explicit data)) = some ({ c with
      calls := c.calls ++ [.ping explicit data]
      pings := c.pings ++ [(data, c.calls.length)]
      log := c.log ++ [(some c.calls.length, { fin := true, opcode := .ping, data })]
      tasks := fun j => if j = c.calls.length then some (.pinging data) else c.tasks j }, []) := by
  simp only [LegacyConn.Conn.step, LegacyConn.Conn.call, LegacyConn.Conn.isOpen, ho, LegacyConn.Conn.callOpen]
  simp only [ht, hd, if_false]
  simp [LegacyConn.Conn.write, Frame.check, Opcode.isCtrl, LegacyConn.Conn.setTask, ho, Nat.not_lt.2 hl]
  exact ht

/-- A ping is sent. -/
theorem sim_ping {s : St} {c : LegacyConn.Conn} {explicit k : Bool} {data : Bytes} (h : Sim s c) (ho : s.state = .opened)
    (ht : s.transfer ≠ .exited) (hd : data ∉ s.keys) (hl : data.length ≤ 125) :
    ∃ c', c.exec [.call (.ping explicit data)] = some (c', []) ∧ Sim (s.sendPing data k) c' := by
  refine ⟨_, exec_one (call_ping (h.state.trans ho) (fun he => ht (h.transfer.exited_iff.1 he)) (by rw [h.pings]; exact hd) hl), ?_⟩
  refine ⟨⟨h.state, h.transfer, ?_, ?_⟩, h.started⟩
  · simp [LegacyKeepalive.St.sendPing, LegacyKeepalive.St.keys, h.pings]
  · simp only [LegacyKeepalive.St.sendPing]
    rw [loggedPings_snoc, sentPings_snoc, h.sent]
    rfl

theorem sim_afterPing {cfg : Config} {s : St} {c : LegacyConn.Conn} {data : Bytes} (h : Sim s c) :
    Sim (s.afterPing cfg data) c := by
  have hk : (s.afterPing cfg data).keys = s.keys := by
    unfold LegacyKeepalive.St.afterPing
    split
    · split
      · rfl
      · simp [LegacyKeepalive.St.keys, LegacyKeepalive.keys_mark]
    · rfl
  have hf : (s.afterPing cfg data).state = s.state ∧ (s.afterPing cfg data).trace = s.trace ∧
      (s.afterPing cfg data).transfer = s.transfer := by
    unfold LegacyKeepalive.St.afterPing
    grind
  exact h.of hf.1 hk (by rw [hf.2.1]) (hf.2.2 ▸ h.transfer) rfl rfl rfl

theorem resume_ponging {c : LegacyConn.Conn} (h : c.transfer = .ponging) :
    c.step (.resumeTransfer .ok) = some ({ c with transfer := .reading }, []) := by
  simp [LegacyConn.Conn.step, LegacyConn.Conn.resumeTransfer, h]

theorem step_recvPing {c : LegacyConn.Conn} (h : c.transfer = .reading) :
    c.step (.recvPing []) = some (c.recvPing [], []) := by
  simp [LegacyConn.Conn.step, h]

theorem step_cancelTransfer {c : LegacyConn.Conn} (h : c.transfer ≠ .exited) :
    c.step .cancelTransfer = some ({ c with transfer := .exited }, []) := by
  simp [LegacyConn.Conn.step, h]

theorem sim_transfer {cfg : Config} {s s' : St} {c : LegacyConn.Conn} (h : Sim s c) (hs : s.transferStep cfg = some s') :
    ∃ c' os, c.exec (transferActs s) = some (c', os) ∧ Sim s' c' := by
  have hst := h.state
  unfold LegacyKeepalive.St.transferStep at hs
  cases ht : s.transfer with
  | reading =>
    have hcr : c.transfer = .reading := by
      have := h.transfer
      rw [ht] at this
      exact this.reading_eq
    have hread : SameTransfer .reading c.transfer := hcr ▸ .reading
    simp only [ht] at hs
    cases hin : s.incoming with
    | nil => rw [hin] at hs; cases hs
    | cons x rest =>
      obtain ⟨i, a⟩ := x
      rw [hin] at hs
      simp only at hs
      have hsent : ∀ i, sentPings (s.trace ++ [(s.now, Hist.read i)]) = sentPings s.trace := by
        intro i; rw [sentPings_snoc]; simp
      cases i with
      | message =>
        simp only at hs
        refine ⟨c, [], by simp [transferActs, ht, hin, LegacyConn.Conn.exec], ?_⟩
        split at hs
        · cases hs
          exact h.of rfl rfl (hsent _) hread rfl rfl rfl
        · cases hs
          exact h.of rfl rfl (hsent _) (hcr ▸ .putting) rfl rfl rfl
      | pong data =>
        simp only at hs
        simp only [transferActs, ht, hin]
        have hstep : c.step (.recvPong data) = some (c.recvPong data, []) := by simp [LegacyConn.Conn.step, hcr]
        refine ⟨_, _, exec_one hstep, ?_⟩
        rcases splitPings_ack data c.pings s.pings h.pings with ⟨h1, h2⟩ | ⟨h1, futs, ps, h2, h3⟩
        · rw [show c.recvPong data = c by simp [LegacyConn.Conn.recvPong, h2]]
          rw [if_neg (by exact h1)] at hs
          cases hs
          exact h.of rfl rfl (hsent _) hread rfl rfl rfl
        · rw [show c.recvPong data = { c with
              pings := ps, acked := futs.filter (fun f => f ∉ c.acked ∧ f ∉ c.aborted) ++ c.acked } by
            simp [LegacyConn.Conn.recvPong, h2]]
          rw [if_pos (by exact h1)] at hs
          cases hs
          refine ⟨⟨hst, hread, h3, ?_⟩, h.started⟩
          simp only
          rw [hsent, h.sent]
      | ping =>
        simp only at hs
        simp only [transferActs, ht, hin]
        by_cases ho : s.state = .opened
        · have hopen := LegacyModels.recvPing_open (hst.trans ho)
          have hlog : loggedPings (c.log ++ [(none, ({ fin := true, opcode := .pong, data := [] } : Frame))]) =
              loggedPings c.log := by rw [loggedPings_snoc]; simp
          rw [if_pos (by simp [LegacyKeepalive.St.isOpen, ho, ht])] at hs
          cases hs
          cases hp : s.paused with
          | true =>
            simp only [Bool.true_eq_false, and_false, if_false, if_true]
            refine ⟨_, _, exec_one (step_recvPing hcr), ?_⟩
            rw [hopen]
            exact h.of rfl rfl (hsent _) .ponging rfl rfl hlog
          | false =>
            simp only [ho, and_self, if_true, Bool.false_eq_true, if_false]
            refine ⟨{ c.recvPing [] with transfer := .reading }, [], ?_, ?_⟩
            · rw [show [Act.recvPing [], Act.resumeTransfer .ok] = [Act.recvPing []] ++ [Act.resumeTransfer .ok] from rfl,
                exec_append _ _ _ (exec_one (step_recvPing hcr)), exec_one (resume_ponging (by rw [hopen]))]
              rfl
            · rw [hopen]
              exact h.of ho.symm rfl (hsent _) .reading rfl rfl hlog
        · rw [if_neg (by simp [LegacyKeepalive.St.isOpen, ho])] at hs
          simp only [ho, false_and, if_false]
          refine ⟨_, _, exec_one (step_recvPing hcr), ?_⟩
          by_cases hc : s.state = .closed
          · rw [if_pos hc] at hs
            cases hs
            have : c.recvPing [] = { c with transfer := .exited } := by
              have hcf := (conn_fail_frame c 1011).2.2.2 (.inr (by rw [hst]; exact ho))
              simp [LegacyConn.Conn.recvPing, LegacyConn.Conn.ensureTransfer, hst, hc, LegacyConn.Conn.transferFails, hcf]
            rw [this]
            exact h.of rfl rfl (hsent _) .exited rfl rfl rfl
          · rw [if_neg hc] at hs
            cases hs
            have hcl : s.state = .closing := by
              have := h.started
              cases hx : s.state <;> simp_all
            have : c.recvPing [] = { c with transfer := .stuck } := by
              simp [LegacyConn.Conn.recvPing, LegacyConn.Conn.ensureTransfer, hst, hcl]
            rw [this]
            exact h.of rfl rfl (hsent _) .stuck rfl rfl rfl
  | putting =>
    have hcr : c.transfer = .reading := by
      have := h.transfer
      rw [ht] at this
      exact this.putting_eq
    simp only [ht] at hs
    split at hs
    · cases hs
      refine ⟨c, [], by simp [transferActs, ht, LegacyConn.Conn.exec], h.of rfl rfl rfl ?_ rfl rfl rfl⟩
      rw [hcr]
      exact .reading
    · cases hs
  | ponging =>
    have hcp : c.transfer = .ponging := by
      have := h.transfer
      rw [ht] at this
      exact this.ponging_eq
    simp only [ht] at hs
    split at hs
    · cases hs
    · cases hs
      simp only [transferActs, ht]
      exact ⟨_, _, exec_one (resume_ponging hcp), h.of rfl rfl rfl .reading rfl rfl rfl⟩
  | stuck => simp [ht] at hs
  | exited => simp [ht] at hs

theorem fail_opened {c : LegacyConn.Conn} (ho : c.state = .opened) :
    c.fail 1011 = { c with
      state := .closing
      log := c.log ++ [(none, { fin := true, opcode := .close, data := [3, 243] })] } := by
  have : serializeClose 1011 [] = .ok [3, 243] := by rfl
  simp [LegacyConn.Conn.fail, ho, this]

theorem sim_keepalive {cfg : Config} {s s' : St} {c : LegacyConn.Conn} {data : Bytes} (h : Sim s c)
    (hs : s.keepalive cfg data = some s') : ∃ c' os, c.exec (keepaliveActs s data) = some (c', os) ∧ Sim s' c' := by
  have hst := h.state
  have hnil : ∀ s', Sim s' c → ∃ c' os, c.exec [] = some (c', os) ∧ Sim s' c' := fun s' h => ⟨c, [], rfl, h⟩
  have hphase : ∀ (s : St) (c : LegacyConn.Conn) (ph : Phase), Sim s c → Sim { s with phase := ph } c := fun s c ph h =>
    h.of rfl rfl rfl h.transfer rfl rfl rfl
  unfold LegacyKeepalive.St.keepalive at hs
  cases hp : s.phase with
  | sleeping wake =>
    simp only [hp] at hs
    simp only [keepaliveActs, hp]
    by_cases ho : s.state = .opened ∧ s.transfer ≠ .exited
    · have hopen : s.isOpen = true := by simp [LegacyKeepalive.St.isOpen, ho]
      rw [hopen] at hs
      simp only [if_true] at hs
      rw [if_pos ho]
      split at hs
      · split at hs
        · next hd =>
          obtain ⟨c', h1, h2⟩ := sim_ping (explicit := false) (k := true) h ho.1 ho.2 hd.2 (by omega)
          refine ⟨c', [], h1, ?_⟩
          split at hs
          · cases hs
            exact hphase _ _ _ h2
          · cases hs
            exact sim_afterPing h2
        · cases hs
      · cases hs
    · rw [if_neg ho]
      have hopen : s.isOpen = false := by
        simp only [LegacyKeepalive.St.isOpen, Bool.and_eq_false_iff, decide_eq_false_iff_not]
        by_cases h1 : s.state = .opened
        · exact .inr (fun h2 => ho ⟨h1, h2⟩)
        · exact .inl h1
      rw [hopen] at hs
      simp only [Bool.false_eq_true, if_false] at hs
      refine hnil _ ?_
      split at hs
      · split at hs <;> cases hs <;> exact hphase _ _ _ h
      · cases hs
  | pinging d =>
    simp only [hp] at hs
    simp only [keepaliveActs, hp]
    refine hnil _ ?_
    split at hs
    · cases hs; exact hphase _ _ _ h
    · split at hs
      · cases hs
      · cases hs; exact sim_afterPing h
  | stuck =>
    simp only [hp] at hs
    simp only [keepaliveActs, hp]
    refine hnil _ ?_
    split at hs
    · cases hs; exact hphase _ _ _ h
    · cases hs
  | exited how => simp [hp] at hs
  | waiting d deadline =>
    simp only [hp] at hs
    simp only [keepaliveActs, hp]
    by_cases hm : (d, true) ∈ s.pings
    · simp only [hm, not_true_eq_false, if_false] at hs
      by_cases hc : s.state = .closed
      · rw [if_pos hc] at hs
        cases hs
        rw [if_neg (by simp [hc])]
        exact hnil _ (hphase _ _ _ h)
      · rw [if_neg hc] at hs
        rw [if_pos ⟨hm, hc⟩]
        split at hs
        · cases hs
          have hf : (c.fail 1011).state = (if s.state = .opened then .closing else s.state) ∧
              (c.fail 1011).pings = c.pings ∧ loggedPings (c.fail 1011).log = loggedPings c.log ∧
              (c.fail 1011).transfer = c.transfer := by
            by_cases ho : s.state = .opened
            · rw [fail_opened (hst.trans ho), if_pos ho]
              refine ⟨rfl, rfl, ?_, rfl⟩
              simp only
              rw [loggedPings_snoc]
              simp
            · rw [(conn_fail_frame c 1011).2.2.2 (.inr (by rw [hst]; exact ho)), if_neg ho]
              exact ⟨hst, rfl, rfl, rfl⟩
          have hfs : c.step (.fail 1011) = some (c.fail 1011, []) := rfl
          have hsim : Sim { s with
              phase := .exited .timedOut
              failed := some s.now
              state := if s.state = .opened then .closing else s.state } (c.fail 1011) :=
            ⟨⟨hf.1, hf.2.2.2 ▸ h.transfer, hf.2.1 ▸ h.pings, hf.2.2.1 ▸ h.sent⟩, by
              have := h.started
              simp only
              split <;> simp_all⟩
          by_cases hx : s.transfer = LegacyKeepalive.Transfer.exited
          · rw [if_pos hx]
            exact ⟨_, _, exec_one hfs, hsim.of rfl rfl rfl (by
              have := hsim.transfer
              rw [show s.transfer = .exited from hx] at this
              exact this) rfl rfl rfl⟩
          · rw [if_neg hx]
            refine ⟨{ c.fail 1011 with transfer := .exited }, [], ?_, hsim.of rfl rfl rfl .exited rfl rfl rfl⟩
            rw [show [Act.fail 1011, Act.cancelTransfer] = [Act.fail 1011] ++ [Act.cancelTransfer] from rfl,
              exec_append _ _ _ (exec_one hfs), exec_one (step_cancelTransfer (by
                rw [hf.2.2.2]; exact fun he => hx (h.transfer.exited_iff.1 he)))]
            rfl
        · cases hs
    · simp only [hm, not_false_eq_true, if_true] at hs
      cases hs
      rw [if_neg (by simp [hm])]
      exact hnil _ (hphase _ _ _ h)

theorem sim_step {cfg : Config} {s s' : St} {c : LegacyConn.Conn} {e : Ev} (h : Sim s c)
    (hs : LegacyKeepalive.step cfg s e = some s') (hv : Valid e) : ∃ c' os, c.exec (acts s e) = some (c', os) ∧ Sim s' c' := by
  have hst := h.state
  have hnil : ∀ s', Sim s' c → ∃ c' os, c.exec [] = some (c', os) ∧ Sim s' c' := fun s' h => ⟨c, [], rfl, h⟩
  have hsame : ∀ {s'}, s'.state = s.state → s'.keys = s.keys → sentPings s'.trace = sentPings s.trace →
      s'.transfer = s.transfer → Sim s' c := fun h1 h2 h3 h4 => h.of h1 h2 h3 (h4 ▸ h.transfer) rfl rfl rfl
  cases e with
  | transfer => exact sim_transfer h hs
  | keepalive data => exact sim_keepalive h hs
  | transferEnds =>
    cases hs
    simp only [acts]
    split
    · next hx => exact hnil _ (h.of rfl rfl rfl (h.transfer.exited_iff.2 hx ▸ .exited) rfl rfl rfl)
    · next hx =>
      exact ⟨_, _, exec_one (step_cancelTransfer fun he => hx (h.transfer.exited_iff.1 he)),
        h.of rfl rfl rfl .exited rfl rfl rfl⟩
  | userPing data =>
    simp only [LegacyKeepalive.step] at hs
    split at hs
    · next hc =>
      cases hs
      have ho : s.state = .opened ∧ s.transfer ≠ .exited := by simpa [LegacyKeepalive.St.isOpen] using hc.1
      obtain ⟨c', h1, h2⟩ := sim_ping (explicit := true) (k := false) h ho.1 ho.2 hc.2 hv
      exact ⟨c', [], h1, h2⟩
    · cases hs
  | close =>
    simp only [LegacyKeepalive.step] at hs
    split at hs
    · next ho =>
      cases hs
      refine ⟨_, _, exec_one (LegacyModels.call_close (hst.trans ho) (closeData_parse (.inr (by simp [CloseCode]))).2), ?_⟩
      refine ⟨⟨rfl, h.transfer, h.pings, ?_⟩, nofun⟩
      simp only
      rw [loggedPings_snoc, h.sent]
      simp
    · cases hs
  | lost =>
    cases hs
    simp only [acts]
    split
    · next hc => exact hnil _ (h.of hc.symm rfl rfl h.transfer rfl rfl rfl)
    · next hc =>
      refine ⟨c.lost, [], exec_one (by simp [LegacyConn.Conn.step, hst, hc]), ⟨rfl, h.transfer, h.pings, h.sent⟩, nofun⟩
  | tick =>
    simp only [LegacyKeepalive.step] at hs
    split at hs
    · cases hs
    · cases hs; exact hnil _ (hsame rfl rfl rfl rfl)
  | arrive i =>
    cases hs
    exact hnil _ (hsame rfl rfl (by rw [sentPings_snoc]; simp) rfl)
  | recv =>
    simp only [LegacyKeepalive.step] at hs
    split at hs
    · cases hs
    · cases hs; exact hnil _ (hsame rfl rfl rfl rfl)
  | pause => cases hs; exact hnil _ (hsame rfl rfl rfl rfl)
  | resume => cases hs; exact hnil _ (hsame rfl rfl rfl rfl)
  | cancel =>
    simp only [LegacyKeepalive.step] at hs
    split at hs
    · cases hs; exact hnil _ (hsame rfl rfl rfl rfl)
    · cases hs

/-- **C79.** The models of the connection agree: an execution of `LegacyKeepalive`, in which time passes, is an execution
of `LegacyConn`.  Both are in the same state, they sent the same pings, the same pings wait for a pong and
`transfer_data` waits at the same point.  Hence theorems about all executions of `LegacyConn`, such as C55, C57, C95 and
C96, are about keepalive too. -/
theorem C79_conn {cfg : Config} {es : List Ev} {s : St} (h : LegacyKeepalive.exec cfg (LegacyKeepalive.init cfg) es = some s)
    (hv : ∀ e ∈ es, Valid e) :
    ∃ c os, LegacyConn.Conn.exec {} (actsOf cfg (LegacyKeepalive.init cfg) es) = some (c, os) ∧ Same s c := by
  suffices H : ∀ (es : List Ev) (s0 : St) (c0 : LegacyConn.Conn), Sim s0 c0 → LegacyKeepalive.exec cfg s0 es = some s →
      (∀ e ∈ es, Valid e) → ∃ c os, c0.exec (actsOf cfg s0 es) = some (c, os) ∧ Sim s c by
    obtain ⟨c, os, h1, h2⟩ := H es _ {} ⟨⟨rfl, .reading, rfl, rfl⟩, by simp [LegacyKeepalive.init]⟩ h hv
    exact ⟨c, os, h1, h2.toSame⟩
  clear h hv
  intro es
  induction es with
  | nil =>
    intro s0 c0 hi h _
    cases h
    exact ⟨c0, [], rfl, hi⟩
  | cons e es ih =>
    intro s0 c0 hi h hv
    simp only [LegacyKeepalive.exec] at h
    split at h
    · cases h
    · next s1 h1 =>
      obtain ⟨c1, os, h3, h4⟩ := sim_step hi h1 (hv e (by simp))
      obtain ⟨c, os', h5, h6⟩ := ih s1 c1 h4 h (fun e he => hv e (by simp [he]))
      refine ⟨c, os ++ os', ?_, h6⟩
      simp only [actsOf, h1]
      rw [exec_append _ _ _ h3, h5]
      rfl

/-- Example for `C79_conn`: a ping of the application and a ping of `keepalive_ping`, of which the first is
acknowledged; then the timeout elapses. -/
example : (LegacyKeepalive.exec LegacyKeepalive.defaults (LegacyKeepalive.init LegacyKeepalive.defaults)
    (Ev.userPing [1] :: List.replicate 20 .tick ++ [.keepalive [1, 2, 3, 4], .arrive (.pong [1]), .transfer] ++
      List.replicate 20 .tick ++ [.keepalive []])).map (fun s => (s.state, s.keys, sentPings s.trace)) =
    some (.closing, [[1, 2, 3, 4]], [[1], [1, 2, 3, 4]]) := by
  decide +kernel

end WS.KeepaliveModels
