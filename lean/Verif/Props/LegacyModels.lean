import Verif.Props.LegacyReplies
import Verif.Props.LegacyLife
import Verif.Props.Frames

/-!
# The models of legacy/protocol.py agree

`Verif.Model.LegacyConn` represents frames and calls precisely and leaves open when tasks end;
`Verif.Model.LegacyLife` represents tasks precisely and abstracts from frames.  Both represent the same code:
executions of the latter are executions of the former.
-/

namespace WS.LegacyModels

open Spec
open LegacyLife (St Ev CallEv Input Sent Config)
open LegacyConn (Act)

/-- The payload of a close frame with a code and without reason; an empty payload stands for 1005. -/
def closeData (code : Nat) : Bytes :=
  match serializeClose code [] with
  | .ok data => data
  | .error _ => []

/-- What happens in `LegacyConn` when `e` happens in `LegacyLife`.  (Payloads of pings, pongs and of the close frames of
`close()` are arbitrary.) -/
def acts (s : St) (e : Ev) : List Act :=
  if s.transfer = .absent then []
  else
    match e with
    | .fail code => [.fail code]
    | .receive .ping => [.recvPing []]
    | .receive .pong => [.recvPong []]
    | .receive (.close code) => [.recvClose (closeData code)]
    | .receive (.error code) => [.transferFails code]
    | .transferDrained ok => [.resumeTransfer (if ok then .ok else .connectionError)]
    | .transferWoken | .transferCancelled => [.cancelTransfer]
    | .lost _ => [.lost]
    | .write => if s.state = .opened ∧ s.transfer ≠ .ended then [.call (.pong [])] else []
    | .call i .run => if s.calls[i]? = some .closeStart ∧ s.state = .opened then [.call (.close (closeData 1000))] else []
    | _ => []

/-- What happens in `LegacyConn` during an execution of `LegacyLife` -/
def actsOf (cfg : Config) (s : St) : List Ev → List Act
  | [] => []
  | e :: es =>
    match LegacyLife.step cfg s e with
    | none => []
    | some s' => acts s e ++ actsOf cfg s' es

/-- Codes for which `fail_connection` is called, and codes in close frames that are received, are valid. -/
def Valid : Ev → Prop
  | .fail code => code = 1006 ∨ CloseCode code
  | .receive (.error code) => code = 1006 ∨ CloseCode code
  | .receive (.close code) => code = 1005 ∨ CloseCode code
  | _ => True

/-- A frame, as `LegacyLife` represents it -/
def kind (f : Option Nat × Frame) : Sent := if f.2.opcode = .close then .close else .other

/-- Where `transfer_data` is suspended -/
inductive SameTransfer : LegacyLife.Transfer → LegacyConn.Transfer → Prop
  | reading : SameTransfer .reading .reading
  | putting : SameTransfer .putting .reading
  | ponging : SameTransfer .ponging .ponging
  | replying : SameTransfer .replying .closing
  | ensuring : SameTransfer .ensuring .stuck
  | ended : SameTransfer .ended .exited

/-- The states represent the same connection. -/
structure Same (s : St) (c : LegacyConn.Conn) : Prop where
  state : c.state = s.state
  sent : c.log.map kind = s.sent
  code : c.closeInfo.map (·.1) = s.closeCode.map Int.ofNat
  transfer : SameTransfer s.transfer c.transfer

structure Sim (s : St) (c : LegacyConn.Conn) : Prop extends Same s c where
  started : s.state ≠ .connecting
  lost : s.lost = true ↔ s.state = .closed
  waits : s.transfer = .ensuring ∨ s.transfer = .replying → s.state ≠ .opened
  pings : c.pings = []

/-- Before the opening handshake is complete -/
structure Before (s : St) : Prop where
  transfer : s.transfer = .absent
  state : s.state ≠ .opened
  sent : s.sent = []
  code : s.state = .connecting → s.closeCode = none ∧ s.lost = false

theorem exec_append (c : LegacyConn.Conn) (as bs : List Act) {c' : LegacyConn.Conn} {os : List LegacyConn.Obs} (h : c.exec as = some (c', os)) :
    c.exec (as ++ bs) = (c'.exec bs).map fun (c'', os') => (c'', os ++ os') := by
  induction as generalizing c c' os with
  | nil => cases h; simp
  | cons a as ih =>
    simp only [LegacyConn.Conn.exec, List.cons_append] at h ⊢
    cases h1 : c.step a with
    | none => rw [h1] at h; cases h
    | some p =>
      obtain ⟨c1, o1⟩ := p
      rw [h1] at h
      simp only at h ⊢
      cases h2 : c1.exec as with
      | none => rw [h2] at h; cases h
      | some q =>
        obtain ⟨c2, o2⟩ := q
        rw [h2] at h
        simp only [Option.some.injEq, Prod.mk.injEq] at h
        obtain ⟨rfl, rfl⟩ := h
        rw [ih c1 h2]
        cases c2.exec bs with
        | none => rfl
        | some r => simp

theorem exec_one {c c' : LegacyConn.Conn} {a : Act} {os : List LegacyConn.Obs} (h : c.step a = some (c', os)) :
    c.exec [a] = some (c', os) := by
  simp [LegacyConn.Conn.exec, h]

theorem serialize_valid {code : Nat} (h : CloseCode code) :
    ∃ data, serializeClose code [] = .ok data ∧ data.length = 2 ∧ parseClose data = .ok ((code : Int), []) := by
  have hlt : code < 65536 := by simp only [CloseCode] at h; omega
  have he : serializeClose code [] = .ok [UInt8.ofNat (code / 256), UInt8.ofNat (code % 256)] := by
    rw [C06_serialize_close_iff]
    refine ⟨h, UInt8.ofNat (code / 256), UInt8.ofNat (code % 256), [], rfl, ?_, ?_⟩
    · simp only [UInt8.toNat_ofNat']
      omega
    · exact ⟨[], rfl, rfl⟩
  exact ⟨_, he, rfl, ((C06_close_roundtrip _ _ _).1 he).1⟩

theorem closeData_parse {code : Nat} (h : code = 1005 ∨ CloseCode code) :
    parseClose (closeData code) = .ok ((code : Int), []) ∧ (closeData code).length ≤ 125 := by
  unfold closeData
  rcases h with rfl | h
  · exact ⟨rfl, by decide⟩
  · obtain ⟨data, h1, h2, h3⟩ := serialize_valid h
    rw [h1]
    exact ⟨h3, by simp only; omega⟩

/-- `fail_connection` -/
theorem Sim.fail {s : St} {c : LegacyConn.Conn} {code : Nat} (h : Sim s c) (hv : code = 1006 ∨ CloseCode code) :
    Sim (s.fail code) (c.fail code) := by
  have hc : ((code : Int) ≠ 1006) ↔ code ≠ 1006 := by omega
  obtain ⟨⟨h1, h2, h3, h4⟩, h5, h6, h7, h8⟩ := h
  unfold LegacyConn.Conn.fail
  rw [h1]
  by_cases hf : code ≠ 1006 ∧ s.state = .opened
  · obtain ⟨data, hd, _⟩ := serialize_valid (hv.resolve_left hf.1)
    rw [if_pos ⟨hc.2 hf.1, hf.2⟩, hd]
    unfold LegacyLife.St.fail
    refine ⟨⟨?_, ?_, ?_, ?_⟩, ?_, ?_, ?_, h8⟩
    · grind
    · simp only [List.map_append, h2]
      have : [kind (none, ({ fin := true, opcode := .close, data } : Frame))] = [Sent.close] := rfl
      grind
    · grind
    · grind
    · grind
    · grind
    · grind
  · rw [if_neg (fun h => hf ⟨hc.1 h.1, h.2⟩)]
    unfold LegacyLife.St.fail
    refine ⟨⟨?_, ?_, ?_, ?_⟩, ?_, ?_, ?_, h8⟩ <;> grind

/-- Only attributes that `LegacyConn` doesn't represent change, or the end of `transfer_data`. -/
theorem Sim.of {s s' : St} {c c' : LegacyConn.Conn} (h : Sim s c) (h1 : s'.state = s.state) (h2 : s'.sent = s.sent)
    (h3 : s'.closeCode = s.closeCode) (h4 : s'.lost = s.lost) (h5 : SameTransfer s'.transfer c'.transfer)
    (h6 : s'.transfer = .ensuring ∨ s'.transfer = .replying → s.state ≠ .opened)
    (h7 : c'.state = c.state) (h8 : c'.log = c.log) (h9 : c'.closeInfo = c.closeInfo) (h10 : c'.pings = c.pings) :
    Sim s' c' := by
  obtain ⟨⟨a1, a2, a3, a4⟩, a5, a6, a7, a8⟩ := h
  exact ⟨⟨by rw [h7, a1, h1], by rw [h8, a2, h2], by rw [h9, a3, h3], h5⟩, by rw [h1]; exact a5, by rw [h1, h4]; exact a6,
    by rw [h1]; exact h6, by rw [h10, a8]⟩

theorem fail_frame (s : St) (code : Nat) : (s.fail code).transfer = s.transfer ∧ (s.fail code).closeCode = s.closeCode ∧
    (s.fail code).lost = s.lost ∧ (s.fail code).calls = s.calls ∧
    (code = 1006 ∨ s.state ≠ .opened → (s.fail code).state = s.state ∧ (s.fail code).sent = s.sent) := by
  unfold LegacyLife.St.fail
  grind

theorem conn_fail_frame (c : LegacyConn.Conn) (code : Int) : (c.fail code).transfer = c.transfer ∧
    (c.fail code).pings = c.pings ∧ (c.fail code).closeInfo = c.closeInfo ∧
    (code = 1006 ∨ c.state ≠ .opened → c.fail code = c) := by
  unfold LegacyConn.Conn.fail
  grind

/-- `transfer_data` calls `fail_connection` and ends. -/
theorem Sim.failTransfer {s : St} {c : LegacyConn.Conn} {code : Nat} (h : Sim s c) (hv : code = 1006 ∨ CloseCode code) :
    Sim (s.failTransfer code) (c.transferFails code) := by
  refine (h.fail hv).of ?_ ?_ ?_ ?_ ?_ ?_ ?_ ?_ ?_ ?_ <;>
    simp [LegacyLife.St.failTransfer, LegacyConn.Conn.transferFails]
  exact .ended

theorem recvClose_open {c : LegacyConn.Conn} {data : Bytes} {info : Int × PyStr} (ho : c.state = .opened)
    (hp : parseClose data = .ok info) (hl : data.length ≤ 125) :
    c.recvClose data = { c with closeInfo := some info, state := .closing, transfer := .closing,
                                log := c.log ++ [(none, { fin := true, opcode := .close, data })] } := by
  simp [LegacyConn.Conn.recvClose, LegacyConn.Conn.writeClose, LegacyConn.Conn.write, hp, ho, Frame.check, Opcode.isCtrl,
    Nat.not_lt.2 hl]

theorem recvClose_else {c : LegacyConn.Conn} {data : Bytes} {info : Int × PyStr} (ho : c.state ≠ .opened)
    (hp : parseClose data = .ok info) :
    c.recvClose data = { c with closeInfo := some info, transfer := .exited } := by
  simp [LegacyConn.Conn.recvClose, LegacyConn.Conn.writeClose, hp, ho]

theorem recvPing_open {c : LegacyConn.Conn} (ho : c.state = .opened) :
    c.recvPing [] = { c with transfer := .ponging
                             log := c.log ++ [(none, { fin := true, opcode := .pong, data := [] })] } := by
  simp [LegacyConn.Conn.recvPing, LegacyConn.Conn.ensureTransfer, LegacyConn.Conn.write, ho, Frame.check, Opcode.isCtrl]

theorem sim_receive {s : St} {c : LegacyConn.Conn} {i : Input} (h : Sim s c) (hr : s.transfer = .reading)
    (hv : Valid (.receive i)) : ∃ c' os, c.exec (acts s (.receive i)) = some (c', os) ∧ Sim (s.receive i) c' := by
  have hcr : c.transfer = .reading := by
    have := h.transfer
    rw [hr] at this
    generalize c.transfer = t at this
    cases this
    rfl
  have hna : s.transfer ≠ .absent := by rw [hr]; decide
  have hst := h.state
  cases i with
  | data full =>
    refine ⟨c, [], by simp [acts, hna, LegacyConn.Conn.exec], ?_⟩
    unfold LegacyLife.St.receive
    cases full
    · exact h
    · refine h.of rfl rfl rfl rfl ?_ ?_ rfl rfl rfl rfl
      · rw [hcr]; exact .putting
      · simp
  | pong =>
    refine ⟨c, [], ?_, h⟩
    simp only [acts, hna, if_false]
    refine exec_one ?_
    simp [LegacyConn.Conn.step, hcr, LegacyConn.Conn.recvPong, h.pings, LegacyConn.splitPings]
  | error code =>
    refine ⟨c.transferFails code, [], ?_, h.failTransfer hv⟩
    simp only [acts, hna, if_false]
    exact exec_one (by simp [LegacyConn.Conn.step, hcr])
  | close code =>
    refine ⟨c.recvClose (closeData code), [], ?_, ?_⟩
    · simp only [acts, hna, if_false]
      exact exec_one (by simp [LegacyConn.Conn.step, hcr])
    · obtain ⟨hp, hl⟩ := closeData_parse hv
      unfold LegacyLife.St.receive
      by_cases ho : s.state = .opened
      · rw [recvClose_open (hst.trans ho) hp hl]
        simp only [ho, if_true]
        refine ⟨⟨rfl, ?_, rfl, .replying⟩, nofun, ?_, fun _ => nofun, h.pings⟩
        · simp only [List.map_append, h.sent]
          rfl
        · have := h.lost
          rw [ho] at this
          simpa using this
      · rw [recvClose_else (by rw [hst]; exact ho) hp]
        simp only [ho, if_false]
        exact ⟨⟨hst, h.sent, rfl, .ended⟩, h.started, h.lost, by simp, h.pings⟩
  | ping =>
    refine ⟨c.recvPing [], [], ?_, ?_⟩
    · simp only [acts, hna, if_false]
      exact exec_one (by simp [LegacyConn.Conn.step, hcr])
    · unfold LegacyLife.St.receive
      cases ho : s.state with
      | connecting => exact absurd ho h.started
      | opened =>
        rw [recvPing_open (hst.trans ho)]
        simp only
        refine ⟨⟨?_, ?_, h.code, .ponging⟩, ?_, ?_, by simp, h.pings⟩
        · simp [hst, ho]
        · simp only [List.map_append, h.sent]
          rfl
        · simp [ho]
        · have := h.lost
          simpa [ho] using this
      | closing =>
        have : c.recvPing [] = { c with transfer := .stuck } := by
          simp [LegacyConn.Conn.recvPing, LegacyConn.Conn.ensureTransfer, hst, ho]
        rw [this]
        exact h.of (by simp [ho]) rfl rfl rfl .ensuring (by simp [ho]) rfl rfl rfl rfl
      | closed =>
        have : c.recvPing [] = c.transferFails (1011 : Nat) := by
          simp [LegacyConn.Conn.recvPing, LegacyConn.Conn.ensureTransfer, hst, ho]
        rw [this]
        exact h.failTransfer (.inr (by simp [CloseCode]))

/-- Calls of the application -/
theorem sim_call {s s' : St} {c : LegacyConn.Conn} {x x' : LegacyLife.Call} {e : CallEv} (h : Sim s c)
    (hs : s.callStep x e = some (s', x')) :
    (e = .run ∧ x = .closeStart ∧ s.state = .opened ∧ s' = { s with state := .closing, sent := s.sent ++ [.close] }) ∨
    ((e ≠ .run ∨ x ≠ .closeStart ∨ s.state ≠ .opened) ∧ Sim s' c) := by
  have hf : Sim (s.fail 1006) c := by
    have := h.fail (code := 1006) (.inl rfl)
    rwa [(conn_fail_frame c ((1006 : Nat) : Int)).2.2.2 (.inl rfl)] at this
  have hq : Sim { s with cancelReq := true } c :=
    h.of rfl rfl rfl rfl h.transfer h.waits rfl rfl rfl rfl
  unfold LegacyLife.St.callStep at hs
  split at hs
  all_goals
    try grind

/-- Attributes that both models represent -/
def Keep (s s' : St) : Prop := s'.state = s.state ∧ s'.sent = s.sent ∧ s'.closeCode = s.closeCode ∧ s'.lost = s.lost ∧
  s'.transfer = s.transfer

/-- `close_connection` changes nothing that `LegacyConn` represents. -/
theorem keep_closer {cfg : Config} {s s' : St}
    (hs : s.closerRun cfg = some s' ∨ s.closerWoken cfg = some s' ∨ s.cancelCloser = some s') : Keep s s' := by
  have hfin : ∀ x, Keep s (s.finally x) := fun x => by unfold Keep LegacyLife.St.finally; grind
  have hhalf : Keep s (s.halfClose cfg) := by
    have := hfin false
    unfold Keep at *; unfold LegacyLife.St.halfClose; grind
  have haft : Keep s (s.afterTransfer cfg) := by
    have := hfin false
    unfold Keep at *; unfold LegacyLife.St.afterTransfer; grind
  have habort : ∀ x, Keep s (s.abort x) := fun x => by unfold Keep LegacyLife.St.abort; grind
  unfold Keep at *
  rcases hs with hs | hs | hs
  · unfold LegacyLife.St.closerRun at hs; grind
  · unfold LegacyLife.St.closerWoken at hs; grind
  · unfold LegacyLife.St.cancelCloser at hs; grind

theorem sim_closer {cfg : Config} {s s' : St} {c : LegacyConn.Conn} (h : Sim s c)
    (hs : s.closerRun cfg = some s' ∨ s.closerWoken cfg = some s' ∨ s.cancelCloser = some s') : Sim s' c := by
  obtain ⟨h1, h2, h3, h4, h5⟩ := keep_closer hs
  exact h.of h1 h2 h3 h4 (h5 ▸ h.transfer) (h5 ▸ h.waits) rfl rfl rfl rfl

theorem call_pong {c : LegacyConn.Conn} (ho : c.state = .opened) (ht : c.transfer ≠ .exited) :
    c.step (.call (.pong [])) = some ({ c with
      calls := c.calls ++ [.pong []]
      log := c.log ++ [(some c.calls.length, { fin := true, opcode := .pong, data := [] })]
      tasks := fun j => if j = c.calls.length then some .draining else c.tasks j }, []) := by
  simp [LegacyConn.Conn.step, LegacyConn.Conn.call, LegacyConn.Conn.isOpen, ho, ht, LegacyConn.Conn.callOpen,
    LegacyConn.Conn.write, Frame.check, Opcode.isCtrl, LegacyConn.Conn.setTask]

theorem call_close {c : LegacyConn.Conn} {data : Bytes} (ho : c.state = .opened) (hl : data.length ≤ 125) :
    c.step (.call (.close data)) = some ({ c with
      state := .closing
      calls := c.calls ++ [.close data]
      log := c.log ++ [(some c.calls.length, { fin := true, opcode := .close, data })]
      tasks := fun j => if j = c.calls.length then some .draining else c.tasks j }, []) := by
  simp [LegacyConn.Conn.step, LegacyConn.Conn.call, ho, LegacyConn.Conn.writeClose,
    LegacyConn.Conn.write, Frame.check, Opcode.isCtrl, LegacyConn.Conn.setTask, Nat.not_lt.2 hl]

theorem sim_step {cfg : Config} {s s' : St} {c : LegacyConn.Conn} {e : Ev} (h : Sim s c) (hs : LegacyLife.step cfg s e = some s')
    (hv : Valid e) : ∃ c' os, c.exec (acts s e) = some (c', os) ∧ Sim s' c' := by
  have hna : s.transfer ≠ .absent := by
    have := h.transfer
    intro h; rw [h] at this; cases this
  have hst := h.state
  have hnil : ∀ s', Sim s' c → ∃ c' os, c.exec [] = some (c', os) ∧ Sim s' c' := fun s' h => ⟨c, [], rfl, h⟩
  have hq : Sim { s with cancelReq := true } c :=
    h.of rfl rfl rfl rfl h.transfer h.waits rfl rfl rfl rfl
  cases e with
  | opened =>
    simp only [LegacyLife.step] at hs
    split at hs
    · next hc => exact absurd hc.1 h.started
    · cases hs
  | refused => simp [LegacyLife.step, hna] at hs
  | fail code =>
    simp only [LegacyLife.step, hna, ne_eq, not_false_eq_true, if_true, Option.some.injEq] at hs
    subst hs
    refine ⟨c.fail code, [], ?_, h.fail hv⟩
    simp only [acts, hna, if_false]
    exact exec_one rfl
  | receive i =>
    simp only [LegacyLife.step] at hs
    split at hs
    · next hc =>
      cases hs
      exact sim_receive h hc.1 hv
    · cases hs
  | room =>
    simp only [LegacyLife.step] at hs
    split at hs
    · next hc =>
      cases hs
      simp only [acts, hna, if_false]
      refine hnil _ (h.of rfl rfl rfl rfl ?_ (by simp) rfl rfl rfl rfl)
      have := h.transfer
      rw [hc.1] at this
      generalize c.transfer = t at this ⊢
      cases this
      exact .reading
    · cases hs
  | transferDrained ok =>
    simp only [LegacyLife.step] at hs
    split at hs
    · next hc =>
      have ht := h.transfer
      simp only [acts, hna, if_false]
      cases ok with
      | true =>
        split at hs
        · next hp =>
          cases hs
          rw [hp] at ht
          generalize hct : c.transfer = t at ht
          cases ht
          exact ⟨{ c with transfer := .reading }, [], exec_one (by simp [LegacyConn.Conn.step, LegacyConn.Conn.resumeTransfer, hct]),
            h.of rfl rfl rfl rfl .reading (by simp) rfl rfl rfl rfl⟩
        · next hp =>
          cases hs
          rw [hp] at ht
          generalize hct : c.transfer = t at ht
          cases ht
          exact ⟨{ c with transfer := .exited }, [], exec_one (by simp [LegacyConn.Conn.step, LegacyConn.Conn.resumeTransfer, hct]),
            h.of rfl rfl rfl rfl .ended (by simp) rfl rfl rfl rfl⟩
        · cases hs
      | false =>
        have hl : s.lost = true := by simpa [LegacyLife.St.canDrain] using hc.1
        have hcl := h.lost.1 hl
        have hcf := (conn_fail_frame c 1006).2.2.2 (.inl rfl)
        split at hs
        · next hp =>
          cases hs
          rw [hp] at ht
          generalize hct : c.transfer = t at ht
          cases ht
          refine ⟨_, _, exec_one (os := []) (c' := c.transferFails (1011 : Nat)) ?_, h.failTransfer (.inr (by simp [CloseCode]))⟩
          simp [LegacyConn.Conn.step, LegacyConn.Conn.resumeTransfer, hct, hcf, LegacyConn.Conn.ensureTransfer, hst, hcl]
        · next hp =>
          cases hs
          rw [hp] at ht
          generalize hct : c.transfer = t at ht
          cases ht
          refine ⟨_, _, exec_one (os := []) (c' := c.transferFails (1006 : Nat)) ?_, h.failTransfer (.inl rfl)⟩
          simp [LegacyConn.Conn.step, LegacyConn.Conn.resumeTransfer, hct, hcf, LegacyConn.Conn.ensureTransfer, hst, hcl,
            LegacyConn.Conn.transferFails]
        · cases hs
    · cases hs
  | transferWoken =>
    simp only [LegacyLife.step] at hs
    split at hs
    · next hp _ =>
      split at hs
      · cases hs
      · cases hs
        have ht := h.transfer
        rw [hp] at ht
        generalize hct : c.transfer = t at ht
        cases ht
        simp only [acts, hna, if_false]
        have hno := h.waits (.inl hp)
        refine ⟨_, _, exec_one (os := []) (c' := c.transferFails (1011 : Nat)) ?_, h.failTransfer (.inr (by simp [CloseCode]))⟩
        have hcf := (conn_fail_frame c ((1011 : Nat) : Int)).2.2.2 (.inr (by rw [hst]; exact hno))
        simp only [LegacyConn.Conn.transferFails, hcf]
        simp [LegacyConn.Conn.step, hct]
    · cases hs
  | transferCancelled =>
    simp only [LegacyLife.step] at hs
    split at hs
    · next hc =>
      cases hs
      simp only [acts, hna, if_false]
      refine ⟨_, _, exec_one (os := []) (c' := { c with transfer := .exited }) ?_,
        h.of rfl rfl rfl rfl .ended (by simp) rfl rfl rfl rfl⟩
      have ht := h.transfer
      have : c.transfer ≠ .exited := by
        intro he
        rw [he] at ht
        generalize s.transfer = t at ht hc
        cases ht
        exact hc.2.2 rfl
      simp [LegacyConn.Conn.step, this]
    · cases hs
  | cancelTransfer =>
    simp only [LegacyLife.step] at hs
    split at hs
    · cases hs
      simp only [acts, hna, if_false]
      exact hnil _ hq
    · cases hs
  | closerRun =>
    simp only [acts, hna, if_false]
    exact hnil _ (sim_closer (cfg := cfg) h (.inl hs))
  | closerLost =>
    simp only [acts, hna, if_false]
    simp only [LegacyLife.step] at hs
    split at hs
    · exact hnil _ (sim_closer h (.inr (.inl hs)))
    · cases hs
  | closerTimeout =>
    simp only [acts, hna, if_false]
    exact hnil _ (sim_closer (cfg := cfg) h (.inr (.inl hs)))
  | cancelCloser =>
    simp only [acts, hna, if_false]
    exact hnil _ (sim_closer (cfg := cfg) h (.inr (.inr hs)))
  | transportClosing =>
    cases hs
    simp only [acts, hna, if_false]
    exact hnil _ (h.of rfl rfl rfl rfl h.transfer h.waits rfl rfl rfl rfl)
  | lost exc =>
    simp only [LegacyLife.step] at hs
    split at hs
    · cases hs
    · next hc =>
      cases hs
      simp only [acts, hna, if_false]
      have hnc : c.state ≠ .closed := by
        rw [hst]; exact fun h' => hc (h.lost.2 h')
      refine ⟨c.lost, [], exec_one (by simp [LegacyConn.Conn.step, hnc]), ⟨rfl, h.sent, ?_, h.transfer⟩, nofun, by simp,
        fun _ => nofun, h.pings⟩
      have hcode := h.code
      simp only [LegacyConn.Conn.lost]
      cases hi : c.closeInfo with
      | none =>
        rw [hi] at hcode
        cases hk : s.closeCode with
        | none => rfl
        | some k => rw [hk] at hcode; cases hcode
      | some i =>
        rw [hi] at hcode
        cases hk : s.closeCode with
        | none => rw [hk] at hcode; cases hcode
        | some k => rw [hk] at hcode; simpa using hcode
  | pause =>
    simp only [LegacyLife.step] at hs
    split at hs
    · cases hs
    · cases hs
      simp only [acts, hna, if_false]
      exact hnil _ (h.of rfl rfl rfl rfl h.transfer h.waits rfl rfl rfl rfl)
  | resume =>
    simp only [LegacyLife.step] at hs
    split at hs
    · cases hs
      simp only [acts, hna, if_false]
      exact hnil _ (h.of rfl rfl rfl rfl h.transfer h.waits rfl rfl rfl rfl)
    · cases hs
  | close =>
    cases hs
    simp only [acts, hna, if_false]
    exact hnil _ (h.of rfl rfl rfl rfl h.transfer h.waits rfl rfl rfl rfl)
  | ensure =>
    cases hs
    simp only [acts, hna, if_false]
    exact hnil _ (h.of rfl rfl rfl rfl h.transfer h.waits rfl rfl rfl rfl)
  | write =>
    simp only [LegacyLife.step] at hs
    simp only [acts, hna, if_false]
    split at hs
    · next hc =>
      cases hs
      rw [if_pos hc]
      have ht : c.transfer ≠ .exited := by
        intro he
        have ht := h.transfer
        rw [he] at ht
        generalize s.transfer = t at ht hc
        cases ht
        exact hc.2 rfl
      have ho := hst.trans hc.1
      refine ⟨_, _, exec_one (call_pong ho ht), ?_⟩
      refine ⟨⟨hst, ?_, h.code, h.transfer⟩, h.started, h.lost, h.waits, h.pings⟩
      · simp only [List.map_append, h.sent]
        rfl
    · next hc =>
      cases hs
      rw [if_neg hc]
      exact hnil _ (h.of rfl rfl rfl rfl h.transfer h.waits rfl rfl rfl rfl)
  | call i e =>
    simp only [LegacyLife.step] at hs
    split at hs
    · cases hs
    · next x hx =>
      split at hs
      · cases hs
      · next s1 x' hs1 =>
        cases hs
        have hset : ∀ {c'}, Sim s1 c' → Sim { s1 with calls := s1.calls.set i x' } c' := fun h =>
          h.of rfl rfl rfl rfl h.transfer h.waits rfl rfl rfl rfl
        rcases sim_call h hs1 with ⟨rfl, rfl, ho, rfl⟩ | ⟨hn, h1⟩
        · have ho' := hst.trans ho
          simp only [acts, hna, if_false, hx, ho, and_self, if_true]
          refine ⟨_, _, exec_one (call_close ho' (closeData_parse (.inr (by simp [CloseCode]))).2), hset ?_⟩
          refine ⟨⟨rfl, ?_, h.code, h.transfer⟩, nofun, ?_, fun _ => nofun, h.pings⟩
          · simp only [List.map_append, h.sent]
            rfl
          · have := h.lost
            rw [ho] at this
            simpa using this
        · have : acts s (.call i e) = [] := by
            simp only [acts, hna, if_false]
            split <;> try rfl
            all_goals grind
          rw [this]
          exact hnil _ (hset h1)

/-- Before the opening handshake is complete, no frame is sent; then the connection is in the initial state of
`LegacyConn`. -/
theorem before_step {cfg : Config} {s s' : St} {e : Ev} (h : Before s) (hs : LegacyLife.step cfg s e = some s') :
    acts s e = [] ∧ (Before s' ∨ Sim s' {}) := by
  obtain ⟨h1, h2, h3, h4⟩ := h
  have hk : ∀ {s' : St}, Keep s s' → Before s' := by
    rintro s' ⟨k1, k2, k3, k4, k5⟩
    exact ⟨k5.trans h1, by rw [k1]; exact h2, k2.trans h3, by rw [k1, k3, k4]; exact h4⟩
  have hfail : Keep s (s.fail 1006) := by
    obtain ⟨a, b, c, d, e⟩ := fail_frame s 1006
    exact ⟨(e (.inl rfl)).1, (e (.inl rfl)).2, b, c, a⟩
  refine ⟨by simp [acts, h1], ?_⟩
  cases e with
  | opened =>
    simp only [LegacyLife.step] at hs
    split at hs
    · next hc =>
      cases hs
      obtain ⟨a, b⟩ := h4 hc.1
      right
      refine ⟨⟨rfl, ?_, ?_, .reading⟩, nofun, ?_, by simp, rfl⟩
      · simp [h3]
      · simp [a]
      · simp [b]
    · cases hs
  | lost exc =>
    simp only [LegacyLife.step] at hs
    split at hs
    · cases hs
    · cases hs
      exact .inl ⟨h1, nofun, h3, nofun⟩
  | call i e =>
    left
    simp only [LegacyLife.step] at hs
    split at hs
    · cases hs
    · next x hx =>
      split at hs
      · cases hs
      · next s1 x' hs1 =>
        cases hs
        refine hk ?_
        have : Keep s s1 := by
          unfold LegacyLife.St.callStep at hs1
          unfold Keep at *
          split at hs1
          all_goals grind
        exact this
  | closerRun | closerLost | closerTimeout | cancelCloser =>
    left
    refine hk (s' := s') (keep_closer (cfg := cfg) ?_)
    simp only [LegacyLife.step] at hs
    first
      | exact .inl hs
      | exact .inr (.inl hs)
      | exact .inr (.inr hs)
      | (split at hs
         · exact .inr (.inl hs)
         · cases hs)
  | _ =>
    left
    refine hk ?_
    simp only [LegacyLife.step] at hs
    unfold Keep at *
    grind

/-- **C82.** The models of the connection agree: an execution of `LegacyLife`, in which tasks and their cancellation are
modelled, is an execution of `LegacyConn`, in which frames are modelled.  After the opening handshake, both are in
the same state, they sent the same frames, have the same close code and `transfer_data` waits at the same point.
Hence theorems about all executions of `LegacyConn`, such as C57, C95 and C96, are about these executions too. -/
theorem C82_conn {cfg : Config} {es : List Ev} {s : St} (h : LegacyLife.run cfg {} es = some s) (hv : ∀ e ∈ es, Valid e)
    (ho : s.transfer ≠ .absent) :
    ∃ c os, LegacyConn.Conn.exec {} (actsOf cfg {} es) = some (c, os) ∧ Same s c := by
  suffices H : ∀ (es : List Ev) (s0 : St) (c0 : LegacyConn.Conn), (Before s0 ∧ c0 = {}) ∨ Sim s0 c0 →
      LegacyLife.run cfg s0 es = some s → (∀ e ∈ es, Valid e) →
      ∃ c os, c0.exec (actsOf cfg s0 es) = some (c, os) ∧ ((Before s ∧ c = {}) ∨ Sim s c) by
    obtain ⟨c, os, h1, h2⟩ := H es {} {} (.inl ⟨⟨rfl, nofun, rfl, fun _ => ⟨rfl, rfl⟩⟩, rfl⟩) h hv
    refine ⟨c, os, h1, ?_⟩
    rcases h2 with ⟨h2, _⟩ | h2
    · exact absurd h2.transfer ho
    · exact h2.toSame
  clear h hv
  intro es
  induction es with
  | nil =>
    intro s0 c0 hi h _
    cases h
    exact ⟨c0, [], rfl, hi⟩
  | cons e es ih =>
    intro s0 c0 hi h hv
    simp only [LegacyLife.run, Option.bind_eq_some_iff] at h
    obtain ⟨s1, h1, h2⟩ := h
    have hstep : ∃ c1 os, c0.exec (acts s0 e) = some (c1, os) ∧ ((Before s1 ∧ c1 = {}) ∨ Sim s1 c1) := by
      rcases hi with ⟨hb, rfl⟩ | hi
      · obtain ⟨ha, hn⟩ := before_step hb h1
        rw [ha]
        refine ⟨{}, [], rfl, ?_⟩
        rcases hn with hn | hn
        · exact .inl ⟨hn, rfl⟩
        · exact .inr hn
      · obtain ⟨c1, os, h3, h4⟩ := sim_step hi h1 (hv e (by simp))
        exact ⟨c1, os, h3, .inr h4⟩
    obtain ⟨c1, os, h3, h4⟩ := hstep
    obtain ⟨c, os', h5, h6⟩ := ih s1 c1 h4 h2 (fun e he => hv e (by simp [he]))
    refine ⟨c, os ++ os', ?_, h6⟩
    simp only [actsOf, h1]
    rw [exec_append _ _ _ h3, h5]
    rfl

/-- Example for `C82_conn`: the peer closes the connection, then it's lost. -/
example : ∃ s, LegacyLife.run ⟨true, true⟩ {} [.opened, .closerRun, .write, .receive .ping, .transferDrained true,
      .receive (.close 1001), .transferDrained true, .closerRun, .lost false] = some s ∧ s.transfer ≠ .absent ∧
      s.sent = [.other, .other, .close] :=
  ⟨_, rfl, by decide, rfl⟩

end WS.LegacyModels
