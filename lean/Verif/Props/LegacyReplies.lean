import Verif.Props.LegacyPings

/-!
# C95: legacy connections answer pings; C96: why they write close frames

Executions are arbitrary sequences of `Act`, starting when the connection is opened.  The log tells which frames
were written by `transfer_data` and `fail_connection` (`none`), and which ones by calls of the application (`some i`).
-/

namespace WS.LegacyConn

namespace Spec

/-- A final pong frame -/
def pong (data : Bytes) : Frame := { fin := true, opcode := .pong, data }

/-- The pongs that the connection writes on its own -/
def pongs (log : List (Option Nat × Frame)) : List Frame :=
  (log.filter fun p => p.1 = none ∧ p.2.opcode = .pong).map (·.2)

/-- The payloads of the pings that are received while the connection is open. -/
def pinged : Conn → List Act → List Bytes
  | _, [] => []
  | s, a :: as =>
    (match a with
      | .recvPing data => if s.state = .opened then [data] else []
      | _ => []) ++
    match s.step a with
    | some (s', _) => pinged s' as
    | none => []

/-- RFC 6455, 5.5: `read_frame` refuses control frames whose payload is longer. -/
def ShortPings (as : List Act) : Prop := ∀ data, .recvPing data ∈ as → data.length ≤ 125

/-- Why a close frame whose payload is `data` is written: by a call to `close`; to answer a close frame; because the
connection is failed with a code, by `transfer_data` or by another task; because a close frame or a ping isn't
valid; because a call fails, when it sends a fragmented message. -/
inductive Reason (as : List Act) (os : List Obs) : Option Nat → Bytes → Prop
  | call {i data} : .call (.close data) ∈ as → Reason as os (some i) data
  | reply {data info} : .recvClose data ∈ as → parseClose data = .ok info → Reason as os none data
  | failed {code data} : .fail code ∈ as ∨ .transferFails code ∈ as → code ≠ 1006 → serializeClose code [] = .ok data →
      Reason as os none data
  | encoding {d data} : .recvClose d ∈ as → (∃ reason start, parseClose d = .error (.unicodeDecodeError reason start)) →
      serializeClose 1007 [] = .ok data → Reason as os none data
  | invalid {d data e} : .recvClose d ∈ as → parseClose d = .error e → (∀ reason start, e ≠ .unicodeDecodeError reason start) →
      serializeClose 1002 [] = .ok data → Reason as os none data
  | long {d data} : .recvPing d ∈ as → 125 < d.length → serializeClose 1002 [] = .ok data → Reason as os none data
  | send {i e data} : .raised i e ∈ os → e ≠ .cancelled → serializeClose 1011 [] = .ok data → Reason as os none data

end Spec

/-! ## What a step writes -/

/-- A close frame that `fail_connection` writes -/
def closeFrame (data : Bytes) : Option Nat × Frame := (none, { fin := true, opcode := .close, data })

theorem Conn.fail_log (s : Conn) (code : Int) : (s.fail code).log = s.log ∨
    code ≠ 1006 ∧ ∃ data, serializeClose code [] = .ok data ∧ (s.fail code).log = s.log ++ [closeFrame data] := by
  unfold Conn.fail
  split
  · next hc =>
    split
    · exact .inl rfl
    · next data hd => exact .inr ⟨hc.1, data, hd, rfl⟩
  · exact .inl rfl

/-- What a step of call `i` writes: frames other than close frames, with its number; a close frame if it raises an
exception. -/
def App (s : Conn) (i : Nat) (r : Conn × List Obs) : Prop :=
  ∃ ext, r.1.log = s.log ++ ext ∧ ∀ p ∈ ext, (p.1 = some i ∧ p.2.opcode ≠ .close) ∨
    ∃ e data, .raised i e ∈ r.2 ∧ e ≠ .cancelled ∧ serializeClose 1011 [] = .ok data ∧ p = closeFrame data

theorem App.none {s : Conn} {i : Nat} {r : Conn × List Obs} (h : r.1.log = s.log) : App s i r :=
  ⟨[], by simp [h], by simp⟩

theorem App.write {s s' : Conn} {i : Nat} {fin : Bool} {op : Opcode} {data : Bytes} {r : Conn × List Obs}
    (h : s.write i fin op data = .ok s') (hop : op ≠ .close) (hr : r.1.log = s'.log) : App s i r := by
  obtain ⟨-, rfl⟩ := Conn.write_ok h
  exact ⟨_, hr, by simp [hop]⟩

theorem write_error_ne {s : Conn} {i : Option Nat} {fin : Bool} {op : Opcode} {data : Bytes} {e : Exn}
    (h : s.write i fin op data = .error e) : e ≠ .cancelled := by
  unfold Conn.write at h
  split at h
  · cases h; simp
  · split at h
    · cases h; simp
    · cases h

theorem Conn.release_log (s : Conn) (i : Nat) (o : Obs) : (s.release i o).1.log = s.log := by
  unfold Conn.release
  split <;> rfl

theorem Conn.failFragment_app (s : Conn) (i : Nat) {e : Exn} (he : e ≠ .cancelled) : App s i (s.failFragment i e) := by
  have hl : (s.failFragment i e).1.log = (s.fail 1011).log := Conn.release_log _ _ _
  have ho : ∃ e', .raised i e' ∈ (s.failFragment i e).2 ∧ e' ≠ .cancelled := by
    unfold Conn.failFragment Conn.release
    split
    · exact ⟨e, by simp, he⟩
    · exact ⟨.attributeError, by simp, by simp⟩
  obtain ⟨e', h1, h2⟩ := ho
  rcases s.fail_log 1011 with hf | ⟨-, data, hd, hf⟩
  · exact .none (hl.trans hf)
  · refine ⟨[closeFrame data], hl.trans hf, fun p hp => .inr ⟨e', data, h1, h2, hd, ?_⟩⟩
    simpa using hp

theorem Conn.sendNext_app (s : Conn) (i : Nat) (async text : Bool) (items : List Chunk) :
    App s i (s.sendNext i async text items) := by
  unfold Conn.sendNext
  split
  · split
    · next hw => exact Conn.failFragment_app _ _ (write_error_ne hw)
    · next hw => exact .write hw (by simp) rfl
  · exact Conn.failFragment_app _ _ (by simp)
  · split
    · exact Conn.failFragment_app _ _ (by simp)
    · split
      · next hw => exact Conn.failFragment_app _ _ (write_error_ne hw)
      · next hw => exact .write hw (by simp) rfl

theorem Conn.sendFirst_app (s : Conn) (i : Nat) (async : Bool) (items : List Chunk) :
    App s i (s.sendFirst i async items) := by
  unfold Conn.sendFirst
  split
  · exact .none rfl
  · exact .none rfl
  · simp only
    split
    · next hw => exact Conn.failFragment_app { s with frag := some i } _ (write_error_ne hw)
    · next hw => exact App.write (s := { s with frag := some i }) hw (opcodeOf_ne _) rfl

theorem Conn.sendLoop_app (s : Conn) (i : Nat) (m : Msg) : App s i (s.sendLoop i m) := by
  unfold Conn.sendLoop
  split
  · exact .none rfl
  · split
    · split
      · exact .none rfl
      · next hw => exact .write hw (opcodeOf_ne _) rfl
    · exact Conn.sendFirst_app _ _ _ _
    · exact .none rfl
    · exact Conn.sendFirst_app _ _ _ _

theorem Conn.callOpen_app {s : Conn} {i : Nat} {c : Call} {r : Conn × List Obs} (h : s.callOpen i c = some r) :
    App s i r := by
  unfold Conn.callOpen at h
  split at h
  · cases h; exact Conn.sendLoop_app _ _ _
  · split at h
    · split at h
      · cases h; exact .none rfl
      · cases h
    · simp only at h
      split at h
      · cases h; exact .none rfl
      · next hw => cases h; exact App.write (s := { s with pings := s.pings ++ [(_, i)] }) hw (by simp) rfl
  · split at h
    · cases h; exact .none rfl
    · next hw => cases h; exact .write hw (by simp) rfl
  · cases h

/-- A call to `close` writes the close frame, or nothing. -/
theorem Conn.writeClose_log (s : Conn) (i : Option Nat) (data : Bytes) :
    (s.writeClose i data).1.log = s.log ∨
      (s.writeClose i data).1.log = s.log ++ [(i, { fin := true, opcode := .close, data })] := by
  unfold Conn.writeClose
  split
  · simp only
    split
    · exact .inl rfl
    · next hw =>
      obtain ⟨-, rfl⟩ := Conn.write_ok hw
      exact .inr rfl
  · exact .inl rfl

theorem Conn.call_app {s : Conn} {c : Call} {r : Conn × List Obs} (h : s.call c = some r) :
    App s s.calls.length r ∨
      ∃ data, c = .close data ∧ r.1.log = s.log ++ [(some s.calls.length, { fin := true, opcode := .close, data })] := by
  unfold Conn.call at h
  simp only at h
  split at h
  · next data =>
    have := ({ s with calls := s.calls ++ [.close data] } : Conn).writeClose_log (some s.calls.length) data
    split at h
    all_goals
      rename_i s1 hw
      rw [hw] at this
      cases h
      rcases this with h1 | h1
      · exact .inl (.none h1)
      · exact .inr ⟨data, rfl, h1⟩
  · left
    split at h
    · exact Conn.callOpen_app (s := { s with calls := s.calls ++ [c] }) h
    · split at h
      · cases h; exact .none rfl
      · cases h; exact .none rfl

theorem Conn.afterPing_log (s : Conn) (i : Nat) (data : Bytes) : (s.afterPing i data).1.log = s.log := by
  unfold Conn.afterPing
  split <;> rfl

theorem Conn.resume_app {s : Conn} {i : Nat} {d : Drain} {r : Conn × List Obs} (h : s.resume i d = some r) :
    App s i r := by
  have haf : ∀ async text items, App s i (s.afterFragment i async text items) := by
    intro async text items
    unfold Conn.afterFragment
    split
    · exact .none rfl
    · exact Conn.sendNext_app _ _ _ _ _
  unfold Conn.resume at h
  simp only [Conn.fail_1006] at h
  split at h
  · cases h
  · split at h
    · cases h; exact .none rfl
    · split at h <;> cases h <;> exact .none rfl
    · cases h; exact .none rfl
  · split at h
    · cases h; exact Conn.sendLoop_app _ _ _
    · cases h
  · cases h; exact Conn.sendFirst_app _ _ _ _
  · split at h
    · cases h; exact haf _ _ _
    · split at h
      · cases h; exact haf _ _ _
      · cases h; exact .none rfl
    · cases h; exact Conn.failFragment_app _ _ (by simp)
  · cases h; exact Conn.sendNext_app _ _ _ _ _
  · split at h
    · cases h; exact .none (Conn.release_log _ _ _)
    · split at h
      · cases h; exact .none (Conn.release_log _ _ _)
      · cases h; exact .none rfl
    · cases h; exact Conn.failFragment_app _ _ (by simp)
  · split at h
    · cases h; exact .none (Conn.afterPing_log _ _ _)
    · split at h
      · cases h; exact .none (Conn.afterPing_log _ _ _)
      · cases h; exact .none rfl
    · cases h; exact .none rfl
  · cases h; exact Conn.failFragment_app _ _ (by simp)
  · cases h; exact .none rfl

theorem Conn.cancel_log {s : Conn} {i : Nat} {r : Conn × List Obs} (h : s.cancel i = some r) : r.1.log = s.log := by
  unfold Conn.cancel at h
  split at h
  · cases h
  all_goals first
    | (cases h; exact Conn.release_log _ _ _)
    | (cases h; rfl)

/-- C95: a ping that is received while the connection is open is answered at once: the next frame that is written is a
final pong with the same payload.  The connection remains open; it continues reading when the pong is sent. -/
theorem C95_answer {s : Conn} {data : Bytes} (ht : s.transfer = .reading) (ho : s.state = .opened)
    (hd : data.length ≤ 125) : ∃ s', s.step (.recvPing data) = some (s', []) ∧
      s'.log = s.log ++ [(none, Spec.pong data)] ∧ s'.state = .opened ∧
      s'.step (.resumeTransfer .ok) = some ({ s' with transfer := .reading }, []) := by
  have hc : Frame.check { fin := true, opcode := .pong, data } = .ok () :=
    (Frame.check_ok_iff _).2 ⟨rfl, rfl, rfl, fun _ => ⟨rfl, hd⟩⟩
  have hw : s.write none true .pong data = .ok { s with log := s.log ++ [(none, Spec.pong data)] } := by
    unfold Conn.write
    rw [if_neg (by simp [ho]), hc]
    rfl
  refine ⟨{ s with log := s.log ++ [(none, Spec.pong data)], transfer := .ponging }, ?_, rfl, ho, ?_⟩
  · simp only [Conn.step, ht, if_true, Conn.recvPing, Conn.ensureTransfer, ho, hw]
  · simp [Conn.step, Conn.resumeTransfer]

/-- What a step writes: close frames that have a reason; without being asked, `transfer_data` writes no other frames,
except pongs. -/
def Explained (a : Act) (o : List Obs) (s s' : Conn) : Prop :=
  ∃ ext, s'.log = s.log ++ ext ∧
    (∀ p ∈ ext, p.2.opcode = .close → Spec.Reason [a] o p.1 p.2.data ∧ p.2.fin = true) ∧
    ((∀ data, a ≠ .recvPing data) → ∀ p ∈ ext, p.1 = none → p.2.opcode = .close)

theorem Explained.nil {a : Act} {o : List Obs} {s s' : Conn} (h : s'.log = s.log) : Explained a o s s' :=
  ⟨[], by simp [h], by simp, by simp⟩

theorem Explained.close {a : Act} {o : List Obs} {s s' : Conn} {i : Option Nat} {data : Bytes}
    (h : s'.log = s.log ++ [(i, { fin := true, opcode := .close, data })]) (hr : Spec.Reason [a] o i data) :
    Explained a o s s' := by
  refine ⟨_, h, ?_, ?_⟩
  · intro p hp _
    simp only [List.mem_singleton] at hp
    subst hp
    exact ⟨hr, rfl⟩
  · intro _ p hp _
    simp only [List.mem_singleton] at hp
    subst hp
    rfl

theorem Explained.fails {a : Act} {o : List Obs} {s s' : Conn} {code : Int} (h : s'.log = (s.fail code).log)
    (hr : ∀ data, code ≠ 1006 → serializeClose code [] = .ok data → Spec.Reason [a] o none data) :
    Explained a o s s' := by
  rcases s.fail_log code with hf | ⟨hn, data, hd, hf⟩
  · exact .nil (h.trans hf)
  · exact .close (h.trans hf) (hr data hn hd)

theorem App.explained {a : Act} {o : List Obs} {s s' : Conn} {i : Nat} (h : App s i (s', o)) :
    Explained a o s s' := by
  obtain ⟨ext, h1, h2⟩ := h
  refine ⟨ext, h1, ?_, ?_⟩
  · intro p hp hc
    rcases h2 p hp with ⟨-, hn⟩ | ⟨e, data, e1, e2, e3, rfl⟩
    · exact absurd hc hn
    · exact ⟨.send e1 e2 e3, rfl⟩
  · intro _ p hp hn
    rcases h2 p hp with ⟨hs, -⟩ | ⟨e, data, e1, e2, e3, rfl⟩
    · rw [hn] at hs; cases hs
    · rfl

theorem Conn.fail_idle {s : Conn} (h : s.state ≠ .opened) (code : Int) : s.fail code = s := by
  simp [Conn.fail, h]

theorem Conn.writeClose_idle {s s' : Conn} {i : Option Nat} {data : Bytes} {r : Option (Except Exn Unit)}
    (h : s.writeClose i data = (s', r)) : s'.state ≠ .opened := by
  unfold Conn.writeClose at h
  split at h
  · simp only at h
    split at h
    · cases h; simp
    · next hw =>
      cases h
      obtain ⟨-, rfl⟩ := Conn.write_ok hw
      simp
  · next hn => cases h; exact hn

theorem Conn.recvClose_log {s : Conn} {data : Bytes} {info : Int × PyStr} (h : parseClose data = .ok info) :
    (s.recvClose data).log = s.log ∨
      (s.recvClose data).log = s.log ++ [(none, { fin := true, opcode := .close, data })] := by
  unfold Conn.recvClose
  rw [h]
  simp only
  have := ({ s with closeInfo := some info } : Conn).writeClose_log none data
  split
  all_goals
    rename_i s1 hw
    have hs := Conn.writeClose_idle hw
    rw [hw] at this
    first
    | exact this
    | (simp only [Conn.transferFails, Conn.fail_idle hs]; exact this)

theorem Conn.resumeTransfer_log {s s' : Conn} {d : Drain} (h : s.resumeTransfer d = some s') : s'.log = s.log := by
  have hen : ∀ o : Conn, o.log = s.log → (s.ensureTransfer o (s.transferFails 1011)).log = s.log := by
    intro o ho
    unfold Conn.ensureTransfer
    split
    · exact ho
    · next hc => simp [Conn.transferFails, Conn.fail_idle (s := s) (by simp [hc])]
    · rfl
  have hen' : ∀ o : Conn, o.log = s.log → (s.ensureTransfer o o).log = s.log := by
    intro o ho
    unfold Conn.ensureTransfer
    split
    · exact ho
    · exact ho
    · rfl
  unfold Conn.resumeTransfer at h
  simp only [Conn.fail_1006] at h
  split at h
  · split at h
    · cases h; rfl
    · cases h; exact hen _ rfl
    · cases h; simp [Conn.transferFails, Conn.fail_1006]
  · split at h
    · cases h; rfl
    · cases h; exact hen' _ rfl
    · cases h; simp [Conn.transferFails, Conn.fail_1006]
  · cases h

/-- What is written when a ping is received: a pong if the connection is open, otherwise nothing. -/
theorem Conn.recvPing_log {s : Conn} {data : Bytes} (hd : data.length ≤ 125) :
    (s.recvPing data).log = s.log ++ if s.state = .opened then [(none, Spec.pong data)] else [] := by
  have hc : Frame.check { fin := true, opcode := .pong, data } = .ok () :=
    (Frame.check_ok_iff _).2 ⟨rfl, rfl, rfl, fun _ => ⟨rfl, hd⟩⟩
  unfold Conn.recvPing Conn.ensureTransfer
  split
  · next ho =>
    unfold Conn.write
    rw [if_neg (by simp [ho]), hc, if_pos ho]
    rfl
  · next ho => simp [Conn.transferFails, Conn.fail_idle (s := s) (by simp [ho]), ho]
  · next h1 h2 => rw [if_neg (fun hx => h1 hx)]; simp

theorem Conn.recvPing_explained {s : Conn} {data : Bytes} : Explained (.recvPing data) [] s (s.recvPing data) := by
  by_cases hd : data.length ≤ 125
  · refine ⟨_, Conn.recvPing_log hd, ?_, fun hn => absurd rfl (hn data)⟩
    intro p hp hc
    split at hp
    · simp only [List.mem_singleton] at hp
      subst hp
      simp [Spec.pong] at hc
    · simp at hp
  · unfold Conn.recvPing Conn.ensureTransfer
    split
    · next ho =>
      split
      · exact .fails (code := 1002) rfl fun d _ h => .long (d := data) (by simp) (by omega) h
      · next e he hw =>
        exfalso
        unfold Conn.write at hw
        rw [if_neg (by simp [ho])] at hw
        split at hw
        · cases hw; exact he rfl
        · cases hw
      · next hw =>
        have := ((Conn.write_valid hw).2.2.2 (by simp [WS.Spec.IsControl])).2
        exact absurd this hd
    · next ho => exact .nil (by simp [Conn.transferFails, Conn.fail_idle (s := s) (by simp [ho])])
    · exact .nil rfl

theorem step_explained {s s' : Conn} {a : Act} {o : List Obs} (h : s.step a = some (s', o)) : Explained a o s s' := by
  cases a <;> simp only [Conn.step] at h
  case call c =>
    rcases Conn.call_app h with h1 | ⟨data, rfl, h1⟩
    · exact h1.explained
    · exact .close h1 (.call (by simp))
  case resume => exact (Conn.resume_app h).explained
  case cancel => exact .nil (Conn.cancel_log h)
  case recvClose data =>
    split at h
    · cases h
      cases hp : parseClose data with
      | ok info =>
        rcases Conn.recvClose_log (s := s) hp with hl | hl
        · exact .nil hl
        · exact .close hl (.reply (by simp) hp)
      | error e =>
        by_cases he : ∃ reason start, e = .unicodeDecodeError reason start
        · obtain ⟨reason, start, rfl⟩ := he
          refine .fails (code := 1007) ?_ fun d _ hd => .encoding (by simp) ⟨_, _, hp⟩ hd
          unfold Conn.recvClose
          rw [hp]
          rfl
        · refine .fails (code := 1002) ?_ fun d _ hd => .invalid (by simp) hp (fun r st hx => he ⟨r, st, hx⟩) hd
          unfold Conn.recvClose
          rw [hp]
          split
          · next hx => simp only [Except.error.injEq] at hx; exact absurd ⟨_, _, hx⟩ he
          · rfl
          · next hx => cases hx
    · cases h
  case recvPing data =>
    split at h
    · cases h; exact Conn.recvPing_explained
    · cases h
  case recvPong data =>
    split at h
    · cases h
      refine .nil ?_
      unfold Conn.recvPong
      split <;> rfl
    · cases h
  case resumeTransfer d =>
    simp only [Option.map_eq_some_iff, Prod.mk.injEq] at h
    obtain ⟨s1, h1, rfl, rfl⟩ := h
    exact .nil (Conn.resumeTransfer_log h1)
  case transferFails code =>
    split at h
    · cases h; exact .fails (code := code) rfl fun d hn hd => .failed (.inr (by simp)) hn hd
    · cases h
  case cancelTransfer =>
    split at h
    · cases h
    · cases h; exact .nil rfl
  case fail code => cases h; exact .fails (code := code) rfl fun d hn hd => .failed (.inl (by simp)) hn hd
  case lost =>
    split at h
    · cases h
    · cases h; exact .nil rfl

/-! ## Executions -/

theorem pongs_append {l l' : List (Option Nat × Frame)} : Spec.pongs (l ++ l') = Spec.pongs l ++ Spec.pongs l' := by
  simp [Spec.pongs]

theorem pongs_exec {as : List Act} {s s' : Conn} {os : List Obs} (h : s.exec as = some (s', os))
    (hs : Spec.ShortPings as) : Spec.pongs s'.log = Spec.pongs s.log ++ (Spec.pinged s as).map Spec.pong := by
  induction as generalizing s os with
  | nil => cases h; simp [Spec.pinged]
  | cons a as ih =>
    obtain ⟨t, o, os', h1, h2, rfl⟩ := Conn.exec_cons h
    rw [ih h2 (fun d hd => hs d (by simp [hd]))]
    simp only [Spec.pinged, h1, List.map_append]
    rw [← List.append_assoc]
    congr 1
    by_cases hp : ∃ data, a = .recvPing data
    · obtain ⟨data, rfl⟩ := hp
      simp only [Conn.step] at h1
      split at h1
      · cases h1
        rw [Conn.recvPing_log (hs data (by simp)), pongs_append]
        simp only
        split <;> simp [Spec.pongs, Spec.pong]
      · cases h1
    · obtain ⟨ext, e1, -, e3⟩ := step_explained h1
      rw [e1, pongs_append]
      have hx : Spec.pongs ext = [] := by
        simp only [Spec.pongs, List.map_eq_nil_iff, List.filter_eq_nil_iff, decide_eq_true_eq, not_and]
        intro p hp' hn
        simp [e3 (fun data hd => hp ⟨data, hd⟩) p hp' hn]
      rw [hx]
      congr 1
      split
      · exact absurd ⟨_, rfl⟩ hp
      · rfl

/-- C95: in any execution, the pongs that the connection writes on its own are exactly the answers to the pings that
were received while it was open: one for each ping, in the same order, with the same payload, and each of them in
a single frame. -/
theorem C95_pongs {as : List Act} {s : Conn} {os : List Obs} (h : Conn.exec {} as = some (s, os))
    (hs : Spec.ShortPings as) : Spec.pongs s.log = (Spec.pinged {} as).map Spec.pong := by
  simpa [Spec.pongs] using pongs_exec h hs

/-- C95: a ping that is received when the connection isn't open isn't answered: nothing is written. -/
theorem C95_closing {s s' : Conn} {data : Bytes} {o : List Obs} (h : s.step (.recvPing data) = some (s', o))
    (hn : s.state ≠ .opened) : s'.log = s.log := by
  simp only [Conn.step] at h
  split at h
  · cases h
    unfold Conn.recvPing Conn.ensureTransfer
    split
    · next ho => exact absurd ho hn
    · simp [Conn.transferFails, Conn.fail_idle hn]
    · rfl
  · cases h

theorem Spec.Reason.mono {as as' : List Act} {os os' : List Obs} {i : Option Nat} {data : Bytes}
    (h : Spec.Reason as os i data) (ha : ∀ a ∈ as, a ∈ as') (ho : ∀ o ∈ os, o ∈ os') : Spec.Reason as' os' i data := by
  cases h with
  | call h => exact .call (ha _ h)
  | reply h h' => exact .reply (ha _ h) h'
  | failed h h' h'' => exact .failed (h.imp (ha _) (ha _)) h' h''
  | encoding h h' h'' => exact .encoding (ha _ h) h' h''
  | invalid h h1 h2 h3 => exact .invalid (ha _ h) h1 h2 h3
  | long h h' h'' => exact .long (ha _ h) h' h''
  | send h h' h'' => exact .send (ho _ h) h' h''

/-- C96: in any execution, a close frame is written only for one of these reasons, and its payload is the corresponding
one.  In particular, a connection that fails because the TCP connection is lost (1006) doesn't write one. -/
theorem C96_reason {as : List Act} {s : Conn} {os : List Obs} (h : Conn.exec {} as = some (s, os))
    {i : Option Nat} {f : Frame} (hf : (i, f) ∈ s.log) (hc : f.opcode = .close) :
    Spec.Reason as os i f.data ∧ f.fin = true := by
  have key : ∀ p ∈ s.log, p.2.opcode = .close → Spec.Reason as os p.1 p.2.data ∧ p.2.fin = true := by
    refine Conn.exec_induction (P := fun as s os => ∀ p ∈ s.log, p.2.opcode = .close →
      Spec.Reason as os p.1 p.2.data ∧ p.2.fin = true) (by simp) ?_ h
    intro as a s s' os o _ ih hs p hp hc
    obtain ⟨ext, e1, e2, -⟩ := step_explained hs
    rw [e1, List.mem_append] at hp
    rcases hp with hp | hp
    · obtain ⟨h1, h2⟩ := ih p hp hc
      exact ⟨h1.mono (by simp +contextual) (by simp +contextual), h2⟩
    · obtain ⟨h1, h2⟩ := e2 p hp hc
      exact ⟨h1.mono (by simp +contextual) (by simp +contextual), h2⟩
  exact key (i, f) hf hc

/-- C96: when an open connection fails, with a code other than 1006, a close frame with this code is written. -/
theorem C96_fail {s s' : Conn} {a : Act} {code : Int} {data : Bytes} {o : List Obs}
    (ha : a = .fail code ∨ a = .transferFails code) (h : s.step a = some (s', o)) (ho : s.state = .opened)
    (hn : code ≠ 1006) (hd : serializeClose code [] = .ok data) :
    s'.log = s.log ++ [(none, { fin := true, opcode := .close, data })] ∧ s'.state = .closing := by
  have hf : s.fail code = { s with state := .closing, log := s.log ++ [(none, { fin := true, opcode := .close, data })] } := by
    simp [Conn.fail, hn, ho, hd]
  rcases ha with rfl | rfl <;> simp only [Conn.step] at h
  · cases h; rw [hf]; exact ⟨rfl, rfl⟩
  · split at h
    · cases h; rw [Conn.transferFails, hf]; exact ⟨rfl, rfl⟩
    · cases h

/-- C96: an open connection answers a valid close frame with a close frame that has the same payload. -/
theorem C96_reply {s s' : Conn} {data : Bytes} {info : Int × PyStr} {o : List Obs}
    (h : s.step (.recvClose data) = some (s', o)) (ho : s.state = .opened) (hp : parseClose data = .ok info)
    (hl : data.length ≤ 125) :
    s'.log = s.log ++ [(none, { fin := true, opcode := .close, data })] ∧ s'.state = .closing ∧
      s'.closeInfo = some info := by
  have hc : Frame.check { fin := true, opcode := .close, data } = .ok () :=
    (Frame.check_ok_iff _).2 ⟨rfl, rfl, rfl, fun _ => ⟨rfl, hl⟩⟩
  simp only [Conn.step] at h
  split at h
  · cases h
    simp [Conn.recvClose, hp, Conn.writeClose, ho, Conn.write, hc]
  · cases h

/-- Two pings are answered, between two fragments of a message; a third one is received when the connection is
closing. -/
example : (Conn.exec {} [.recvPing b!"a", .resumeTransfer .ok, .call (.send (.iter [.data true b!"x", .data true b!"y"])),
    .recvPing b!"b", .resumeTransfer .ok, .resume 0 .ok, .call (.close [3, 232]), .recvPing b!"c"]).map
    (fun p => decide (Spec.pongs p.1.log = [Spec.pong b!"a", Spec.pong b!"b"] ∧ p.1.transfer = .stuck ∧
      p.1.log.map (·.2.opcode) = [.pong, .text, .pong, .cont, .close])) = some true := by decide +kernel

/-- An iterator fails while a fragmented message is sent: the reason is `Spec.Reason.send`. -/
example : (Conn.exec {} [.call (.send (.iter [.data true b!"x", .error])), .resume 0 .ok]).map
    (fun p => decide (p.1.log.map (fun q => (q.1, q.2.opcode, q.2.data)) =
      [(some 0, .text, b!"x"), (none, .close, [3, 243])] ∧ p.2 = [.raised 0 .typeError])) = some true := by
  decide +kernel

/-- A reply to a close frame, and a failure: the hypotheses of `C96_reply` and `C96_fail`. -/
example : (Conn.exec {} [.recvPing b!"a", .resumeTransfer .ok, .recvClose [3, 233]]).map
      (fun p => p.1.log.map (fun q => (q.2.opcode, q.2.data))) = some [(.pong, b!"a"), (.close, [3, 233])]
    ∧ parseClose [3, 233] = .ok (1001, []) ∧ serializeClose 1009 [] = .ok [3, 241]
    ∧ (Conn.exec {} [.recvPing b!"a", .resumeTransfer .ok, .transferFails 1009]).map
      (fun p => p.1.log.map (fun q => (q.2.opcode, q.2.data))) = some [(.pong, b!"a"), (.close, [3, 241])] := by
  decide +kernel

end WS.LegacyConn
