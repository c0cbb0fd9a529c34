import Verif.Lemmas.LegacyPings

/-!
# `close_code` and `close_reason`
-/

namespace WS.LegacyConn

@[simp] theorem Conn.setTask_closeInfo (s : Conn) (i : Nat) (pc : Option Pc) : (s.setTask i pc).closeInfo = s.closeInfo := rfl

theorem Conn.write_closeInfo {s s' : Conn} {i : Option Nat} {fin : Bool} {op : Opcode} {data : Bytes}
    {expected : State} (h : s.write i fin op data expected = .ok s') :
    s'.closeInfo = s.closeInfo := by
  obtain ⟨-, rfl⟩ := Conn.write_ok h
  rfl

@[simp] theorem Conn.fail_closeInfo (s : Conn) (code : Int) : (s.fail code).closeInfo = s.closeInfo := by
  unfold Conn.fail
  split
  · split
    · rfl
    · rfl
  · rfl

@[simp] theorem Conn.writeClose_closeInfo (s : Conn) (i : Option Nat) (data : Bytes) :
    (s.writeClose i data).1.closeInfo = s.closeInfo := by
  unfold Conn.writeClose
  split
  · simp only
    split
    · rfl
    · rename_i hw
      have := Conn.write_closeInfo hw
      exact this
  · rfl

@[simp] theorem Conn.release_closeInfo (s : Conn) (i : Nat) (o : Obs) : (s.release i o).1.closeInfo = s.closeInfo := by
  unfold Conn.release
  split <;> rfl

@[simp] theorem Conn.failFragment_closeInfo (s : Conn) (i : Nat) (e : Exn) :
    (s.failFragment i e).1.closeInfo = s.closeInfo := by
  simp [Conn.failFragment]

@[simp] theorem Conn.sendNext_closeInfo (s : Conn) (i : Nat) (async text : Bool) (items : List Chunk) :
    (s.sendNext i async text items).1.closeInfo = s.closeInfo := by
  unfold Conn.sendNext
  split
  · split
    · simp
    · rename_i hw; simpa using Conn.write_closeInfo hw
  · simp
  · split
    · simp
    · split
      · simp
      · rename_i hw; simpa using Conn.write_closeInfo hw

@[simp] theorem Conn.sendFirst_closeInfo (s : Conn) (i : Nat) (async : Bool) (items : List Chunk) :
    (s.sendFirst i async items).1.closeInfo = s.closeInfo := by
  unfold Conn.sendFirst
  split
  · simp
  · simp
  · simp only
    split
    · simp
    · rename_i hw
      have := Conn.write_closeInfo hw
      exact this

@[simp] theorem Conn.sendLoop_closeInfo (s : Conn) (i : Nat) (m : Msg) : (s.sendLoop i m).1.closeInfo = s.closeInfo := by
  unfold Conn.sendLoop
  split
  · simp
  · split
    · split
      · simp
      · rename_i hw; simpa using Conn.write_closeInfo hw
    · simp
    · simp
    · simp

@[simp] theorem Conn.afterFragment_closeInfo (s : Conn) (i : Nat) (async text : Bool) (items : List Chunk) :
    (s.afterFragment i async text items).1.closeInfo = s.closeInfo := by
  unfold Conn.afterFragment
  split <;> simp

@[simp] theorem Conn.afterPing_closeInfo (s : Conn) (i : Nat) (data : Bytes) :
    (s.afterPing i data).1.closeInfo = s.closeInfo := by
  unfold Conn.afterPing
  split <;> simp

theorem closeInfo_of_eq {s s' : Conn} {o : List Obs} {p : Conn × List Obs} (h : some p = some (s', o))
    (hg : p.1.closeInfo = s.closeInfo) : s'.closeInfo = s.closeInfo := by
  cases h; exact hg

theorem Conn.resume_closeInfo {s s' : Conn} {i : Nat} {d : Drain} {o : List Obs}
    (h : s.resume i d = some (s', o)) : s'.closeInfo = s.closeInfo := by
  unfold Conn.resume at h
  simp only [Conn.fail_1006] at h
  split at h
  · cases h
  all_goals (try split at h) <;> (try split at h) <;>
    first | exact closeInfo_of_eq h (by simp) | cases h

theorem Conn.cancel_closeInfo {s s' : Conn} {i : Nat} {o : List Obs}
    (h : s.cancel i = some (s', o)) : s'.closeInfo = s.closeInfo := by
  unfold Conn.cancel at h
  split at h
  · cases h
  all_goals exact closeInfo_of_eq h (by simp)

@[simp] theorem Conn.transferFails_closeInfo (s : Conn) (code : Int) : (s.transferFails code).closeInfo = s.closeInfo := by
  have : (s.transferFails code).closeInfo = (s.fail code).closeInfo := rfl
  simp [this]

theorem Conn.ensureTransfer_closeInfo {s opened closed : Conn} (h1 : opened.closeInfo = s.closeInfo)
    (h2 : closed.closeInfo = s.closeInfo) : (s.ensureTransfer opened closed).closeInfo = s.closeInfo := by
  unfold Conn.ensureTransfer
  split
  · exact h1
  · exact h2
  · rfl

theorem Conn.recvClose_closeInfo (s : Conn) (data : Bytes) :
    (s.recvClose data).closeInfo = (match (parseClose data).toOption with
      | some info => some info
      | none => s.closeInfo) := by
  unfold Conn.recvClose
  split
  · rename_i h; simp [h, Except.toOption]
  · rename_i h; simp [h, Except.toOption]
  · rename_i info h
    have := ({ s with closeInfo := some info } : Conn).writeClose_closeInfo none data
    simp only [h, Except.toOption]
    split
    all_goals
      rename_i s1 hw
      rw [hw] at this
      first
        | exact this
        | (rw [Conn.transferFails_closeInfo]; exact this)

@[simp] theorem Conn.recvPing_closeInfo (s : Conn) (data : Bytes) : (s.recvPing data).closeInfo = s.closeInfo := by
  unfold Conn.recvPing
  refine Conn.ensureTransfer_closeInfo ?_ (by simp)
  split
  · simp
  · simp
  · rename_i hw
    have := Conn.write_closeInfo hw
    exact this

theorem Conn.resumeTransfer_closeInfo {s s' : Conn} {d : Drain} (h : s.resumeTransfer d = some s') :
    s'.closeInfo = s.closeInfo := by
  unfold Conn.resumeTransfer at h
  simp only [Conn.fail_1006] at h
  split at h
  · split at h
    · cases h; rfl
    · cases h; exact Conn.ensureTransfer_closeInfo rfl (by simp)
    · cases h; simp
  · split at h
    · cases h; rfl
    · cases h; exact Conn.ensureTransfer_closeInfo rfl rfl
    · cases h; simp
  · cases h


theorem Conn.call_closeInfo {s s' : Conn} {c : Call} {o : List Obs} (h : s.call c = some (s', o)) :
    s'.closeInfo = s.closeInfo := by
  unfold Conn.call at h
  simp only at h
  split at h
  · rename_i data
    have h1 := ({ s with calls := s.calls ++ [.close data] } : Conn).writeClose_closeInfo
      (some s.calls.length) data
    split at h
    all_goals
      rename_i s1 hw
      rw [hw] at h1
      cases h
      exact h1
  · split at h
    · unfold Conn.callOpen at h
      split at h
      · have := closeInfo_of_eq h (Conn.sendLoop_closeInfo _ _ _)
        exact this
      · split at h
        · split at h
          · cases h; rfl
          · cases h
        · simp only at h
          split at h
          · cases h; rfl
          · rename_i hw
            cases h
            have := Conn.write_closeInfo hw
            exact this
      · split at h
        · cases h; rfl
        · rename_i hw
          cases h
          have := Conn.write_closeInfo hw
          exact this
      · cases h
    · split at h <;> cases h <;> rfl

end WS.LegacyConn
