import Verif.Lemmas.LegacyPings

/-!
# Tasks that are suspended in `ping`
-/

namespace WS.LegacyConn

/-- No task is newly suspended in `ping`. -/
def Keeps (s s' : Conn) : Prop :=
  ∀ i d, s'.tasks i = some (.pinging d) → s.tasks i = some (.pinging d)

theorem Keeps.same {s s' : Conn} (h : s'.tasks = s.tasks) : Keeps s s' := by
  intro i d hi; rw [← h]; exact hi

theorem Keeps.trans {s t u : Conn} (h : Keeps s t) (h' : Keeps t u) : Keeps s u :=
  fun i d hi => h i d (h' i d hi)

theorem Keeps.set {s s' : Conn} (h : s'.tasks = s.tasks) (i : Nat) {pc : Option Pc}
    (hp : ∀ d, pc ≠ some (.pinging d)) : Keeps s (s'.setTask i pc) := by
  intro j d hj
  simp only [Conn.setTask] at hj
  split at hj
  · exact absurd hj (hp d)
  · rw [← h]; exact hj

theorem Conn.write_tasks {s s' : Conn} {i : Option Nat} {fin : Bool} {op : Opcode} {data : Bytes}
    {expected : State} (h : s.write i fin op data expected = .ok s') : s'.tasks = s.tasks := by
  obtain ⟨-, rfl⟩ := Conn.write_ok h; rfl

theorem Conn.fail_keeps (s : Conn) (code : Int) : Keeps s (s.fail code) := by
  unfold Conn.fail
  split
  · rename_i hc
    split
    · first | exact .same rfl | exact .set rfl _ (by simp)
    · first | exact .same rfl | exact .set rfl _ (by simp)
  · first | exact .same rfl | exact .set rfl _ (by simp)

theorem Conn.writeClose_keeps (s : Conn) (i : Option Nat) (data : Bytes) :
    Keeps s (s.writeClose i data).1 := by
  unfold Conn.writeClose
  split
  · rename_i hs
    simp only
    split
    · first | exact .same rfl | exact .set rfl _ (by simp)
    · rename_i hw
      have := Conn.write_tasks hw
      exact .same this
  · first | exact .same rfl | exact .set rfl _ (by simp)

theorem Conn.release_keeps (s : Conn) (i : Nat) (o : Obs) : Keeps s (s.release i o).1 := by
  unfold Conn.release
  split <;> first | exact .same rfl | exact .set rfl _ (by simp)

theorem Conn.failFragment_keeps (s : Conn) (i : Nat) (e : Exn) : Keeps s (s.failFragment i e).1 :=
  (s.fail_keeps 1011).trans (Conn.release_keeps _ _ _)

theorem Conn.sendNext_keeps (s : Conn) (i : Nat) (async text : Bool) (items : List Chunk) :
    Keeps s (s.sendNext i async text items).1 := by
  unfold Conn.sendNext
  split
  · split
    · exact Conn.failFragment_keeps _ _ _
    · rename_i hw; exact .set (Conn.write_tasks hw) _ (by simp)
  · exact Conn.failFragment_keeps _ _ _
  · split
    · exact Conn.failFragment_keeps _ _ _
    · split
      · exact Conn.failFragment_keeps _ _ _
      · rename_i hw; exact .set (Conn.write_tasks hw) _ (by simp)

theorem Conn.sendFirst_keeps (s : Conn) (i : Nat) (async : Bool) (items : List Chunk) :
    Keeps s (s.sendFirst i async items).1 := by
  unfold Conn.sendFirst
  split
  · first | exact .same rfl | exact .set rfl _ (by simp)
  · first | exact .same rfl | exact .set rfl _ (by simp)
  · simp only
    split
    · exact Keeps.trans (t := { s with frag := some i }) (.same rfl) (Conn.failFragment_keeps _ _ _)
    · rename_i hw
      have := Conn.write_tasks hw
      exact .set this _ (by simp)

theorem Conn.sendLoop_keeps (s : Conn) (i : Nat) (m : Msg) : Keeps s (s.sendLoop i m).1 := by
  unfold Conn.sendLoop
  split
  · first | exact .same rfl | exact .set rfl _ (by simp)
  · split
    · split
      · first | exact .same rfl | exact .set rfl _ (by simp)
      · rename_i hw; exact .set (Conn.write_tasks hw) _ (by simp)
    · exact Conn.sendFirst_keeps _ _ _ _
    · first | exact .same rfl | exact .set rfl _ (by simp)
    · exact Conn.sendFirst_keeps _ _ _ _

theorem Conn.afterFragment_keeps (s : Conn) (i : Nat) (async text : Bool) (items : List Chunk) :
    Keeps s (s.afterFragment i async text items).1 := by
  unfold Conn.afterFragment
  split
  · first | exact .same rfl | exact .set rfl _ (by simp)
  · exact Conn.sendNext_keeps _ _ _ _ _

theorem Conn.afterPing_keeps (s : Conn) (i : Nat) (data : Bytes) : Keeps s (s.afterPing i data).1 := by
  unfold Conn.afterPing
  split <;> first | exact .same rfl | exact .set rfl _ (by simp)

theorem Keeps.of_eq {s s' : Conn} {o : List Obs} {p : Conn × List Obs} (h : some p = some (s', o))
    (hg : Keeps s p.1) : Keeps s s' := by
  cases h; exact hg

theorem Conn.resume_keeps {s s' : Conn} {i : Nat} {d : Drain} {o : List Obs}
    (h : s.resume i d = some (s', o)) : Keeps s s' := by
  unfold Conn.resume at h
  simp only [Conn.fail_1006] at h
  split at h
  · cases h
  all_goals (try split at h) <;> (try split at h) <;> first
    | exact .of_eq h (.same rfl)
    | exact .of_eq h (.set rfl _ (by simp))
    | exact .of_eq h (Conn.sendLoop_keeps _ _ _)
    | exact .of_eq h (Conn.sendFirst_keeps _ _ _ _)
    | exact .of_eq h (Conn.sendNext_keeps _ _ _ _ _)
    | exact .of_eq h (Conn.afterFragment_keeps _ _ _ _ _)
    | exact .of_eq h (Conn.afterPing_keeps _ _ _)
    | exact .of_eq h (Conn.failFragment_keeps _ _ _)
    | exact .of_eq h (Conn.release_keeps _ _ _)
    | cases h

theorem Conn.cancel_keeps {s s' : Conn} {i : Nat} {o : List Obs}
    (h : s.cancel i = some (s', o)) : Keeps s s' := by
  unfold Conn.cancel at h
  split at h
  · cases h
  all_goals first
    | exact .of_eq h (.same rfl)
    | exact .of_eq h (.set rfl _ (by simp))
    | exact .of_eq h (Conn.release_keeps _ _ _)

theorem Conn.transferFails_keeps (s : Conn) (code : Int) : Keeps s (s.transferFails code) :=
  (s.fail_keeps code).trans (.same rfl)

theorem Conn.ensureTransfer_keeps {s opened closed : Conn} (h1 : Keeps s opened)
    (h2 : Keeps s closed) : Keeps s (s.ensureTransfer opened closed) := by
  unfold Conn.ensureTransfer
  split
  · exact h1
  · exact h2
  · first | exact .same rfl | exact .set rfl _ (by simp)

theorem Conn.recvClose_keeps (s : Conn) (data : Bytes) : Keeps s (s.recvClose data) := by
  unfold Conn.recvClose
  split
  · exact s.transferFails_keeps _
  · exact s.transferFails_keeps _
  · rename_i info _
    have key : Keeps s { s with closeInfo := some info } := .same rfl
    have := ({ s with closeInfo := some info } : Conn).writeClose_keeps none data
    split
    all_goals
      rename_i s1 hw
      rw [hw] at this
      first
        | exact (key.trans this).trans (.same rfl)
        | exact (key.trans this).trans (Conn.transferFails_keeps _ _)

theorem Conn.recvPing_keeps (s : Conn) (data : Bytes) : Keeps s (s.recvPing data) := by
  unfold Conn.recvPing
  refine Conn.ensureTransfer_keeps ?_ (s.transferFails_keeps _)
  split
  · exact s.transferFails_keeps _
  · exact s.transferFails_keeps _
  · rename_i hw; have := Conn.write_tasks hw; exact .same this

theorem Conn.resumeTransfer_keeps {s s' : Conn} {d : Drain} (h : s.resumeTransfer d = some s') :
    Keeps s s' := by
  unfold Conn.resumeTransfer at h
  simp only [Conn.fail_1006] at h
  split at h
  · split at h
    · cases h; first | exact .same rfl | exact .set rfl _ (by simp)
    · cases h; exact Conn.ensureTransfer_keeps (.same rfl) (s.transferFails_keeps _)
    · cases h; exact s.transferFails_keeps _
  · split at h
    · cases h; first | exact .same rfl | exact .set rfl _ (by simp)
    · cases h; exact Conn.ensureTransfer_keeps (.same rfl) (.same rfl)
    · cases h; exact s.transferFails_keeps _
  · cases h


theorem Conn.step_keeps {s s' : Conn} {a : Act} {o : List Obs} (h : s.step a = some (s', o))
    {i : Nat} {d : Bytes} (hi : s'.tasks i = some (.pinging d)) :
    s.tasks i = some (.pinging d) ∨
      ∃ e, a = .call (.ping e d) ∧ i = s.calls.length ∧ (d, i) ∈ s'.pings := by
  cases a <;> simp only [Conn.step] at h
  case call c =>
    unfold Conn.call at h
    simp only at h
    split at h
    · rename_i data
      refine .inl ?_
      have h2 := ({ s with calls := s.calls ++ [.close data] } : Conn).writeClose_keeps
        (some s.calls.length) data
      split at h
      all_goals
        rename_i s1 hw
        rw [hw] at h2
        cases h
        first
          | exact h2 i d hi
          | exact (h2.trans (Keeps.set rfl _ (by simp))) i d hi
    · rename_i c hc
      split at h
      · unfold Conn.callOpen at h
        split at h
        · exact .inl (Keeps.of_eq h (Conn.sendLoop_keeps _ _ _) i d hi)
        · rename_i explicit d'
          split at h
          · split at h
            · cases h; exact .inl hi
            · cases h
          · simp only at h
            split at h
            · cases h; exact .inl hi
            · rename_i hw
              cases h
              obtain ⟨-, rfl⟩ := Conn.write_ok hw
              simp only [Conn.setTask] at hi
              split at hi
              · rename_i he
                cases hi
                exact .inr ⟨_, rfl, he, by simp [Conn.setTask, he]⟩
              · exact .inl hi
        · split at h
          · cases h; exact .inl hi
          · rename_i hw
            cases h
            have := Conn.write_tasks hw
            exact .inl (Keeps.set this _ (by simp) i d hi)
        · cases h
      · split at h
        · cases h; exact .inl hi
        · cases h
          exact .inl (Keeps.set (s := s) (s' := { s with calls := s.calls ++ [_] }) rfl _ (by simp) i d hi)
  case resume => exact .inl (Conn.resume_keeps h i d hi)
  case cancel => exact .inl (Conn.cancel_keeps h i d hi)
  case recvClose =>
    split at h
    · cases h; exact .inl (s.recvClose_keeps _ i d hi)
    · cases h
  case recvPing =>
    split at h
    · cases h; exact .inl (s.recvPing_keeps _ i d hi)
    · cases h
  case recvPong =>
    split at h
    · cases h
      refine .inl ?_
      unfold Conn.recvPong at hi
      split at hi <;> exact hi
    · cases h
  case resumeTransfer =>
    simp only [Option.map_eq_some_iff, Prod.mk.injEq] at h
    obtain ⟨s1, h1, rfl, rfl⟩ := h
    exact .inl (Conn.resumeTransfer_keeps h1 i d hi)
  case transferFails =>
    split at h
    · cases h; exact .inl (s.transferFails_keeps _ i d hi)
    · cases h
  case cancelTransfer =>
    split at h
    · cases h
    · cases h; exact .inl hi
  case fail => cases h; exact .inl (s.fail_keeps _ i d hi)
  case lost =>
    split at h
    · cases h
    · cases h; exact .inl hi

end WS.LegacyConn
