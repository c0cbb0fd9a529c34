import Verif.Model.LegacyConn
import Verif.Lemmas.Frames

/-!
# How the log of frames grows
-/

namespace WS.LegacyConn

/-- Nothing follows a close frame. -/
def Spec.NothingAfterClose (frames : List Frame) : Prop :=
  ∀ pre f post, frames = pre ++ f :: post → f.opcode = .close → post = []

def Conn.frames (s : Conn) : List Frame := s.log.map (·.2)

/-- The frames that are written between two states. -/
def Grows (s s' : Conn) : Prop :=
  ∃ ext, s'.frames = s.frames ++ ext ∧
    (s.state ≠ .opened → ext = [] ∧ s'.state ≠ .opened) ∧
    Spec.NothingAfterClose ext ∧
    (s'.state = .opened → ∀ f ∈ ext, f.opcode ≠ .close) ∧ ∀ f ∈ ext, WS.Spec.ValidFrame f

theorem Spec.NothingAfterClose.nil : NothingAfterClose [] := by
  intro pre f post h
  simp at h

theorem Spec.NothingAfterClose.append {a b : List Frame} (ha : NothingAfterClose a)
    (hb : NothingAfterClose b) (h : b ≠ [] → ∀ f ∈ a, f.opcode ≠ .close) :
    NothingAfterClose (a ++ b) := by
  intro pre f post he hf
  rcases List.append_eq_append_iff.1 he with ⟨c, h1, h2⟩ | ⟨c, h1, h2⟩
  · exact hb c f post h2 hf
  · cases c with
    | nil => exact hb [] f post h2.symm hf
    | cons x xs =>
      simp only [List.cons_append, List.cons.injEq] at h2
      obtain ⟨rfl, rfl⟩ := h2
      have hx := ha pre f xs h1 hf
      subst hx
      by_cases hbn : b = []
      · simp [hbn]
      · exact absurd hf (h hbn f (by rw [h1]; simp))

theorem Spec.NothingAfterClose.single (f : Frame) : NothingAfterClose [f] := by
  intro pre g post h _
  cases pre with
  | nil => simp only [List.nil_append, List.cons.injEq] at h; exact h.2.symm
  | cons x xs => simp at h

theorem Grows.trans {s t u : Conn} (h : Grows s t) (h' : Grows t u) : Grows s u := by
  obtain ⟨a, a1, a2, a3, a4, a5⟩ := h
  obtain ⟨b, b1, b2, b3, b4, b5⟩ := h'
  refine ⟨a ++ b, by rw [b1, a1, List.append_assoc], ?_, ?_, ?_, ?_⟩
  · intro hs
    obtain ⟨ha, ht⟩ := a2 hs
    obtain ⟨hb, hu⟩ := b2 ht
    exact ⟨by simp [ha, hb], hu⟩
  · refine a3.append b3 fun hb => ?_
    by_cases ht : t.state = .opened
    · exact a4 ht
    · exact absurd (b2 ht).1 hb
  · intro hu f hf
    by_cases ht : t.state = .opened
    · rcases List.mem_append.1 hf with hf | hf
      · exact a4 ht f hf
      · exact b4 hu f hf
    · exact absurd hu (b2 ht).2
  · intro f hf
    rcases List.mem_append.1 hf with hf | hf
    · exact a5 f hf
    · exact b5 f hf

theorem Grows.same {s s' : Conn} (h1 : s'.log = s.log) (h2 : s'.state = s.state) : Grows s s' :=
  ⟨[], by simp [Conn.frames, h1], by simp [h2], .nil, by simp, by simp⟩

/-- Closing without writing. -/
theorem Grows.shut {s s' : Conn} (h1 : s'.log = s.log) (h2 : s'.state ≠ .opened) : Grows s s' :=
  ⟨[], by simp [Conn.frames, h1], by simp [h2], .nil, by simp, by simp⟩

theorem Conn.write_ok {s s' : Conn} {i : Option Nat} {fin : Bool} {op : Opcode} {data : Bytes}
    {expected : State} (h : s.write i fin op data expected = .ok s') :
    s.state = expected ∧
      s' = { s with log := s.log ++ [(i, { fin, opcode := op, data })] } := by
  unfold Conn.write at h
  split at h
  · cases h
  · rename_i hs
    split at h
    · cases h
    · cases h
      exact ⟨Classical.not_not.1 hs, rfl⟩

theorem Conn.write_error {s : Conn} {i : Option Nat} {fin : Bool} {op : Opcode} {data : Bytes}
    {e : Exn} (h : s.write i fin op data = .error e) (hop : op.isCtrl = false) :
    s.state ≠ .opened ∧ e = .invalidState := by
  unfold Conn.write at h
  split at h
  · rename_i hs; cases h; exact ⟨hs, rfl⟩
  · split at h
    · rename_i hc
      simp [Frame.check, hop] at hc
    · cases h

theorem Conn.write_valid {s s' : Conn} {i : Option Nat} {fin : Bool} {op : Opcode} {data : Bytes}
    {expected : State} (h : s.write i fin op data expected = .ok s') :
    WS.Spec.ValidFrame { fin, opcode := op, data } := by
  unfold Conn.write at h
  split at h
  · cases h
  · split at h
    · cases h
    · rename_i hc
      exact (Frame.check_ok_iff _).1 hc

theorem Conn.write_grows {s s' : Conn} {i : Option Nat} {fin : Bool} {op : Opcode} {data : Bytes}
    (h : s.write i fin op data = .ok s') (hop : op ≠ .close) : Grows s s' := by
  have hv := Conn.write_valid h
  obtain ⟨h1, rfl⟩ := Conn.write_ok h
  refine ⟨[{ fin, opcode := op, data }], by simp [Conn.frames], ?_, .single _, ?_, by simpa using hv⟩
  · intro h; exact absurd h1 h
  · intro _ f hf
    simp only [List.mem_singleton] at hf
    subst hf
    exact hop

theorem Conn.fail_grows (s : Conn) (code : Int) : Grows s (s.fail code) := by
  unfold Conn.fail
  split
  · rename_i hc
    split
    · exact .same rfl rfl
    · rename_i data hd
      refine ⟨[_], by simp [Conn.frames]; rfl, ?_, .single _, by simp, ?_⟩
      · intro h; exact absurd hc.2 h
      · intro f hf
        simp only [List.mem_singleton] at hf
        subst hf
        refine ⟨rfl, rfl, rfl, fun _ => ⟨rfl, ?_⟩⟩
        unfold serializeClose at hd
        split at hd
        · cases hd
        · have he : utf8Encode [] = .ok [] := by decide +kernel
          rw [he] at hd
          cases hd
          simp [packH]
  · exact .same rfl rfl

theorem Conn.writeClose_grows (s : Conn) (i : Option Nat) (data : Bytes) :
    Grows s (s.writeClose i data).1 := by
  unfold Conn.writeClose
  split
  · rename_i hs
    simp only
    split
    · exact .shut rfl (by simp)
    · rename_i s' hw
      have hv := Conn.write_valid hw
      obtain ⟨-, rfl⟩ := Conn.write_ok hw
      refine ⟨[_], by simp [Conn.frames]; rfl, ?_, .single _, by simp, by simpa using hv⟩
      intro h; exact absurd hs h
  · exact .same rfl rfl

theorem Conn.setTask_grows (s : Conn) (i : Nat) (pc : Option Pc) : Grows s (s.setTask i pc) :=
  .same rfl rfl

theorem Conn.release_grows (s : Conn) (i : Nat) (o : Obs) : Grows s (s.release i o).1 := by
  unfold Conn.release
  split <;> exact .same rfl rfl

theorem Conn.failFragment_grows (s : Conn) (i : Nat) (e : Exn) : Grows s (s.failFragment i e).1 :=
  (s.fail_grows 1011).trans (Conn.release_grows _ _ _)

theorem Conn.sendNext_grows (s : Conn) (i : Nat) (async text : Bool) (items : List Chunk) :
    Grows s (s.sendNext i async text items).1 := by
  unfold Conn.sendNext
  split
  · split
    · exact Conn.failFragment_grows _ _ _
    · rename_i hw; exact (Conn.write_grows hw (by simp)).trans (.same rfl rfl)
  · exact Conn.failFragment_grows _ _ _
  · split
    · exact Conn.failFragment_grows _ _ _
    · split
      · exact Conn.failFragment_grows _ _ _
      · rename_i hw; exact (Conn.write_grows hw (by simp)).trans (.same rfl rfl)

theorem opcodeOf_ne (text : Bool) : opcodeOf text ≠ .close := by cases text <;> simp [opcodeOf]

theorem Conn.sendFirst_grows (s : Conn) (i : Nat) (async : Bool) (items : List Chunk) :
    Grows s (s.sendFirst i async items).1 := by
  unfold Conn.sendFirst
  split
  · exact .same rfl rfl
  · exact .same rfl rfl
  · simp only
    split
    · exact Grows.trans (t := { s with frag := some i }) (.same rfl rfl) (Conn.failFragment_grows _ _ _)
    · rename_i hw
      exact Grows.trans (t := { s with frag := some i }) (.same rfl rfl)
        ((Conn.write_grows hw (opcodeOf_ne _)).trans (.same rfl rfl))

theorem Conn.sendLoop_grows (s : Conn) (i : Nat) (m : Msg) : Grows s (s.sendLoop i m).1 := by
  unfold Conn.sendLoop
  split
  · exact .same rfl rfl
  · split
    · split
      · exact .same rfl rfl
      · rename_i hw; exact (Conn.write_grows hw (opcodeOf_ne _)).trans (.same rfl rfl)
    · exact Conn.sendFirst_grows _ _ _ _
    · exact .same rfl rfl
    · exact Conn.sendFirst_grows _ _ _ _

theorem Conn.callOpen_grows {s s' : Conn} {i : Nat} {c : Call} {o : List Obs}
    (h : s.callOpen i c = some (s', o)) : Grows s s' := by
  unfold Conn.callOpen at h
  split at h
  · have := s.sendLoop_grows i ‹_›
    rw [Option.some.inj h] at this
    exact this
  · split at h
    · split at h
      · cases h; exact .same rfl rfl
      · cases h
    · simp only at h
      split at h
      · cases h; exact .same rfl rfl
      · rename_i hw
        cases h
        exact Grows.trans (t := { s with pings := s.pings ++ [(_, i)] }) (.same rfl rfl)
          ((Conn.write_grows hw (by simp)).trans (.same rfl rfl))
  · split at h
    · cases h; exact .same rfl rfl
    · rename_i hw; cases h; exact (Conn.write_grows hw (by simp)).trans (.same rfl rfl)
  · cases h

theorem Conn.call_grows {s s' : Conn} {c : Call} {o : List Obs}
    (h : s.call c = some (s', o)) : Grows s s' := by
  have key : ∀ c', Grows s { s with calls := s.calls ++ [c'] } := fun c' => .same rfl rfl
  unfold Conn.call at h
  simp only at h
  split at h
  · rename_i data
    have := ({ s with calls := s.calls ++ [.close data] } : Conn).writeClose_grows
      (some s.calls.length) data
    split at h
    all_goals
      rename_i s1 hw
      rw [hw] at this
      cases h
      exact ((key _).trans this).trans (.same rfl rfl)
  · split at h
    · exact (key _).trans (Conn.callOpen_grows h)
    · split at h
      · cases h; exact key _
      · cases h; exact .same rfl rfl

theorem Conn.afterFragment_grows (s : Conn) (i : Nat) (async text : Bool) (items : List Chunk) :
    Grows s (s.afterFragment i async text items).1 := by
  unfold Conn.afterFragment
  split
  · exact .same rfl rfl
  · exact Conn.sendNext_grows _ _ _ _ _

theorem Conn.afterPing_grows (s : Conn) (i : Nat) (data : Bytes) :
    Grows s (s.afterPing i data).1 := by
  unfold Conn.afterPing
  split <;> exact .same rfl rfl

theorem Grows.of_eq {s s' : Conn} {o : List Obs} {p : Conn × List Obs} (h : some p = some (s', o))
    (hg : Grows s p.1) : Grows s s' := by
  cases h; exact hg

theorem Conn.fail_1006 (s : Conn) : s.fail 1006 = s := by simp [Conn.fail]

theorem Conn.resume_grows {s s' : Conn} {i : Nat} {d : Drain} {o : List Obs}
    (h : s.resume i d = some (s', o)) : Grows s s' := by
  unfold Conn.resume at h
  simp only [Conn.fail_1006] at h
  split at h
  · cases h
  · split at h
    · exact .of_eq h (.same rfl rfl)
    · split at h <;> exact .of_eq h (.same rfl rfl)
    · exact .of_eq h (.same rfl rfl)
  · split at h
    · exact .of_eq h (Conn.sendLoop_grows _ _ _)
    · cases h
  · exact .of_eq h (Conn.sendFirst_grows _ _ _ _)
  · split at h
    · exact .of_eq h (Conn.afterFragment_grows _ _ _ _ _)
    · split at h
      · exact .of_eq h (Conn.afterFragment_grows _ _ _ _ _)
      · exact .of_eq h (.same rfl rfl)
    · exact .of_eq h (Conn.failFragment_grows _ _ _)
  · exact .of_eq h (Conn.sendNext_grows _ _ _ _ _)
  · split at h
    · exact .of_eq h (Conn.release_grows _ _ _)
    · split at h
      · exact .of_eq h (Conn.release_grows _ _ _)
      · exact .of_eq h (.same rfl rfl)
    · exact .of_eq h (Conn.failFragment_grows _ _ _)
  · split at h
    · exact .of_eq h (Conn.afterPing_grows _ _ _)
    · split at h
      · exact .of_eq h (Conn.afterPing_grows _ _ _)
      · exact .of_eq h (.same rfl rfl)
    · exact .of_eq h (.same rfl rfl)
  · exact .of_eq h (Conn.failFragment_grows _ _ _)
  · exact .of_eq h (.same rfl rfl)

theorem Conn.cancel_grows {s s' : Conn} {i : Nat} {o : List Obs}
    (h : s.cancel i = some (s', o)) : Grows s s' := by
  unfold Conn.cancel at h
  split at h
  · cases h
  all_goals first
    | exact .of_eq h (Conn.release_grows _ _ _)
    | exact .of_eq h (.same rfl rfl)

theorem Conn.transferFails_grows (s : Conn) (code : Int) : Grows s (s.transferFails code) :=
  (s.fail_grows code).trans (.same rfl rfl)

theorem Conn.ensureTransfer_grows {s opened closed : Conn} (h1 : Grows s opened)
    (h2 : Grows s closed) : Grows s (s.ensureTransfer opened closed) := by
  unfold Conn.ensureTransfer
  split
  · exact h1
  · exact h2
  · exact .same rfl rfl

theorem Conn.recvClose_grows (s : Conn) (data : Bytes) : Grows s (s.recvClose data) := by
  unfold Conn.recvClose
  split
  · exact s.transferFails_grows _
  · exact s.transferFails_grows _
  · rename_i info _
    have key : Grows s { s with closeInfo := some info } := .same rfl rfl
    have := ({ s with closeInfo := some info } : Conn).writeClose_grows none data
    split
    all_goals
      rename_i s1 hw
      rw [hw] at this
      first
        | exact (key.trans this).trans (.same rfl rfl)
        | exact (key.trans this).trans (Conn.transferFails_grows _ _)

theorem Conn.recvPing_grows (s : Conn) (data : Bytes) : Grows s (s.recvPing data) := by
  unfold Conn.recvPing
  refine Conn.ensureTransfer_grows ?_ (s.transferFails_grows _)
  split
  · exact s.transferFails_grows _
  · exact s.transferFails_grows _
  · rename_i hw; exact (Conn.write_grows hw (by simp)).trans (.same rfl rfl)

theorem Conn.recvPong_grows (s : Conn) (data : Bytes) : Grows s (s.recvPong data) := by
  unfold Conn.recvPong
  split <;> exact .same rfl rfl

theorem Conn.resumeTransfer_grows {s s' : Conn} {d : Drain} (h : s.resumeTransfer d = some s') :
    Grows s s' := by
  unfold Conn.resumeTransfer at h
  simp only [Conn.fail_1006] at h
  split at h
  · split at h
    · cases h; exact .same rfl rfl
    · cases h; exact Conn.ensureTransfer_grows (.same rfl rfl) (s.transferFails_grows _)
    · cases h; exact s.transferFails_grows _
  · split at h
    · cases h; exact .same rfl rfl
    · cases h; exact Conn.ensureTransfer_grows (.same rfl rfl) (.same rfl rfl)
    · cases h; exact s.transferFails_grows _
  · cases h

theorem Conn.step_grows {s s' : Conn} {a : Act} {o : List Obs} (h : s.step a = some (s', o)) :
    Grows s s' := by
  cases a <;> simp only [Conn.step] at h
  case call c => exact Conn.call_grows h
  case resume => exact Conn.resume_grows h
  case cancel => exact Conn.cancel_grows h
  case recvClose =>
    split at h
    · exact .of_eq h (s.recvClose_grows _)
    · cases h
  case recvPing =>
    split at h
    · exact .of_eq h (s.recvPing_grows _)
    · cases h
  case recvPong =>
    split at h
    · exact .of_eq h (s.recvPong_grows _)
    · cases h
  case resumeTransfer =>
    simp only [Option.map_eq_some_iff, Prod.mk.injEq] at h
    obtain ⟨s1, h1, rfl, rfl⟩ := h
    exact Conn.resumeTransfer_grows h1
  case transferFails =>
    split at h
    · exact .of_eq h (s.transferFails_grows _)
    · cases h
  case cancelTransfer =>
    split at h
    · cases h
    · exact .of_eq h (.same rfl rfl)
  case fail => exact .of_eq h (s.fail_grows _)
  case lost =>
    split at h
    · cases h
    · exact .of_eq h (.shut rfl (by simp [Conn.lost]))

theorem Conn.exec_cons {s s' : Conn} {a : Act} {as : List Act} {os : List Obs}
    (h : s.exec (a :: as) = some (s', os)) :
    ∃ t o os', s.step a = some (t, o) ∧ t.exec as = some (s', os') ∧ os = o ++ os' := by
  simp only [Conn.exec] at h
  split at h
  · cases h
  · rename_i p o hp
    split at h
    · cases h
    · rename_i p' os' hp'
      cases h
      exact ⟨p, o, os', hp, hp', rfl⟩

theorem Conn.exec_append {s : Conn} {as bs : List Act} {s' : Conn} {os : List Obs}
    (h : s.exec (as ++ bs) = some (s', os)) :
    ∃ t o1 o2, s.exec as = some (t, o1) ∧ t.exec bs = some (s', o2) ∧ os = o1 ++ o2 := by
  induction as generalizing s os with
  | nil => exact ⟨s, [], os, rfl, h, rfl⟩
  | cons a as ih =>
    obtain ⟨t, o, os', h1, h2, rfl⟩ := Conn.exec_cons h
    obtain ⟨u, o1, o2, h3, h4, rfl⟩ := ih h2
    refine ⟨u, o ++ o1, o2, ?_, h4, by simp⟩
    simp [Conn.exec, h1, h3]

theorem Conn.exec_grows {s s' : Conn} {as : List Act} {os : List Obs}
    (h : s.exec as = some (s', os)) : Grows s s' := by
  induction as generalizing s os with
  | nil => cases h; exact .same rfl rfl
  | cons a as ih =>
    obtain ⟨t, o, os', h1, h2, rfl⟩ := Conn.exec_cons h
    exact (Conn.step_grows h1).trans (ih h2)

end WS.LegacyConn
