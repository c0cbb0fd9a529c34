import Verif.Lemmas.ConnReply

/-! Helper lemmas: the events of an execution. -/

namespace WS

open Spec

variable {X E H : Type}

/-- Nothing that concerns received messages changes, except that a close frame may have been
taken into account. -/
structure Core.Same (c c' : Core X E) : Prop where
  maxSize : c'.maxSize = c.maxSize
  curSize : c'.curSize = c.curSize
  closeReceived : c'.closeReceived = false → c.closeReceived = false

theorem Core.Same.refl {c : Core X E} : Core.Same c c := ⟨rfl, rfl, id⟩

theorem Core.Same.trans {a b c : Core X E} (h1 : Core.Same a b) (h2 : Core.Same b c) :
    Core.Same a c :=
  ⟨h2.1.trans h1.1, h2.2.trans h1.2, fun h => h1.3 (h2.3 h)⟩

theorem Core.Quiet.same {c c' : Core X E} (h : Core.Quiet c c') : Core.Same c c' :=
  ⟨h.maxSize, h.curSize, fun hc => by rw [← h.closeReceived]; exact hc⟩

theorem HsStep.same {c c' : Core X E} {raws} (h : HsStep c c' raws) : Core.Same c c' :=
  ⟨h.maxSize, h.curSize, fun hc => by rw [← h.closeReceived]; exact hc⟩

/-- The frames taken into account by a sequence of operations. -/
inductive RecvPath (env : Env X E H) : Core X E → List (Event E) → Core X E → Prop where
  | nil {c} : RecvPath env c [] c
  | frame {c f c1 evs c2} : c.Accept env f c1 → RecvPath env c1 evs c2 →
      RecvPath env c (.frame f :: evs) c2
  | hs {c c1 e evs c2} : Core.Same c c1 → RecvPath env c1 evs c2 →
      RecvPath env c (.handshake e :: evs) c2
  | same {c c1 evs c2} : Core.Same c c1 → RecvPath env c1 evs c2 → RecvPath env c evs c2

theorem RecvPath.trans {env : Env X E H} {a b c : Core X E} {e1 e2 : List (Event E)}
    (h1 : RecvPath env a e1 b) (h2 : RecvPath env b e2 c) : RecvPath env a (e1 ++ e2) c := by
  induction h1 with
  | nil => exact h2
  | frame ha _ ih => exact .frame ha (ih h2)
  | hs ha _ ih => exact .hs ha (ih h2)
  | same ha _ ih => exact .same ha (ih h2)

theorem RecvPath.ofSame {env : Env X E H} {c c' : Core X E} (h : Core.Same c c') :
    RecvPath env c [] c' := .same h .nil

theorem Frames.recvPath {env : Env X E H} {c c' : Core X E} {fs : List Frame}
    (h : Frames env c fs c') : RecvPath env c (fs.map .frame) c' := by
  induction h with
  | nil => exact .nil
  | cons ha _ ih => exact .frame ha ih

theorem RecvPath.ofHs {env : Env X E H} {c c' : Core X E} {evs : List (Event E)}
    (h : ∀ ev ∈ evs, ∃ e, ev = .handshake e) (hs : Core.Same c c') :
    RecvPath env c evs c' := by
  induction evs with
  | nil => exact .same hs .nil
  | cons ev evs ih =>
    obtain ⟨e, rfl⟩ := h ev (List.mem_cons_self ..)
    exact .hs .refl (ih fun ev hev => h ev (List.mem_cons_of_mem _ hev))

/-- An operation with its events. -/
def Core.Receives (env : Env X E H) (c c' : Core X E) : Prop :=
  ∃ evs, c'.events = c.events ++ evs ∧ RecvPath env c evs c'

theorem Core.Receives.refl {env : Env X E H} {c : Core X E} : c.Receives env c :=
  ⟨[], by simp, .nil⟩

theorem Core.Receives.trans {env : Env X E H} {a b c : Core X E} (h1 : a.Receives env b)
    (h2 : b.Receives env c) : a.Receives env c := by
  obtain ⟨e1, a1, b1⟩ := h1
  obtain ⟨e2, a2, b2⟩ := h2
  exact ⟨e1 ++ e2, by rw [a2, a1, List.append_assoc], b1.trans b2⟩

theorem Core.Receives.same {env : Env X E H} {c c' : Core X E} (h : Core.Same c c')
    (he : c'.events = c.events) : c.Receives env c' :=
  ⟨[], by simp [he], .same h .nil⟩

theorem Core.Receives.quiet {env : Env X E H} {c c' : Core X E} (h : Core.Quiet c c') :
    c.Receives env c' := .same h.same h.events

theorem Core.Receives.hs {env : Env X E H} {c c' : Core X E} {raws} (h : HsStep c c' raws) :
    c.Receives env c' := by
  obtain ⟨evs, he, hh⟩ := h.events
  exact ⟨evs, he, .ofHs hh h.same⟩

theorem Frames.receives {env : Env X E H} (hl : env.ops.Lawful) {c c' : Core X E}
    {fs : List Frame} (h : Frames env c fs c') : c.Receives env c' :=
  ⟨_, (h.took hl).events, h.recvPath⟩

theorem Core.handleFrame_same {env : Env X E H} {c c' : Core X E} {f : Frame} {e : Exc}
    (h : c.handleFrame env f = (some e, c')) : Core.Same c c' ∧ c'.events = c.events := by
  unfold Core.handleFrame at h
  have dat :
      (if c.closeReceived then
        (some (Exc.protocolError p!"data frame after close frame"), c)
      else if c.curSize ≠ none then
        (some (.protocolError p!"expected a continuation frame"), c)
      else if f.fin then (none, { c with curSize := none })
      else (none, { c with curSize := some f.data.length })) = (some e, c') →
      Core.Same c c' ∧ c'.events = c.events := by
    intro h
    split at h
    · simp only [Prod.mk.injEq] at h; obtain ⟨_, rfl⟩ := h; exact ⟨.refl, rfl⟩
    · split at h
      · simp only [Prod.mk.injEq] at h; obtain ⟨_, rfl⟩ := h; exact ⟨.refl, rfl⟩
      · split at h <;> simp at h
  cases hop : f.opcode with
  | text => rw [hop] at h; exact dat h
  | binary => rw [hop] at h; exact dat h
  | cont =>
    rw [hop] at h
    simp only at h
    split at h
    · simp only [Prod.mk.injEq] at h; obtain ⟨_, rfl⟩ := h; exact ⟨.refl, rfl⟩
    · split at h
      · simp only [Prod.mk.injEq] at h; obtain ⟨_, rfl⟩ := h; exact ⟨.refl, rfl⟩
      · split at h <;> simp at h
  | pong => rw [hop] at h; simp at h
  | ping =>
    rw [hop] at h
    simp only at h
    split at h
    · have hq := Core.sendFrame_recvQuiet env c { fin := true, opcode := .pong, data := f.data }
      rw [h] at hq
      exact ⟨hq.same, hq.events⟩
    · simp at h
  | close =>
    rw [hop] at h
    simp only at h
    split at h
    · simp only [Prod.mk.injEq] at h; obtain ⟨_, rfl⟩ := h
      exact ⟨⟨rfl, rfl, by simp⟩, rfl⟩
    · rename_i code reason _
      split at h
      · simp only [Prod.mk.injEq] at h; obtain ⟨_, rfl⟩ := h
        exact ⟨⟨rfl, rfl, by simp⟩, rfl⟩
      · split at h
        · have hq := Core.sendCloseFrame_recvQuiet env
            ({ c with closeReceived := true, closeCode := some code,
                      closeReason := some reason }) f.data
          rw [h] at hq
          refine ⟨⟨hq.maxSize, hq.curSize, fun hc => ?_⟩, hq.events⟩
          have hc : c'.closeReceived = false := hc
          have h2 := hq.closeReceived
          simp only at h2
          rw [hc] at h2
          cases h2
        · simp at h

theorem Core.Refuse.same {env : Env X E H} {c c' : Core X E} {e : Exc}
    (h : c.Refuse env e c') : Core.Same c c' ∧ c'.events = c.events := by
  obtain ⟨stale, raw, _, _, h⟩ := h
  unfold Core.frameRead at h
  cases hf : Frame.finish env.ops (stale.getD c.exts) c.frameLimit raw with
  | mk res xs =>
    rw [hf] at h
    cases res with
    | error e' =>
      simp only [Prod.mk.injEq] at h
      obtain ⟨_, rfl⟩ := h
      cases stale <;> exact ⟨⟨rfl, rfl, id⟩, rfl⟩
    | ok f =>
      simp only at h
      cases hx : Core.handleFrame env (if stale.isNone then { c with exts := xs } else c) f with
      | mk e' c1 =>
        rw [hx] at h
        cases e' with
        | none => simp at h
        | some e' =>
          simp only [Prod.mk.injEq] at h
          obtain ⟨_, rfl⟩ := h
          have := Core.handleFrame_same hx
          cases stale with
          | none =>
            obtain ⟨⟨a, b, d⟩, h⟩ := this
            exact ⟨⟨a, b, d⟩, h⟩
          | some s => exact this

theorem Stop.receives {env : Env X E H} {c : Core X E} {e : Option Exc} {k : Conn X E}
    (h : Stop env c e k) : c.Receives env k.core := by
  cases h with
  | wait h => rw [h]; exact .refl
  | parked _ h => rw [h]; exact .quiet (Core.failEof_recvQuiet c)
  | parse _ h => rw [h]; exact .refl
  | frame h => exact .same h.same.1 h.same.2

theorem Resumes.receives {env : Env X E H} (hl : env.Lawful) {c : Core X E} {e : Option Exc}
    {k : Conn X E} (h : Resumes env c e k) : c.Receives env k.core := by
  have hs : ∀ ev, c.Receives env (env.onHs ev c).2 := by
    intro ev
    by_cases hc : c.state = .connecting
    · exact .hs (hl.onHs_connecting (e := ev) hc)
    · rw [(hl.onHs_other (e := ev) hc).2]; exact .refl
  cases h with
  | hsWait h => rw [h]; exact .refl
  | hsRaise h => rw [h]; exact .refl
  | @hsFail _ ev e h => have := hs ev; rw [h] at this; exact this
  | frames h0 hf hst =>
    refine Core.Receives.trans ?_ ((hf.receives hl.ops).trans hst.receives)
    rcases h0 with rfl | ⟨ev, h0⟩
    · exact .refl
    · have := hs ev; rw [h0] at this; exact this

theorem Conn.step_receives {env : Env X E H} (hl : env.Lawful) (k : Conn X E) (hs : k.Sound) :
    k.core.Receives env (k.step env).2.core ∧ (k.step env).2.Sound := by
  by_cases hd : k.pstate = .dead
  · rw [Conn.step_dead env k hd]; exact ⟨.refl, hs⟩
  · rw [Conn.step_alive env k hd]
    have key : k.core.Receives env (k.resume env).2.core ∧ (k.resume env).2.Sound := by
      by_cases hp : k.pstate = .parked
      · have : k.resume env = (some .assertionError, { k with pstate := .dead }) := by
          unfold Conn.resume; rw [hp]
        rw [this]
        exact ⟨.refl, trivial⟩
      · have := Conn.resume_frames env k hs hd hp
        exact ⟨this.1.receives hl, this.2.1⟩
    cases hr : k.resume env with
    | mk e k1 =>
      rw [hr] at key
      cases e with
      | none => exact key
      | some e =>
        simp only
        have hq := Core.failConnection_recvQuiet env k1.core (failCode e).1 (failCode e).2
        cases hx : k1.core.failConnection env (failCode e).1 (failCode e).2 with
        | mk e' c' =>
          rw [hx] at hq
          have hfl := hq.frameLimit
          cases e' with
          | some e' => exact ⟨key.1.trans (.quiet hq), key.2.mono hfl⟩
          | none =>
            refine ⟨key.1.trans (Core.Receives.trans (.quiet hq) (.same ⟨rfl, rfl, id⟩ rfl)), ?_⟩
            exact key.2.mono (c' := { c' with parserExc := some e }) hfl

theorem Conn.apply_receives {env : Env X E H} (hl : env.Lawful) (k : Conn X E) (hs : k.Sound)
    (op : Op H) (ho : op.HsOk k.core) :
    (op ≠ .eventsReceived → k.core.Receives env (k.apply env op).2.core) ∧
      (k.apply env op).2.Sound := by
  cases hsend : op.isSend with
  | true =>
    cases op with
    | handshake h =>
      obtain ⟨raws, hst⟩ := hl.hsOp (h := h) ho
      have hr : k.core.Receives env (env.hsOp h k.core).2.1 := .hs hst
      have hfl : (env.hsOp h k.core).2.1.frameLimit = k.core.frameLimit := by
        unfold Core.frameLimit; rw [hst.maxSize, hst.curSize]
      simp only [Conn.apply]
      cases hx : env.hsOp h k.core with
      | mk e r =>
        obtain ⟨core, b⟩ := r
        rw [hx] at hr hfl
        cases b with
        | false => exact ⟨fun _ => hr, PState.Sound.mono hs hfl⟩
        | true => exact ⟨fun _ => hr, (PState.Sound.mono hs hfl).rebind _⟩
    | receiveData d => cases hsend
    | receiveEof => cases hsend
    | eventsReceived => cases hsend
    | dataToSend => cases hsend
    | _ =>
      obtain ⟨h1, h2, h3⟩ := Conn.send_recvQuiet env k _ hsend (by simp)
      refine ⟨fun _ => .quiet h1, ?_⟩
      unfold Conn.Sound
      rw [h3]
      exact PState.Sound.mono hs h1.frameLimit
  | false =>
    cases op with
    | receiveData d =>
      simp only [Conn.apply, Conn.receiveData_eq]
      split
      · exact ⟨fun _ => .refl, hs⟩
      · exact ⟨fun _ => (Conn.step_receives hl (k.push d) hs).1,
          (Conn.step_receives hl (k.push d) hs).2⟩
    | receiveEof =>
      simp only [Conn.apply, Conn.receiveEof_eq]
      split
      · exact ⟨fun _ => .refl, hs⟩
      · have h := Conn.step_receives hl { k with reader := { k.reader with eof := true } } hs
        exact ⟨fun _ => h.1, h.2⟩
    | eventsReceived => exact ⟨fun h => absurd rfl h, PState.Sound.mono hs rfl⟩
    | dataToSend => exact ⟨fun _ => .same ⟨rfl, rfl, id⟩ rfl, PState.Sound.mono hs rfl⟩
    | _ => cases hsend

/-- Everything that `events_received()` returns during an execution, including what a last call
would return. -/
def Conn.delivered (env : Env X E H) (k : Conn X E) (ops : List (Op H)) : List (Event E) :=
  (k.exec env ops).1.events ++ (k.exec env ops).2.core.events

theorem Conn.exec_receives {env : Env X E H} (hl : env.Lawful) (k : Conn X E) (hs : k.Sound)
    (ops : List (Op H)) (ho : k.HsOk env ops) :
    (∃ evs, k.delivered env ops = k.core.events ++ evs ∧
      RecvPath env k.core evs (k.exec env ops).2.core) ∧ (k.exec env ops).2.Sound := by
  induction ops generalizing k with
  | nil => exact ⟨⟨[], by simp [Conn.delivered, Conn.exec], .nil⟩, hs⟩
  | cons op ops ih =>
    obtain ⟨ho1, ho2⟩ := ho
    obtain ⟨h1, h2⟩ := Conn.apply_receives hl k hs op ho1
    obtain ⟨⟨evs, h3, h4⟩, h5⟩ := ih (k.apply env op).2 h2 ho2
    refine ⟨?_, h5⟩
    by_cases he : op = .eventsReceived
    · subst he
      refine ⟨evs, ?_, ?_⟩
      · have : k.delivered env (.eventsReceived :: ops) = k.core.events ++
            (k.apply env .eventsReceived).2.delivered env ops := by
          simp [Conn.delivered, Conn.exec]
        rw [this, h3]
        simp [Conn.apply]
      · exact RecvPath.same (c1 := (k.apply env .eventsReceived).2.core) ⟨rfl, rfl, id⟩ h4
    · obtain ⟨evs1, a, b⟩ := h1 he
      refine ⟨evs1 ++ evs, ?_, b.trans h4⟩
      have : k.delivered env (op :: ops) = (k.apply env op).2.delivered env ops := by
        unfold Conn.delivered
        cases op with
        | eventsReceived => exact absurd rfl he
        | _ => rfl
      rw [this, h3, a, List.append_assoc]

theorem eventFrames_append {E : Type} (a b : List (Event E)) :
    eventFrames (a ++ b) = eventFrames a ++ eventFrames b := by simp [eventFrames]

theorem eventFrames_frames {E : Type} (fs : List Frame) :
    eventFrames (fs.map (Event.frame (E := E))) = fs := by
  induction fs with
  | nil => rfl
  | cons f fs ih =>
    have : eventFrames ((f :: fs).map (Event.frame (E := E))) =
      f :: eventFrames (fs.map (Event.frame (E := E))) := rfl
    rw [this, ih]

end WS
