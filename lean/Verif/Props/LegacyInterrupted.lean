import Verif.Props.LegacyTransfer

/-!
# C75: messages interrupted by a close frame

The model is in `Verif.Model.LegacyTransfer`.
-/

namespace WS.Legacy

variable {X : Type}

/-! ## Specification -/

/-- The frames of a message of which the last frame is missing: the first one is a data frame, others are continuation
frames; none is final. -/
def Spec.Unfinished : List Frame → Prop
  | [] => False
  | f :: fs => (f.opcode = .text ∨ f.opcode = .binary) ∧ f.fin = false ∧ ∀ g ∈ fs, g.opcode = .cont ∧ g.fin = false

/-! ## Lemmas -/

private theorem loop_none : ∀ (fs : List Frame) (r : MsgReader), r.loop (fs.map some) = none →
    (∀ g ∈ fs, g.opcode = .cont ∧ g.fin = false) ∧
      r.loop (fs.map some ++ [none]) = some (.error (.protocolError p!"incomplete fragmented message"))
  | [], r, _ => ⟨by simp, rfl⟩
  | f :: fs, r, h => by
    simp only [List.map_cons, MsgReader.loop] at h
    split at h
    · cases h
    · next ho =>
      split at h
      · cases h
      · next r' hr =>
        split at h
        · cases h
        · next hf =>
          have ih := loop_none fs r' h
          have ho' : f.opcode = .cont := by simpa using ho
          refine ⟨?_, ?_⟩
          · intro g hg
            rcases List.mem_cons.1 hg with rfl | hg
            · exact ⟨ho', by simpa using hf⟩
            · exact ih.1 g hg
          · simp only [List.map_cons, List.cons_append, MsgReader.loop, ho, hr, hf, if_false]
            exact ih.2

private theorem readMessage_none (m : Option Int) {fs : List Frame} (hne : fs ≠ [])
    (h : readMessage m (fs.map some) = none) : Spec.Unfinished fs ∧
      readMessage m (fs.map some ++ [none]) = some (.error (.protocolError p!"incomplete fragmented message")) := by
  cases fs with
  | nil => exact (hne rfl).elim
  | cons f fs =>
    simp only [List.map_cons, readMessage] at h
    split at h
    · cases h
    · next ho =>
      split at h
      · split at h
        · split at h <;> cases h
        · cases h
      · next hf =>
        split at h
        · cases h
        · next r hr =>
          simp only [Option.map_eq_none_iff] at h
          have hl := loop_none fs r h
          have ho' : f.opcode = .text ∨ f.opcode = .binary := by
            by_cases h1 : f.opcode = .text
            · exact .inl h1
            · by_cases h2 : f.opcode = .binary
              · exact .inr h2
              · exact (ho ⟨h1, h2⟩).elim
          refine ⟨⟨ho', by simpa using hf, hl.1⟩, ?_⟩
          simp only [List.map_cons, List.cons_append, readMessage, ho, hf, if_false, hr, hl.2]
          rfl

private def Inv (s : Receiver X) : Prop := s.frames = [] ∨ readMessage s.maxSize (s.frames.map some) = none

private theorem readNext_frames (s : Receiver X) : s.readNext.frames = s.frames ∧ s.readNext.maxSize = s.maxSize ∧
    s.readNext.ended = s.ended := ⟨rfl, rfl, rfl⟩

private theorem goOn_frames (s : Receiver X) (q : Queue Data) : (s.goOn q).frames = s.frames ∧
    (s.goOn q).maxSize = s.maxSize ∧ (s.goOn q).ended = s.ended := by
  unfold Receiver.goOn; split <;> exact ⟨rfl, rfl, rfl⟩

private theorem inv_same {s s' : Receiver X} (h : Inv s) (h1 : s'.frames = s.frames) (h2 : s'.maxSize = s.maxSize) :
    Inv s' := by
  unfold Inv at h ⊢; rw [h1, h2]; exact h

/-- What one step does to the message in progress -/
private theorem frame_inv {s s' : Receiver X} {f : Frame} {o : List (Obs Data)} (h : Inv s) (hs : s.frame f = (s', o)) :
    Inv s' ∧ (s'.ended = some .closed → s.ended = some .closed) := by
  unfold Receiver.frame at hs
  have data : s.dataFrame f = (s', o) → Inv s' ∧ (s'.ended = some .closed → s.ended = some .closed) := by
    intro hs
    unfold Receiver.dataFrame at hs
    simp only at hs
    split at hs
    · next hr => cases hs; exact ⟨.inr hr, id⟩
    · cases hs; exact ⟨inv_same h rfl rfl, fun h => by simp [Receiver.exit] at h⟩
    · next hr =>
      exfalso
      have key : ∀ (fs : List Frame) (m : Option Int), readMessage m (fs.map some) ≠ some (.ok none) := by
        intro fs m hx
        cases fs with
        | nil => cases hx
        | cons g fs =>
          simp only [List.map_cons, readMessage] at hx
          split at hx
          · cases hx
          · split at hx
            · split at hx
              · split at hx <;> cases hx
              · cases hx
            · split at hx
              · cases hx
              · next r hr =>
                cases hl : r.loop (fs.map some) with
                | none => rw [hl] at hx; cases hx
                | some e => rw [hl] at hx; cases e <;> cases hx
      exact key _ _ hr
    · cases hs
      exact ⟨inv_same (s := { s with frames := [] }) (.inl rfl) (goOn_frames _ _).1 (goOn_frames _ _).2.1,
        fun h => by rwa [(goOn_frames _ _).2.2] at h⟩
  split at hs
  · split at hs <;> cases hs
    · exact ⟨inv_same h rfl rfl, fun h => by simp [Receiver.exit] at h⟩
    · exact ⟨inv_same h rfl rfl, id⟩
  · cases hs; exact ⟨inv_same h rfl rfl, id⟩
  · cases hs; exact ⟨inv_same h rfl rfl, id⟩
  · exact data hs

private theorem step_inv (ops : ExtOps X) {s s' : Receiver X} {a : RAct} {o : List (Obs Data)} (h : Inv s)
    (hs : s.step ops a = some (s', o)) :
    Inv s' ∧ (s'.ended = some .closed → s.ended = some .closed ∨ s.frames = []) := by
  have same : s'.frames = s.frames → s'.maxSize = s.maxSize → s'.ended = s.ended →
      Inv s' ∧ (s'.ended = some .closed → s.ended = some .closed ∨ s.frames = []) :=
    fun h1 h2 h3 => ⟨inv_same h h1 h2, fun hc => .inl (by rwa [h3] at hc)⟩
  have queue : ∀ {b}, s.queueStep b = some (s', o) →
      Inv s' ∧ (s'.ended = some .closed → s.ended = some .closed ∨ s.frames = []) := by
    intro b hb
    unfold Receiver.queueStep at hb
    simp only [Option.map_eq_some_iff] at hb
    obtain ⟨⟨q, o'⟩, _, hq⟩ := hb
    cases hq
    exact same rfl rfl rfl
  cases a with
  | data d =>
    simp only [Receiver.step, Option.map_eq_some_iff] at hs
    obtain ⟨io, _, hio⟩ := hs
    cases hio
    exact same rfl rfl rfl
  | eof =>
    simp only [Receiver.step, Option.map_eq_some_iff] at hs
    obtain ⟨io, _, hio⟩ := hs
    cases hio
    exact same rfl rfl rfl
  | run =>
    simp only [Receiver.step] at hs
    split at hs
    · split at hs
      · cases hs
      · next io hio =>
        split at hs
        · next res hres =>
          simp only [Option.some.injEq] at hs
          unfold Receiver.decoded at hs
          split at hs
          · cases hs; exact ⟨inv_same h rfl rfl, fun h => by simp [Receiver.exit] at h⟩
          · split at hs
            · cases hs; exact ⟨inv_same h rfl rfl, fun h => by simp [Receiver.exit] at h⟩
            · next f xs hf =>
              have hi := frame_inv (s := { s with io := io, exts := xs }) (inv_same h rfl rfl) hs
              exact ⟨hi.1, fun hc => .inl (hi.2 hc)⟩
        · cases hs; exact same rfl rfl rfl
    · cases hs
  | answered e =>
    simp only [Receiver.step] at hs
    split at hs
    · split at hs
      · cases hs
      · cases hs; exact ⟨inv_same h rfl rfl, fun h => by simp [Receiver.exit] at h⟩
      · cases hs; exact same rfl rfl rfl
      · cases hs
        unfold Receiver.closeFrame
        by_cases hf : s.frames = []
        · refine ⟨?_, fun _ => .inr hf⟩
          split <;> exact inv_same h rfl rfl
        · have hr := (readMessage_none s.maxSize hf (h.resolve_left hf)).2
          rw [hr]
          exact ⟨inv_same h rfl rfl, fun h => by simp [Receiver.exit] at h⟩
    · cases hs
  | write f => simp only [Receiver.step] at hs; cases hs; exact same rfl rfl rfl
  | recv t => exact queue hs
  | wake t => exact queue hs
  | cancel t => exact queue hs
  | wakeTransfer =>
    simp only [Receiver.step] at hs
    split at hs
    · cases hs
    · cases hs; exact same (goOn_frames _ _).1 (goOn_frames _ _).2.1 (goOn_frames _ _).2.2
  | cancelTransfer =>
    simp only [Receiver.step, Option.map_eq_some_iff] at hs
    obtain ⟨⟨s1, o1⟩, hq, hx⟩ := hs
    cases hx
    unfold Receiver.queueStep at hq
    simp only [Option.map_eq_some_iff] at hq
    obtain ⟨⟨q, o'⟩, _, hq⟩ := hq
    cases hq
    exact ⟨inv_same h rfl rfl, fun h => by simp at h⟩

private theorem exec_inv (ops : ExtOps X) : ∀ (as : List RAct) {s s' : Receiver X} {os : List (Obs Data)}, Inv s →
    s.exec ops as = some (s', os) → Inv s'
  | [], _, _, _, h, hs => by cases hs; exact h
  | a :: as, s, s', os, h, hs => by
    simp only [Receiver.exec] at hs
    split at hs
    · cases hs
    · next s1 o1 h1 =>
      split at hs
      · cases hs
      · next s2 o2 h2 => cases hs; exact exec_inv ops as (step_inv ops h h1).1 h2

/-! ## Theorems -/

variable {ops : ExtOps X} {server : Bool} {maxSize : Option Int} {maxQueue : Option Nat} {exts : List X} {r : AReader}

/-- **C75 the message in progress**: at any time, the frames of the message in progress, if there's one, start with a
data frame, go on with continuation frames, and none of them is final. -/
theorem C75_unfinished {as : List RAct} {s : Receiver X} {os : List (Obs Data)}
    (h : (Receiver.init server maxSize maxQueue exts r).exec ops as = some (s, os)) :
    s.frames = [] ∨ Spec.Unfinished s.frames := by
  have hi := exec_inv ops as (.inl rfl) h
  by_cases hf : s.frames = []
  · exact .inl hf
  · exact .inr (readMessage_none s.maxSize hf (hi.resolve_left hf)).1

/-- **C75 interrupted messages**: when a close frame arrives before the last frame of a message, `transfer_data` doesn't
end as if the peer had closed the connection properly, it ends with `ProtocolError`. -/
theorem C75_interrupted {as : List RAct} {s : Receiver X} {os : List (Obs Data)}
    (h : (Receiver.init server maxSize maxQueue exts r).exec ops as = some (s, os)) (hf : s.frames ≠ [])
    (hp : s.phase = .closing) (ht : s.queue.transfer = .reading) :
    ∃ s', s.step ops (.answered none) = some (s', []) ∧
      s'.ended = some (.raised (.protocolError p!"incomplete fragmented message")) := by
  have hi := exec_inv ops as (.inl rfl) h
  have hr := (readMessage_none s.maxSize hf (hi.resolve_left hf)).2
  refine ⟨s.exit (.raised (.protocolError p!"incomplete fragmented message")), ?_, rfl⟩
  simp only [Receiver.step, ht, hp, Receiver.closeFrame, hr, if_true]

/-- **C75 closed properly**: `transfer_data` only ends because of a close frame when there's no message in progress. -/
theorem C75_between {as : List RAct} {a : RAct} {s s' : Receiver X} {os o : List (Obs Data)}
    (h : (Receiver.init server maxSize maxQueue exts r).exec ops as = some (s, os))
    (hs : s.step ops a = some (s', o)) (h1 : s.ended ≠ some .closed) (h2 : s'.ended = some .closed) : s.frames = [] :=
  ((step_inv ops (exec_inv ops as (.inl rfl) h) hs).2 h2).resolve_left h1

/-! ## Concrete cases -/

/-- A client receives the first two frames of a message, then a close frame. -/
private def interruptedActs : List RAct :=
  [.data [0x01, 0x01, 0x61, 0x00, 0x01, 0x62], .run, .run, .data [0x88, 0x02, 0x03, 0xE8], .run]

/-- A client receives the two frames of a message, then a close frame. -/
private def completeActs : List RAct :=
  [.data [0x01, 0x01, 0x61, 0x80, 0x01, 0x62], .run, .run, .data [0x88, 0x02, 0x03, 0xE8], .run]

private def aClient : Receiver (Pmd storedZlib) := Receiver.init false none none [] { limit := 65536 }

-- a message is in progress; it's interrupted
example : ∃ s, aClient.exec (pmdOps storedZlib) interruptedActs = some (s, []) ∧ s.frames.length = 2 ∧
    Spec.Unfinished s.frames ∧ s.phase = .closing ∧ s.queue.transfer = .reading ∧
    ∃ s', s.step (pmdOps storedZlib) (.answered none) = some (s', []) ∧
      s'.ended = some (.raised (.protocolError p!"incomplete fragmented message")) := by
  have h : (aClient.exec (pmdOps storedZlib) interruptedActs).map (fun r => decide (r.2 = [] ∧
      r.1.frames.length = 2 ∧ r.1.phase = .closing ∧ r.1.queue.transfer = .reading)) = some true := by decide +kernel
  rw [Option.map_eq_some_iff] at h
  obtain ⟨⟨s, os⟩, h1, h2⟩ := h
  obtain ⟨rfl, h3, h4, h5⟩ := of_decide_eq_true h2
  have hf : s.frames ≠ [] := fun h => by rw [h] at h3; cases h3
  exact ⟨s, h1, h3, (C75_unfinished h1).resolve_left hf, h4, h5, C75_interrupted h1 hf h4 h5⟩

-- no message is in progress; the connection is closed
example : ∃ s s', aClient.exec (pmdOps storedZlib) completeActs = some (s, []) ∧ s.ended ≠ some .closed ∧
    s.step (pmdOps storedZlib) (.answered none) = some (s', []) ∧ s'.ended = some .closed ∧ s.frames = [] := by
  have h : (aClient.exec (pmdOps storedZlib) completeActs).map (fun r => decide (r.2 = [] ∧ r.1.ended ≠ some .closed ∧
      (r.1.step (pmdOps storedZlib) (.answered none)).map (fun r => decide (r.2 = [] ∧ r.1.ended = some .closed)) =
        some true)) = some true := by decide +kernel
  rw [Option.map_eq_some_iff] at h
  obtain ⟨⟨s, os⟩, h1, h2⟩ := h
  obtain ⟨rfl, h3, h4⟩ := of_decide_eq_true h2
  rw [Option.map_eq_some_iff] at h4
  obtain ⟨⟨s', os'⟩, h5, h6⟩ := h4
  obtain ⟨rfl, h7⟩ := of_decide_eq_true h6
  exact ⟨s, s', h1, h3, h5, h7, C75_between h1 h5 h3 h7⟩

end WS.Legacy
