import Verif.Lemmas.ConnHist

/-! Helper lemmas: what is written by each operation, including failures. -/

namespace WS

open Spec

variable {X E H : Type}

theorem pongs_append (a b : List Out) : pongs (a ++ b) = pongs a ++ pongs b := by simp [pongs]

theorem pongs_raw (l : List Bytes) : pongs (l.map Out.raw) = [] := by
  induction l with
  | nil => rfl
  | cons b l ih =>
    have : pongs ((b :: l).map Out.raw) = pongs (l.map Out.raw) := rfl
    rw [this, ih]

theorem pongs_replies (side : Side) (o cl : Bool) (fs : List Frame) :
    pongs (replies side o cl fs) = pingsBeforeClose cl fs := by
  induction fs generalizing o cl with
  | nil => rfl
  | cons f fs ih =>
    cases hop : f.opcode with
    | ping =>
      simp only [replies, pingsBeforeClose, hop, pongs_append, ih]
      cases cl <;> rfl
    | close =>
      simp only [replies, pingsBeforeClose, hop, pongs_append, ih]
      cases o
      · rfl
      · by_cases hs : side = .server
        · simp [hs, pongs, ctrlFrame]
        · simp [hs, pongs, ctrlFrame]
    | _ => simp only [replies, pingsBeforeClose, hop, ih]

theorem raws_append (a b : List Out) : raws (a ++ b) = raws a ++ raws b := by simp [raws]

theorem raws_raw (l : List Bytes) : raws (l.map Out.raw) = l := by
  induction l with
  | nil => rfl
  | cons b l ih =>
    have : raws ((b :: l).map Out.raw) = b :: raws (l.map Out.raw) := rfl
    rw [this, ih]

theorem raws_replies (side : Side) (o cl : Bool) (fs : List Frame) :
    raws (replies side o cl fs) = [] := by
  induction fs generalizing o cl with
  | nil => rfl
  | cons f fs ih =>
    cases hop : f.opcode with
    | ping =>
      simp only [replies, hop, raws_append, ih]
      cases cl <;> rfl
    | close =>
      simp only [replies, hop, raws_append, ih]
      cases o
      · rfl
      · by_cases hs : side = .server
        · simp [hs, raws]
        · simp [hs, raws]
    | _ => simp only [replies, hop, ih]

/-- Nothing but close frames and the end of the stream. -/
def OnlyClose (outs : List Out) : Prop :=
  ∀ o ∈ outs, o = .eof ∨ ∃ d, o = .frame (ctrlFrame .close d)

theorem OnlyClose.nil : OnlyClose [] := nofun

theorem OnlyClose.eof : OnlyClose [.eof] := by
  intro o ho; simp only [List.mem_singleton] at ho; exact .inl ho

theorem OnlyClose.close (d : Bytes) : OnlyClose [.frame (ctrlFrame .close d)] := by
  intro o ho; simp only [List.mem_singleton] at ho; exact .inr ⟨d, ho⟩

theorem OnlyClose.append {a b : List Out} (ha : OnlyClose a) (hb : OnlyClose b) :
    OnlyClose (a ++ b) := by
  intro o ho
  rw [List.mem_append] at ho
  exact ho.elim (ha o) (hb o)

theorem OnlyClose.pongs {a : List Out} (ha : OnlyClose a) : pongs a = [] := by
  induction a with
  | nil => rfl
  | cons o a ih =>
    have h1 := ih fun x hx => ha x (List.mem_cons_of_mem _ hx)
    rcases ha o (List.mem_cons_self ..) with rfl | ⟨d, rfl⟩ <;>
    · show Spec.pongs a = []; exact h1

theorem OnlyClose.raws {a : List Out} (ha : OnlyClose a) : raws a = [] := by
  induction a with
  | nil => rfl
  | cons o a ih =>
    have h1 := ih fun x hx => ha x (List.mem_cons_of_mem _ hx)
    rcases ha o (List.mem_cons_self ..) with rfl | ⟨d, rfl⟩ <;>
    · show Spec.raws a = []; exact h1

theorem Core.sendFrame_error {env : Env X E H} {c c' : Core X E} {f : Frame} {e : Exc}
    (h : c.sendFrame env f = (some e, c')) :
    ∃ xs n, c' = { c with exts := xs, nmask := n } := by
  rcases Core.sendFrame_cases env c f with ⟨_, xs, n, _, h1⟩ | ⟨h1, _⟩
  · rw [h] at h1; exact ⟨xs, n, h1⟩
  · rw [h] at h1; cases h1

theorem Core.sendFrame_emits_any {env : Env X E H} (hl : env.ops.Lawful) {c c' : Core X E}
    {f : Frame} (h : c.sendFrame env f = (none, c')) :
    ∃ f', f'.opcode = f.opcode ∧ f'.fin = f.fin ∧ c.Emits env [.frame f'] c' := by
  rcases Core.sendFrame_cases env c f with ⟨h0, _⟩ | ⟨_, ho, _, f', xs, w, ha, hw, h1⟩
  · rw [h] at h0; simp at h0
  · rw [h] at h1
    simp only at h1
    have := applyExts_encode hl ha
    exact ⟨f', this.2.1, this.1, by rw [h1], [.frame f' c.nmask], [w], rfl,
      .cons ((Frame.wire_iff _ _ _).1 hw).2 .nil, by rw [h1]⟩

/-- Sending a close frame, when it fails. -/
theorem Core.sendCloseFrame_error {env : Env X E H} (hl : env.ops.Lawful) {c c' : Core X E}
    {d : Bytes} {e : Exc} (h : c.sendCloseFrame env d = (some e, c')) :
    (∃ outs, c.Emits env outs c' ∧ OnlyClose outs) ∧
    (c.eofSent = false ∨ c.state ≠ .opened → c.Emits env [] c' ∧ c'.state = c.state ∧ c'.eofSent = c.eofSent ∧
      ∃ c2, c.sendFrame env { fin := true, opcode := .close, data := d } = (some e, c2)) := by
  unfold Core.sendCloseFrame at h
  cases hx : c.sendFrame env { fin := true, opcode := .close, data := d } with
  | mk e1 c1 =>
    rw [hx] at h
    cases e1 with
    | some e1 =>
      simp only [Prod.mk.injEq, Option.some.injEq] at h
      obtain ⟨rfl, rfl⟩ := h
      obtain ⟨xs, n, rfl⟩ := Core.sendFrame_error hx
      exact ⟨⟨[], .quiet rfl rfl, .nil⟩, fun _ => ⟨.quiet rfl rfl, rfl, rfl, _, rfl⟩⟩
    | none =>
      obtain ⟨hop, he, hst, heof, _⟩ := Core.sendFrame_emits hl rfl hx
      simp only at h
      split at h
      · unfold Core.sendEof at h
        split at h
        · rename_i hs
          simp only [Prod.mk.injEq, Option.some.injEq] at h
          obtain ⟨_, rfl⟩ := h
          refine ⟨⟨_, he.congr rfl rfl rfl rfl, .close _⟩, fun h0 => ?_⟩
          have hs : c1.eofSent = true := hs
          rcases h0 with h0 | h0
          · rw [heof, h0] at hs; cases hs
          · exact absurd hop h0
        · simp at h
      · simp at h

theorem Core.handleFrame_error {env : Env X E H} (hl : env.ops.Lawful) {c c' : Core X E}
    {f : Frame} {e : Exc} (h : c.handleFrame env f = (some e, c')) :
    (∃ outs, c.Emits env outs c' ∧ OnlyClose outs) ∧
    (c.eofSent = false ∨ c.state ≠ .opened → c.Emits env [] c' ∧ c'.state = c.state ∧ c'.eofSent = c.eofSent) := by
  unfold Core.handleFrame at h
  have triv : c' = c → (∃ outs, c.Emits env outs c' ∧ OnlyClose outs) ∧
    (c.eofSent = false ∨ c.state ≠ .opened → c.Emits env [] c' ∧ c'.state = c.state ∧ c'.eofSent = c.eofSent) := by
    rintro rfl
    exact ⟨⟨[], .refl, .nil⟩, fun _ => ⟨.refl, rfl, rfl⟩⟩
  have dat :
      (if c.closeReceived then
        (some (Exc.protocolError p!"data frame after close frame"), c)
      else if c.curSize ≠ none then
        (some (.protocolError p!"expected a continuation frame"), c)
      else if f.fin then (none, { c with curSize := none })
      else (none, { c with curSize := some f.data.length })) = (some e, c') → c' = c := by
    intro h
    split at h
    · simp only [Prod.mk.injEq] at h; exact h.2.symm
    · split at h
      · simp only [Prod.mk.injEq] at h; exact h.2.symm
      · split at h <;> simp at h
  cases hop : f.opcode with
  | text => rw [hop] at h; exact triv (dat h)
  | binary => rw [hop] at h; exact triv (dat h)
  | cont =>
    rw [hop] at h
    simp only at h
    split at h
    · simp only [Prod.mk.injEq] at h; exact triv h.2.symm
    · split at h
      · simp only [Prod.mk.injEq] at h; exact triv h.2.symm
      · split at h <;> simp at h
  | pong => rw [hop] at h; simp at h
  | ping =>
    rw [hop] at h
    simp only at h
    split at h
    · obtain ⟨xs, n, rfl⟩ := Core.sendFrame_error h
      exact ⟨⟨[], .quiet rfl rfl, .nil⟩, fun _ => ⟨.quiet rfl rfl, rfl, rfl⟩⟩
    · simp at h
  | close =>
    rw [hop] at h
    simp only at h
    split at h
    · simp only [Prod.mk.injEq] at h; obtain ⟨_, rfl⟩ := h
      exact ⟨⟨[], .quiet rfl rfl, .nil⟩, fun _ => ⟨.quiet rfl rfl, rfl, rfl⟩⟩
    · split at h
      · simp only [Prod.mk.injEq] at h; obtain ⟨_, rfl⟩ := h
        exact ⟨⟨[], .quiet rfl rfl, .nil⟩, fun _ => ⟨.quiet rfl rfl, rfl, rfl⟩⟩
      · split at h
        · obtain ⟨⟨o, ho, hp⟩, h2⟩ := Core.sendCloseFrame_error hl h
          refine ⟨⟨o, ho.congr rfl rfl rfl rfl, hp⟩, fun h0 => ?_⟩
          obtain ⟨a, b, c, _⟩ := h2 h0
          exact ⟨a.congr rfl rfl rfl rfl, b, c⟩
        · simp at h

theorem Core.Refuse.emits {env : Env X E H} (hl : env.ops.Lawful) {c c' : Core X E} {e : Exc}
    (h : c.Refuse env e c') :
    (∃ outs, c.Emits env outs c' ∧ OnlyClose outs) ∧
    (c.eofSent = false ∨ c.state ≠ .opened → c.Emits env [] c' ∧ c'.state = c.state ∧ c'.eofSent = c.eofSent) := by
  obtain ⟨stale, raw, _, _, h⟩ := h
  unfold Core.frameRead at h
  cases hf : Frame.finish env.ops (stale.getD c.exts) c.frameLimit raw with
  | mk res xs =>
    rw [hf] at h
    cases res with
    | error e' =>
      simp only [Prod.mk.injEq] at h
      obtain ⟨_, rfl⟩ := h
      cases stale <;>
        exact ⟨⟨[], .quiet rfl rfl, .nil⟩, fun _ => ⟨.quiet rfl rfl, rfl, rfl⟩⟩
    | ok f =>
      simp only at h
      cases hx : Core.handleFrame env (if stale.isNone then { c with exts := xs } else c) f with
      | mk e' c1 =>
        rw [hx] at h
        cases e' with
        | none => simp at h
        | some e' =>
          simp only [Prod.mk.injEq] at h
          obtain ⟨_, rfl⟩ := h
          have := Core.handleFrame_error hl hx
          cases stale with
          | none =>
            obtain ⟨⟨o, ho, hp⟩, h2⟩ := this
            refine ⟨⟨o, ho.congr rfl rfl rfl rfl, hp⟩, fun h0 => ?_⟩
            obtain ⟨a, b, c⟩ := h2 h0
            exact ⟨a.congr rfl rfl rfl rfl, b, c⟩
          | some s => exact this

/-- Failing the connection writes only close frames and the end of the stream. -/
theorem Core.failConnection_emits {env : Env X E H} (hl : env.ops.Lawful) (c : Core X E)
    (code : Int) (reason : PyStr) :
    ∃ outs, c.Emits env outs (c.failConnection env code reason).2 ∧ OnlyClose outs := by
  have eof : ∀ c : Core X E, ∃ outs, c.Emits env outs c.failEof.2 ∧ OnlyClose outs := by
    intro c
    exact ⟨_, Core.failEof_emits.1, by cases c.eofSent; exact .eof; exact .nil⟩
  unfold Core.failConnection
  split
  · cases serializeClose code reason with
    | error e => exact ⟨[], .refl, .nil⟩
    | ok d =>
      simp only
      cases hx : c.sendFrame env { fin := true, opcode := .close, data := d } with
      | mk e c1 =>
        cases e with
        | some e =>
          obtain ⟨xs, n, rfl⟩ := Core.sendFrame_error hx
          exact ⟨[], .quiet rfl rfl, .nil⟩
        | none =>
          obtain ⟨_, he, _⟩ := Core.sendFrame_emits hl rfl hx
          obtain ⟨o, ho, hp⟩ := eof { c1 with state := .closing }
          exact ⟨_, he.trans (ho.congr rfl rfl rfl rfl), (OnlyClose.close _).append hp⟩
  · exact eof c

/-- Control frames are left alone by extensions, and never refused. -/
def ExtOps.CtrlTransparent (ops : ExtOps X) : Prop :=
  ∀ x f, f.opcode.isCtrl = true → (ops.encode x f).1 = .ok f

theorem noExts_ctrlTransparent : noExts.CtrlTransparent := fun x => nomatch x

theorem applyExts_transparent {ops : ExtOps X} (ht : ops.CtrlTransparent) (xs : List X)
    (f : Frame) (hf : f.opcode.isCtrl = true) : (applyExts ops.encode xs f).1 = .ok f := by
  induction xs with
  | nil => rfl
  | cons x xs ih =>
    simp only [applyExts]
    have := ht x f hf
    cases hx : ops.encode x f with
    | mk r x1 =>
      rw [hx] at this
      simp only at this
      subst this
      exact ih

/-- In the OPEN state, a control frame of at most 125 bytes can always be sent. -/
theorem Core.sendFrame_ctrl_ok {env : Env X E H} (ht : env.ops.CtrlTransparent) (c : Core X E)
    (opcode : Opcode) (d : Bytes) (hop : opcode.isCtrl = true) (hd : d.length ≤ 125)
    (ho : c.state = .opened) :
    ∃ c', c.sendFrame env { fin := true, opcode, data := d } = (none, c') := by
  unfold Core.sendFrame
  rw [if_neg (by simp [ho])]
  have hc : Frame.check { fin := true, opcode, data := d } = .ok () := by
    simp [Frame.check, hop]; omega
  unfold Frame.serializeExt
  rw [hc]
  have hx := applyExts_transparent ht c.exts { fin := true, opcode, data := d } hop
  cases ha : applyExts env.ops.encode c.exts { fin := true, opcode, data := d } with
  | mk r xs =>
    rw [ha] at hx
    simp only at hx
    subst hx
    simp only
    have hw : ∃ w, Frame.wire { fin := true, opcode, data := d }
        (if c.side = .client then some (env.rand c.nmask) else none) = .ok w := by
      unfold Frame.wire
      rw [if_pos (by simp only; omega)]
      by_cases hs : c.side = .client
      · rw [if_pos hs]
        simp only
        rw [applyMask_eq (env.rand_len c.nmask)]
        exact ⟨_, rfl⟩
      · rw [if_neg hs]
        exact ⟨_, rfl⟩
    obtain ⟨w, hw⟩ := hw
    rw [hw]
    exact ⟨_, rfl⟩

/-- What `fail_connection` writes. -/
def failOuts (c : Core X E) (code : Int) (data : Bytes) : List Out :=
  (if code ≠ 1006 ∧ c.state = .opened then [.frame (ctrlFrame .close data)] else []) ++
  (if c.eofSent then [] else [.eof])

theorem Core.failConnection_ok {env : Env X E H} (hl : env.ops.Lawful)
    (ht : env.ops.CtrlTransparent) (c : Core X E) (code : Int) (reason : PyStr) (d : Bytes)
    (hd : code ≠ 1006 → serializeClose code reason = .ok d ∧ d.length ≤ 125) :
    (c.failConnection env code reason).1 = none ∧
    c.Emits env (failOuts c code d) (c.failConnection env code reason).2 ∧
    (c.failConnection env code reason).2.eofSent = true ∧
    (c.failConnection env code reason).2.state =
      (if code ≠ 1006 ∧ c.state = .opened then .closing else c.state) := by
  unfold Core.failConnection failOuts
  by_cases hc : code ≠ 1006 ∧ c.state = .opened
  · rw [if_pos hc, if_pos hc, if_pos hc]
    obtain ⟨h1, h2⟩ := hd hc.1
    rw [h1]
    simp only
    obtain ⟨c1, h3⟩ := Core.sendFrame_ctrl_ok ht c .close d rfl h2 hc.2
    rw [h3]
    obtain ⟨_, he, hst, heof, _⟩ := Core.sendFrame_emits hl rfl h3
    obtain ⟨a, b, cc, _⟩ := Core.failEof_emits (env := env) (c := { c1 with state := .closing })
    refine ⟨(Core.failEof_tail (c := { c1 with state := .closing })).2, ?_, cc, b⟩
    rw [← heof]
    exact he.trans (a.congr rfl rfl rfl rfl)
  · rw [if_neg hc, if_neg hc, if_neg hc]
    obtain ⟨a, b, cc, _⟩ := Core.failEof_emits (env := env) (c := c)
    exact ⟨Core.failEof_tail.2, a, cc, b⟩

/-! ## Operations -/

/-- The events and the writes of an operation agree: pongs answer pings. -/
def Core.Answers (env : Env X E H) (c c' : Core X E) : Prop :=
  ∃ evs outs, c'.events = c.events ++ evs ∧ c.Emits env outs c' ∧ raws outs = [] ∧
    pongs outs = pingsBeforeClose c.closeReceived (eventFrames evs)

/-- Nothing is received and only close frames are written. -/
theorem Core.Answers.tail {env : Env X E H} {c c1 c2 : Core X E} {outs : List Out}
    (h : c.Answers env c1) (he : c2.events = c1.events) (hx : c1.Emits env outs c2)
    (ho : OnlyClose outs) : c.Answers env c2 := by
  obtain ⟨evs, o, h1, h2, h3, h4⟩ := h
  exact ⟨evs, o ++ outs, by rw [he, h1], h2.trans hx, by rw [raws_append, h3, ho.raws]; rfl,
    by rw [pongs_append, h4, ho.pongs, List.append_nil]⟩

theorem Core.Answers.refl {env : Env X E H} {c : Core X E} : c.Answers env c :=
  ⟨[], [], by simp, .refl, rfl, by cases c.closeReceived <;> rfl⟩

theorem eventFrames_handshake {E : Type} {evs : List (Event E)}
    (h : ∀ ev ∈ evs, ∃ e, ev = .handshake e) : eventFrames evs = [] := by
  induction evs with
  | nil => rfl
  | cons ev evs ih =>
    obtain ⟨e, rfl⟩ := h ev (List.mem_cons_self ..)
    exact ih fun x hx => h x (List.mem_cons_of_mem _ hx)

theorem pingsBeforeClose_nil (b : Bool) : pingsBeforeClose b [] = [] := by cases b <;> rfl

/-- After the handshake, frames. -/
theorem Core.Answers.frames {env : Env X E H} (hl : env.ops.Lawful) {c c0 c1 : Core X E}
    {evs : List (Event E)} {fs : List Frame} (he : c0.events = c.events ++ evs)
    (hh : ∀ ev ∈ evs, ∃ e, ev = .handshake e) (hcr : c0.closeReceived = c.closeReceived)
    (hx : c.Emits env [] c0) (hf : Frames env c0 fs c1) : c.Answers env c1 := by
  have ht := hf.took hl
  refine ⟨evs ++ fs.map .frame, _, by rw [ht.events, he, List.append_assoc],
    hx.trans ht.emits, ?_, ?_⟩
  · rw [List.nil_append, raws_replies]
  · rw [List.nil_append, pongs_replies, eventFrames_append, eventFrames_handshake hh,
      eventFrames_frames, hcr, List.nil_append]

theorem Core.Answers.hs {env : Env X E H} {c c' : Core X E} (h : HsStep c c' []) :
    c.Answers env c' := by
  obtain ⟨evs, he, hh⟩ := h.events
  exact ⟨evs, [], he, .quiet h.side (by rw [h.writes, List.append_nil]), rfl,
    by rw [eventFrames_handshake hh, pingsBeforeClose_nil]; rfl⟩

theorem Stop.tail {env : Env X E H} (hl : env.ops.Lawful) {c : Core X E} {e : Option Exc}
    {k : Conn X E} (h : Stop env c e k) :
    k.core.events = c.events ∧ ∃ outs, c.Emits env outs k.core ∧ OnlyClose outs := by
  cases h with
  | wait h => rw [h]; exact ⟨rfl, [], .refl, .nil⟩
  | parked _ h =>
    rw [h]
    exact ⟨(Core.failEof_recvQuiet c).events, _, Core.failEof_emits.1,
      by cases c.eofSent; exact .eof; exact .nil⟩
  | parse _ h => rw [h]; exact ⟨rfl, [], .refl, .nil⟩
  | frame h => exact ⟨h.same.2, (h.emits hl).1⟩

theorem Resumes.answers {env : Env X E H} (hl : env.Lawful) {c : Core X E} {e : Option Exc}
    {k : Conn X E} (h : Resumes env c e k) : c.Answers env k.core := by
  have hs : ∀ ev, env.onHs ev c = (none, (env.onHs ev c).2) → HsStep c (env.onHs ev c).2 [] := by
    intro ev hx
    by_cases hc : c.state = .connecting
    · exact hl.onHs_connecting (e := ev) hc
    · exact absurd (by rw [hx]) (hl.onHs_other (e := ev) hc).1
  cases h with
  | hsWait h => rw [h]; exact .refl
  | hsRaise h => rw [h]; exact .refl
  | @hsFail _ ev e h =>
    have : k.core = (env.onHs ev c).2 := by rw [h]
    rw [this]
    by_cases hc : c.state = .connecting
    · exact .hs (hl.onHs_connecting (e := ev) hc)
    · rw [(hl.onHs_other (e := ev) hc).2]; exact .refl
  | @frames c0 fs c1 _ _ h0 hf hst =>
    obtain ⟨a, o, b, d⟩ := hst.tail hl.ops
    refine Core.Answers.tail ?_ a b d
    rcases h0 with rfl | ⟨ev, h0⟩
    · exact .frames hl.ops (evs := []) (by simp) nofun rfl .refl hf
    · have hx := hs ev (by rw [h0])
      rw [h0] at hx
      obtain ⟨evs, he, hh⟩ := hx.events
      exact .frames hl.ops he hh hx.closeReceived
        (.quiet hx.side (by rw [hx.writes, List.append_nil])) hf

theorem Conn.step_answers {env : Env X E H} (hl : env.Lawful) (k : Conn X E) (hs : k.Sound) :
    k.core.Answers env (k.step env).2.core := by
  by_cases hd : k.pstate = .dead
  · rw [Conn.step_dead env k hd]; exact .refl
  · rw [Conn.step_alive env k hd]
    have key : k.core.Answers env (k.resume env).2.core := by
      by_cases hp : k.pstate = .parked
      · have : k.resume env = (some .assertionError, { k with pstate := .dead }) := by
          unfold Conn.resume; rw [hp]
        rw [this]
        exact .refl
      · exact (Conn.resume_frames env k hs hd hp).1.answers hl
    cases hr : k.resume env with
    | mk e k1 =>
      rw [hr] at key
      cases e with
      | none => exact key
      | some e =>
        simp only
        have hq := Core.failConnection_recvQuiet env k1.core (failCode e).1 (failCode e).2
        obtain ⟨o, hx1, ho⟩ := Core.failConnection_emits hl.ops k1.core (failCode e).1 (failCode e).2
        cases hx : k1.core.failConnection env (failCode e).1 (failCode e).2 with
        | mk e' c' =>
          rw [hx] at hq hx1
          cases e' with
          | some e' => exact key.tail hq.events hx1 ho
          | none =>
            exact key.tail (c2 := { c' with parserExc := some e }) hq.events
              (hx1.congr rfl rfl rfl rfl) ho

end WS
