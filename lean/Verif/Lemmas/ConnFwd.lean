import Verif.Props.Receive
import Verif.Spec.Conforming

/-! Helper lemmas: how a connection receives what a conforming peer sends. -/

namespace WS

open Spec

variable {X E H : Type}

theorem Spec.Messages.snoc {l : List Frame} {u : Bool} (h : Messages l u) :
    (l = [] ∧ u = false) ∨ ∃ fs f, l = fs ++ [f] ∧ u = !f.fin ∧
      ((f.opcode = .cont ∧ Messages fs true) ∨
        ((f.opcode = .text ∨ f.opcode = .binary) ∧ Messages fs false)) := by
  cases h with
  | nil => exact .inl ⟨rfl, rfl⟩
  | whole h ho hf => exact .inr ⟨_, _, rfl, by simp [hf], .inr ⟨ho, h⟩⟩
  | first h ho hf => exact .inr ⟨_, _, rfl, by simp [hf], .inr ⟨ho, h⟩⟩
  | middle h ho hf => exact .inr ⟨_, _, rfl, by simp [hf], .inl ⟨ho, h⟩⟩
  | last h ho hf => exact .inr ⟨_, _, rfl, by simp [hf], .inl ⟨ho, h⟩⟩

theorem Spec.Messages.append_single {fs : List Frame} {f : Frame} {u : Bool}
    (h : Messages (fs ++ [f]) u) : u = !f.fin ∧
      ((f.opcode = .cont ∧ Messages fs true) ∨
        ((f.opcode = .text ∨ f.opcode = .binary) ∧ Messages fs false)) := by
  rcases h.snoc with ⟨h, _⟩ | ⟨gs, g, he, hu, h⟩
  · simp at h
  · have := List.append_inj' he rfl
    obtain ⟨rfl, h2⟩ := this
    simp only [List.cons.injEq, and_true] at h2
    subst h2
    exact ⟨hu, h⟩

theorem Spec.Messages.prefix {a b : List Frame} {u : Bool} (h : Messages (a ++ b) u) :
    ∃ v, Messages a v := by
  rcases List.eq_nil_or_concat b with rfl | ⟨b', f, rfl⟩
  · exact ⟨u, by simpa using h⟩
  · rw [List.concat_eq_append, ← List.append_assoc] at h
    rcases h.append_single.2 with ⟨_, h⟩ | ⟨_, h⟩ <;> exact Spec.Messages.prefix h
  termination_by b.length
  decreasing_by all_goals simp_all

theorem Spec.Messages.unique {l : List Frame} {u v : Bool} (h1 : Messages l u)
    (h2 : Messages l v) : u = v := by
  rcases h1.snoc with ⟨rfl, rfl⟩ | ⟨fs, f, rfl, rfl, _⟩
  · rcases h2.snoc with ⟨_, rfl⟩ | ⟨fs, f, h, _⟩
    · rfl
    · simp at h
  · exact h2.append_single.1.symm

theorem messageSize_snoc (hist : List Frame) (f : Frame) :
    messageSize (hist ++ [f]) = (match f.opcode with
      | .text | .binary => f.data.length
      | .cont => messageSize hist + f.data.length
      | _ => messageSize hist) := by
  unfold messageSize
  rw [List.foldl_append]
  rfl

/-- A connection that has received `pre` and is going to receive `rest`. -/
structure Core.Fwd (limit : Option Int) (np : Prop) (c : Core X E) (pre rest : List Frame) :
    Prop where
  exts : c.exts = []
  maxSize : c.maxSize = limit
  msgs : Messages (pre.filter isDataFrame) c.curSize.isSome
  size : ∀ n, c.curSize = some n → messageSize pre = n
  closed : c.closeReceived = true → rest = []
  eofOk : c.EofOk
  ping : np ∨ c.state = .opened ∨ rest = []

theorem Frame.finish_nil {ops : ExtOps X} {lim : Option Int} {f : Frame} (h : f.check = .ok ()) :
    Frame.finish ops [] lim f = (.ok f, []) := by
  unfold Frame.finish
  simp only [List.reverse_nil, applyExts, h]

theorem Core.sendFrame_exts_nil (env : Env X E H) (c : Core X E) (f : Frame) (h : c.exts = []) :
    (c.sendFrame env f).2.exts = [] := by
  unfold Core.sendFrame
  split
  · exact h
  · simp only
    rw [h]
    have : ∀ key, (Frame.serializeExt env.ops [] key f).2 = [] := by
      intro key
      unfold Frame.serializeExt
      cases f.check <;> simp [applyExts]
    have := this (if c.side = .client then some (env.rand c.nmask) else none)
    split <;> rename_i hx <;> rw [hx] at this <;> exact this

theorem Core.sendCloseFrame_exts_nil (env : Env X E H) (c : Core X E) (d : Bytes)
    (h : c.exts = []) : (c.sendCloseFrame env d).2.exts = [] := by
  unfold Core.sendCloseFrame
  have h1 := Core.sendFrame_exts_nil env c { fin := true, opcode := .close, data := d } h
  split
  · rename_i hx; rw [hx] at h1; exact h1
  · rename_i hx; rw [hx] at h1
    simp only
    split
    · unfold Core.sendEof
      split <;> exact h1
    · exact h1

theorem Core.handleFrame_exts_nil (env : Env X E H) (c : Core X E) (f : Frame)
    (h : c.exts = []) : (c.handleFrame env f).2.exts = [] := by
  unfold Core.handleFrame
  split
  · split
    · exact h
    · split
      · exact h
      · split <;> exact h
  · split
    · exact h
    · split
      · exact h
      · split <;> exact h
  · split
    · exact h
    · split
      · exact h
      · split <;> exact h
  · split
    · exact Core.sendFrame_exts_nil env c _ h
    · exact h
  · exact h
  · simp only
    split
    · exact h
    · split
      · exact h
      · split
        · exact Core.sendCloseFrame_exts_nil env _ _ h
        · exact h

theorem Core.sendFrame_nil_ok {env : Env X E H} (c : Core X E) (f : Frame) (hx : c.exts = [])
    (hc : f.check = .ok ()) (hd : f.data.length < 2 ^ 64) (ho : c.state = .opened) :
    ∃ w, c.sendFrame env f = (none, { c with nmask := c.nmask + 1, writes := c.writes ++ [w] }) := by
  unfold Core.sendFrame
  rw [if_neg (by simp [ho])]
  unfold Frame.serializeExt
  rw [hc, hx]
  simp only [applyExts]
  have hw : ∃ w, f.wire (if c.side = .client then some (env.rand c.nmask) else none) = .ok w := by
    unfold Frame.wire
    rw [if_pos (by omega)]
    by_cases hs : c.side = .client
    · rw [if_pos hs]
      simp only
      rw [applyMask_eq (env.rand_len c.nmask)]
      exact ⟨_, rfl⟩
    · rw [if_neg hs]
      exact ⟨_, rfl⟩
  obtain ⟨w, hw⟩ := hw
  rw [hw]
  exact ⟨w, by simp [hx]⟩

theorem Frame.check_ctrl {op : Opcode} {d : Bytes} (hop : op.isCtrl = true) (hd : d.length ≤ 125) :
    Frame.check { fin := true, opcode := op, data := d } = .ok () := by
  simp [Frame.check, hop]; omega

theorem Core.sendCloseFrame_ok {env : Env X E H} (c : Core X E) (d : Bytes)
    (hx : c.exts = []) (hd : d.length ≤ 125) (ho : c.state = .opened) (he : c.eofSent = false) :
    (c.sendCloseFrame env d).1 = none := by
  obtain ⟨w, h⟩ := Core.sendFrame_nil_ok (env := env) c { fin := true, opcode := .close, data := d }
    hx (Frame.check_ctrl rfl hd) (by simp only; omega) ho
  unfold Core.sendCloseFrame
  rw [h]
  simp only
  split
  · unfold Core.sendEof
    simp [he]
  · rfl

/-- The next frame of a conforming peer is accepted. -/
theorem Core.Fwd.accept {env : Env X E H} (hl : env.ops.Lawful) {limit : Option Int} {np : Prop}
    {c : Core X E} {pre rest : List Frame} {f : Frame} (h : c.Fwd limit np pre (f :: rest))
    (hc : Conforming limit (pre ++ f :: rest)) (hf : ControlFits limit (pre ++ f :: rest))
    (hlen : f.data.length < 2 ^ 64)
    (hnp : np → ∀ g ∈ pre ++ f :: rest, g.opcode ≠ .ping) :
    Within f.data.length c.frameLimit ∧ ∃ c', c.frameRead env c.frameLimit none f = (none, c') ∧
      c.Accept env f c' ∧ c'.Fwd limit np (pre ++ [f]) rest := by
  have hv := hc.valid f (by simp)
  have hck : f.check = .ok () := (Frame.check_ok_iff f).2 hv
  have hclosed : c.closeReceived = false := by
    cases hx : c.closeReceived with
    | false => rfl
    | true => exact absurd (h.closed hx) (by simp)
  -- the messages before and after this frame
  have hm : ∀ f', isDataFrame f = true → f' = f →
      (f.opcode = .cont ∧ c.curSize.isSome = true) ∨
      ((f.opcode = .text ∨ f.opcode = .binary) ∧ c.curSize = none) := by
    intro f' hd _
    obtain ⟨u, hu⟩ := hc.messages
    have e1 : (pre ++ f :: rest).filter isDataFrame =
        ((pre.filter isDataFrame) ++ [f]) ++ rest.filter isDataFrame := by
      simp [List.filter_append, List.filter_cons, hd]
    rw [e1] at hu
    obtain ⟨v, hv⟩ := hu.prefix
    rcases hv.append_single.2 with ⟨a, b⟩ | ⟨a, b⟩
    · exact .inl ⟨a, h.msgs.unique b⟩
    · refine .inr ⟨a, ?_⟩
      have := h.msgs.unique b
      cases hx : c.curSize with
      | none => rfl
      | some n => rw [hx] at this; cases this
  have hsize : isDataFrame f = true → Within (messageSize (pre ++ [f])) limit :=
    hc.sizes pre f rest rfl
  have hmsz := messageSize_snoc pre f
  have hwithin : Within f.data.length c.frameLimit := by
    unfold Core.frameLimit
    rw [h.maxSize]
    cases limit with
    | none => intro m hm; cases hm
    | some m =>
      cases hd : isDataFrame f with
      | true =>
        rcases hm f hd rfl with ⟨a, b⟩ | ⟨a, b⟩
        · obtain ⟨n, hn⟩ := Option.isSome_iff_exists.1 b
          rw [hn]
          intro m' hm'
          simp only [Option.some.injEq] at hm'
          have h1 := hsize hd m rfl
          rw [hmsz, a] at h1
          simp only [h.size n hn] at h1
          omega
        · rw [b]
          intro m' hm'
          simp only [Option.some.injEq] at hm'
          have h1 := hsize hd m rfl
          rw [hmsz] at h1
          rcases a with a | a <;> rw [a] at h1 <;> simp only at h1 <;> omega
      | false =>
        have h1 := hf pre f rest _ rfl hd h.msgs m rfl
        cases hn : c.curSize with
        | none =>
          intro m' hm'
          simp only [Option.some.injEq] at hm'
          rw [hn] at h1
          simp only [Option.isSome_none, Bool.false_eq_true, if_false] at h1
          omega
        | some n =>
          intro m' hm'
          simp only [Option.some.injEq] at hm'
          rw [hn] at h1
          simp only [Option.isSome_some, if_true, h.size n hn] at h1
          omega
  refine ⟨hwithin, ?_⟩
  -- it is handled without error
  have hh : (c.handleFrame env f).1 = none := by
    unfold Core.handleFrame
    cases hop : f.opcode with
    | text =>
      rcases hm f (by simp [isDataFrame, hop]) rfl with ⟨a, _⟩ | ⟨_, b⟩
      · rw [hop] at a; cases a
      · simp only [hclosed, Bool.false_eq_true, if_false, b, ne_eq, not_true_eq_false]
        split <;> rfl
    | binary =>
      rcases hm f (by simp [isDataFrame, hop]) rfl with ⟨a, _⟩ | ⟨_, b⟩
      · rw [hop] at a; cases a
      · simp only [hclosed, Bool.false_eq_true, if_false, b, ne_eq, not_true_eq_false]
        split <;> rfl
    | cont =>
      rcases hm f (by simp [isDataFrame, hop]) rfl with ⟨_, b⟩ | ⟨a, _⟩
      · obtain ⟨n, hn⟩ := Option.isSome_iff_exists.1 b
        simp only [hclosed, Bool.false_eq_true, if_false, hn]
        split <;> rfl
      · rw [hop] at a; rcases a with a | a <;> cases a
    | ping =>
      have ho : c.state = .opened := by
        rcases h.ping with hx | hx | hx
        · exact absurd hop (hnp hx f (by simp))
        · exact hx
        · cases hx
      simp only [hclosed, Bool.not_false, if_true]
      obtain ⟨w, hw⟩ := Core.sendFrame_nil_ok (env := env) c
        { fin := true, opcode := .pong, data := f.data } h.exts
        (Frame.check_ctrl rfl (hv.2.2.2 (by rw [hop]; simp [IsControl])).2) hlen ho
      rw [hw]
    | pong => rfl
    | close =>
      obtain ⟨_, hmm, code, reason, hp⟩ := hc.close pre f rest rfl hop
      have hp := (C06_parse_close_iff ..).2 hp
      have hcur : c.curSize = none := by
        have := h.msgs.unique hmm
        cases hx : c.curSize with
        | none => rfl
        | some n => rw [hx] at this; cases this
      simp only [hp, hcur, ne_eq, not_true_eq_false, if_false]
      split
      · rename_i ho
        refine Core.sendCloseFrame_ok _ _ h.exts (hv.2.2.2 (by rw [hop]; simp [IsControl])).2 ho ?_
        exact h.eofOk.cases.resolve_right fun hx => hx ho
      · rfl
  have hxn := Core.handleFrame_exts_nil env c f h.exts
  cases hx : c.handleFrame env f with
  | mk e c1 =>
    rw [hx] at hh hxn
    simp only at hh hxn
    subst hh
    have hcc : { c with exts := [] } = c := by rw [← h.exts]
    have hfr : c.frameRead env c.frameLimit none f = (none, c1.addEvent (.frame f)) := by
      unfold Core.frameRead
      simp only [Option.getD_none, h.exts, Frame.finish_nil hck, Option.isNone_none, if_true]
      rw [hcc, hx]
    have hacc : c.Accept env f (c1.addEvent (.frame f)) := by
      refine ⟨none, f, [], c1, hwithin, hlen, ?_, ?_, rfl⟩
      · simp only [Option.getD_none, h.exts, Frame.finish_nil hck]
      · simp only [Option.isNone_none, if_true]
        rw [hcc, hx]
    refine ⟨_, hfr, hacc, ?_⟩
    have ha := hacc.accepted hl
    refine ⟨hxn, by rw [ha.maxSize, h.maxSize], ?_, ?_, ?_, ?_, ?_⟩
    · -- messages
      rw [List.filter_append, ha.curSize]
      unfold nextCur
      cases hd : isDataFrame f with
      | false =>
        have e1 : [f].filter isDataFrame = [] := by simp [hd]
        rw [e1, List.append_nil]
        cases hop : f.opcode <;> simp only [isDataFrame, hop] at hd <;>
          first | exact h.msgs | cases hd
      | true =>
        have e1 : [f].filter isDataFrame = [f] := by simp [hd]
        rw [e1]
        rcases hm f hd rfl with ⟨a, b⟩ | ⟨a, b⟩
        · rw [a]
          have hms := h.msgs
          rw [b] at hms
          cases hf : f.fin with
          | true => exact .last hms a hf
          | false => exact .middle hms a hf
        · have hms := h.msgs
          rw [b] at hms
          cases hf : f.fin with
          | true =>
            have := Messages.whole hms a hf
            rcases a with a | a <;> simp only [a] <;> exact this
          | false =>
            have := Messages.first hms a hf
            rcases a with a | a <;> simp only [a] <;> exact this
    · intro n hn
      rw [ha.curSize] at hn
      rw [hmsz]
      unfold nextCur at hn
      cases hop : f.opcode <;> simp only [hop] at hn ⊢
      case cont =>
        rcases hm f (by simp [isDataFrame, hop]) rfl with ⟨_, b⟩ | ⟨a, _⟩
        · obtain ⟨k, hk⟩ := Option.isSome_iff_exists.1 b
          rw [hk] at hn
          rw [h.size k hk]
          split at hn
          · cases hn
          · simpa using hn
        · rw [hop] at a; rcases a with a | a <;> cases a
      case text => split at hn <;> simp_all
      case binary => split at hn <;> simp_all
      all_goals exact h.size n hn
    · intro hcl
      rw [ha.closeReceived, hclosed, Bool.false_or, beq_iff_eq] at hcl
      exact (hc.close pre f rest rfl hcl).1
    · exact Frames.eofOk hl (.cons hacc .nil) h.eofOk
    · rcases h.ping with hx | hx | hx
      · exact .inl hx
      · rw [ha.state]
        split
        · rename_i hcl
          exact .inr (.inr (hc.close pre f rest rfl hcl.1).1)
        · exact .inr (.inl hx)
      · cases hx

/-! ## The parser on the bytes of conforming frames -/

/-- The encodings of frames. -/
inductive Wires (masked : Bool) : List Frame → List Bytes → Prop where
  | nil : Wires masked [] []
  | cons {f w fs ws} : Wire masked f w → Wires masked fs ws → Wires masked (f :: fs) (w :: ws)

theorem wire_pos {masked : Bool} {f : Frame} {w : Bytes} (h : Wire masked f w) : w ≠ [] := by
  obtain ⟨key, _, h1, h2, len7, ext, _, _, _, _, h⟩ := h
  cases key with
  | none => simp only at h; rw [h]; simp
  | some k => simp only at h; rw [h.2]; simp

theorem wire_len {masked : Bool} {f : Frame} {w : Bytes} (h : Wire masked f w) :
    f.data.length < 2 ^ 64 := by
  have h1 := Frame.parseRaw_wire (limit := none) h (fun m hm => by cases hm) [] true
  have := Coro.run_all (Frame.parseRaw_all masked none) ⟨w ++ [], true⟩
  rw [h1] at this
  exact this.2

/-- A strict prefix of an encoding blocks the parser. -/
theorem Frame.parseRaw_prefix {masked : Bool} {limit : Option Int} {f : Frame} {b q : Bytes}
    (hw : Wire masked f (b ++ q)) (hq : q ≠ []) (hlim : Within f.data.length limit) :
    ∃ co r, (Frame.parseRaw masked limit).run ⟨b, false⟩ = .blocked co r := by
  have h1 := Frame.parseRaw_wire hw hlim [] false
  rw [List.append_nil] at h1
  have h2 := Coro.run_push (r := ⟨b, false⟩) rfl (.fresh (Frame.parseRaw_fresh masked limit)) q
  have h3 : (⟨b, false⟩ : Reader).push q = ⟨b ++ q, false⟩ := rfl
  rw [h3, h1] at h2
  cases hx : (Frame.parseRaw masked limit).run ⟨b, false⟩ with
  | blocked co r => exact ⟨co, r, rfl⟩
  | raised e r => rw [hx] at h2; simp [Outcome.resume] at h2
  | done g r =>
    rw [hx] at h2
    simp only [Outcome.resume, Outcome.done.injEq, Reader.push] at h2
    have := congrArg Reader.buf h2.2
    simp only at this
    have := List.append_eq_nil_iff.1 this.symm
    exact absurd this.2 hq

/-- The parser has read `b` since the end of the last frame. -/
structure Conn.At (k : Conn X E) (b : Bytes) : Prop where
  eof : k.reader.eof = false
  state : (b = [] ∧ k.reader.buf = [] ∧ k.pstate = .top) ∨
    (b ≠ [] ∧ ∃ co, (Frame.parseRaw k.core.maskIn k.core.frameLimit).run ⟨b, false⟩ =
      .blocked co k.reader ∧ k.pstate = .inFrame co k.core.frameLimit none)

theorem Conn.At.parseTop {env : Env X E H} {k : Conn X E} {b : Bytes} (h : k.At b) :
    Conn.parseTop env k.core ⟨b, false⟩ = (none, k) := by
  obtain ⟨core, ⟨buf, eof⟩, ps⟩ := k
  have he : eof = false := h.eof
  subst he
  rcases h.state with ⟨rfl, hb, hp⟩ | ⟨hb, co, hr, hp⟩
  · simp only at hb hp
    subst hb hp
    rw [Conn.parseTop_eq]
    rfl
  · simp only at hr hp
    subst hp
    rw [Conn.parseTop_eq]
    simp only [Reader.atEof, ne_eq, hb, not_false_eq_true, if_true, hr]

theorem Conn.At.alive {k : Conn X E} {b : Bytes} (h : k.At b) : k.pstate ≠ .dead := by
  rcases h.state with ⟨_, _, hp⟩ | ⟨_, co, _, hp⟩ <;> rw [hp] <;> nofun

theorem Conn.At.receive {env : Env X E H} {k k' : Conn X E} {b d : Bytes} (h : k.At b)
    (hp : Conn.parseTop env k.core ⟨b ++ d, false⟩ = (none, k')) :
    k.receiveData env d = (none, k') := by
  have h1 := Conn.parseTop_push env k.core ⟨b, false⟩ rfl d
  rw [h.parseTop] at h1
  have h2 : (⟨b, false⟩ : Reader).push d = ⟨b ++ d, false⟩ := rfl
  rw [h2, hp] at h1
  simp only at h1
  rw [Conn.receiveData_eq, h.eof]
  simp only [Bool.false_eq_true, if_false]
  rw [Conn.step_alive env (k.push d) h.alive, ← h1]

/-- Receiving the beginning of what a conforming peer sends. -/
theorem Conn.parseTop_fwd {env : Env X E H} (hl : env.ops.Lawful) {limit : Option Int} {np : Prop}
    {masked : Bool} {all : List Frame} (hc : Conforming limit all) (hf : ControlFits limit all)
    (hnp : np → ∀ g ∈ all, g.opcode ≠ .ping)
    {rest : List Frame} {ws : List Bytes} (hw : Wires masked rest ws)
    (c : Core X E) (hm : c.maskIn = masked) (pre : List Frame) (hall : all = pre ++ rest)
    (h : c.Fwd limit np pre rest) (b q : Bytes) (hb : b ++ q = ws.flatten) :
    ∃ fs1 fs2 ws1 ws2 b' k', Conn.parseTop env c ⟨b, false⟩ = (none, k') ∧ rest = fs1 ++ fs2 ∧
      ws = ws1 ++ ws2 ∧ Wires masked fs2 ws2 ∧ b = ws1.flatten ++ b' ∧
      (∀ w ws', ws2 = w :: ws' → b'.length < w.length) ∧ k'.At b' ∧
      Frames env c fs1 k'.core ∧ k'.core.Fwd limit np (pre ++ fs1) fs2 := by
  induction hw generalizing c pre b with
  | nil =>
    have : b = [] := by
      have := List.append_eq_nil_iff.1 (show b ++ q = [] by simpa using hb)
      exact this.1
    subst this
    refine ⟨[], [], [], [], [], ⟨c, ⟨[], false⟩, .top⟩, ?_, rfl, rfl, .nil, rfl, nofun,
      ⟨rfl, .inl ⟨rfl, rfl, rfl⟩⟩, .nil, by simpa using h⟩
    rw [Conn.parseTop_eq]
    rfl
  | @cons f w fs ws hwf hws ih =>
    have hlen := wire_len hwf
    obtain ⟨hwith, c', hfr, hacc, hfwd⟩ := h.accept (env := env) hl (by rw [← hall]; exact hc)
      (by rw [← hall]; exact hf) hlen (by rw [← hall]; exact hnp)
    by_cases hbn : b = []
    · subst hbn
      refine ⟨[], f :: fs, [], w :: ws, [], ⟨c, ⟨[], false⟩, .top⟩, ?_, rfl, rfl,
        .cons hwf hws, rfl, ?_, ⟨rfl, .inl ⟨rfl, rfl, rfl⟩⟩, .nil, by simpa using h⟩
      · rw [Conn.parseTop_eq]
        rfl
      · intro w' ws' he
        simp only [List.cons.injEq] at he
        rw [← he.1]
        have := wire_pos hwf
        exact List.length_pos_iff.2 this
    · by_cases hlt : b.length < w.length
      · -- the frame isn't complete
        rw [List.flatten_cons] at hb
        obtain ⟨q', hq'⟩ : ∃ q', w = b ++ q' := by
          rcases List.append_eq_append_iff.1 hb with ⟨l, h1, h2⟩ | ⟨l, h1, h2⟩
          · exact ⟨l, h1⟩
          · have := congrArg List.length h1
            simp at this
            omega
        have hqn : q' ≠ [] := by
          rintro rfl
          rw [hq'] at hlt
          simp at hlt
        have hwf' := hwf
        rw [hq', ← hm] at hwf'
        obtain ⟨co, r, hco⟩ := Frame.parseRaw_prefix hwf' hqn hwith
        have hre : r.eof = false :=
          (Coro.run_ready (.fresh (Frame.parseRaw_fresh _ _)) hco).2.1.trans rfl
        refine ⟨[], f :: fs, [], w :: ws, b, ⟨c, r, .inFrame co c.frameLimit none⟩, ?_, rfl, rfl,
          .cons hwf hws, rfl, ?_, ⟨hre, .inr ⟨hbn, co, hco, rfl⟩⟩, .nil, by simpa using h⟩
        · rw [Conn.parseTop_eq]
          simp only [Reader.atEof, ne_eq, hbn, not_false_eq_true, if_true, hco]
        · intro w' ws' he
          simp only [List.cons.injEq] at he
          rw [← he.1]
          exact hlt
      · -- the frame is complete
        rw [List.flatten_cons] at hb
        obtain ⟨b1, hb1⟩ : ∃ b1, b = w ++ b1 := by
          rcases List.append_eq_append_iff.1 hb with ⟨l, h1, h2⟩ | ⟨l, h1, h2⟩
          · have h3 := congrArg List.length h1
            simp only [List.length_append] at h3
            have : l = [] := List.length_eq_zero_iff.1 (by omega)
            subst this
            exact ⟨[], by simpa using h1.symm⟩
          · exact ⟨l, h1⟩
        subst hb1
        rw [List.append_assoc] at hb
        have hb2 := List.append_cancel_left hb
        have hacc' := hacc.accepted hl
        have hm' : c'.maskIn = masked := by
          rw [← hm]; unfold Core.maskIn; rw [hacc'.emits.1]
        obtain ⟨fs1, fs2, ws1, ws2, b', k', g1, g2, g3, g4, g5, g6, g7, g8, g9⟩ :=
          ih c' hm' (pre ++ [f]) (by simp [hall]) hfwd b1 hb2
        refine ⟨f :: fs1, fs2, w :: ws1, ws2, b', k', ?_, by rw [g2]; rfl, by rw [g3]; rfl, g4,
          by rw [g5]; simp, g6, g7, .cons hacc g8, by simpa using g9⟩
        rw [Conn.parseTop_eq]
        have hr := Frame.parseRaw_wire (limit := c.frameLimit) hwf hwith b1 false
        rw [← hm] at hr
        simp only [Reader.atEof, ne_eq, hbn, not_false_eq_true, if_true, hr, hfr]
        exact g1

/-! ## Executions -/

/-- The bytes received by a call. -/
def Op.bytes : Op H → Bytes
  | .receiveData d => d
  | _ => []

/-- The bytes received in an execution. -/
def Spec.received (ops : List (Op H)) : Bytes := (ops.map Op.bytes).flatten

def Op.isSendClose : Op H → Bool
  | .sendClose _ _ => true
  | _ => false

def Op.isHandshake : Op H → Bool
  | .handshake _ => true
  | _ => false

theorem Core.sendFrame_state (env : Env X E H) (c : Core X E) (f : Frame) :
    (c.sendFrame env f).2.state = c.state := by
  rcases Core.sendFrame_cases env c f with ⟨_, xs, n, _, h⟩ | ⟨_, _, _, f', xs, w, _, _, h⟩ <;>
    rw [h]

theorem Conn.send_fwd (env : Env X E H) (k : Conn X E) (op : Op H) (hs : op.isSend = true)
    (hh : op.isHandshake = false) (hx : k.core.exts = []) :
    (k.apply env op).2.core.exts = [] ∧
      (op.isSendClose = false → (k.apply env op).2.core.state = k.core.state) := by
  cases op with
  | sendContinuation d fin =>
    simp only [Conn.apply, Conn.onCore, Core.sendContinuation]
    split
    · exact ⟨hx, fun _ => rfl⟩
    · exact ⟨Core.sendFrame_exts_nil env _ _ hx, fun _ => Core.sendFrame_state env _ _⟩
  | sendText d fin =>
    simp only [Conn.apply, Conn.onCore, Core.sendData]
    split
    · exact ⟨hx, fun _ => rfl⟩
    · exact ⟨Core.sendFrame_exts_nil env _ _ hx, fun _ => Core.sendFrame_state env _ _⟩
  | sendBinary d fin =>
    simp only [Conn.apply, Conn.onCore, Core.sendData]
    split
    · exact ⟨hx, fun _ => rfl⟩
    · exact ⟨Core.sendFrame_exts_nil env _ _ hx, fun _ => Core.sendFrame_state env _ _⟩
  | sendPing d =>
    exact ⟨Core.sendFrame_exts_nil env _ _ hx, fun _ => Core.sendFrame_state env _ _⟩
  | sendPong d =>
    exact ⟨Core.sendFrame_exts_nil env _ _ hx, fun _ => Core.sendFrame_state env _ _⟩
  | sendClose code reason =>
    refine ⟨?_, nofun⟩
    simp only [Conn.apply, Conn.onCore, Core.sendClose]
    split
    · exact hx
    · split
      · split
        · exact hx
        · exact Core.sendCloseFrame_exts_nil env _ _ hx
      · split
        · exact hx
        · exact Core.sendCloseFrame_exts_nil env _ _ hx
  | handshake h => cases hh
  | receiveData d => cases hs
  | receiveEof => cases hs
  | eventsReceived => cases hs
  | dataToSend => cases hs

theorem Conn.At.quiet {k : Conn X E} {b : Bytes} (h : k.At b) {k' : Conn X E}
    (hq : Core.Quiet k.core k'.core) (hr : k'.reader = k.reader) (hp : k'.pstate = k.pstate) :
    k'.At b := by
  refine ⟨by rw [hr]; exact h.eof, ?_⟩
  have h1 : k'.core.maskIn = k.core.maskIn := by unfold Core.maskIn; rw [hq.side]
  rw [hr, hp, h1, hq.frameLimit]
  exact h.state

theorem Conn.apply_fwd {env : Env X E H} (hl : env.Lawful) {limit : Option Int} {np : Prop}
    {k : Conn X E} {b : Bytes} {pre rest : List Frame} (ha : k.At b)
    (h : k.core.Fwd limit np pre rest) (op : Op H) (hh : op.isHandshake = false)
    (he : op.isRecv = false) (hcl : np ∨ op.isSendClose = false) :
    (k.apply env op).2.At b ∧ (k.apply env op).2.core.Fwd limit np pre rest ∧
    (k.apply env op).2.core.maskIn = k.core.maskIn ∧
    (op ≠ .eventsReceived → (k.apply env op).2.core.events = k.core.events) := by
  cases hs : op.isSend with
  | true =>
    have hne : ∀ x, op ≠ .handshake x := by rintro x rfl; cases hh
    obtain ⟨h1, h2, h3⟩ := Conn.send_recvQuiet env k op hs hne
    obtain ⟨h4, h5⟩ := Conn.send_fwd env k op hs hh h.exts
    have ho : op.HsOk k.core := by cases op <;> first | trivial | cases hh
    obtain ⟨fs, i1, w1, p1, _⟩ := Conn.send_does hl k op hs ho
    refine ⟨ha.quiet h1 h2 h3, ⟨h4, by rw [h1.maxSize, h.maxSize], by rw [h1.curSize]; exact h.msgs,
      by rw [h1.curSize]; exact h.size, by rw [h1.closeReceived]; exact h.closed,
      (p1.strict h.eofOk).2, ?_⟩, by unfold Core.maskIn; rw [h1.side], fun _ => h1.events⟩
    rcases hcl with hcl | hcl
    · exact .inl hcl
    · rw [h5 hcl]; exact h.ping
  | false =>
    cases op with
    | eventsReceived =>
      exact ⟨⟨ha.eof, ha.state⟩,
        ⟨h.exts, h.maxSize, h.msgs, h.size, h.closed, h.eofOk, h.ping⟩, rfl, fun h => absurd rfl h⟩
    | dataToSend =>
      exact ⟨ha.quiet (k' := { k with core := { k.core with writes := [] } })
          ⟨rfl, rfl, rfl, rfl, rfl, rfl, rfl⟩ rfl rfl,
        ⟨h.exts, h.maxSize, h.msgs, h.size, h.closed, h.eofOk, h.ping⟩, rfl, fun _ => rfl⟩
    | receiveData d => cases he
    | receiveEof => cases he
    | _ => cases hs

theorem Conn.exec_fwd {env : Env X E H} (hl : env.Lawful) {limit : Option Int} {np : Prop}
    {masked : Bool} {all : List Frame} (hc : Conforming limit all) (hf : ControlFits limit all)
    (hnp : np → ∀ g ∈ all, g.opcode ≠ .ping)
    (ops : List (Op H)) (hops : ∀ op ∈ ops, op.isHandshake = false ∧ op.isEof = false ∧
      (np ∨ op.isSendClose = false))
    {rest : List Frame} {ws : List Bytes} (hw : Wires masked rest ws)
    (k : Conn X E) (hm : k.core.maskIn = masked) (pre : List Frame) (hall : all = pre ++ rest)
    (h : k.core.Fwd limit np pre rest) (b q : Bytes) (ha : k.At b)
    (hb : b ++ received ops ++ q = ws.flatten) :
    (∀ pre' d post, ops = pre' ++ .receiveData d :: post →
      ((k.exec env pre').2.apply env (.receiveData d)).1 = none) ∧
    ∃ fs1 fs2 ws1 ws2 b', rest = fs1 ++ fs2 ∧ ws = ws1 ++ ws2 ∧ Wires masked fs2 ws2 ∧
      b ++ received ops = ws1.flatten ++ b' ∧
      ((∀ w ws', ws = w :: ws' → b.length < w.length) →
        ∀ w ws', ws2 = w :: ws' → b'.length < w.length) ∧
      eventFrames (k.delivered env ops) = eventFrames k.core.events ++ fs1 ∧
      (k.exec env ops).2.At b' ∧ (k.exec env ops).2.core.Fwd limit np (pre ++ fs1) fs2 := by
  induction ops generalizing k pre rest ws b with
  | nil =>
    refine ⟨fun pre' d post he => (by cases pre' <;> cases he), [], rest, [], ws, b, rfl, rfl, hw,
      ?_, fun h => h, ?_, ha, (by rw [List.append_nil]; exact h)⟩
    · simp [received]
    · simp [Conn.delivered, Conn.exec]
  | cons op ops ih =>
    have hop := hops op (by simp)
    have hops' := fun o ho => hops o (List.mem_cons_of_mem _ ho)
    by_cases hr : op.isRecv = true
    · -- data is received
      obtain ⟨d, rfl⟩ : ∃ d, op = .receiveData d := by
        cases op with
        | receiveData d => exact ⟨d, rfl⟩
        | receiveEof => exact absurd hop.2.1 (by simp [Op.isEof])
        | _ => cases hr
      have hrec : received (Op.receiveData d :: ops) = d ++ received ops := rfl
      rw [hrec, ← List.append_assoc, List.append_assoc (b ++ d)] at hb
      obtain ⟨fs1, fs2, ws1, ws2, b', k', g1, g2, g3, g4, g5, g6, g7, g8, g9⟩ :=
        Conn.parseTop_fwd hl.ops hc hf hnp hw k.core hm pre hall h (b ++ d) _ hb
      have hk' := ha.receive g1
      have hap : k.apply env (.receiveData d) = (none, k') := hk'
      have ht := g8.took hl.ops
      have hb2 : b' ++ received ops ++ q = ws2.flatten := by
        rw [g5, g3, List.flatten_append, List.append_assoc] at hb
        rw [List.append_assoc]
        exact List.append_cancel_left hb
      have hm' : k'.core.maskIn = masked := by
        rw [← hm]; unfold Core.maskIn; rw [ht.emits.1]
      obtain ⟨i1, fs3, fs4, ws3, ws4, b2, j1, j2, j3, j4, j5, j6, j7, j8⟩ :=
        ih hops' g4 k' hm' (pre ++ fs1) (by rw [hall, g2, List.append_assoc]) g9 b' g7 hb2
      refine ⟨?_, fs1 ++ fs3, fs4, ws1 ++ ws3, ws4, b2, by rw [g2, j1, List.append_assoc],
        by rw [g3, j2, List.append_assoc], j3, ?_, fun _ => j5 g6, ?_, ?_, ?_⟩
      · intro pre' d' post he
        cases pre' with
        | nil =>
          simp only [List.nil_append, List.cons.injEq, Op.receiveData.injEq] at he
          rw [← he.1]
          show (k.apply env (.receiveData d)).1 = none
          rw [hap]
        | cons o pre' =>
          simp only [List.cons_append, List.cons.injEq] at he
          obtain ⟨rfl, he⟩ := he
          have := i1 pre' d' post he
          show (((k.apply env (.receiveData d)).2.exec env pre').2.apply env _).1 = none
          rw [hap]
          exact this
      · rw [hrec, ← List.append_assoc, g5, List.append_assoc, j4, List.flatten_append,
          List.append_assoc]
      · have : k.delivered env (.receiveData d :: ops) = k'.delivered env ops := by
          simp only [Conn.delivered, Conn.exec, hap]
          rfl
        rw [this, j6, ht.events, eventFrames_append, eventFrames_frames, List.append_assoc]
      · simp only [Conn.exec, hap]; exact j7
      · simp only [Conn.exec, hap]; rw [← List.append_assoc]; exact j8
    · -- another call
      simp only [Bool.not_eq_true] at hr
      obtain ⟨a1, a2, a3, a4⟩ := Conn.apply_fwd (env := env) hl ha h op hop.1 hr hop.2.2
      have hrec : received (op :: ops) = received ops := by
        have : op.bytes = [] := by cases op <;> first | rfl | cases hr
        simp [received, this]
      rw [hrec] at hb
      obtain ⟨i1, fs3, fs4, ws3, ws4, b2, j1, j2, j3, j4, j5, j6, j7, j8⟩ :=
        ih hops' hw _ (a3.trans hm) pre hall a2 b a1 hb
      refine ⟨?_, fs3, fs4, ws3, ws4, b2, j1, j2, j3, by rw [hrec, j4], j5, ?_, j7, j8⟩
      · intro pre' d' post he
        cases pre' with
        | nil =>
          simp only [List.nil_append, List.cons.injEq] at he
          rw [he.1] at hr
          cases hr
        | cons o pre' =>
          simp only [List.cons_append, List.cons.injEq] at he
          obtain ⟨rfl, he⟩ := he
          exact i1 pre' d' post he
      · have key : k.delivered env (op :: ops) =
            (match op with | .eventsReceived => k.core.events | _ => []) ++
              (k.apply env op).2.delivered env ops := by
          cases op <;> simp only [Conn.delivered, Conn.exec, List.append_assoc, List.nil_append]
        rw [key, eventFrames_append, j6, ← List.append_assoc]
        congr 1
        by_cases hev : op = .eventsReceived
        · subst hev
          simp [Conn.apply, eventFrames]
        · rw [a4 hev]
          cases op with
          | eventsReceived => exact absurd rfl hev
          | _ => simp [eventFrames]

end WS
