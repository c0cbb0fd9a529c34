import Verif.Lemmas.ConnFwd
import Verif.Props.Chunking

/-!
# Receiving from a conforming peer: C17, C25
-/

namespace WS

open Spec

variable {X E H : Type}

/-- An open connection without extensions that hasn't received anything yet. -/
structure Conn.Fresh (k : Conn X E) (limit : Option Int) : Prop where
  reader : k.reader = .init
  pstate : k.pstate = .top
  state : k.core.state = .opened
  exts : k.core.exts = []
  maxSize : k.core.maxSize = limit
  curSize : k.core.curSize = none
  closeReceived : k.core.closeReceived = false
  eofSent : k.core.eofSent = false
  events : k.core.events = []

theorem Conn.init_fresh (side : Side) (limit : Option Int) :
    (Conn.init side .opened limit : Conn X E).Fresh limit :=
  ⟨rfl, rfl, rfl, rfl, rfl, rfl, rfl, rfl, rfl⟩

theorem Conn.Fresh.at {k : Conn X E} {limit : Option Int} (h : k.Fresh limit) : k.At [] :=
  ⟨by rw [h.reader]; rfl, .inl ⟨rfl, by rw [h.reader]; rfl, h.pstate⟩⟩

theorem Conn.Fresh.fwd {k : Conn X E} {limit : Option Int} (h : k.Fresh limit) (np : Prop)
    (fs : List Frame) : k.core.Fwd limit np [] fs := by
  refine ⟨h.exts, h.maxSize, by rw [h.curSize]; exact .nil, ?_, ?_, ?_, .inr (.inl h.state)⟩
  · intro n hn; rw [h.curSize] at hn; cases hn
  · intro hc; rw [h.closeReceived] at hc; cases hc
  · intro hx; rw [h.eofSent] at hx; cases hx

/-- Calls made while the peer is sending: not `receive_eof()`, and no handshake. `send_close()` is
made only if the peer doesn't send pings. -/
def Spec.CallsFor (fs : List Frame) (ops : List (Op H)) : Prop :=
  (∀ op ∈ ops, op.isHandshake = false ∧ op.isEof = false) ∧
  ((∀ f ∈ fs, f.opcode ≠ .ping) ∨ ∀ op ∈ ops, op.isSendClose = false)

/-- **C17**, without extensions, when control frames fit in the remaining size, and when the
connection isn't closing when it receives pings. A conforming peer sends frames `fs`, encoded as
`ws`. At any time, in any execution, when only the beginning of `ws` has been received, in any
number of pieces: no call has raised an exception because of what was received, and exactly the
frames that were completely received have been delivered, in order. -/
theorem C17_conforming_partial {env : Env X E H} (hl : env.Lawful) (k : Conn X E)
    (limit : Option Int) (hk : k.Fresh limit) (fs : List Frame) (ws : List Bytes)
    (hw : Wires (k.core.side = .server) fs ws) (hc : Conforming limit fs)
    (hf : ControlFits limit fs) (ops : List (Op H)) (ho : CallsFor fs ops) (more : Bytes)
    (hr : received ops ++ more = ws.flatten) :
    (∀ pre d post, ops = pre ++ .receiveData d :: post →
      ((k.exec env pre).2.apply env (.receiveData d)).1 = none) ∧
    ∃ n, eventFrames (k.delivered env ops) = fs.take n ∧
      (ws.take n).flatten.length ≤ (received ops).length ∧
      (n < fs.length → (received ops).length < (ws.take (n + 1)).flatten.length) ∧
      (more = [] → eventFrames (k.delivered env ops) = fs) := by
  have hops : ∀ op ∈ ops, op.isHandshake = false ∧ op.isEof = false ∧
      ((∀ f ∈ fs, f.opcode ≠ .ping) ∨ op.isSendClose = false) := by
    intro op hop
    refine ⟨(ho.1 op hop).1, (ho.1 op hop).2, ?_⟩
    rcases ho.2 with h | h
    · exact .inl h
    · exact .inr (h op hop)
  obtain ⟨h1, fs1, fs2, ws1, ws2, b', g1, g2, g3, g4, g5, g6, g7, g8⟩ :=
    Conn.exec_fwd hl hc hf (np := ∀ f ∈ fs, f.opcode ≠ .ping) id ops hops hw k rfl [] rfl
      (hk.fwd _ _) [] more hk.at (by simpa using hr)
  refine ⟨h1, ?_⟩
  rw [hk.events] at g6
  have hlen : ∀ {m : Bool} {fs : List Frame} {ws : List Bytes}, Wires m fs ws →
      fs.length = ws.length := by
    intro m fs ws h
    induction h with
    | nil => rfl
    | cons _ _ ih => simp [ih]
  have hl1 : fs1.length = ws1.length := by
    have a := hlen hw
    have b := hlen g3
    rw [g1, g2, List.length_append, List.length_append] at a
    omega
  have hrec : received ops = ws1.flatten ++ b' := by simpa using g4
  have g5' := g5 (by
    intro w ws' he
    cases hw with
    | nil => cases he
    | cons hw1 _ =>
      simp only [List.cons.injEq] at he
      rw [← he.1]
      exact List.length_pos_iff.2 (wire_pos hw1))
  have e6 : eventFrames (k.delivered env ops) = fs1 := by simpa [eventFrames] using g6
  refine ⟨fs1.length, by rw [e6, g1, List.take_left], ?_, ?_, ?_⟩
  · rw [hl1, g2, List.take_left, hrec]; simp
  · intro hlt
    rw [g1] at hlt
    cases hx : fs2 with
    | nil => rw [hx] at hlt; simp at hlt
    | cons f fs3 =>
      rw [hx] at g3
      cases g3 with
      | @cons _ w _ ws3 hwf hws3 =>
        have := g5' w ws3 rfl
        rw [hl1, g2, hrec]
        have e : (ws1 ++ w :: ws3).take (ws1.length + 1) = ws1 ++ [w] := by
          have := List.take_left' (l₁ := ws1 ++ [w]) (l₂ := ws3) (i := ws1.length + 1) (by simp)
          simpa using this
        rw [e]
        simp
        omega
  · intro hm
    subst hm
    rw [List.append_nil, hrec, g2, List.flatten_append] at hr
    have hb := List.append_cancel_left hr
    rw [e6, g1]
    cases g3 with
    | nil => simp
    | @cons f w _ ws3 hwf hws3 =>
      have := g5' w ws3 rfl
      rw [hb, List.flatten_cons, List.length_append] at this
      omega

/-- Example: a fragmented message with a ping between its fragments, and a close frame, are what
a conforming peer can send. -/
example : let fs := [{ fin := false, opcode := .text, data := [0x61] },
      { fin := true, opcode := .ping, data := [7] }, { fin := true, opcode := .cont, data := [0x62] },
      { fin := true, opcode := .close, data := [] }]
    let ws : List Bytes := [[0x01, 1, 0x61], [0x89, 1, 7], [0x80, 1, 0x62], [0x88, 0]]
    Conforming (some 2) fs ∧ ControlFits (some 2) fs ∧ Wires false fs ws ∧
      (Conn.init (X := Empty) (E := Empty) .client .opened (some 2)).Fresh (some 2) := by
  have m1 : Messages [{ fin := false, opcode := .text, data := [0x61] }] true :=
    .first (fs := []) .nil (.inl rfl) rfl
  have m2 : Messages [{ fin := false, opcode := .text, data := [0x61] },
      { fin := true, opcode := .cont, data := [0x62] }] false :=
    .last (fs := [_]) m1 rfl rfl
  have split : ∀ {α : Type} {a b c d f : α} {pre post}, [a, b, c, d] = pre ++ f :: post →
      (pre = [] ∧ f = a ∧ post = [b, c, d]) ∨ (pre = [a] ∧ f = b ∧ post = [c, d]) ∨
      (pre = [a, b] ∧ f = c ∧ post = [d]) ∨ (pre = [a, b, c] ∧ f = d ∧ post = []) := by
    intro α a b c d f pre post h
    rcases pre with _ | ⟨p1, _ | ⟨p2, _ | ⟨p3, _ | ⟨p4, pre⟩⟩⟩⟩ <;>
      simp only [List.nil_append, List.cons_append, List.cons.injEq, List.append_eq] at h
    · obtain ⟨rfl, rfl⟩ := h; simp
    · obtain ⟨rfl, rfl, rfl⟩ := h; simp
    · obtain ⟨rfl, rfl, rfl, rfl⟩ := h; simp
    · obtain ⟨rfl, rfl, rfl, rfl, rfl⟩ := h; simp
    · obtain ⟨_, _, _, _, h⟩ := h
      simp at h
  refine ⟨⟨?_, ⟨false, m2⟩, ?_, ?_⟩, ?_, ?_, Conn.init_fresh _ _⟩
  · intro f hf
    simp only [List.mem_cons, List.not_mem_nil, or_false] at hf
    rcases hf with rfl | rfl | rfl | rfl <;> exact (Frame.check_ok_iff _).1 rfl
  · intro pre f post h _
    rcases split h with ⟨rfl, rfl, rfl⟩ | ⟨rfl, rfl, rfl⟩ | ⟨rfl, rfl, rfl⟩ | ⟨rfl, rfl, rfl⟩ <;>
      (intro m hm; cases hm; decide)
  · intro pre f post h hc
    rcases split h with ⟨rfl, rfl, rfl⟩ | ⟨rfl, rfl, rfl⟩ | ⟨rfl, rfl, rfl⟩ | ⟨rfl, rfl, rfl⟩
    · cases hc
    · cases hc
    · cases hc
    · exact ⟨rfl, m2, 1005, [], .inl ⟨rfl, rfl, rfl⟩⟩
  · intro pre f post u h hd hu m hm
    cases hm
    rcases split h with ⟨rfl, rfl, rfl⟩ | ⟨rfl, rfl, rfl⟩ | ⟨rfl, rfl, rfl⟩ | ⟨rfl, rfl, rfl⟩
    · cases hd
    · cases u <;> decide
    · cases hd
    · rw [hu.unique m2]; decide
  · refine .cons ⟨none, rfl, ?_⟩ (.cons ⟨none, rfl, ?_⟩ (.cons ⟨none, rfl, ?_⟩
      (.cons ⟨none, rfl, ?_⟩ .nil)))
    · exact ⟨0x01, 1, 1, [], rfl, rfl, .short (by decide), nofun, rfl⟩
    · exact ⟨0x89, 1, 1, [], rfl, rfl, .short (by decide), nofun, rfl⟩
    · exact ⟨0x80, 1, 1, [], rfl, rfl, .short (by decide), nofun, rfl⟩
    · exact ⟨0x88, 0, 0, [], rfl, rfl, .short (by decide), nofun, rfl⟩

/-- **C17.** Once a close frame has been received, the end of the stream raises nothing. -/
theorem C17_eof_after_close {env : Env X E H} (k : Conn X E) (hk : k.At [])
    (hc : k.core.closeReceived = true) : (k.receiveEof env).1 = none := by
  obtain ⟨core, ⟨buf, eof⟩, ps⟩ := k
  have he : eof = false := hk.eof
  subst he
  rcases hk.state with ⟨_, hb, hp⟩ | ⟨hb, _⟩
  · simp only at hb hp hc
    subst hb hp
    rw [Conn.receiveEof_eq]
    simp only [Bool.false_eq_true, if_false]
    rw [Conn.step_alive _ _ (by nofun)]
    have : Conn.resume env ⟨core, ⟨[], true⟩, .top⟩ = (none, ⟨core.failEof.2, ⟨[], true⟩, .parked⟩) := by
      show Conn.parseTop env core ⟨[], true⟩ = _
      rw [Conn.parseTop_eq]
      simp only [Reader.atEof, ne_eq, not_true_eq_false, if_false, if_true, Core.atEnd, hc]
      have h1 := (Core.failEof_tail (c := core)).2
      cases hx : core.failEof with
      | mk e c1 => rw [hx] at h1; simp only at h1; subst h1; rfl
    rw [this]
  · exact absurd rfl hb

/-- Example: a client that received a close frame is between two frames. -/
example : let env := Env.plain (fun _ => [0, 0, 0, 0]) (fun _ => rfl)
    let k := ((Conn.init (X := Empty) (E := Empty) .client .opened none).exec env [.receiveData [0x88, 0]]).2
    k.At [] ∧ k.core.closeReceived = true ∧ (k.receiveEof env).1 = none :=
  ⟨⟨by decide +kernel, .inl ⟨rfl, by decide +kernel, rfl⟩⟩, by decide +kernel, by decide +kernel⟩

/-- The negation of **C17** in general: a ping between two fragments of a message, within
`max_size`, fails the connection when it doesn't fit in what remains of `max_size` for the
message. -/
theorem C17_interleaved_control_false :
    let env := Env.plain (fun _ => [0, 0, 0, 0]) (fun _ => rfl)
    let k : Conn Empty Empty := .init .client .opened (some 10)
    (k.exec env [.receiveData ([0x01, 10] ++ b!"0123456789"), .receiveData [0x89, 1, 7]]).1.raised =
      [none, some (.payloadTooBig p!"over size limit (1 > 0 bytes)")] := by
  decide +kernel

/-! ## C25 -/

/-- A ping received while this side is closing: the whole effect. The ping isn't delivered, an
exception is raised, the stream is ended and nothing more can be received. -/
theorem C25_ping_fails {env : Env X E H} (k : Conn X E) (hk : k.At [])
    (hs : k.core.state = .closing) (hc : k.core.closeReceived = false)
    (hx : k.core.exts = []) (f : Frame) (hf : f.opcode = .ping) (hv : ValidFrame f)
    (hl : Within f.data.length k.core.frameLimit)
    (w : Bytes) (hw : Wire (k.core.side = .server) f w) :
    let r := k.receiveData env w
    r.1 = some (.invalidState p!"cannot write to a WebSocket in the CLOSING state") ∧
    r.2.core.events = k.core.events ∧ r.2.core.eofSent = true ∧ r.2.Failed ∧
    r.2.core.writes = k.core.writes ++ if k.core.eofSent then [] else [[]] := by
  intro r
  have hm : k.core.maskIn = decide (k.core.side = .server) := rfl
  have hck : f.check = .ok () := (Frame.check_ok_iff f).2 hv
  have hcc : { k.core with exts := [] } = k.core := by rw [← hx]
  have hfr : k.core.frameRead env k.core.frameLimit none f =
      (some (.invalidState p!"cannot write to a WebSocket in the CLOSING state"), k.core) := by
    unfold Core.frameRead
    simp only [Option.getD_none, hx, Frame.finish_nil hck, Option.isNone_none, if_true]
    rw [hcc]
    unfold Core.handleFrame
    rw [hf]
    simp only [hc, Bool.not_false, if_true, Core.sendFrame, hs]
    rfl
  have hp : Conn.parseTop env k.core ⟨w, false⟩ =
      (some (.invalidState p!"cannot write to a WebSocket in the CLOSING state"),
        ⟨k.core, ⟨[], false⟩, .dead⟩) := by
    have hr := Frame.parseRaw_wire (limit := k.core.frameLimit) hw hl [] false
    rw [← hm, List.append_nil] at hr
    rw [Conn.parseTop_eq]
    have hne := wire_pos hw
    simp only [Reader.atEof, ne_eq, hne, not_false_eq_true, if_true, hr, hfr]
  have h1 := Conn.parseTop_push env k.core ⟨[], false⟩ rfl w
  rw [hk.parseTop] at h1
  have h2 : (⟨[], false⟩ : Reader).push w = ⟨w, false⟩ := rfl
  rw [h2, hp] at h1
  simp only at h1
  have hr : ∀ e : Exc, e = .invalidState p!"cannot write to a WebSocket in the CLOSING state" →
      r = (some e, ⟨{ k.core.failEof.2 with parserExc := some e }, ⟨[], false⟩, .dead⟩) := by
    rintro e rfl
    show k.receiveData env w = _
    rw [Conn.receiveData_eq, hk.eof]
    simp only [Bool.false_eq_true, if_false]
    rw [Conn.step_alive env (k.push w) hk.alive, ← h1]
    have h3 := (Core.failEof_tail (c := k.core)).2
    simp only [failCode, Core.failConnection, hs]
    cases hx : k.core.failEof with
    | mk e c1 =>
      rw [hx] at h3
      simp only at h3
      subst h3
      simp
  rw [hr _ rfl]
  unfold Core.failEof Core.sendEof
  cases he : k.core.eofSent <;> simp [Conn.Failed, he]

/-- Example: a client that sent a close frame receives a ping. -/
example : let env := Env.plain (fun _ => [0, 0, 0, 0]) (fun _ => rfl)
    let k := ((Conn.init (X := Empty) (E := Empty) .client .opened none).exec env [.sendClose (some 1000) []]).2
    k.At [] ∧ k.core.state = .closing ∧ k.core.closeReceived = false ∧ k.core.exts = [] ∧
      ValidFrame { fin := true, opcode := .ping, data := [7] } ∧ Within 1 k.core.frameLimit ∧
      Wire (k.core.side = .server) { fin := true, opcode := .ping, data := [7] } [0x89, 1, 7] := by
  refine ⟨⟨by decide +kernel, .inl ⟨rfl, by decide +kernel, rfl⟩⟩, by decide +kernel, by decide +kernel, rfl, (Frame.check_ok_iff _).1 rfl, ?_, none, ?_, ?_⟩
  · intro m hm
    cases hm
  · decide +kernel
  · exact ⟨0x89, 1, 1, [], rfl, rfl, .short (by decide), nofun, rfl⟩

/-- The negation of **C25**: this side sends a close frame, then receives a ping, then the close
frame of the peer. The connection fails and the close frame is never seen. -/
theorem C25_harmless_false :
    let env := Env.plain (fun _ => [0, 0, 0, 0]) (fun _ => rfl)
    let k : Conn Empty Empty := .init .client .opened none
    let t := k.exec env [.sendClose (some 1000) [], .receiveData [0x89, 0], .receiveData [0x88, 2, 3, 0xE8]]
    t.1.raised = [none, some (.invalidState p!"cannot write to a WebSocket in the CLOSING state"),
      some .runtimeError] ∧ t.2.core.closeCode = none ∧ t.2.core.events = [] := by
  decide +kernel

/-- The part of **C25** that holds: when the peer has also sent a close frame, further pings are
delivered and ignored. -/
theorem C25_after_close_partial {env : Env X E H} (c : Core X E) (hc : c.closeReceived = true)
    (f : Frame) (hf : f.opcode = .ping) : c.handleFrame env f = (none, c) := by
  unfold Core.handleFrame
  rw [hf]
  simp [hc]

/-- The part of **C25** that holds: a conforming peer which doesn't send pings can send any other
frame while this side is closing. -/
theorem C25_no_ping_partial {env : Env X E H} (hl : env.Lawful) (k : Conn X E)
    (limit : Option Int) (hk : k.Fresh limit) (fs : List Frame) (ws : List Bytes)
    (hw : Wires (k.core.side = .server) fs ws) (hc : Conforming limit fs)
    (hf : ControlFits limit fs) (hp : ∀ f ∈ fs, f.opcode ≠ .ping) (code : Option Int)
    (reason : PyStr) (before after : List Bytes)
    (hr : (before ++ after).flatten = ws.flatten) :
    let ops : List (Op H) := before.map .receiveData ++ .sendClose code reason ::
      after.map .receiveData
    eventFrames (k.delivered env ops) = fs := by
  intro ops
  have hrec : received ops = ws.flatten := by
    have h1 : ∀ l : List Bytes, received (l.map (Op.receiveData (H := H))) = l.flatten := by
      intro l
      induction l with
      | nil => rfl
      | cons d l ih =>
        show d ++ received (l.map (Op.receiveData (H := H))) = _
        rw [ih, List.flatten_cons]
    have h2 : ∀ a b : List (Op H), received (a ++ b) = received a ++ received b := by
      intro a b; simp [received]
    have h3 : ∀ l : List (Op H), received (.sendClose code reason :: l) = received l := by
      intro l; rfl
    rw [h2, h3, h1, h1, ← List.flatten_append, hr]
  have ho : CallsFor fs ops := by
    refine ⟨?_, .inl hp⟩
    intro op hop
    simp only [ops, List.mem_append, List.mem_map, List.mem_cons] at hop
    rcases hop with ⟨d, _, rfl⟩ | rfl | ⟨d, _, rfl⟩ <;> exact ⟨rfl, rfl⟩
  obtain ⟨_, n, _, _, _, h⟩ := C17_conforming_partial hl k limit hk fs ws hw hc hf ops ho []
    (by rw [hrec, List.append_nil])
  exact h rfl

/-- Example: a message and a close frame, which arrive around the call to `send_close`. -/
example : let fs := [{ fin := true, opcode := .text, data := [0x61] }, { fin := true, opcode := .close, data := [] }]
    Conforming (some 2) fs ∧ ControlFits (some 2) fs ∧ (∀ f ∈ fs, f.opcode ≠ .ping) ∧
      Wires false fs [[0x81, 1, 0x61], [0x88, 0]] ∧
      ([[0x81, 1], [0x61, 0x88]] ++ [[0]] : List Bytes).flatten = [[0x81, 1, 0x61], [0x88, 0]].flatten := by
  have m1 : Messages [{ fin := true, opcode := .text, data := [0x61] }] false :=
    .whole (fs := []) .nil (.inl rfl) rfl
  have split : ∀ {α : Type} {a b f : α} {pre post}, [a, b] = pre ++ f :: post →
      (pre = [] ∧ f = a ∧ post = [b]) ∨ (pre = [a] ∧ f = b ∧ post = []) := by
    intro α a b f pre post h
    rcases pre with _ | ⟨p1, _ | ⟨p2, pre⟩⟩ <;>
      simp only [List.nil_append, List.cons_append, List.cons.injEq] at h
    · obtain ⟨rfl, rfl⟩ := h; simp
    · obtain ⟨rfl, rfl, rfl⟩ := h; simp
    · obtain ⟨_, _, h⟩ := h
      simp at h
  refine ⟨⟨?_, ⟨false, m1⟩, ?_, ?_⟩, ?_, ?_, ?_, rfl⟩
  · intro f hf
    simp only [List.mem_cons, List.not_mem_nil, or_false] at hf
    rcases hf with rfl | rfl <;> exact (Frame.check_ok_iff _).1 rfl
  · intro pre f post h _
    rcases split h with ⟨rfl, rfl, rfl⟩ | ⟨rfl, rfl, rfl⟩ <;> (intro m hm; cases hm; decide)
  · intro pre f post h hc
    rcases split h with ⟨rfl, rfl, rfl⟩ | ⟨rfl, rfl, rfl⟩
    · cases hc
    · exact ⟨rfl, m1, 1005, [], .inl ⟨rfl, rfl, rfl⟩⟩
  · intro pre f post u h hd hu m hm
    cases hm
    rcases split h with ⟨rfl, rfl, rfl⟩ | ⟨rfl, rfl, rfl⟩
    · cases hd
    · rw [hu.unique m1]; decide
  · intro f hf
    simp only [List.mem_cons, List.not_mem_nil, or_false] at hf
    rcases hf with rfl | rfl <;> simp
  · refine .cons ⟨none, rfl, ?_⟩ (.cons ⟨none, rfl, ?_⟩ .nil)
    · exact ⟨0x81, 1, 1, [], rfl, rfl, .short (by decide), nofun, rfl⟩
    · exact ⟨0x88, 0, 0, [], rfl, rfl, .short (by decide), nofun, rfl⟩

end WS
