import Verif.Props.Interop
import Verif.Props.SessionDeflate
import Verif.Props.LegacyAnySend

/-!
# C84: sessions between the sans-I/O implementation and the legacy implementation

All four combinations of a sender and a receiver, from the calls of one application to what the other
application gets.
-/

namespace WS.Interop

open WS.Spec WS.Interop.Spec WS.Legacy
open WS.Legacy.Spec (written Keyed PeerSends CloseFrameLast)

variable {X : Type}

/-! ## Specification -/

/-- A connection of this implementation, with these extensions, just after the opening handshake, on
which an application makes calls.  `wire` is what it writes.  `told` holds for the lists of messages that
these calls ask to send:

* in the sans-I/O implementation, those of the successful calls to `send_text()`, `send_binary()` and
  `send_continuation()`, in order;
* in the legacy implementation, those of the calls to `send()`; the order of concurrent calls isn't
  specified.

Both may receive anything at the same time. -/
def Spec.Writes (ops : ExtOps X) (size : Nat) (side : Side) (xs : List X)
    (told : List (Bool × Bytes) → Prop) (wire : Bytes) : Impl → Prop
  | .sansio => ∃ (E H : Type) (env : Env X E H) (k : Conn X E) (calls : List (Op H)),
      env.Lawful ∧ env.ops = ops ∧ k.Opened ∧ k.core.side = side ∧ k.core.exts = xs ∧
      (∀ op ∈ calls, op.isHandshake = false ∧ dataSize op ≤ size) ∧
      k.core.writes.flatten ++ wire = (k.output env calls).flatten ∧
      ∀ msgs, told msgs ↔ msgs = assemble (dataCalls calls (k.exec env calls).1.raised)
  | .legacy => ∃ (acts : List LegacyConn.Act) (s : LegacyConn.Conn) (obs : List LegacyConn.Obs)
      (us : List Use) (ws : List Bytes),
      LegacyConn.Conn.exec {} acts = some (s, obs) ∧ LegacyConn.Spec.Calm acts ∧
      (∀ f ∈ s.log.map (·.2), f.data.length ≤ size) ∧ written us = s.log.map (·.2) ∧ Keyed us ∧
      transmit ops (decide (side = .client)) xs us = .ok ws ∧ wire = ws.flatten ∧
      ∀ msgs, told msgs ↔ ∃ order, LegacyConn.Spec.Sent acts obs order msgs

/-- A connection of this implementation, with these extensions, just after the opening handshake,
receives the bytes `b`, in any pieces.  `got` holds for the messages that the application gets: from
`events_received()`, as frames, or from `recv()`.  `fine` tells that it has got everything it could:
receiving data never raised an exception, or the task that receives messages waits for data or has
received a close frame, and no message is waiting.

Both may send anything at the same time. -/
def Spec.Gets (ops : ExtOps X) (side : Side) (ys : List X) (b : Bytes)
    (got : List (Bool × Bytes) → Prop) (fine : Prop) : Impl → Prop
  | .sansio => ∃ (E H : Type) (env : Env X E H) (k : Conn X E) (calls : List (Op H)),
      env.Lawful ∧ env.ops = ops ∧ k.Opened ∧ k.core.side = side ∧ k.core.exts = ys ∧
      (∀ op ∈ calls, op.isHandshake = false) ∧ received calls = b ∧
      (∀ msgs, got msgs ↔ assemble (eventFrames (k.delivered env calls)) = msgs) ∧
      (fine ↔ ∀ pre op post, calls = pre ++ op :: post → op.isRecv = true →
        ((k.exec env pre).2.apply env op).1 = none)
  | .legacy => ∃ maxSize maxQueue r as t os, r.eof = false ∧ r.buf ++ Legacy.Spec.arrived as = b ∧
      (Receiver.init (decide (side = .server)) maxSize maxQueue ys r).exec ops as = some (t, os) ∧
      (∀ msgs, got msgs ↔ Each Carries msgs (Legacy.Spec.returned os)) ∧
      (fine ↔ (t.ended = some .closed ∨
        t.queue.transfer = .reading ∧ t.phase = .reading ∧ t.step ops .run = none) ∧ t.queue.messages = [])

/-- What connections of these implementations write and get: the receiver gets the first messages that
the sender was told to send, and all of them if it has received everything and it's fine. -/
def Spec.Transfers (ops : ExtOps X) (size : Nat) (a b : Impl) (sa sb : Side) (xs ys : List X) : Prop :=
  ∀ told wire, Writes ops size sa xs told wire a →
    ∃ msgs, told msgs ∧ ∀ bytes more got fine, bytes ++ more = wire → Gets ops sb ys bytes got fine b →
      (∃ n, got (msgs.take n)) ∧ (fine → more = [] → got msgs)

/-- What a legacy connection writes in any execution, and what a connection of this implementation gets:
there's a beginning `acts1` of this execution such that the receiver gets the first messages that the sender
was told to send in `acts1`.  If it has received everything and it's fine, then it gets all of them, and
`acts1` is the whole execution. -/
def Spec.TransfersUntil (ops : ExtOps X) (size : Nat) (b : Impl) (sa sb : Side) (xs ys : List X) : Prop :=
  ∀ (acts : List LegacyConn.Act) (s : LegacyConn.Conn) (obs : List LegacyConn.Obs) (us : List Use)
    (ws : List Bytes),
    LegacyConn.Conn.exec {} acts = some (s, obs) → (∀ f ∈ s.log.map (·.2), f.data.length ≤ size) →
    written us = s.log.map (·.2) → Keyed us → transmit ops (decide (sa = .client)) xs us = .ok ws →
    ∃ acts1 acts2 s1 obs1 order msgs, acts = acts1 ++ acts2 ∧
      LegacyConn.Conn.exec {} acts1 = some (s1, obs1) ∧ LegacyConn.Spec.Sent acts1 obs1 order msgs ∧
      ∀ bytes more got fine, bytes ++ more = ws.flatten → Gets ops sb ys bytes got fine b →
        (∃ n, got (msgs.take n)) ∧ (fine → more = [] → got msgs ∧ acts2 = [])

/-! ## What frames carry -/

theorem assemble_onlyData (fs : List Frame) : assemble (onlyData fs) = assemble fs := by
  unfold assemble onlyData
  rw [List.filter_filter]
  congr 1
  apply List.filter_congr
  intro f _
  cases f.opcode <;> rfl

theorem assembleFrom_prefix (cur : Option (Bool × Bytes)) (fs gs : List Frame) :
    assembleFrom cur fs <+: assembleFrom cur (fs ++ gs) := by
  induction fs generalizing cur with
  | nil => simp [assembleFrom]
  | cons f fs ih =>
    simp only [List.cons_append, assembleFrom]
    split
    · exact List.cons_prefix_cons.2 ⟨rfl, ih _⟩
    · exact ih _

theorem assemble_prefix (fs gs : List Frame) : ∃ n, assemble fs = (assemble (fs ++ gs)).take n := by
  unfold assemble
  rw [List.filter_append]
  obtain ⟨t, ht⟩ := assembleFrom_prefix none (fs.filter (!·.opcode.isCtrl)) (gs.filter (!·.opcode.isCtrl))
  exact ⟨_, by rw [← ht, List.take_left]⟩

/-! ## Senders -/

section
variable {ops : ExtOps X} {size : Nat} {R : Bool → List X → List X → Prop}

/-- What a sender writes: frames, none of which follows a close frame, which carry the messages. -/
theorem writes_peer (hc : Channel ops size R) (h125 : 125 ≤ size) {side : Side} {xs ys : List X}
    (hR : R false xs ys) {told : List (Bool × Bytes) → Prop} {wire : Bytes} {a : Impl}
    (h : Writes ops size side xs told wire a) :
    ∃ l ws, PeerSends ops size (decide (side = .client)) xs l ws ∧ ws.flatten = wire ∧
      CloseFrameLast l ∧ told (assemble (l.map (·.1))) := by
  cases a with
  | sansio =>
    obtain ⟨E, H, env, k, calls, hl, rfl, ho, hs, hx, hops, hw, ht⟩ := h
    have hsound : k.Sound := by unfold Conn.Sound; rw [ho.pstate]; trivial
    obtain ⟨l, u', xs', ws, ws', g1, g2, g3, g4, g5, g6⟩ := Conn.exec_adv hl hc h125 k hsound
      (by rw [ho.pstate]; trivial) false ⟨fun _ => ho.cont.symm, ho.state, _, hx ▸ hR⟩ calls
      (fun o h => (hops o h).1) (fun o h => (hops o h).2)
    rw [hx] at g1
    rw [hs] at g3
    refine ⟨l, ws', ⟨⟨_, _, g1⟩, g3⟩, ?_, g6.last, ?_⟩
    · rw [g2, List.flatten_append] at hw
      rw [g4]
      exact (List.append_cancel_left hw).symm
    · rw [ht, ← g5, assemble_onlyData]
  | legacy =>
    obtain ⟨acts, s, obs, us, ws, h, hcalm, hsize, hus, hk, htr, rfl, ht⟩ := h
    obtain ⟨order, hsent⟩ := LegacyConn.C76_sent_partial h hcalm
    obtain ⟨b, hm⟩ := LegacyConn.C54_fragmentation_partial h hcalm
    obtain ⟨ext, hg1, -, hg3, -, hg5⟩ := LegacyConn.Conn.exec_grows h
    simp only [LegacyConn.Conn.frames, List.map_nil, List.nil_append] at hg1
    have hfilter : (written us).filter isDataFrame = s.dataFrames := by
      rw [hus, LegacyConn.Conn.dataFrames]
      congr 1
      funext f
      exact isDataFrame_eq f
    obtain ⟨wire, l, h1, h2, h3⟩ := transmit_peer (client := decide (side = .client)) (us := us) (b := b) hc hR
      (by rw [hfilter]; exact hm)
      (by
        rw [hus]
        exact fun f hf => ⟨hg5 f (by rw [← hg1]; exact hf), hsize f hf⟩) hk
    rw [htr] at h1
    cases h1
    refine ⟨l, ws, h3, rfl, ?_, ?_⟩
    · intro pre f post hl
      rw [h2, hus, hg1] at hl
      exact hg3 pre f post hl
    · rw [ht, h2, hus]
      exact ⟨order, hsent⟩

/-! ## Receivers -/

theorem gets_tail (hc : Channel ops size R) {sa sb : Side} (hside : sa ≠ sb) {xs ys : List X}
    (hR : R false xs ys) {l : List (Frame × Frame)} {ws : List Bytes}
    (hp : PeerSends ops size (decide (sa = .client)) xs l ws) (hlast : CloseFrameLast l)
    {tail : Bytes} (htail : Legacy.Spec.Tail ops (decide (sa = .client)) l tail)
    (hclose : tail = [] ∨ ∀ f ∈ l.map (·.1), f.opcode ≠ .close)
    {bytes more : Bytes} (hbytes : bytes ++ more = ws.flatten ++ tail) {got : List (Bool × Bytes) → Prop}
    {fine : Prop} {b : Impl} (h : Gets ops sb ys bytes got fine b) :
    (∃ n, got ((assemble (l.map (·.1))).take n)) ∧
      (fine → more = [] → got (assemble (l.map (·.1))) ∧ tail = []) := by
  have hmask : decide (sa = .client) = decide (sb = .server) := by
    cases sa <;> cases sb <;> first | rfl | exact absurd rfl hside
  cases b with
  | sansio =>
    obtain ⟨E, H, env, k, calls, hl, rfl, ho, hs, hx, hops, hrec, hgot, hfine⟩ := h
    have hm : k.core.maskIn = decide (sa = .client) := by
      rw [hmask, ← hs]
      unfold Core.maskIn
      cases k.core.side <;> rfl
    have hat : k.At [] := ⟨by rw [ho.reader]; rfl, .inl ⟨rfl, by rw [ho.reader]; rfl, ho.pstate⟩⟩
    obtain ⟨u', xs', hsends⟩ := hp.encodes
    have hbroken : Broken (decide (sa = .client)) l tail k.core := by
      rcases htail with h | ⟨-, h1, h2⟩
      · exact .inl h
      · exact .inr ⟨⟨[], by rw [ho.cur]; exact .nil, by rw [List.nil_append]; exact h1⟩, h2⟩
    obtain ⟨l1, l2, k1, k2, k3⟩ := Conn.exec_tail hl hc calls hops hp.wires k hm
      ⟨_, _, _, _, hx ▸ hR, hsends⟩ hbroken [] more hat
      (by
        intro w ws'' he
        have g3 := hp.wires
        generalize l.map (·.2) = fs at g3
        rw [he] at g3
        cases g3 with
        | cons hwf _ => exact List.length_pos_iff.2 (wire_pos hwf))
      (fun _ h => List.length_pos_iff.2 h)
      (by rw [List.nil_append, hrec]; exact hbytes)
    rw [ho.frames, List.nil_append] at k2
    constructor
    · obtain ⟨n, hn⟩ := assemble_prefix (l1.map (·.1)) (l2.map (·.1))
      exact ⟨n, by rw [hgot, k2, k1, List.map_append]; exact hn⟩
    · intro hf hmore
      obtain ⟨k3, k4⟩ := k3 hmore (hfine.1 hf)
      rw [hgot, k2, k1, k3, List.append_nil]
      exact ⟨rfl, k4⟩
  | legacy =>
    obtain ⟨maxSize, maxQueue, r, as, t, os, hr, hrec, hex, hgot, hfine⟩ := h
    rw [hmask] at hp htail
    rw [← hrec] at hbytes
    constructor
    · obtain ⟨n, hn⟩ := Receiver.order_tail hc hR hp htail maxSize maxQueue r hr as more hbytes t os hex
      exact ⟨n, (hgot _).2 hn⟩
    · intro hf hmore
      subst hmore
      obtain ⟨hf, hq⟩ := hfine.1 hf
      rw [hgot]
      rcases hf with he | ⟨h1, h2, h3⟩
      · obtain ⟨h1, l0, f, g, h2, h3⟩ :=
          Receiver.closed_tail hc hR hp hlast htail maxSize maxQueue r hr as [] hbytes t os hex he
        unfold Legacy.Spec.Delivered at h1
        rw [hq, List.append_nil] at h1
        refine ⟨h1, ?_⟩
        rcases hclose with h | h
        · exact h
        · exact absurd h3 (h f (by rw [h2]; simp))
      · obtain ⟨h4, h5⟩ := Receiver.complete_tail hc hR hp htail maxSize maxQueue r hr as
          (by simpa using hbytes) t os hex h1 h2 h3
        unfold Legacy.Spec.Delivered at h5
        rw [hq, List.append_nil] at h5
        exact ⟨h5, h4⟩

theorem gets_messages (hc : Channel ops size R) {sa sb : Side} (hside : sa ≠ sb) {xs ys : List X}
    (hR : R false xs ys) {l : List (Frame × Frame)} {ws : List Bytes}
    (hp : PeerSends ops size (decide (sa = .client)) xs l ws) (hlast : CloseFrameLast l)
    {bytes more : Bytes} (hbytes : bytes ++ more = ws.flatten) {got : List (Bool × Bytes) → Prop}
    {fine : Prop} {b : Impl} (h : Gets ops sb ys bytes got fine b) :
    (∃ n, got ((assemble (l.map (·.1))).take n)) ∧ (fine → more = [] → got (assemble (l.map (·.1)))) := by
  obtain ⟨h1, h2⟩ := gets_tail hc hside hR hp hlast (.inl rfl) (.inl rfl)
    (hbytes.trans (List.append_nil _).symm) h
  exact ⟨h1, fun hf hm => (h2 hf hm).1⟩

/-! ## C84 -/

/-- **C84, partial.** A sender and a receiver, each of any implementation, with any extensions that make
a channel.  Both make any calls in any order, and receive anything.  When the receiver gets the beginning
of what the sender writes, in any pieces, its application gets the first messages that the sender was told
to send, unaltered; it gets all of them when it has received everything, unless there's an error.  What is
missing: executions of a legacy sender that aren't `Calm`, for which it is false (`C84_cancel_false`). -/
theorem C84_transfers_partial (hc : Channel ops size R) (h125 : 125 ≤ size) (a b : Impl) {sa sb : Side}
    (hside : sa ≠ sb) {xs ys : List X} (hR : R false xs ys) : Transfers ops size a b sa sb xs ys := by
  intro told wire hw
  obtain ⟨l, ws, hp, rfl, hlast, ht⟩ := writes_peer hc h125 hR hw
  exact ⟨_, ht, fun bytes more got fine hb hg => gets_messages hc hside hR hp hlast hb hg⟩

/-- **C84, partial**, for all executions of a legacy sender.  The receiver, of any implementation, gets the
messages of the calls to `send()` until a message starts in the middle of another; if this happens, then it
gets an error.  What is missing: later messages aren't received (`C84_cancel_false`). -/
theorem C84_until_partial (hl : ops.Lawful) (hc : Channel ops size R) (b : Impl) {sa sb : Side}
    (hside : sa ≠ sb) {xs ys : List X} (hR : R false xs ys) : TransfersUntil ops size b sa sb xs ys := by
  intro acts s obs us ws hex hsize hus hk htr
  obtain ⟨acts1, acts2, s1, obs1, order, l, ws1, tail, h1, h2, h3, h4, h5, h6, h7, h8, h9⟩ :=
    LegacyConn.sends_until hl hc hR hex hsize hus hk htr
  refine ⟨acts1, acts2, s1, obs1, order, _, h1, h2, h3, ?_⟩
  intro bytes more got fine hb hg
  obtain ⟨k1, k2⟩ := gets_tail hc hside hR h4 h5 h6 h8 (by rw [← h7]; exact hb) hg
  exact ⟨k1, fun hf hm => ⟨(k2 hf hm).1, h9 (k2 hf hm).2⟩⟩

end

/-- What a legacy sender is able to write: no exception prevents it. -/
theorem C84_legacy_writes {ops : ExtOps X} {size : Nat} {R : Bool → List X → List X → Prop}
    (hc : Channel ops size R) (side : Side) {xs ys : List X} (hR : R false xs ys)
    {acts : List LegacyConn.Act} {s : LegacyConn.Conn} {obs : List LegacyConn.Obs}
    (h : LegacyConn.Conn.exec {} acts = some (s, obs)) (hcalm : LegacyConn.Spec.Calm acts)
    (hsize : ∀ f ∈ s.log.map (·.2), f.data.length ≤ size) (us : List Use)
    (hus : written us = s.log.map (·.2)) (hk : Keyed us) :
    ∃ wire, Writes ops size side xs (fun msgs => ∃ order, LegacyConn.Spec.Sent acts obs order msgs) wire
      .legacy := by
  obtain ⟨ws, -, -, h1, -⟩ := LegacyConn.C76_delivered_partial hc hR h hcalm hsize (decide (side = .client))
    us hus hk
  exact ⟨ws.flatten, acts, s, obs, us, ws, h, hcalm, hsize, hus, hk, h1, rfl, fun _ => Iff.rfl⟩

/-- permessage-deflate, or no extension, on both sides of a connection which was opened: each side is
able to talk to the other. -/
theorem deflated_of_linked {Z : Zlib} {K : Contract Z} {xs ys : List (Pmd Z)} (h : AllPairs (Linked K) xs ys)
    (hone : ys.length ≤ 1) : Deflated K false xs ys ∧ Deflated K false ys xs := by
  cases h with
  | nil => exact ⟨.inl ⟨rfl, rfl⟩, .inl ⟨rfl, rfl⟩⟩
  | cons h ht =>
    cases ht with
    | nil => exact ⟨.inr ⟨_, _, rfl, rfl, h.up, fun _ => h.client⟩,
        .inr ⟨_, _, rfl, rfl, h.down, fun _ => h.server⟩⟩
    | cons _ _ => simp only [List.length_cons] at hone; omega

/-- A server accepts at most one permessage-deflate. -/
theorem answers_one {Z : Zlib} {s : LegacyServer.Setup (Pmd Z)} {ps : PmdServerConfig Z}
    (hsext : s.cfg.extensions = none ∨ s.cfg.extensions = some [ps.factory]) {req : Request}
    (hk : req.headers.Ok pyLower) {w : Bytes} {exts : List (Pmd Z)} {sub : Option PyStr}
    (h : Answers s req w exts sub) : exts.length ≤ 1 := by
  obtain ⟨r, a, hacc, h101, -, hx, -⟩ := h
  obtain ⟨key, eh, sub, origin, extra, h1, _⟩ := accept_101 hk hacc h101
  obtain ⟨exts', he, ha, _⟩ := processRequest_assigned h1
  rw [hx] at ha
  cases ha
  obtain ⟨offers, answers, _, hn, _⟩ := processExtensions_ok hk he
  rcases hsext with e | e <;> rw [e] at hn
  · rw [negotiated_none rfl hn]; simp
  · have := negotiated_one hn
    simp only [List.length_nil] at this
    omega

/-- **C84, partial**, for a client and a server, each of any implementation, with or without
permessage-deflate, from the beginning of the connection.  The client sends a request; the server receives
it in any pieces.  If it accepts the connection, then the client, which receives the response in any pieces,
is connected too.  Then each side gets what the other side sends (until a message starts in the middle of
another, for a legacy sender that isn't `Calm`): connections in the state reached by
`ServerOpens` and `ClientOpens` are among those of `Writes` and `Gets` (`opened_server`,
`opened_client`). -/
theorem C84_session_partial {Z : Zlib} {size : Nat} (h125 : 125 ≤ size) (h64 : size < 2 ^ 64)
    (K : Contract Z) (hK : Faithful K size) (hB : Bounded Z)
    (c : ClientSide (Pmd Z)) (s : ServerSide (Pmd Z)) (hn : 8218 ≤ c.readLimit) (hn' : 8218 ≤ s.readLimit)
    (pc : PmdClientConfig Z) (ps : PmdServerConfig Z) (hpc : pc.valid = true) (hps : ps.valid = true)
    (hz : ∀ answer sx, ps.processRequestParams pc.params.build [] = .ok (answer, sx) →
      (∃ e, Z.compressobj sx.remoteBits pc.settings = .ok e) ∧
        ∃ e, Z.compressobj sx.localBits ps.settings = .ok e)
    (hcext : c.cfg.extensions = none ∨ c.cfg.extensions = some [pc.factory])
    (hsext : s.setup.cfg.extensions = none ∨ s.setup.cfg.extensions = some [ps.factory])
    {req : Request} (hconn : c.cfg.connect c.py = .ok req)
    (hpath : ∀ x ∈ c.cfg.uri.resourceName, 0x21 ≤ x ∧ x ≤ 0x7E)
    (hlen : c.cfg.uri.resourceName.length + 15 ≤ 4110) (hreq : Sendable req.headers.rawItems)
    (hcx : values c.cfg.extraHeaders p!"Sec-WebSocket-Extensions" = [])
    (hcp : values c.cfg.extraHeaders p!"Sec-WebSocket-Protocol" = [])
    (hct : ∀ ps, c.cfg.subprotocols = some ps → ∀ p ∈ ps, Tok p)
    (he : s.setup.processRequest req.path req.headers = .ok none)
    (hsx : ∀ extra, s.setup.cfg.extraHeaders req.path req.headers = .ok extra →
      ∀ n ∈ handshakeNames, values extra n = [])
    (ck sk : Impl) :
    ∃ b, ClientSends c req b ck ∧ ∀ w exts sub, ServerOpens s b w exts sub sk →
      (∀ r a, s.setup.cfg.accept s.setup.py s.setup.date req = (.ok r, a) → Sendable r.headers.list) →
      ∃ exts', ClientOpens c req w exts' sub ck ∧
        Transfers (pmdOps Z) size ck sk .client .server exts' exts ∧
        Transfers (pmdOps Z) size sk ck .server .client exts exts' ∧
        TransfersUntil (pmdOps Z) size sk .client .server exts' exts ∧
        TransfersUntil (pmdOps Z) size ck .server .client exts exts' := by
  have hcompat : Compatible (Linked K) (c.cfg.extensions.getD []) (s.setup.cfg.extensions.getD []) := by
    have hl := linked_compatible K pc ps hpc hps hz
    rcases hcext with e | e <;> rcases hsext with e' | e' <;> rw [e, e']
    · exact fun f hf => nomatch hf
    · exact fun f hf => nomatch hf
    · rintro f hf cacc sacc hp answer y ⟨pre, g, post, e, _⟩
      cases pre <;> cases e
    · exact hl
  have hce : ∀ fs, c.cfg.extensions = some fs → ∀ f ∈ fs, TokenExt (f.name, f.requestParams) := by
    intro fs hfs f hf
    rcases hcext with e | e
    · rw [e] at hfs; cases hfs
    · rw [e] at hfs
      cases hfs
      rw [List.mem_singleton.1 hf]
      exact PmdParams.build_tok _
  obtain ⟨b, h1, h2⟩ := C83_handshake_partial c s hn hn' hconn hpath hlen hreq hcx hcp hce hct hcompat he hsx ck sk
  refine ⟨b, h1, fun w exts sub ho hsend => ?_⟩
  obtain ⟨exts', hpairs, hco⟩ := h2 w exts sub ho hsend
  obtain ⟨hp, hb, _⟩ := connect_lines hconn
  have hone : exts.length ≤ 1 := by
    obtain ⟨b', hser, hparse⟩ := C26_request_roundtrip_partial req.path req.headers.list
      (by rw [hp]; exact hpath) (by rw [hp]; exact hlen) hreq.2 hreq.1
    rw [← hb] at hser hparse
    have hparse : Request.parse.run ⟨b', false⟩ = .done req ⟨[], false⟩ := by simpa using hparse [] false
    have hbb := (client_sends hconn b ck).1 h1
    rw [hser] at hbb
    cases hbb
    refine answers_one hsext hb.ok (w := w) (sub := sub) ?_
    cases sk with
    | sansio => exact (sansio_opens hparse w exts sub).1 ho
    | legacy => exact (legacy_opens hn' hparse he w exts sub).1 ho
  obtain ⟨hd1, hd2⟩ := deflated_of_linked hpairs hone
  have hchan := Deflated.channel h64 hK hB
  exact ⟨exts', hco, C84_transfers_partial hchan h125 ck sk (by simp) hd1,
    C84_transfers_partial hchan h125 sk ck (by simp) hd2,
    C84_until_partial (pmdOps_lawful Z) hchan sk (by simp) hd1, C84_until_partial (pmdOps_lawful Z) hchan ck (by simp) hd2⟩

/-- A server which has accepted a connection. -/
theorem opened_server {s : ServerSide X} {b w : Bytes} {exts : List X} {sub : Option PyStr}
    (h : ServerOpens s b w exts sub .sansio) (chunks : List Bytes) (hc : chunks.flatten = b) :
    let s1 := ((serverInit s.maxSize).feedAll s.env chunks).2
    ∃ req r a, s.setup.cfg.accept s.setup.py s.setup.date req = (.ok r, a) ∧
      let s2 := (s1.apply s.env (.handshake (.accept s.setup.date req))).2
      let k := (s2.apply s.env (.handshake (.sendResponse r))).2
      k.Opened ∧ k.core.side = .server ∧ k.core.exts = exts := by
  obtain ⟨req, r, a, -, h2, -, h4, -, h6, -, h8, h9⟩ := h chunks hc
  exact ⟨req, r, a, h2, ⟨h8.2.1, h8.2.2.1, by rw [h4]; simp, h8.2.2.2.1, h8.2.2.2.2, h9⟩, h8.1, h6⟩

/-- A client which is connected. -/
theorem opened_client {c : ClientSide X} {req : Request} {w : Bytes} {exts : List X} {sub : Option PyStr}
    (h : ClientOpens c req w exts sub .sansio) (chunks : List Bytes) (hc : chunks.flatten = w) :
    let c1 := ((clientInit c.maxSize c.cfg.origin).apply c.env (.handshake (.sendRequest req))).2
    let k := (c1.feedAll c.env chunks).2
    k.Opened ∧ k.core.side = .client ∧ k.core.exts = exts := by
  obtain ⟨h4, h6, -, h8, h9⟩ := h chunks hc
  exact ⟨⟨h8.2.1, h8.2.2.1, by rw [h4]; simp, h8.2.2.2.1, h8.2.2.2.2, h9⟩, h8.1, h6⟩

/-- The negation of **C84** in general: when a call to `send` of a legacy client is cancelled, the message
it was sending isn't finished; the next message is sent in the middle of it.  Its call returns; a sans-I/O
server receives everything, and gets no message. -/
theorem C84_cancel_false :
    ∃ acts s obs us ws, LegacyConn.Conn.exec {} acts = some (s, obs) ∧ written us = s.log.map (·.2) ∧
      Keyed us ∧ transmit noExts true [] us = .ok ws ∧ .returned 1 ∈ obs ∧
      (LegacyConn.Spec.callsOf acts)[1]? = some (.send (.plain true b!"b")) ∧
      Gets noExts .server [] ws.flatten (fun msgs => [] = msgs) False .sansio := by
  have hd : ((LegacyConn.Conn.exec {} [.call (.send (.iter [.data true b!"a"])),
      .call (.send (.plain true b!"b")), .cancel 0, .resume 1 .ok, .resume 1 .ok]).map fun r =>
        decide ([({ fin := false, opcode := .text, data := b!"a" } : Frame),
          { fin := true, opcode := .text, data := b!"b" }] = r.1.log.map (·.2) ∧ .returned 1 ∈ r.2)) =
      some true := by decide +kernel
  rw [Option.map_eq_some_iff] at hd
  obtain ⟨⟨s, obs⟩, hx, hd⟩ := hd
  obtain ⟨h1, h2⟩ := of_decide_eq_true hd
  refine ⟨_, s, obs, [.write { fin := false, opcode := .text, data := b!"a" } [0, 0, 0, 0],
    .write { fin := true, opcode := .text, data := b!"b" } [0, 0, 0, 0]],
    [[0x01, 0x81, 0, 0, 0, 0, 0x61], [0x81, 0x81, 0, 0, 0, 0, 0x62]], hx, h1, ?_, by rfl, h2, rfl, ?_⟩
  · intro f key hf
    simp only [List.mem_cons, List.not_mem_nil, or_false, Use.write.injEq] at hf
    rcases hf with ⟨-, rfl⟩ | ⟨-, rfl⟩ <;> rfl
  · refine ⟨Empty, Empty, Env.plain (fun _ => [1, 2, 3, 4]) (fun _ => rfl), Conn.init .server .opened none,
      [.receiveData [0x01, 0x81, 0, 0, 0, 0, 0x61, 0x81, 0x81, 0, 0, 0, 0, 0x62]],
      Env.plain_lawful _ _, rfl, ⟨rfl, rfl, by decide, rfl, rfl, rfl⟩, rfl, rfl, by simp [Op.isHandshake], by decide, ?_, ?_⟩
    · intro msgs
      have : assemble (eventFrames ((Conn.init .server .opened none : Conn Empty Empty).delivered
          (Env.plain (fun _ => [1, 2, 3, 4]) (fun _ => rfl))
          [.receiveData [0x01, 0x81, 0, 0, 0, 0, 0x61, 0x81, 0x81, 0, 0, 0, 0, 0x62]])) = [] := by
        decide +kernel
      rw [this]
    · simp only [false_iff]
      intro h
      have := h [] _ [] rfl rfl
      revert this
      decide +kernel

/-! ## Concrete cases -/

-- In this case of `TransfersUntil`, a message starts in the middle of another.  A sans-I/O server gets the first
-- message, then an error.
example : (LegacyConn.Conn.exec {} LegacyConn.cancelledActs).map (fun r => (decide (r.1.log.map (·.2) =
      written LegacyConn.cancelledUses), r.2)) =
      some (true, [.returned 0, .raised 1 .cancelled, .returned 2]) ∧
    Keyed LegacyConn.cancelledUses ∧
    (transmit (pmdOps storedZlib) true transferClient LegacyConn.cancelledUses).toOption.isSome = true ∧
    assemble (eventFrames (deflateHost.delivered deflateEnv
      [.receiveData (LegacyConn.wireOf LegacyConn.cancelledUses), .eventsReceived])) = [(true, b!"x")] ∧
    (deflateHost.exec deflateEnv [.receiveData (LegacyConn.wireOf LegacyConn.cancelledUses)]).2.core.parserExc ≠
      none := by
  refine ⟨by decide +kernel, ?_, by decide +kernel, by decide +kernel, by decide +kernel⟩
  intro f key hf
  simp only [LegacyConn.cancelledUses, List.mem_cons, List.not_mem_nil, or_false, Use.write.injEq] at hf
  rcases hf with h | h | h <;> rw [h.2] <;> rfl

-- A legacy client talks to a sans-I/O server, with permessage-deflate.
example : ∃ wire, Writes (pmdOps storedZlib) (2 ^ 60) .client transferClient
      (fun msgs => ∃ s obs order, LegacyConn.Conn.exec {} LegacyConn.deliveryActs = some (s, obs) ∧
        LegacyConn.Spec.Sent LegacyConn.deliveryActs obs order msgs) wire .legacy ∧
    Gets (pmdOps storedZlib) .server transferServer wire
      (fun msgs => [(true, b!"abc"), (false, [1, 2, 3, 4]), (true, b!"d")] = msgs) True .sansio := by
  have hd : ((LegacyConn.Conn.exec {} LegacyConn.deliveryActs).map fun r => decide (
      (∀ f ∈ r.1.log.map (·.2), f.data.length ≤ 2 ^ 60) ∧
        written LegacyConn.deliveryUses = r.1.log.map (·.2))) = some true := by decide +kernel
  rw [Option.map_eq_some_iff] at hd
  obtain ⟨⟨s, obs⟩, hx, hd⟩ := hd
  obtain ⟨h1, h2⟩ := of_decide_eq_true hd
  refine ⟨LegacyConn.deliveryWire, ⟨_, s, obs, LegacyConn.deliveryUses, _, hx, LegacyConn.delivery_calm, h1, h2,
    ?_, rfl, by decide +kernel, ?_⟩, ?_⟩
  · intro f key hf
    simp only [LegacyConn.deliveryUses, List.mem_cons, List.not_mem_nil, or_false, Use.write.injEq, reduceCtorEq,
      false_or] at hf
    rcases hf with ⟨-, rfl⟩ | ⟨-, rfl⟩ | ⟨-, rfl⟩ | ⟨-, rfl⟩ | ⟨-, rfl⟩ | ⟨-, rfl⟩ | ⟨-, rfl⟩ <;> rfl
  · intro msgs
    constructor
    · rintro ⟨s', obs', order, h, hs⟩
      rw [hx] at h
      cases h
      exact ⟨order, hs⟩
    · rintro ⟨order, hs⟩
      exact ⟨s, obs, order, hx, hs⟩
  · refine ⟨Empty, Empty, deflateEnv, deflateHost, [.receiveData (LegacyConn.deliveryWire.take 50), .eventsReceived,
      .receiveData (LegacyConn.deliveryWire.drop 50)], Env.deflate_lawful _ _ _, rfl,
      ⟨rfl, rfl, by decide, rfl, rfl, rfl⟩, rfl, rfl, ?_, by decide +kernel, ?_, ?_⟩
    · intro op hop
      simp only [List.mem_cons, List.not_mem_nil, or_false] at hop
      rcases hop with rfl | rfl | rfl <;> rfl
    · intro msgs
      have : assemble (eventFrames (deflateHost.delivered deflateEnv
          [.receiveData (LegacyConn.deliveryWire.take 50), .eventsReceived,
            .receiveData (LegacyConn.deliveryWire.drop 50)])) =
          [(true, b!"abc"), (false, [1, 2, 3, 4]), (true, b!"d")] := by decide +kernel
      rw [this]
    · simp only [true_iff]
      have hr : (deflateHost.exec deflateEnv [.receiveData (LegacyConn.deliveryWire.take 50), .eventsReceived,
          .receiveData (LegacyConn.deliveryWire.drop 50)]).1.raised = [none, none, none] := by decide +kernel
      generalize LegacyConn.deliveryWire.take 50 = d1 at hr ⊢
      generalize LegacyConn.deliveryWire.drop 50 = d2 at hr ⊢
      simp only [Conn.exec, List.cons.injEq, and_true] at hr
      intro pre op post he hop
      match pre, he with
      | [], he => cases he; exact hr.1
      | [_], he => cases he; cases hop
      | [_, _], he => cases he; exact hr.2.2
      | _ :: _ :: _ :: pre, he => cases pre <;> cases he

/-- A legacy server receives what the client of the example of C69 sends. -/
def mixedReceived : List RAct :=
  let bytes := (deflatePeer.output deflateEnv deflateSent).flatten
  [.recv 0, .data (bytes.take 33), .run, .run, .answered none, .run, .data (bytes.drop 33), .run, .run, .wake 0, .run,
    .recv 1]

-- A sans-I/O client talks to a legacy server, with permessage-deflate.
example : ∃ wire, Writes (pmdOps storedZlib) (2 ^ 60) .client transferClient
      (fun msgs => msgs = [(true, b!"abc"), (false, [1, 2, 3, 4])]) wire .sansio ∧
    Gets (pmdOps storedZlib) .server transferServer wire
      (fun msgs => Each Carries msgs [.text p!"abc", .binary [1, 2, 3, 4]]) True .legacy := by
  refine ⟨(deflatePeer.output deflateEnv deflateSent).flatten, ⟨Empty, Empty, deflateEnv, deflatePeer, deflateSent,
    Env.deflate_lawful _ _ _, rfl, ⟨rfl, rfl, by decide, rfl, rfl, rfl⟩, rfl, rfl, ?_, by simp [deflatePeer, Conn.init], ?_⟩, ?_⟩
  · intro op hop
    simp only [deflateSent, List.mem_cons, List.not_mem_nil, or_false] at hop
    rcases hop with rfl | rfl | rfl | rfl | rfl <;> exact ⟨rfl, by decide⟩
  · intro msgs
    have : assemble (dataCalls deflateSent (deflatePeer.exec deflateEnv deflateSent).1.raised) =
      [(true, b!"abc"), (false, [1, 2, 3, 4])] := by decide +kernel
    rw [this]
  · have hd : ((Receiver.init (decide (Side.server = .server)) none (some 2) transferServer { limit := 65536 }).exec
        (pmdOps storedZlib) mixedReceived).map (fun r => decide (Legacy.Spec.returned r.2 =
          [.text p!"abc", .binary [1, 2, 3, 4]] ∧ r.1.queue.transfer = .reading ∧ r.1.phase = .reading ∧
          (r.1.step (pmdOps storedZlib) .run).isNone = true ∧ r.1.queue.messages = [])) = some true := by decide +kernel
    rw [Option.map_eq_some_iff] at hd
    obtain ⟨⟨t, os⟩, hx, hd⟩ := hd
    obtain ⟨h1, h2, h3, h4, h5⟩ := of_decide_eq_true hd
    refine ⟨_, _, _, mixedReceived, t, os, rfl, by decide +kernel, hx, fun msgs => by rw [h1], ?_⟩
    simp only [true_iff]
    exact ⟨.inr ⟨h2, h3, by simpa using h4⟩, h5⟩

end WS.Interop
