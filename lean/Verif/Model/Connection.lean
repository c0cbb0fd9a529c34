import Verif.Model.Frames

/-!
# /repo/src/websockets/connection.py

The model is generic in the type `X` of extension states, in the type `E` of handshake events
(`Request` for the server, `Response` for the client) and in the type `H` of handshake API
calls.  The plain `Connection` class has neither (`E` and `H` are empty types and the initial
parser state is `top`).

The attributes of a `Connection` are split in three: `Core` (everything that the frame handlers
read or write), the `StreamReader`, and the suspended parser generator.  Logging is not
modelled.
-/

namespace WS

/-- connection.py 38-39 -/
inductive Side where
  | server | client
deriving DecidableEq, Repr

/-- connection.py 49-50 -/
inductive State where
  | connecting | opened | closing | closed
deriving DecidableEq, Repr

/-- `State.name` (connection.py 49-50, used at 397 and legacy/protocol.py 1084) -/
def State.name : State → PyStr
  | connecting => p!"CONNECTING"
  | opened => p!"OPEN"
  | closing => p!"CLOSING"
  | closed => p!"CLOSED"

/-- connection.py 32: `Event` -/
inductive Event (E : Type) where
  | handshake (e : E)
  | frame (f : Frame)
deriving DecidableEq, Repr

/-- connection.py 65-113: attributes of `Connection`, except the reader and the parser.
`nmask` counts the masking keys drawn so far.  `closeCode = none` stands for an attribute that
is not set yet. -/
structure Core (X E : Type) where
  side : Side
  state : State
  maxSize : Option Int
  curSize : Option Nat := none
  expectCont : Bool := false
  origin : Option PyStr := none
  exts : List X := []
  subprotocol : Option PyStr := none
  closeReceived : Bool := false
  closeCode : Option Int := none
  closeReason : Option PyStr := none
  eofSent : Bool := false
  events : List (Event E) := []
  writes : List Bytes := []
  parserExc : Option Exc := none
  nmask : Nat := 0

/-- What is outside of connection.py: extensions, the source of masking keys
(`secrets.token_bytes(4)`, an arbitrary sequence of 4-byte strings), the handshake parser of
the subclass (client.py 286-298, server.py 434-436), and handshake API calls, which tell
whether they have rebound `self.extensions`. -/
structure Env (X E H : Type) where
  ops : ExtOps X
  rand : Nat → Bytes
  rand_len : ∀ i, (rand i).length = 4
  onHs : E → Core X E → Option Exc × Core X E
  hsOp : H → Core X E → Option Exc × Core X E × Bool

/-- The suspended generator `self.parser`.

* `hs c`: in the handshake parser of a subclass;
* `top`: in `at_eof()` (connection.py 293);
* `inFrame c lim stale`: in `Frame.parse` (connection.py 316); `lim` is the local variable
  `max_size`, and `stale` is the list passed as `extensions` when `self.extensions` has been
  rebound since;
* `parked`: at connection.py 298;
* `dead`: the generator has raised. -/
inductive PState (X E : Type) where
  | hs (c : Coro E)
  | top
  | inFrame (c : Coro Frame) (lim : Option Int) (stale : Option (List X))
  | parked
  | dead

structure Conn (X E : Type) where
  core : Core X E
  reader : Reader
  pstate : PState X E

variable {X E H : Type}

/-- connection.py 393-403 `send_frame`; the masking key is drawn in frames.py 219-223. -/
def Core.sendFrame (env : Env X E H) (c : Core X E) (f : Frame) : Option Exc × Core X E :=
  if c.state ≠ .opened then
    (some (.invalidState
      (p!"cannot write to a WebSocket in the " ++ c.state.name ++ p!" state")), c)
  else
    let key := if c.side = .client then some (env.rand c.nmask) else none
    match Frame.serializeExt env.ops c.exts key f with
    | (.error e, xs) => (some e, { c with exts := xs, nmask := c.nmask + 1 })
    | (.ok w, xs) =>
      (none, { c with exts := xs, nmask := c.nmask + 1, writes := c.writes ++ [w] })

/-- connection.py 405-409 `send_eof`; `SEND_EOF` is the empty byte string (line 61). -/
def Core.sendEof (c : Core X E) : Option Exc × Core X E :=
  if c.eofSent then (some .assertionError, c)
  else (none, { c with eofSent := true, writes := c.writes ++ [[]] })

/-- connection.py 152-160 `send_continuation` -/
def Core.sendContinuation (env : Env X E H) (c : Core X E) (data : Bytes) (fin : Bool) :
    Option Exc × Core X E :=
  if !c.expectCont then (some (.protocolError p!"unexpected continuation frame"), c)
  else Core.sendFrame env { c with expectCont := !fin } { fin, opcode := .cont, data }

/-- connection.py 162-180 `send_text` and `send_binary`, which only differ by the opcode. -/
def Core.sendData (env : Env X E H) (c : Core X E) (opcode : Opcode) (data : Bytes)
    (fin : Bool) : Option Exc × Core X E :=
  if c.expectCont then (some (.protocolError p!"expected a continuation frame"), c)
  else Core.sendFrame env { c with expectCont := !fin } { fin, opcode, data }

/-- connection.py 195-200: the end of `send_close`. -/
def Core.sendCloseFrame (env : Env X E H) (c : Core X E) (data : Bytes) :
    Option Exc × Core X E :=
  match Core.sendFrame env c { fin := true, opcode := .close, data } with
  | (some e, c) => (some e, c)
  | (none, c) =>
    let c := { c with state := .closing }
    if c.side = .server then c.sendEof else (none, c)

/-- connection.py 182-200 `send_close` -/
def Core.sendClose (env : Env X E H) (c : Core X E) (code : Option Int) (reason : PyStr) :
    Option Exc × Core X E :=
  if c.expectCont then (some (.protocolError p!"expected a continuation frame"), c)
  else
    match code with
    | none =>
      if reason ≠ [] then (some (.valueError p!"cannot send a reason without a code"), c)
      else c.sendCloseFrame env []
    | some code =>
      match serializeClose code reason with
      | .error e => (some e, c)
      | .ok data => c.sendCloseFrame env data

/-- connection.py 202-214 `send_ping` and `send_pong`, which only differ by the opcode. -/
def Core.sendCtrl (env : Env X E H) (c : Core X E) (opcode : Opcode) (data : Bytes) :
    Option Exc × Core X E :=
  c.sendFrame env { fin := true, opcode, data }

/-- connection.py 253-254: the end of `fail_connection`. -/
def Core.failEof (c : Core X E) : Option Exc × Core X E :=
  if !c.eofSent then c.sendEof else (none, c)

/-- connection.py 246-254 `fail_connection` -/
def Core.failConnection (env : Env X E H) (c : Core X E) (code : Int) (reason : PyStr) :
    Option Exc × Core X E :=
  if code ≠ 1006 ∧ c.state = .opened then
    match serializeClose code reason with
    | .error e => (some e, c)
    | .ok data =>
      match Core.sendFrame env c { fin := true, opcode := .close, data } with
      | (some e, c) => (some e, c)
      | (none, c) => Core.failEof { c with state := .closing }
  else c.failEof

/-- connection.py 268-289: which close code and reason an exception of the parser maps to.
The reason of an `EOFError` is not used by `fail_connection(1006, ...)`. -/
def failCode : Exc → Int × PyStr
  | .protocolError m => (1002, m)
  | .eofError => (1006, [])
  | .unicodeDecodeError reason start => (1007, reason ++ p!" at position " ++ decStr start)
  | .payloadTooBig m => (1009, m)
  | _ => (1011, [])

/-- connection.py 309-314: the local variable `max_size`. -/
def Core.frameLimit (c : Core X E) : Option Int :=
  match c.maxSize, c.curSize with
  | none, _ => none
  | some m, none => some m
  | some m, some cur => some (m - cur)

/-- connection.py 323-387: what the parser does with a frame, before line 389. -/
def Core.handleFrame (env : Env X E H) (c : Core X E) (f : Frame) : Option Exc × Core X E :=
  match f.opcode with
  | .text | .binary =>
    if c.closeReceived then (some (.protocolError p!"data frame after close frame"), c)
    else if c.curSize ≠ none then
      (some (.protocolError p!"expected a continuation frame"), c)
    else if f.fin then (none, { c with curSize := none })
    else (none, { c with curSize := some f.data.length })
  | .cont =>
    if c.closeReceived then (some (.protocolError p!"data frame after close frame"), c)
    else
      match c.curSize with
      | none => (some (.protocolError p!"unexpected continuation frame"), c)
      | some cur =>
        if f.fin then (none, { c with curSize := none })
        else (none, { c with curSize := some (cur + f.data.length) })
  | .ping =>
    if !c.closeReceived then c.sendFrame env { fin := true, opcode := .pong, data := f.data }
    else (none, c)
  | .pong => (none, c)
  | .close =>
    let c := { c with closeReceived := true }
    match parseClose f.data with
    | .error e => (some e, c)
    | .ok (code, reason) =>
      let c := { c with closeCode := some code, closeReason := some reason }
      if c.curSize ≠ none then
        (some (.protocolError p!"incomplete fragmented message"), c)
      else if c.state = .opened then c.sendCloseFrame env f.data
      else (none, c)

/-- connection.py 389 -/
def Core.addEvent (c : Core X E) (e : Event E) : Core X E :=
  { c with events := c.events ++ [e] }

/-- The end of `Frame.parse` (frames.py 162-169: extensions and `check`) followed by
connection.py 323-389, once the frame has been read. -/
def Core.frameRead (env : Env X E H) (c : Core X E) (lim : Option Int)
    (stale : Option (List X)) (raw : Frame) : Option Exc × Core X E :=
  match Frame.finish env.ops (stale.getD c.exts) lim raw with
  | (res, xs) =>
    let c := if stale.isNone then { c with exts := xs } else c
    match res with
    | .error e => (some e, c)
    | .ok f =>
      match c.handleFrame env f with
      | (some e, c) => (some e, c)
      | (none, c) => (none, c.addEvent (.frame f))

/-- connection.py 295-307, when the end of the stream is reached. -/
def Core.atEnd (c : Core X E) : Option Exc × Core X E :=
  if c.closeReceived then c.failEof else (some .eofError, c)

/-- Is this side a server?  (`mask=self.side is SERVER`, connection.py 318) -/
def Core.maskIn (c : Core X E) : Bool := c.side = .server

/-- connection.py 291-389 `parse`, from the top of the `while True` loop until the generator
yields or raises.  `fuel` bounds the number of iterations; every iteration consumes input, so
that `reader.buf.length + 1` is always enough (`Conn.loop_fuel`).  `Exc.diverges` is returned
when fuel runs out. -/
def Conn.loop (env : Env X E H) : Nat → Core X E → Reader → Option Exc × Conn X E
  | 0, c, r => (some .diverges, ⟨c, r, .dead⟩)
  | fuel + 1, c, r =>
    match r.atEof with
    | none => (none, ⟨c, r, .top⟩)
    | some true =>
      match c.atEnd with
      | (some e, c) => (some e, ⟨c, r, .dead⟩)
      | (none, c) => (none, ⟨c, r, .parked⟩)
    | some false =>
      let lim := c.frameLimit
      match (Frame.parseRaw c.maskIn lim).run r with
      | .blocked co r => (none, ⟨c, r, .inFrame co lim none⟩)
      | .raised e r => (some e, ⟨c, r, .dead⟩)
      | .done raw r =>
        match c.frameRead env lim none raw with
        | (some e, c) => (some e, ⟨c, r, .dead⟩)
        | (none, c) => Conn.loop env fuel c r

/-- connection.py 291-389, from the top of the loop. -/
def Conn.parseTop (env : Env X E H) (c : Core X E) (r : Reader) : Option Exc × Conn X E :=
  Conn.loop env (r.buf.length + 1) c r

/-- connection.py 259 `next(self.parser)`: resume the generator until it yields or raises. -/
def Conn.resume (env : Env X E H) (c : Conn X E) : Option Exc × Conn X E :=
  match c.pstate with
  | .dead => (some .runtimeError, c)
  | .parked => (some .assertionError, { c with pstate := .dead })
  | .top => Conn.parseTop env c.core c.reader
  | .inFrame co lim stale =>
    match co.run c.reader with
    | .blocked co r => (none, ⟨c.core, r, .inFrame co lim stale⟩)
    | .raised e r => (some e, ⟨c.core, r, .dead⟩)
    | .done raw r =>
      match c.core.frameRead env lim stale raw with
      | (some e, c) => (some e, ⟨c, r, .dead⟩)
      | (none, c) => Conn.parseTop env c r
  | .hs co =>
    match co.run c.reader with
    | .blocked co r => (none, ⟨c.core, r, .hs co⟩)
    | .raised e r => (some e, ⟨c.core, r, .dead⟩)
    | .done ev r =>
      match env.onHs ev c.core with
      | (some e, c) => (some e, ⟨c, r, .dead⟩)
      | (none, c) => Conn.parseTop env c r

/-- connection.py 256-289 `step_parser`.  A dead generator raises `StopIteration`
(lines 260-267). -/
def Conn.step (env : Env X E H) (c : Conn X E) : Option Exc × Conn X E :=
  match c.pstate with
  | .dead =>
    if c.core.parserExc = none then (some .assertionError, c) else (some .runtimeError, c)
  | _ =>
    match c.resume env with
    | (none, c) => (none, c)
    | (some e, c) =>
      let (code, reason) := failCode e
      match c.core.failConnection env code reason with
      | (some e', core) => (some e', { c with core })
      | (none, core) => (some e, { c with core := { core with parserExc := some e } })

/-- connection.py 123-134 `receive_data` -/
def Conn.receiveData (env : Env X E H) (c : Conn X E) (data : Bytes) :
    Option Exc × Conn X E :=
  match c.reader.feedData data with
  | .error e => (some e, c)
  | .ok r => Conn.step env { c with reader := r }

/-- connection.py 136-148 `receive_eof` -/
def Conn.receiveEof (env : Env X E H) (c : Conn X E) : Option Exc × Conn X E :=
  match c.reader.feedEof with
  | .error e => (some e, c)
  | .ok r => Conn.step env { c with reader := r }

/-- Calls of the public API of a connection. -/
inductive Op (H : Type) where
  | receiveData (data : Bytes)
  | receiveEof
  | sendContinuation (data : Bytes) (fin : Bool)
  | sendText (data : Bytes) (fin : Bool)
  | sendBinary (data : Bytes) (fin : Bool)
  | sendClose (code : Option Int) (reason : PyStr)
  | sendPing (data : Bytes)
  | sendPong (data : Bytes)
  | eventsReceived
  | dataToSend
  | handshake (h : H)

/-- Lift a method that only touches `Core` (connection.py 152-254: these methods don't touch the parser). -/
def Conn.onCore (c : Conn X E) (r : Option Exc × Core X E) : Option Exc × Conn X E :=
  (r.1, { c with core := r.2 })

/-- When `self.extensions` is rebound while a frame is being read, `Frame.parse` keeps the
previous list (frames.py 164-165, connection.py 316-321; server.py 223 rebinds it). -/
def PState.rebind (old : List X) : PState X E → PState X E
  | .inFrame co lim none => .inFrame co lim (some old)
  | p => p

/-- One call of the public API: the exception that it raises, if any, and the new state.
The lists returned by `events_received()` (218-227) and `data_to_send()` (231-242) are
`c.core.events` and `c.core.writes` before the call. -/
def Conn.apply (env : Env X E H) (c : Conn X E) : Op H → Option Exc × Conn X E
  | .receiveData d => c.receiveData env d
  | .receiveEof => c.receiveEof env
  | .sendContinuation d fin => c.onCore (c.core.sendContinuation env d fin)
  | .sendText d fin => c.onCore (c.core.sendData env .text d fin)
  | .sendBinary d fin => c.onCore (c.core.sendData env .binary d fin)
  | .sendClose code reason => c.onCore (c.core.sendClose env code reason)
  | .sendPing d => c.onCore (c.core.sendCtrl env .ping d)
  | .sendPong d => c.onCore (c.core.sendCtrl env .pong d)
  | .eventsReceived => (none, { c with core := { c.core with events := [] } })
  | .dataToSend => (none, { c with core := { c.core with writes := [] } })
  | .handshake h =>
    match env.hsOp h c.core with
    | (e, core, false) => (e, { c with core })
    | (e, core, true) => (e, { c with core, pstate := c.pstate.rebind c.core.exts })

/-- An execution: successive API calls.  Collects what `data_to_send()` and
`events_received()` return, and the exception raised by each call. -/
structure Trace (E : Type) where
  sent : List Bytes := []
  events : List (Event E) := []
  raised : List (Option Exc) := []

/-- Several calls to the methods of connection.py 123-254, in any order. -/
def Conn.exec (env : Env X E H) : Conn X E → List (Op H) → Trace E × Conn X E
  | c, [] => ({}, c)
  | c, op :: ops =>
    let r := c.apply env op
    let (t, c') := Conn.exec env r.2 ops
    ({ sent := (match op with | .dataToSend => c.core.writes | _ => []) ++ t.sent
       events := (match op with | .eventsReceived => c.core.events | _ => []) ++ t.events
       raised := r.1 :: t.raised }, c')

/-- connection.py 65-113: `Connection(side, state, max_size)`.  With the default `state`, this
is a connection without a handshake, as in tests/test_connection.py. -/
def Conn.init (side : Side) (state : State) (maxSize : Option Int) : Conn X E :=
  ⟨{ side, state, maxSize }, .init, .top⟩

/-- Extensions in a configuration without extensions (connection.py 91). -/
def noExts : ExtOps Empty where
  name := nofun
  decode := nofun
  encode := nofun

/-- The environment of a plain `Connection`: no extension, no handshake (connection.py 65-113). -/
def Env.plain (rand : Nat → Bytes) (h : ∀ i, (rand i).length = 4) : Env Empty Empty Empty where
  ops := noExts
  rand := rand
  rand_len := h
  onHs := nofun
  hsOp := nofun

end WS
