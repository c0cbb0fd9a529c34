import Verif.Model.Frames
import Verif.Model.Http11

/-!
# Reading bytes in the legacy implementation

* /repo/src/websockets/legacy/http.py: `read_request`, `read_response`, `read_headers`, `read_line`.
* /repo/src/websockets/legacy/framing.py: `Frame.read`.
* /repo/src/websockets/legacy/protocol.py 1443, 1459: `data_received`, `eof_received`, which pass
  what the transport delivers to an `asyncio.StreamReader` created in line 243.
* `asyncio.StreamReader`, which isn't part of the repository: `feed_data`, `feed_eof`, `readline`,
  `readexactly` and flow control, after asyncio/streams.py in the standard library of Python 3.11
  (line numbers below refer to that file).  `set_exception` isn't modelled.

Coroutines are described with `Coro`, as for the Sans-I/O layer; `Coro.arun` says what the read
methods of `asyncio.StreamReader` do, as `Coro.run` does for `websockets.streams.StreamReader`.
-/

namespace WS.Legacy

/-- asyncio/streams.py 420-437: attributes of `asyncio.StreamReader`. -/
structure AReader where
  limit : Nat
  buf : Bytes := []
  eof : Bool := false
  paused : Bool := false
deriving DecidableEq, Repr

/-- legacy/protocol.py 243 -/
def AReader.init (readLimit : Nat) : AReader := { limit := readLimit / 2 }

/-- asyncio/streams.py 484-487 `_maybe_resume_transport` -/
def AReader.maybeResume (r : AReader) : AReader :=
  if r.paused ∧ r.buf.length ≤ r.limit then { r with paused := false } else r

/-- asyncio/streams.py 497-517 `feed_data`, without waking up the task that waits -/
def AReader.feedData (r : AReader) (d : Bytes) : AReader :=
  let r := { r with buf := r.buf ++ d }
  if r.paused = false ∧ r.buf.length > 2 * r.limit then { r with paused := true } else r

/-- asyncio/streams.py 489-490 `feed_eof`, without waking up the task that waits -/
def AReader.feedEof (r : AReader) : AReader := { r with eof := true }

/-- asyncio/streams.py 537-539: `_wait_for_data` resumes the transport. -/
def AReader.await (r : AReader) : AReader := { r with paused := false }

/-- What a task does until it returns, raises or is suspended. -/
inductive AOutcome (α : Type) where
  | done (a : α) (r : AReader)
  | raised (e : Exc) (r : AReader)
  | blocked (c : Coro α) (r : AReader)

/-- Run a task until it returns, raises or is suspended in a read method.

* `readLine p k` is `readline()`, lines 547-576 and 578-667, whose local variable `offset` is `p`.
  `LimitOverrunError` in line 644 (no LF in the buffer, which exceeds the limit) clears the buffer,
  line 573; in line 661 (LF found too far) it removes the line, line 571.  The test in line 633 is
  omitted: when it fails, the test in line 643 would fail too.
* `readExact n k` is `readexactly(n)`, lines 720-759.  `IncompleteReadError` is an `EOFError`.
* `readToEof` isn't used. -/
def _root_.WS.Coro.arun {α : Type} : Coro α → AReader → AOutcome α
  | .ret a, r => .done a r
  | .raise e, r => .raised e r
  | .readLine p k, r =>
    match findLF r.buf p with
    | some i =>
      if i > r.limit then
        (k (.error (.valueError p!"Separator is found, but chunk is longer than limit"))).arun
          { r with buf := r.buf.drop (i + 1) }.maybeResume
      else
        (k (.ok (r.buf.take (i + 1)))).arun { r with buf := r.buf.drop (i + 1) }.maybeResume
    | none =>
      if r.buf.length > r.limit then
        (k (.error (.valueError p!"Separator is not found, and chunk exceed the limit"))).arun
          { r with buf := [] }.maybeResume
      else if r.eof then (k (.ok r.buf)).arun { r with buf := [] }
      else .blocked (.readLine r.buf.length k) r.await
  | .readExact n k, r =>
    if r.buf.length < n then
      if r.eof then (k (.error .eofError)).arun { r with buf := [] }
      else .blocked (.readExact n k) r.await
    else (k (.ok (r.buf.take n))).arun { r with buf := r.buf.drop n }.maybeResume
  | .readToEof k, r =>
    if r.eof then (k r.buf).arun { r with buf := [] }
    else .blocked (.readToEof k) r.await

/-- legacy/http.py 178-193 `read_line` -/
def readLine : Coro Bytes :=
  Coro.line.bind fun line =>
  if line.length > maxLine then .raise (.securityError p!"line too long")
  else if ¬ [13, 10] <:+ line then .raise .eofError
  else .ret (line.take (line.length - 2))

/-- legacy/http.py 150-173: iterations left, headers so far. -/
def readHeadersLoop : Nat → Headers → Coro Headers
  | 0, _ => .raise (.securityError p!"too many HTTP headers")
  | n + 1, headers =>
    readLine.bind fun line =>
    if line = [] then .ret headers
    else
      match splitAt1 58 line with
      | none => .raise (.valueError p!"invalid HTTP header line")
      | some (rawName, rawValue) =>
        if !isToken rawName then .raise (.valueError p!"invalid HTTP header name")
        else
          let rawValue := stripBlank rawValue
          if !isValue rawValue then .raise (.valueError p!"invalid HTTP header value")
          else
            readHeadersLoop n (headers.set (rawName.map UInt8.toNat) (surrogateEscape rawValue))

/-- legacy/http.py 138-175 `read_headers` -/
def readHeaders : Coro Headers := readHeadersLoop (maxHeaders + 1) {}

/-- legacy/http.py 43-86 `read_request` -/
def readRequest : Coro (PyStr × Headers) :=
  readLine.bind fun requestLine =>
  match split3 32 requestLine with
  | none => .raise (.valueError p!"invalid HTTP request line")
  | some (method, rawPath, version) =>
    if method ≠ b!"GET" then .raise (.valueError p!"unsupported HTTP method")
    else if version ≠ b!"HTTP/1.1" then .raise (.valueError p!"unsupported HTTP version")
    else
      let path := surrogateEscape rawPath
      readHeaders.bind fun headers => .ret (path, headers)

/-- legacy/http.py 89-135 `read_response` -/
def readResponse : Coro (Int × PyStr × Headers) :=
  readLine.bind fun statusLine =>
  match split3 32 statusLine with
  | none => .raise (.valueError p!"invalid HTTP status line")
  | some (version, rawStatus, rawReason) =>
    if version ≠ b!"HTTP/1.1" then .raise (.valueError p!"unsupported HTTP version")
    else
      match pyInt (rawStatus.map UInt8.toNat) with
      | none => .raise (.valueError p!"invalid HTTP status code")
      | some status =>
        if ¬ (100 ≤ status ∧ status < 1000) then
          .raise (.valueError p!"unsupported HTTP status code")
        else if !isValue rawReason then .raise (.valueError p!"invalid HTTP reason phrase")
        else
          match utf8Decode rawReason with
          | .error e => .raise e
          | .ok reason => readHeaders.bind fun headers => .ret (status, reason, headers)

/-- legacy/framing.py 79-89: after the length is known. -/
def readBody (mask : Bool) (maxSize : Option Int) (fin rsv1 rsv2 rsv3 : Bool)
    (opcode : Opcode) (length : Nat) : Coro Frame :=
  match exceeds length maxSize with
  | some m => .raise (.payloadTooBig (tooBigMsg length m))
  | none =>
    (if mask then Coro.exact 4 else .ret []).bind fun maskBits =>
    (Coro.exact length).bind fun data =>
    match (if mask then applyMask data maskBits else .ok data) with
    | .error e => .raise e
    | .ok data => .ret { fin, opcode, data, rsv1, rsv2, rsv3 }

/-- legacy/framing.py 54-89: `Frame.read` until the frame has been read and unmasked.  Lines 91-96,
which apply extensions and check the frame, are `Frame.finish`. -/
def readFrame (mask : Bool) (maxSize : Option Int) : Coro Frame :=
  (Coro.exact 2).bind fun data =>
  match data with
  | [head1, head2] =>
    let fin := head1 &&& 0b10000000 != 0
    let rsv1 := head1 &&& 0b01000000 != 0
    let rsv2 := head1 &&& 0b00100000 != 0
    let rsv3 := head1 &&& 0b00010000 != 0
    match Opcode.ofNat? (head1 &&& 0b00001111).toNat with
    | none => .raise (.protocolError p!"invalid opcode")
    | some opcode =>
      if (head2 &&& 0b10000000 != 0) != mask then
        .raise (.protocolError p!"incorrect masking")
      else
        let length := (head2 &&& 0b01111111).toNat
        if length = 126 then
          (Coro.exact 2).bind fun data =>
          readBody mask maxSize fin rsv1 rsv2 rsv3 opcode (unpackBE data)
        else if length = 127 then
          (Coro.exact 8).bind fun data =>
          readBody mask maxSize fin rsv1 rsv2 rsv3 opcode (unpackBE data)
        else
          readBody mask maxSize fin rsv1 rsv2 rsv3 opcode length
  | _ => .raise .structError

/-- A task that reads from the connection: about to run, because it just started or because it was
woken up; suspended in a read method; or ended.  `none` means that it was cancelled, or that there
was no such task yet. -/
inductive Task (α : Type) where
  | ready (c : Coro α)
  | waiting (c : Coro α)
  | ended (res : Option (Except Exc α))

/-- A connection: its stream reader, and the task that reads from it (the opening handshake, then
`transfer_data_task`). -/
structure Endpoint (α : Type) where
  reader : AReader
  task : Task α

/-- What may happen: the transport calls `data_received` or `eof_received`; the event loop runs the
task; the task is cancelled; another read starts after the previous one ended. -/
inductive IoAct (α : Type) where
  | data (d : Bytes)
  | eof
  | run
  | cancel
  | start (c : Coro α)

/-- asyncio/streams.py 472-478 `_wakeup_waiter` -/
def Task.wakeup {α : Type} : Task α → Task α
  | .waiting c => .ready c
  | t => t

/-- One step, if it's possible.  The transport doesn't deliver data while reading is paused, nor
after the end of the stream (legacy/protocol.py 1441-1459, legacy/http.py). -/
def Endpoint.step {α : Type} (e : Endpoint α) : IoAct α → Option (Endpoint α)
  -- legacy/protocol.py 1443, asyncio/streams.py 497-517
  | .data d =>
    if e.reader.eof ∨ e.reader.paused then none
    else if d = [] then some e
    else some { reader := e.reader.feedData d, task := e.task.wakeup }
  -- legacy/protocol.py 1408, 1459, asyncio/streams.py 489-491
  | .eof => some { reader := e.reader.feedEof, task := e.task.wakeup }
  | .run =>
    match e.task with
    | .ready c =>
      match c.arun e.reader with
      | .done a r => some { reader := r, task := .ended (some (.ok a)) }
      | .raised x r => some { reader := r, task := .ended (some (.error x)) }
      | .blocked c r => some { reader := r, task := .waiting c }
    | _ => none
  | .cancel =>
    match e.task with
    | .ended _ => none
    | _ => some { e with task := .ended none }
  | .start c =>
    match e.task with
    | .ended _ => some { e with task := .ready c }
    | _ => none

/-- An execution (legacy/protocol.py 1441-1459, legacy/http.py). -/
def Endpoint.exec {α : Type} (e : Endpoint α) : List (IoAct α) → Option (Endpoint α)
  | [] => some e
  | a :: as =>
    match e.step a with
    | none => none
    | some e => e.exec as

end WS.Legacy
