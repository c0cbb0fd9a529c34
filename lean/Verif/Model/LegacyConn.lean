import Verif.Model.Connection

/-!
# Sending, pings and closing: /repo/src/websockets/legacy/protocol.py

Tasks run on one event loop: a step is everything that a task does between two points where it's
suspended.  `Act` lists what may happen next; everything that isn't determined by the code that is
modelled is left open: which task runs, how long flow control suspends a task, when asynchronous
iterators yield, when tasks are cancelled, what the peer sends, when the connection is lost.

Simplifications.
* The opening handshake succeeded: the state is OPEN at first.
* Frames are logged as they are passed to `Frame.write`, before extensions and masking, which are
  assumed not to raise exceptions.
* `_drain` (315-332, under `_drain_lock`) may return or raise an exception at any time.  A task that
  isn't suspended by `_drain` is a task that resumes at once.
* Tasks that `fail_connection` cancels may still run for a while, as in asyncio.  `close_connection`
  isn't modelled here (see `Verif.Model.LegacyClose`): tasks that wait for it may resume at any time.
* `CancelledError` isn't a subclass of `Exception` (Python ≥ 3.8).
* The reassembly of messages and the queue aren't modelled here.
-/

namespace WS.LegacyConn

/-- What an iterator yields: a `str` or `bytes`-like object, encoded by `prepare_data`; or it raises
an exception, or yields an object that `prepare_data` refuses. -/
inductive Chunk where
  | data (text : Bool) (data : Bytes)
  | error
deriving DecidableEq

/-- The argument of `send`, except mappings and other types for which it raises `TypeError`.
`iter items`: a regular iterator.  `aiter suspends items`: an asynchronous iterator; `suspends` tells
whether it yields control to the event loop before the first item. -/
inductive Msg where
  | plain (text : Bool) (data : Bytes)
  | iter (items : List Chunk)
  | aiter (suspends : Bool) (items : List Chunk)
deriving DecidableEq

/-- The calls to methods of the connection by the application.  `ping explicit data`: `data` was
given, or chosen at random.  `close data`: `data` is the result of `serialize_close`. -/
inductive Call where
  | send (m : Msg)
  | ping (explicit : Bool) (data : Bytes)
  | pong (data : Bytes)
  | close (data : Bytes)
deriving DecidableEq

/-- Exceptions. -/
inductive Exn where
  | connectionClosed
  | invalidState
  | protocolError
  | typeError
  | valueError
  | keyError
  | attributeError
  | cancelled
  | other
deriving DecidableEq

/-- Where a task is suspended. -/
inductive Pc where
  /-- in `write_frame` (1099), then it returns: `send` (583), `pong` (791), `close` (698) -/
  | draining
  /-- `send` (576), waiting for the future that call `owner` created -/
  | waiting (m : Msg) (owner : Nat)
  /-- `send` (638), waiting for the first item -/
  | first (items : List Chunk)
  /-- `send` (607, 614 or 648, 656), in `write_frame` -/
  | fragment (async text : Bool) (items : List Chunk)
  /-- `send` (652), waiting for the next item -/
  | anext (text : Bool) (items : List Chunk)
  /-- `send` (617 or 659), in `write_frame` -/
  | final
  /-- `ping` (770), in `write_frame` -/
  | pinging (data : Bytes)
  /-- `ensure_open` (818 or 832); `inTry`: called by `write_frame` in lines 607-617 or 648-659 -/
  | ensuring (inTry : Bool)
deriving DecidableEq

/-- Where `transfer_data_task` is suspended: in `read_frame`; in the `write_frame` of a pong, or of a
close frame; in `ensure_open`, where it waits for `close_connection_task`; or done. -/
inductive Transfer where
  | reading
  | ponging
  | closing
  | stuck
  | exited
deriving DecidableEq

/-- How `_drain` ends. -/
inductive Drain where
  | ok
  | connectionError
  | otherError
deriving DecidableEq

/-- What the application sees. `pinged call waiter`: `ping` returns the future that call `waiter`
created. -/
inductive Obs where
  | returned (call : Nat)
  | pinged (call waiter : Nat)
  | raised (call : Nat) (e : Exn)
deriving DecidableEq

/-- Attributes of the connection, and tasks.  Calls are numbered; `calls` lists them.  The futures
that calls create have the number of the call. -/
structure Conn where
  state : State := .opened
  /-- frames written so far, with the call that wrote them -/
  log : List (Option Nat × Frame) := []
  /-- `_fragmented_message_waiter` -/
  frag : Option Nat := none
  /-- such futures that are done -/
  released : List Nat := []
  /-- `pings` -/
  pings : List (Bytes × Nat) := []
  /-- such futures that have a result -/
  acked : List Nat := []
  /-- such futures that have an exception -/
  aborted : List Nat := []
  /-- `close_code` and `close_reason` -/
  closeInfo : Option (Int × PyStr) := none
  transfer : Transfer := .reading
  calls : List Call := []
  tasks : Nat → Option Pc := fun _ => none

/-- What may happen: the application calls a method; a task resumes (`Drain` is ignored unless it
was in `_drain`) or is cancelled; a control frame is received; `transfer_data_task` resumes, ends
with an exception that fails the connection, or is cancelled; `fail_connection` is called
elsewhere; the TCP connection is lost. -/
inductive Act where
  | call (c : Call)
  | resume (call : Nat) (d : Drain)
  | cancel (call : Nat)
  | recvClose (data : Bytes)
  | recvPing (data : Bytes)
  | recvPong (data : Bytes)
  | resumeTransfer (d : Drain)
  | transferFails (code : Int)
  | cancelTransfer
  | fail (code : Int)
  | lost
deriving DecidableEq

/-- The opcode for data (frames.py 252-272) -/
def opcodeOf (text : Bool) : Opcode := if text then .text else .binary

/-- A task is suspended at another point of legacy/protocol.py 533-793. -/
def Conn.setTask (s : Conn) (i : Nat) (pc : Option Pc) : Conn :=
  { s with tasks := fun j => if j = i then pc else s.tasks j }

/-- legacy/protocol.py 1078-1092: `write_frame`, until `_drain` -/
def Conn.write (s : Conn) (i : Option Nat) (fin : Bool) (opcode : Opcode) (data : Bytes)
    (expected : State := .opened) : Except Exn Conn :=
  if s.state ≠ expected then .error .invalidState
  else
    match Frame.check { fin, opcode, data } with
    | .error _ => .error .protocolError
    | .ok () => .ok { s with log := s.log ++ [(i, { fin, opcode, data })] }

/-- legacy/protocol.py 1107-1123: `write_close_frame`, until `_drain`.  `none`: nothing is written. -/
def Conn.writeClose (s : Conn) (i : Option Nat) (data : Bytes) : Conn × Option (Except Exn Unit) :=
  if s.state = .opened then
    let s := { s with state := .closing }
    match s.write i true .close data (expected := .closing) with
    | .error e => (s, some (.error e))
    | .ok s => (s, some (.ok ()))
  else (s, none)

/-- legacy/protocol.py 1268-1323: `fail_connection`, with an empty reason.  (It raises an exception if
the code isn't valid; there's no such call.) -/
def Conn.fail (s : Conn) (code : Int) : Conn :=
  if code ≠ 1006 ∧ s.state = .opened then
    match serializeClose code [] with
    | .error _ => s
    | .ok data =>
      { s with state := .closing
               log := s.log ++ [(none, { fin := true, opcode := .close, data })] }
  else s

/-- legacy/protocol.py 813-821: `ensure_open` returns. -/
def Conn.isOpen (s : Conn) : Bool := s.state = .opened && s.transfer ≠ .exited

/-- legacy/protocol.py 625-627 or 667-669, then the call ends -/
def Conn.release (s : Conn) (i : Nat) (o : Obs) : Conn × List Obs :=
  match s.frag with
  | some j => ({ s with frag := none, released := j :: s.released }.setTask i none, [o])
  | none => (s.setTask i none, [.raised i .attributeError])

/-- legacy/protocol.py 619-627 or 661-669 -/
def Conn.failFragment (s : Conn) (i : Nat) (e : Exn) : Conn × List Obs :=
  (s.fail 1011).release i (.raised i e)

/-- legacy/protocol.py 609-617 or 650-659, when the iterator gives its next item -/
def Conn.sendNext (s : Conn) (i : Nat) (async text : Bool) : List Chunk → Conn × List Obs
  | [] =>
    match s.write i true .cont [] with
    | .error e => s.failFragment i e
    | .ok s => (s.setTask i (some .final), [])
  | .error :: _ => s.failFragment i .typeError
  | .data text' data :: items =>
    if text' ≠ text then s.failFragment i .typeError
    else
      match s.write i false .cont data with
      | .error e => s.failFragment i e
      | .ok s => (s.setTask i (some (.fragment async text items)), [])

/-- legacy/protocol.py 597-607 or 634-648, when the iterator gives its first item -/
def Conn.sendFirst (s : Conn) (i : Nat) (async : Bool) : List Chunk → Conn × List Obs
  | [] => (s.setTask i none, [.returned i])
  | .error :: _ => (s.setTask i none, [.raised i .typeError])
  | .data text data :: items =>
    let s := { s with frag := some i }
    match s.write i false (opcodeOf text) data with
    | .error e => s.failFragment i e
    | .ok s => (s.setTask i (some (.fragment async text items)), [])

/-- legacy/protocol.py 573-672: `send`, after `ensure_open` or after waking up in line 576 -/
def Conn.sendLoop (s : Conn) (i : Nat) (m : Msg) : Conn × List Obs :=
  match s.frag with
  | some j => (s.setTask i (some (.waiting m j)), [])
  | none =>
    match m with
    | .plain text data =>
      match s.write i true (opcodeOf text) data with
      | .error e => (s.setTask i none, [.raised i e])
      | .ok s => (s.setTask i (some .draining), [])
    | .iter items => s.sendFirst i false items
    | .aiter true items => (s.setTask i (some (.first items)), [])
    | .aiter false items => s.sendFirst i true items

/-- The rest of a call, after `ensure_open` returned: `send`, `ping` (757-770), `pong` (789-791). -/
def Conn.callOpen (s : Conn) (i : Nat) : Call → Option (Conn × List Obs)
  | .send m => some (s.sendLoop i m)
  | .ping explicit data =>
    if data ∈ s.pings.map (·.1) then
      if explicit then some (s, [.raised i .valueError]) else none
    else
      let s := { s with pings := s.pings ++ [(data, i)] }
      match s.write i true .ping data with
      | .error e => some (s, [.raised i e])
      | .ok s => some (s.setTask i (some (.pinging data)), [])
  | .pong data =>
    match s.write i true .pong data with
    | .error e => some (s, [.raised i e])
    | .ok s => some (s.setTask i (some .draining), [])
  | .close _ => none

/-- A new call: `ensure_open` (805-837) for `send`, `ping`, `pong`; 696-701 for `close` (then `close`
waits for other tasks). -/
def Conn.call (s : Conn) (c : Call) : Option (Conn × List Obs) :=
  let i := s.calls.length
  let s := { s with calls := s.calls ++ [c] }
  match c with
  | .close data =>
    match s.writeClose i data with
    | (s, none) => some (s, [.returned i])
    | (s, some (.error e)) => some (s, [.raised i e])
    | (s, some (.ok ())) => some (s.setTask i (some .draining), [])
  | c =>
    if s.isOpen then s.callOpen i c
    else if s.state = .closed then some (s, [.raised i .connectionClosed])
    else some (s.setTask i (some (.ensuring false)), [])

/-- legacy/protocol.py 609-617 or 650-659: `_drain` returned while a fragmented message is sent.  A regular
iterator gives its next item at once. -/
def Conn.afterFragment (s : Conn) (i : Nat) (async text : Bool) (items : List Chunk) : Conn × List Obs :=
  if async then (s.setTask i (some (.anext text items)), []) else s.sendNext i false text items

/-- legacy/protocol.py 772: `return asyncio.shield(self.pings[data])` -/
def Conn.afterPing (s : Conn) (i : Nat) (data : Bytes) : Conn × List Obs :=
  match s.pings.find? (·.1 = data) with
  | some (_, waiter) => (s.setTask i none, [.pinged i waiter])
  | none => (s.setTask i none, [.raised i .keyError])

/-- A task resumes (legacy/protocol.py 533-793). -/
def Conn.resume (s : Conn) (i : Nat) (d : Drain) : Option (Conn × List Obs) :=
  match s.tasks i with
  | none => none
  | some .draining =>
    match d with
    | .ok => some (s.setTask i none, [.returned i])
    -- 1100-1105
    | .connectionError =>
      let s := s.fail 1006
      if s.isOpen then some (s.setTask i none, [.returned i])
      else some (s.setTask i (some (.ensuring false)), [])
    | .otherError => some (s.setTask i none, [.raised i .other])
  | some (.waiting m j) => if j ∈ s.released then some (s.sendLoop i m) else none
  | some (.first items) => some (s.sendFirst i true items)
  | some (.fragment async text items) =>
    match d with
    | .ok => some (s.afterFragment i async text items)
    | .connectionError =>
      let s := s.fail 1006
      if s.isOpen then some (s.afterFragment i async text items)
      else some (s.setTask i (some (.ensuring true)), [])
    | .otherError => some (s.failFragment i .other)
  | some (.anext text items) => some (s.sendNext i true text items)
  | some .final =>
    match d with
    | .ok => some (s.release i (.returned i))
    | .connectionError =>
      let s := s.fail 1006
      if s.isOpen then some (s.release i (.returned i))
      else some (s.setTask i (some (.ensuring true)), [])
    | .otherError => some (s.failFragment i .other)
  | some (.pinging data) =>
    match d with
    | .ok => some (s.afterPing i data)
    | .connectionError =>
      let s := s.fail 1006
      if s.isOpen then some (s.afterPing i data)
      else some (s.setTask i (some (.ensuring false)), [])
    | .otherError => some (s.setTask i none, [.raised i .other])
  | some (.ensuring true) => some (s.failFragment i .connectionClosed)
  | some (.ensuring false) => some (s.setTask i none, [.raised i .connectionClosed])

/-- A task is cancelled (legacy/protocol.py 533-793). -/
def Conn.cancel (s : Conn) (i : Nat) : Option (Conn × List Obs) :=
  match s.tasks i with
  | none => none
  | some (.fragment ..) | some (.anext ..) | some .final | some (.ensuring true) =>
    some (s.release i (.raised i .cancelled))
  | some _ => some (s.setTask i none, [.raised i .cancelled])

/-- legacy/protocol.py 1027-1040: the pings that are acknowledged by a pong, if any. -/
def splitPings (data : Bytes) : List (Bytes × Nat) → Option (List Nat × List (Bytes × Nat))
  | [] => none
  | (id, fut) :: rest =>
    if id = data then some ([fut], rest)
    else
      match splitPings data rest with
      | none => none
      | some (futs, rest) => some (fut :: futs, rest)

/-- `transfer_data` ends with an exception: 877-906 -/
def Conn.transferFails (s : Conn) (code : Int) : Conn := { s.fail code with transfer := .exited }

/-- `ensure_open` in `transfer_data_task` (then `transfer_data_task.done()` is false): it returns; it
raises `ConnectionClosed`, with consequence `closed`; or it waits for `close_connection_task`
(legacy/protocol.py 805-837). -/
def Conn.ensureTransfer (s : Conn) (opened closed : Conn) : Conn :=
  match s.state with
  | .opened => opened
  | .closed => closed
  | _ => { s with transfer := .stuck }

/-- legacy/protocol.py 996-1009: a close frame is received. -/
def Conn.recvClose (s : Conn) (data : Bytes) : Conn :=
  match parseClose data with
  | .error (.unicodeDecodeError ..) => s.transferFails 1007
  | .error _ => s.transferFails 1002
  | .ok info =>
    match { s with closeInfo := some info }.writeClose none data with
    | (s, none) => { s with transfer := .exited }
    | (s, some (.error .protocolError)) => s.transferFails 1002
    | (s, some (.error _)) => s.transferFails 1011
    | (s, some (.ok ())) => { s with transfer := .closing }

/-- legacy/protocol.py 1011-1017 and 787-791: a ping is received. -/
def Conn.recvPing (s : Conn) (data : Bytes) : Conn :=
  s.ensureTransfer
    (match s.write none true .pong data with
      | .error .protocolError => s.transferFails 1002
      | .error _ => s.transferFails 1011
      | .ok s => { s with transfer := .ponging })
    (s.transferFails 1011)

/-- legacy/protocol.py 1019-1058: a pong is received. -/
def Conn.recvPong (s : Conn) (data : Bytes) : Conn :=
  match splitPings data s.pings with
  | none => s
  | some (futs, pings) =>
    -- 1032: `if not ping.done()`
    { s with pings, acked := futs.filter (fun f => f ∉ s.acked ∧ f ∉ s.aborted) ++ s.acked }

/-- `transfer_data_task` resumes in `_drain`: 1017 or 1004. -/
def Conn.resumeTransfer (s : Conn) (d : Drain) : Option Conn :=
  match s.transfer with
  | .ponging =>
    match d with
    | .ok => some { s with transfer := .reading }
    | .connectionError =>
      let s := s.fail 1006
      some (s.ensureTransfer { s with transfer := .reading } (s.transferFails 1011))
    | .otherError => some (s.transferFails 1006)
  | .closing =>
    match d with
    | .ok => some { s with transfer := .exited }
    | .connectionError =>
      let s := s.fail 1006
      some (s.ensureTransfer { s with transfer := .exited } { s with transfer := .exited })
    | .otherError => some (s.transferFails 1006)
  | _ => none

/-- legacy/protocol.py 1379-1404: `connection_lost`, `abort_pings` -/
def Conn.lost (s : Conn) : Conn :=
  { s with
    state := .closed
    closeInfo := some (s.closeInfo.getD (1006, []))
    aborted := s.pings.map (·.2) ++ s.aborted }

/-- One step, if it's possible (legacy/protocol.py 533-793, 982-1123). -/
def Conn.step (s : Conn) : Act → Option (Conn × List Obs)
  | .call c => s.call c
  | .resume i d => s.resume i d
  | .cancel i => s.cancel i
  | .recvClose data => if s.transfer = .reading then some (s.recvClose data, []) else none
  | .recvPing data => if s.transfer = .reading then some (s.recvPing data, []) else none
  | .recvPong data => if s.transfer = .reading then some (s.recvPong data, []) else none
  | .resumeTransfer d => (s.resumeTransfer d).map (·, [])
  | .transferFails code =>
    if s.transfer = .reading then some (s.transferFails code, []) else none
  | .cancelTransfer =>
    if s.transfer = .exited then none else some ({ s with transfer := .exited }, [])
  | .fail code => some (s.fail code, [])
  -- 1379: called once
  | .lost => if s.state = .closed then none else some (s.lost, [])

/-- A sequence of steps (legacy/protocol.py 533-793, 982-1123). -/
def Conn.exec (s : Conn) : List Act → Option (Conn × List Obs)
  | [] => some (s, [])
  | a :: as =>
    match s.step a with
    | none => none
    | some (s, o) =>
      match s.exec as with
      | none => none
      | some (s, os) => some (s, o ++ os)

/-- legacy/protocol.py 795-803 `connection_closed_exc`: `true` for `ConnectionClosedOK`. -/
def Conn.closedExc (s : Conn) : Option (Bool × Int × PyStr) :=
  s.closeInfo.map fun (code, reason) => (code = 1000 || code = 1001, code, reason)

end WS.LegacyConn
