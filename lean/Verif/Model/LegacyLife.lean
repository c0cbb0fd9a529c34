import Verif.Model.Connection

/-!
# The end of a connection: /repo/src/websockets/legacy/protocol.py 334-348, 674-727, 795-906, 1078-1123, 1177-1327, 1379-1410

`transfer_data_task`, `close_connection_task`, calls to `close()` and other calls of the application run
concurrently.  A step is everything that a task does between two points where it's suspended; `Ev` lists what
may happen next.  Every task may be cancelled at any time, for example by `asyncio.run()`.

Simplifications.
* Timeouts may occur at any time; see `Verif.Model.LegacyClose` for durations.
* A task that is suspended in `_drain` may resume when writing isn't paused or the connection is lost
  (see `Verif.Model.LegacyDrain`); `_drain` only raises exceptions when the connection is lost: `reader.exception()`
  (319), `connection_lost_waiter` (305) and exceptions of the waiter (1425) come from `connection_lost`.
* Reasons go along with codes and aren't represented; `close()` gets a valid code and reason.
* Messages in the queue and keepalive pings aren't represented.
-/

namespace WS.LegacyLife

/-- Where `transfer_data` is suspended -/
inductive Transfer where
  /-- `transfer_data_task` doesn't exist: the opening handshake isn't complete. -/
  | absent
  /-- 1069, in `readexactly`; or the task hasn't started -/
  | reading
  /-- 859, waiting for room in the queue -/
  | putting
  /-- 1022, in `pong` (791), in the `_drain` of `write_frame` (1099) -/
  | ponging
  /-- 1008, in `write_close_frame` (1123), in the `_drain` of `write_frame` (1099) -/
  | replying
  /-- 1022, in `pong` (787), in `ensure_open` (832), waiting for `close_connection_task` -/
  | ensuring
  | ended
deriving DecidableEq

/-- Where `close_connection` is suspended -/
inductive Closer where
  | absent
  /-- the task hasn't started -/
  | created
  /-- 1193 -/
  | waitTransfer
  /-- 1203 -/
  | waitClosed
  /-- 1214 -/
  | waitEof
  /-- 1234; `exc`: the `finally` clause was entered with `CancelledError` -/
  | waitClose (exc : Bool)
  /-- 1245 -/
  | waitAbort (exc : Bool)
  /-- `cancelled`: the task ended with `CancelledError`. -/
  | ended (cancelled : Bool)
deriving DecidableEq

/-- How calls of the application end -/
inductive Result where
  | returned
  /-- `ConnectionClosed` with this code -/
  | connectionClosed (code : Nat)
  /-- `InvalidState`: 836 -/
  | invalidState
  /-- 797: `close_code` doesn't exist; 719: `transfer_data_task` doesn't exist -/
  | attributeError
  | cancelled
deriving DecidableEq, Repr

/-- Where a call is suspended -/
inductive Call where
  /-- `close`, 697: the task that runs `write_close_frame` hasn't started -/
  | closeStart
  /-- `close`, 697: in the `_drain` of `write_frame` -/
  | closeWriting
  /-- `close`, 718; `timer`: the timeout hasn't elapsed -/
  | closeWaitTransfer (timer : Bool)
  /-- `close`, 727 -/
  | closeWaitCloser
  /-- `recv`, `send`, `ping` or `pong`: in `ensure_open` (818, 832) -/
  | ensuring
  /-- `send`, `ping` or `pong`: in the `_drain` of `write_frame` -/
  | writing
  | ended (r : Result)
deriving DecidableEq

/-- Frames that are written -/
inductive Sent where
  | close
  | other
deriving DecidableEq

/-- Parameters of the connection: `is_client`; `transport.can_write_eof()` -/
structure Config where
  client : Bool
  canWriteEof : Bool

structure St where
  state : State := .connecting
  closeCode : Option Nat := none
  sent : List Sent := []
  /-- `connection_lost_waiter.done()` -/
  lost : Bool := false
  /-- `reader.exception()` is set. -/
  readerExc : Bool := false
  paused : Bool := false
  /-- `transport.is_closing()` -/
  isClosing : Bool := false
  /-- `transport.abort()` was called. -/
  aborted : Bool := false
  transfer : Transfer := .absent
  /-- `transfer_data_task.cancel()` was called. -/
  cancelReq : Bool := false
  closer : Closer := .absent
  calls : List Call := []

/-- What `transfer_data` reads: data, which doesn't fill the queue or does; a ping; a pong; a close frame with this
code; something that raises an exception for which the connection fails with this code (872-906). -/
inductive Input where
  | data (full : Bool)
  | ping
  | pong
  | close (code : Nat)
  | error (code : Nat)
deriving DecidableEq

/-- What legacy/protocol.py 876-906 handles by `fail_connection` -/
def Input.isError : Input → Bool
  | .error _ => true
  | _ => false

/-- Steps of a call -/
inductive CallEv where
  /-- `close`: the task that runs `write_close_frame` starts. -/
  | run
  /-- `_drain` returns, or raises an exception. -/
  | drained (ok : Bool)
  /-- the timeout of `wait_for` elapses. -/
  | timeout
  /-- the task for which the call waits has ended. -/
  | woken
  | cancel
deriving DecidableEq

/-- What may happen -/
inductive Ev where
  /-- the opening handshake succeeds: `connection_open` -/
  | opened
  /-- the opening handshake fails: `fail_connection()` (legacy/client.py 545, legacy/server.py 192) -/
  | refused
  /-- `fail_connection` is called by `send` (622, 664), `keepalive_ping` (1163) or the handler of a server
  (legacy/server.py 201). -/
  | fail (code : Nat)
  /-- `transfer_data` reads something. -/
  | receive (i : Input)
  /-- there's room in the queue. -/
  | room
  /-- `_drain` ends in `transfer_data`. -/
  | transferDrained (ok : Bool)
  /-- `transfer_data` was waiting for `close_connection_task`, which ended. -/
  | transferWoken
  /-- `CancelledError` is raised in `transfer_data`. -/
  | transferCancelled
  /-- someone cancels `transfer_data_task`. -/
  | cancelTransfer
  /-- `close_connection` starts, or `transfer_data_task` has ended. -/
  | closerRun
  /-- `wait_for_connection_lost` ends. -/
  | closerLost
  | closerTimeout
  /-- someone cancels `close_connection_task`. -/
  | cancelCloser
  /-- the transport starts closing by itself, because of an error or the end of the stream. -/
  | transportClosing
  /-- `connection_lost` with an exception or `None` -/
  | lost (exc : Bool)
  | pause
  | resume
  /-- the application calls `close()`. -/
  | close
  /-- the application calls `recv()`, and there's no message and `transfer_data_task` has ended; or it calls
  `send()`, `ping()` or `pong()`, when the connection isn't open. -/
  | ensure
  /-- the application calls `send()`, `ping()` or `pong()`. -/
  | write
  | call (i : Nat) (e : CallEv)
deriving DecidableEq

/-- legacy/protocol.py 1268-1327 `fail_connection` -/
def St.fail (s : St) (code : Nat) : St :=
  let s := if s.transfer ≠ .absent ∧ s.transfer ≠ .ended then { s with cancelReq := true } else s
  let s := if code ≠ 1006 ∧ s.state = .opened then { s with state := .closing, sent := s.sent ++ [.close] } else s
  if s.closer = .absent then { s with closer := .created } else s

/-- `transfer_data` calls `fail_connection` and ends (legacy/protocol.py 876-906). -/
def St.failTransfer (s : St) (code : Nat) : St := { s.fail code with transfer := .ended }

/-- legacy/protocol.py 795-803 `raise self.connection_closed_exc()` -/
def St.closedExc (s : St) : Result :=
  match s.closeCode with
  | none => .attributeError
  | some code => .connectionClosed code

/-- legacy/protocol.py 839-906 and 982-1062: what `transfer_data` does with what it reads, until it's suspended or
ends -/
def St.receive (s : St) : Input → St
  | .data full => if full then { s with transfer := .putting } else s
  | .pong => s
  | .ping =>
    match s.state with
    | .opened => { s with transfer := .ponging, sent := s.sent ++ [.other] }
    | .closing => { s with transfer := .ensuring }
    -- `ConnectionClosed` or `InvalidState`: 900-906
    | .closed | .connecting => s.failTransfer 1011
  | .close code =>
    let s := { s with closeCode := some code }
    if s.state = .opened then
      { s with state := .closing, sent := s.sent ++ [.close], transfer := .replying }
    else { s with transfer := .ended }
  | .error code => s.failTransfer code

/-- legacy/protocol.py 1222-1237: the `finally` clause of `close_connection` -/
def St.finally (s : St) (exc : Bool) : St :=
  if s.lost ∧ s.isClosing then { s with closer := .ended false }
  else
    let s := { s with isClosing := true }
    -- `return` in a `finally` clause discards the exception
    if s.lost then { s with closer := .ended false } else { s with closer := .waitClose exc }

/-- legacy/protocol.py 1209-1220 -/
def St.halfClose (cfg : Config) (s : St) : St :=
  if cfg.canWriteEof ∧ ¬ s.lost then { s with closer := .waitEof } else s.finally false

/-- legacy/protocol.py 1196-1207 -/
def St.afterTransfer (cfg : Config) (s : St) : St :=
  if cfg.client ∧ s.transfer ≠ .absent then
    if s.lost then s.finally false else { s with closer := .waitClosed }
  else s.halfClose cfg

/-- legacy/protocol.py 1239-1245 -/
def St.abort (s : St) (exc : Bool) : St :=
  if s.lost then { s with aborted := true, closer := .ended exc }
  else { s with aborted := true, closer := .waitAbort exc }

/-- legacy/protocol.py 1177-1194: `close_connection` runs when it starts or `transfer_data_task` ended. -/
def St.closerRun (cfg : Config) (s : St) : Option St :=
  match s.closer with
  | .created =>
    if s.transfer = .absent ∨ s.transfer = .ended then some (s.afterTransfer cfg)
    else some { s with closer := .waitTransfer }
  | .waitTransfer => if s.transfer = .ended then some (s.afterTransfer cfg) else none
  | _ => none

/-- legacy/protocol.py 1247-1266: `wait_for_connection_lost` returns `s.lost`. -/
def St.closerWoken (cfg : Config) (s : St) : Option St :=
  match s.closer with
  | .waitClosed => if s.lost then some (s.finally false) else some (s.halfClose cfg)
  | .waitEof => some (s.finally false)
  | .waitClose exc => if s.lost then some { s with closer := .ended false } else some (s.abort exc)
  | .waitAbort exc => some { s with closer := .ended exc }
  | _ => none

/-- `close_connection_task.cancel()`, and `CancelledError` is raised (for legacy/protocol.py 1177-1245). -/
def St.cancelCloser (s : St) : Option St :=
  match s.closer with
  -- the coroutine never runs
  | .created => some { s with closer := .ended true }
  -- this cancels `transfer_data_task`; lines 1194-1195 ignore the exception.
  | .waitTransfer => if s.transfer = .ended then some s else some { s with cancelReq := true }
  | .waitClosed | .waitEof => some (s.finally true)
  | .waitClose _ | .waitAbort _ => some { s with closer := .ended true }
  | .absent | .ended _ => none

/-- Awaiting `asyncio.shield(self.close_connection_task)`: how it ends, if it ended; `r`: what happens afterwards
(legacy/protocol.py 727, 818, 832) -/
def St.shield (s : St) (c : Call) (r : Result) : Call :=
  match s.closer with
  | .ended cancelled => .ended (if cancelled then .cancelled else r)
  | _ => c

/-- legacy/protocol.py 722-727 -/
def St.closeEnd (s : St) : Call := s.shield .closeWaitCloser .returned

/-- legacy/protocol.py 717-727 -/
def St.closeRest (s : St) : Call :=
  match s.transfer with
  | .absent => .ended .attributeError
  | .ended => s.closeEnd
  | _ => .closeWaitTransfer true

/-- legacy/protocol.py 805-837 `ensure_open` -/
def St.ensureOpen (s : St) : Call :=
  match s.state with
  | .opened => if s.transfer = .ended then s.shield .ensuring s.closedExc else .ended .returned
  | .closed => .ended s.closedExc
  | .closing => s.shield .ensuring s.closedExc
  | .connecting => .ended .invalidState

/-- A task in `_drain` may resume: 304-332. -/
def St.canDrain (s : St) (ok : Bool) : Bool := if ok then !s.paused || s.lost else s.lost

/-- A step of a call: 674-727, 1078-1105 -/
def St.callStep (s : St) (c : Call) (e : CallEv) : Option (St × Call) :=
  match c, e with
  | .closeStart, .run =>
    if s.state = .opened then some ({ s with state := .closing, sent := s.sent ++ [.close] }, .closeWriting)
    else some (s, s.closeRest)
  | .closeStart, .timeout => some (s.fail 1006, (s.fail 1006).closeRest)
  | .closeStart, .cancel => some (s, .ended .cancelled)
  | .closeWriting, .drained true => if s.canDrain true then some (s, s.closeRest) else none
  -- 1100-1105: `fail_connection()`; `ensure_open()` raises `ConnectionClosed`, which leaves `close()`
  | .closeWriting, .drained false => if s.canDrain false then some (s.fail 1006, .ended s.closedExc) else none
  | .closeWriting, .timeout => some (s.fail 1006, (s.fail 1006).closeRest)
  | .closeWriting, .cancel => some (s, .ended .cancelled)
  -- `wait_for` cancels `transfer_data_task` and waits until it has ended
  | .closeWaitTransfer true, .timeout =>
    if s.transfer = .ended then none else some ({ s with cancelReq := true }, .closeWaitTransfer false)
  | .closeWaitTransfer _, .woken => if s.transfer = .ended then some (s, s.closeEnd) else none
  -- `wait_for` cancels `transfer_data_task`; 723-724 ignore the exception
  | .closeWaitTransfer _, .cancel =>
    some (if s.transfer = .ended then s else { s with cancelReq := true }, s.closeEnd)
  | .closeWaitCloser, .woken =>
    match s.closer with
    | .ended _ => some (s, s.closeEnd)
    | _ => none
  | .closeWaitCloser, .cancel => some (s, .ended .cancelled)
  | .ensuring, .woken =>
    match s.closer with
    | .ended _ => some (s, s.shield .ensuring s.closedExc)
    | _ => none
  | .ensuring, .cancel => some (s, .ended .cancelled)
  | .writing, .drained true => if s.canDrain true then some (s, .ended .returned) else none
  | .writing, .drained false => if s.canDrain false then some (s.fail 1006, .ended s.closedExc) else none
  | .writing, .cancel => some (s, .ended .cancelled)
  | _, _ => none

/-- One step; `none`: it isn't possible (legacy/protocol.py, the lines above). -/
def step (cfg : Config) (s : St) : Ev → Option St
  | .opened =>
    -- 334-348
    if s.state = .connecting ∧ s.closer = .absent then
      some { s with state := .opened, transfer := .reading, closer := .created }
    else none
  | .refused => if s.state ≠ .opened ∧ s.transfer = .absent ∧ s.closer = .absent then some (s.fail 1006) else none
  | .fail code => if s.transfer ≠ .absent then some (s.fail code) else none
  | .receive i =>
    -- `readexactly` raises `reader.exception()`
    if s.transfer = .reading ∧ ¬ s.cancelReq ∧ (s.readerExc → i.isError) then some (s.receive i)
    else none
  | .room => if s.transfer = .putting ∧ ¬ s.cancelReq then some { s with transfer := .reading } else none
  | .transferDrained ok =>
    if s.canDrain ok ∧ ¬ s.cancelReq then
      match s.transfer with
      | .ponging => if ok then some { s with transfer := .reading } else some (s.failTransfer 1011)
      -- 1012-1015
      | .replying => if ok then some { s with transfer := .ended } else some (s.failTransfer 1006)
      | _ => none
    else none
  | .transferWoken =>
    match s.transfer, s.closer with
    | .ensuring, .ended _ => if s.cancelReq then none else some (s.failTransfer 1011)
    | _, _ => none
  | .transferCancelled =>
    if s.cancelReq ∧ s.transfer ≠ .absent ∧ s.transfer ≠ .ended then some { s with transfer := .ended } else none
  | .cancelTransfer =>
    if s.transfer ≠ .absent ∧ s.transfer ≠ .ended then some { s with cancelReq := true } else none
  | .closerRun => s.closerRun cfg
  | .closerLost => if s.lost then s.closerWoken cfg else none
  | .closerTimeout => s.closerWoken cfg
  | .cancelCloser => s.cancelCloser
  | .transportClosing => some { s with isClosing := true }
  | .lost exc =>
    -- 1379-1410
    if s.lost then none
    else some { s with state := .closed, closeCode := some (s.closeCode.getD 1006), lost := true, readerExc := exc }
  | .pause => if s.paused then none else some { s with paused := true }
  | .resume => if s.paused then some { s with paused := false } else none
  | .close => some { s with calls := s.calls ++ [.closeStart] }
  | .ensure => some { s with calls := s.calls ++ [s.ensureOpen] }
  | .write =>
    if s.state = .opened ∧ s.transfer ≠ .ended then
      some { s with sent := s.sent ++ [.other], calls := s.calls ++ [.writing] }
    else some { s with calls := s.calls ++ [s.ensureOpen] }
  | .call i e =>
    match s.calls[i]? with
    | none => none
    | some c =>
      match s.callStep c e with
      | none => none
      | some (s', c') => some { s' with calls := s'.calls.set i c' }

/-- Several steps (legacy/protocol.py, the lines above) -/
def run (cfg : Config) (s : St) : List Ev → Option St
  | [] => some s
  | e :: es => (step cfg s e).bind (run cfg · es)

end WS.LegacyLife
