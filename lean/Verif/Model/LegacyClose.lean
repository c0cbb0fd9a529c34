import Verif.Model.Prelude

/-!
# How long closing a connection takes: /repo/src/websockets/legacy/protocol.py 674-727, 1107-1123, 1177-1327

`close()`, `transfer_data_task` and `close_connection_task` run concurrently, but each waits for events in a
fixed order, so the time when each of them ends is a function of the time when these events occur.  Times are
numbers of arbitrary units.

A `World` says when events occur that the code of the library doesn't determine.  These times are arbitrary, so
they may depend on anything that happened before.

Assumptions about asyncio: code runs in no time; a task that is cancelled ends at once (in `transfer_data` every
suspension point lets `CancelledError` through, lines 839-906); `wait_for` raises `TimeoutError` and cancels the
task it waits for exactly when the timeout elapses, unless it is done then; methods of transports don't raise
exceptions.
-/

namespace WS.LegacyClose

/-- How `_drain` (1099) ends. -/
inductive Drain where
  | ok
  | connectionError
  | otherError
deriving DecidableEq

/-- Events that the library doesn't control. -/
structure World where
  /-- when the close frame is written and flow control allows to continue, if this isn't cancelled; `none`: never -/
  drain : Option (Nat × Drain)
  /-- when `transfer_data_task` ends if `close()` doesn't cancel it -/
  transfer : Option Nat
  /-- when `connection_lost` is called -/
  lost : Option Nat
  /-- `transport.can_write_eof()`: there's no TLS -/
  canWriteEof : Bool
  /-- `transport.is_closing()`, after `connection_lost` was called -/
  closing : Bool

/-- Methods of the transport -/
inductive Method where
  | writeEof
  | close
  | abort
deriving DecidableEq, Repr

/-- An event that may never occur occurred at this time (legacy/protocol.py 1177-1266). -/
def occurred (e : Option Nat) (t : Nat) : Bool :=
  match e with
  | none => false
  | some d => d ≤ t

/-- `await wait_for(event, timeout)`: whether the event occurred, and the time
(`asyncio.wait_for`, at legacy/protocol.py 695-723, 1247-1266). -/
def waitFor (event : Option Nat) (timeout t : Nat) : Bool × Nat :=
  match event with
  | none => (false, t + timeout)
  | some d => if d ≤ t + timeout then (true, max d t) else (false, t + timeout)

/-- legacy/protocol.py 1222-1245: the `finally` clause of `close_connection`: when it ends, and what it calls at
which times -/
def closeTransport (w : World) (timeout t : Nat) : Nat × List (Method × Nat) :=
  if occurred w.lost t && w.closing then (t, [])
  else
    match waitFor w.lost timeout t with
    | (true, t') => (t', [(.close, t)])
    | (false, t') => ((waitFor w.lost timeout t').2, [(.close, t), (.abort, t')])

/-- legacy/protocol.py 1206-1215: half-closing the connection -/
def halfClose (w : World) (timeout t : Nat) : Nat × List (Method × Nat) :=
  if w.canWriteEof then
    let (t', calls) := closeTransport w timeout (waitFor w.lost timeout t).2
    (t', (.writeEof, t) :: calls)
  else closeTransport w timeout t

/-- legacy/protocol.py 1177-1245 `close_connection`, when `transfer_data_task` ended at time `t`; `opened`: there
is such a task.  (Cancelling `close_connection_task` isn't modelled: the library never does it.) -/
def closeConnection (w : World) (timeout : Nat) (client opened : Bool) (t : Nat) : Nat × List (Method × Nat) :=
  if client && opened then
    match waitFor w.lost timeout t with
    | (true, t') => closeTransport w timeout t'
    | (false, t') => halfClose w timeout t'
  else halfClose w timeout t

/-- The time when `transfer_data_task` ends if it's cancelled at time `t`
(legacy/protocol.py 839-906, cancelled at 716-723 and 1297). -/
def cancelTransfer (w : World) (t : Nat) : Nat :=
  match w.transfer with
  | none => t
  | some d => min d t

/-- How `close()` ends. -/
inductive Ending where
  | returned
  /-- `ConnectionClosed`, or an exception of `_drain` that isn't a `ConnectionError` -/
  | raised
deriving DecidableEq, Repr

/-- legacy/protocol.py 717-727: the rest of `close()` from time `t`; `cancelled`: `fail_connection()` cancelled
`transfer_data_task` at this time. -/
def closeRest (w : World) (timeout : Nat) (client cancelled : Bool) (t : Nat) : Ending × Nat × List (Method × Nat) :=
  let ended := if cancelled then cancelTransfer w t else cancelTransfer w (t + timeout)
  let (t', calls) := closeConnection w timeout client true ended
  (.returned, max t' (max t ended), calls)

/-- legacy/protocol.py 674-727 `close()`, called at time `t0` when the opening handshake has succeeded;
`isOpen`: the state is OPEN, otherwise `write_close_frame` does nothing. -/
def close (w : World) (timeout : Nat) (client isOpen : Bool) (t0 : Nat) : Ending × Nat × List (Method × Nat) :=
  if isOpen then
    match w.drain with
    | none => closeRest w timeout client true (t0 + timeout)
    | some (d, r) =>
      if max d t0 ≤ t0 + timeout then
        match r with
        | .ok => closeRest w timeout client false (max d t0)
        | .otherError =>
          -- the exception leaves `close()`
          (.raised, max d t0, [])
        | .connectionError =>
          -- 1100-1105: `fail_connection()`, then `ensure_open()` waits for `close_connection_task` and raises
          -- `ConnectionClosed`, unless the timeout elapses before
          let (t', calls) := closeConnection w timeout client true (cancelTransfer w (max d t0))
          if t' ≤ t0 + timeout then (.raised, max t' (max d t0), calls)
          else (.returned, max t' (t0 + timeout), calls)
      else closeRest w timeout client true (t0 + timeout)
  else closeRest w timeout client false t0

end WS.LegacyClose
