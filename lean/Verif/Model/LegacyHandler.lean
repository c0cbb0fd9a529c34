import Verif.Model.LegacyLife

/-!
# Who owns a connection: /repo/src/websockets/legacy/server.py 107-225 and legacy/client.py 512-554

On a server, the task `handler` performs the opening handshake, runs the handler of the application, and closes the
connection.  On a client, `async with connect(...)` does this in a task of the application.  Both are described on top of
`Verif.Model.LegacyLife`, which describes the other tasks of the connection: any event of these tasks, of the
peer, of the transport and of other tasks of the application may occur between two steps.

Simplifications.
* `Verif.Model.LegacyServer` and `Verif.Model.LegacyClient` say how the opening handshake ends; here it ends in any way.
* When `close()` is called during the opening handshake, its timeout doesn't elapse before its first step
  (`close_timeout` is positive).
* `CancelledError` isn't a subclass of `Exception` (Python ≥ 3.8).
-/

namespace WS.LegacyHandler

open LegacyLife (St Ev Config)

/-- How a coroutine ends -/
inductive End where
  | returned
  /-- An exception was caught or raised. -/
  | failed
  | cancelled
deriving DecidableEq, Repr

/-- Events of the other tasks that may occur during the opening handshake (`opening`) or later: `connection_open`,
`fail_connection` at the end of the opening handshake are steps of the task described here
(legacy/protocol.py 334-348, 1268-1327). -/
def allowed (opening : Bool) : Ev → Bool
  | .opened | .refused => false
  | .call _ .timeout => !opening
  | _ => true

/-- How a call to `close()` ended, if it ended (legacy/protocol.py 674-727) -/
def closeResult (s : St) (i : Nat) : Option End :=
  match s.calls[i]? with
  | some (.ended .returned) => some .returned
  | some (.ended .cancelled) => some .cancelled
  | some (.ended _) => some .failed
  | _ => none

namespace Server

/-- Where `handler` is suspended -/
inductive Phase where
  /-- 118: the task was created -/
  | created
  /-- 131: in the opening handshake -/
  | handshake
  /-- 193: in `wait_closed` -/
  | refusing
  /-- 197: in the handler of the application -/
  | running
  /-- 205: in `close`, which is a call of `Verif.Model.LegacyLife` -/
  | closing (call : Nat)
  | ended (e : End)
deriving DecidableEq, Repr

structure St where
  life : LegacyLife.St := {}
  phase : Phase := .created
  /-- 117, 225: the connection is in `ws_server.websockets`. -/
  registered : Bool := true
  /-- HTTP responses that were written: their status -/
  responses : List Nat := []
  /-- how many times the handler of the application was called -/
  called : Nat := 0

inductive Event where
  /-- another task -/
  | life (e : Ev)
  /-- the task starts -/
  | start
  /-- `handshake` wrote a response and calls `connection_open` -/
  | accept
  /-- 141-193: `handshake` raises an exception, for which a response with this status is sent -/
  | reject (status : Nat)
  /-- `handshake` raises `ConnectionError` (138-140), or the response can't be encoded (191) -/
  | drop
  /-- 193: `wait_closed` returns -/
  | woken
  /-- 197: the handler of the application returns -/
  | returned
  /-- 198: it raises an exception -/
  | raised
  /-- 205: `close` returns or raises an exception -/
  | closed
  /-- the task is cancelled, and the handler of the application doesn't catch `CancelledError` -/
  | cancel
deriving DecidableEq

/-- 213-225: the `except` and `finally` clauses -/
def St.finish (s : St) (e : End) : St :=
  let life := if e = .failed then { s.life with isClosing := true } else s.life
  { s with life := life, phase := .ended e, registered := false }

/-- 141-193: a response is sent, and the connection fails. -/
def St.reject (s : St) (status : Nat) : St :=
  { s with life := s.life.fail 1006, phase := .refusing, responses := s.responses ++ [status] }

/-- One step; `none`: it isn't possible (legacy/server.py 107-225). -/
def step (cfg : Config) (s : St) : Event → Option St
  | .life e =>
    if allowed (s.phase = .created ∨ s.phase = .handshake) e then
      match LegacyLife.step cfg s.life e with
      | none => none
      | some life => some { s with life := life }
    else none
  | .start => if s.phase = .created then some { s with phase := .handshake } else none
  | .accept =>
    if s.phase = .handshake then
      let s := { s with responses := s.responses ++ [101] }
      match LegacyLife.step cfg s.life .opened with
      | some life => some { s with life := life, phase := .running, called := s.called + 1 }
      -- legacy/protocol.py 345: `AssertionError`
      | none => some (s.reject 500)
    else none
  | .reject status => if s.phase = .handshake then some (s.reject status) else none
  | .drop => if s.phase = .handshake then some (s.finish .failed) else none
  | .woken => if s.phase = .refusing ∧ s.life.lost then some (s.finish .returned) else none
  | .returned =>
    if s.phase = .running then
      match LegacyLife.step cfg s.life .close with
      | none => none
      | some life => some { s with life := life, phase := .closing s.life.calls.length }
    else none
  | .raised =>
    if s.phase = .running then
      let s := if s.life.state ≠ .closed then { s with life := s.life.fail 1011 } else s
      some (s.finish .failed)
    else none
  | .closed =>
    match s.phase with
    | .closing i => (closeResult s.life i).map s.finish
    | _ => none
  | .cancel =>
    match s.phase with
    -- the coroutine never runs
    | .created => some { s with phase := .ended .cancelled }
    | .handshake | .refusing | .running => some (s.finish .cancelled)
    -- this cancels `close`: an event of `Verif.Model.LegacyLife`
    | .closing _ | .ended _ => none

/-- Several steps (legacy/server.py 107-225) -/
def run (cfg : Config) (s : St) : List Event → Option St
  | [] => some s
  | e :: es => (step cfg s e).bind (run cfg · es)

end Server

namespace Client

/-- Where `async with connect(...)` is suspended -/
inductive Phase where
  /-- 537: in the opening handshake -/
  | handshake
  /-- 546: in `wait_closed` -/
  | refusing
  /-- 514: in the body of the statement -/
  | body
  /-- 522: in `close` -/
  | closing (call : Nat)
  /-- 514: `connect` raised an exception. -/
  | refused (e : End)
  /-- the statement ended, `__aexit__` in this way. -/
  | ended (e : End)
deriving DecidableEq, Repr

structure St where
  life : LegacyLife.St := {}
  phase : Phase := .handshake

inductive Event where
  /-- another task -/
  | life (e : Ev)
  /-- `handshake` calls `connection_open` -/
  | accept
  /-- `handshake` raises an exception -/
  | reject
  /-- 546: `wait_closed` returns -/
  | woken
  /-- the body of the statement ends, or raises an exception, or is cancelled -/
  | leave
  /-- 522: `close` returns or raises an exception -/
  | closed
  /-- the task is cancelled in `connect` -/
  | cancel
deriving DecidableEq

/-- 544-547 -/
def St.reject (s : St) : St := { s with life := s.life.fail 1006, phase := .refusing }

/-- One step; `none`: it isn't possible (legacy/client.py 512-554). -/
def step (cfg : Config) (s : St) : Event → Option St
  | .life e =>
    if allowed (s.phase = .handshake) e then
      match LegacyLife.step cfg s.life e with
      | none => none
      | some life => some { s with life := life }
    else none
  | .accept =>
    if s.phase = .handshake then
      match LegacyLife.step cfg s.life .opened with
      | some life => some { s with life := life, phase := .body }
      -- legacy/protocol.py 345: `AssertionError`
      | none => some s.reject
    else none
  | .reject => if s.phase = .handshake then some s.reject else none
  | .woken => if s.phase = .refusing ∧ s.life.lost then some { s with phase := .refused .failed } else none
  | .leave =>
    if s.phase = .body then
      match LegacyLife.step cfg s.life .close with
      | none => none
      | some life => some { s with life := life, phase := .closing s.life.calls.length }
    else none
  | .closed =>
    match s.phase with
    | .closing i => (closeResult s.life i).map fun e => { s with phase := .ended e }
    | _ => none
  | .cancel =>
    match s.phase with
    | .handshake | .refusing => some { s with phase := .refused .cancelled }
    | _ => none

/-- Several steps (legacy/client.py 512-554) -/
def run (cfg : Config) (s : St) : List Event → Option St
  | [] => some s
  | e :: es => (step cfg s e).bind (run cfg · es)

end Client

end WS.LegacyHandler
