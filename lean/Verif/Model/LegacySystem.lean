import Verif.Model.LegacyHandler

/-!
# A legacy server with its connections: /repo/src/websockets/legacy/server.py 599-748, with everything it runs

`Verif.Model.LegacyHandler` describes a connection, its handler and its tasks in detail.  Here is a server with any
number of these.  `Verif.Model.LegacyRegistry` describes the same server, with connections described in a few words.

The tasks `websocket.close(1001)` that the server creates are calls of `Verif.Model.LegacyLife`.  Their code isn't
represented there.

asyncio may call `connection_made` even after the server was closed; see `Verif.Model.LegacyRegistry`.
-/

namespace WS.LegacySystem

/-- `close_task` (639, 691) and where it is suspended -/
inductive Closer where
  /-- it doesn't exist -/
  | none
  /-- 691: it's scheduled -/
  | created
  /-- 708: the underlying server is closed -/
  | stopped
  /-- 717: waiting for tasks that close connections: the rank of the connection, the rank of the call -/
  | closing (tasks : List (Nat × Nat))
  /-- 730: waiting for the handlers of these connections -/
  | waiting (ids : List Nat)
  /-- 738: `closed_waiter` is done -/
  | done
deriving DecidableEq

/-- `WebSocketServer` and all connections ever made, which are identified by their rank (107-118, 599-660) -/
structure Sys where
  conns : List LegacyHandler.Server.St := []
  /-- 664: `is_serving()` -/
  serving : Bool := true
  closer : Closer := .none

/-- What may happen -/
inductive Event where
  /-- 107-118: a connection is made -/
  | accept
  /-- a step of a connection, of its handler or of its tasks -/
  | conn (i : Nat) (e : LegacyHandler.Server.Event)
  /-- 674-691: `close()` is called -/
  | serverClose
  /-- 702-710: `_close` closes the underlying server -/
  | stop
  /-- 716-722: `_close` creates tasks to close connections -/
  | snapshot
  /-- 729-735: all these tasks ended -/
  | tasksEnded
  /-- 738: all handlers ended -/
  | handlersEnded

/-- 636: `self.websockets`, in any order -/
def Sys.websockets (s : Sys) : List Nat :=
  (List.range s.conns.length).filter fun i => (s.conns[i]?.map (·.registered)).getD false

/-- 716-722: a task that runs `websocket.close(1001)` is created. -/
def createTask (c : LegacyHandler.Server.St) : LegacyHandler.Server.St :=
  if c.registered then { c with life := { c.life with calls := c.life.calls ++ [.closeStart] } } else c

/-- A task created in 716-722 ended. -/
def Sys.taskEnded (s : Sys) (t : Nat × Nat) : Bool :=
  match s.conns[t.1]? with
  | none => false
  | some c =>
    match c.life.calls[t.2]? with
    | some (.ended _) => true
    | _ => false

/-- 729-735: `handler_task` ended. -/
def Sys.handlerEnded (s : Sys) (i : Nat) : Bool :=
  match s.conns[i]? with
  | none => false
  | some c =>
    match c.phase with
    | .ended _ => true
    | _ => false

/-- What one event does; `none` if it can't occur (legacy/server.py 107-225, 599-748); `cfg`: the parameters of each
connection. -/
def step (cfg : Nat → LegacyLife.Config) (s : Sys) : Event → Option Sys
  | .accept => some { s with conns := s.conns ++ [{}] }
  | .conn i e =>
    match s.conns[i]? with
    | none => none
    | some c =>
      -- 547-555: `AbortHandshake`
      if e = .accept ∧ s.serving = false then none
      else
        match LegacyHandler.Server.step (cfg i) c e with
        | none => none
        | some c' => some { s with conns := s.conns.set i c' }
  | .serverClose =>
    match s.closer with
    | .none => some { s with closer := .created }
    | _ => some s
  | .stop =>
    match s.closer with
    | .created => some { s with closer := .stopped, serving := false }
    | _ => none
  | .snapshot =>
    match s.closer with
    | .stopped =>
      some { s with
        conns := s.conns.map createTask
        closer := .closing (s.websockets.map fun i => (i, (s.conns[i]?.map (·.life.calls.length)).getD 0)) }
    | _ => none
  | .tasksEnded =>
    match s.closer with
    | .closing tasks => if tasks.all s.taskEnded then some { s with closer := .waiting s.websockets } else none
    | _ => none
  | .handlersEnded =>
    match s.closer with
    | .waiting ids => if ids.all s.handlerEnded then some { s with closer := .done } else none
    | _ => none

/-- Several events (legacy/server.py 107-225, 599-748) -/
def run (cfg : Nat → LegacyLife.Config) (s : Sys) : List Event → Option Sys
  | [] => some s
  | e :: es =>
    match step cfg s e with
    | none => none
    | some s' => run cfg s' es

end WS.LegacySystem
