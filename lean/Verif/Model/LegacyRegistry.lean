import Verif.Model.LegacyServer

/-!
# Connections of a legacy server and its shutdown: /repo/src/websockets/legacy/server.py 107-225, 599-748

A transition system.  Its steps are the pieces of code that run without being suspended: of the server, of the
handler of a connection, of the tasks `websocket.close(1001)` created by the server, and of the tasks of a connection
as far as the server observes them.  `Verif.Model.LegacyConn` and `Verif.Model.LegacyClose` describe the latter in
detail; here they take steps at any time.

asyncio may call `connection_made` even after the server was closed, for connections accepted before: bpo-34852
(see the comment at 706-707) or TLS handshakes in progress.  So connections may be made at any time.
-/

namespace WS.LegacyRegistry

open WS.LegacyServer (Setup openingHandshake)

/-- legacy/protocol.py: `State` -/
inductive State where
  | connecting
  | open
  | closing
  | closed
deriving DecidableEq, Repr

/-- Where the handler of a connection (120-225) is suspended. -/
inductive Phase where
  /-- 131: in the opening handshake -/
  | handshake
  /-- 193: `wait_closed`, after a response other than 101 -/
  | waitClosed
  /-- 197: in `ws_handler` -/
  | running
  /-- 205: in `close` -/
  | closing
  /-- it ended -/
  | done
deriving DecidableEq, Repr

/-- A connection, as far as the server is concerned. -/
structure Conn where
  state : State := .connecting
  phase : Phase := .handshake
  /-- the opening handshake succeeded; the task `transfer_data_task` exists -/
  opened : Bool := false
  /-- the status of the response in the opening handshake -/
  status : Option Nat := none
  /-- the code of the close frame that was sent -/
  code : Option Nat := none
  /-- `transport.close()` or `transport.abort()` was called -/
  transportClosed : Bool := false
  /-- `close_connection_task` exists and ended -/
  closeEnded : Bool := false
  /-- `connection_lost` was called -/
  lost : Bool := false
  /-- the task of the handler was cancelled; the library never does this -/
  cancelled : Bool := false
deriving DecidableEq, Repr

/-- A task running `websocket.close(1001)` (716-722) -/
inductive Task where
  | scheduled
  | running
  | ended
deriving DecidableEq, Repr

/-- `close_task` (639, 691) and where it is suspended. -/
inductive Closer where
  /-- it doesn't exist -/
  | none
  /-- 691: it's scheduled -/
  | created
  /-- 708: the underlying server is closed -/
  | stopped
  /-- 717: waiting for the tasks that close connections -/
  | closing (tasks : List (Nat × Task))
  /-- 730: waiting for the handlers of these connections -/
  | waiting (ids : List Nat)
  /-- 738: `closed_waiter` is done -/
  | done
deriving DecidableEq, Repr

/-- `WebSocketServer` and all connections ever made, which are identified by their rank -/
structure Server where
  conns : List Conn := []
  /-- 636: `self.websockets` -/
  websockets : List Nat := []
  /-- 664: `is_serving()` -/
  serving : Bool := true
  closer : Closer := .none
  /-- `self.websockets.remove` (660) raised `KeyError` -/
  keyError : Bool := false
deriving DecidableEq, Repr

/-- What may happen. -/
inductive Event (X : Type) where
  /-- 107-118: a connection is made -/
  | accept
  /-- the connection finished reading a request (or failed, `none`) and the hook `process_request`, and goes on
  with the opening handshake -/
  | handshake (i : Nat) (s : Setup X) (request : Option Request)
  /-- 138-140: a `ConnectionError` in the opening handshake -/
  | handshakeError (i : Nat)
  /-- the connection of a refused client is closed -/
  | waited (i : Nat)
  /-- `ws_handler` returned -/
  | returned (i : Nat)
  /-- `ws_handler` raised an exception -/
  | raised (i : Nat)
  /-- `close` ended in the handler -/
  | closed (i : Nat)
  /-- the task of the handler is cancelled -/
  | cancel (i : Nat)
  /-- the peer or another task of the application starts the closing handshake, or the connection is failed; a
  close frame with this code is sent -/
  | startClosing (i code : Nat)
  /-- `close_connection` ends (legacy/protocol.py 1177-1245) -/
  | closeEnds (i : Nat)
  /-- `connection_lost` is called (legacy/protocol.py 1379-1404) -/
  | lose (i : Nat)
  /-- 674-691: `close()` is called -/
  | serverClose
  /-- 702-710: `_close` closes the underlying server -/
  | stop
  /-- 716-722: `_close` creates tasks to close connections -/
  | snapshot
  /-- the task that closes a connection starts -/
  | taskStarts (i : Nat)
  /-- the task that closes a connection ends -/
  | taskEnds (i : Nat)
  /-- 729-735: all these tasks ended -/
  | tasksEnded
  /-- 738: all handlers ended -/
  | handlersEnded

/-- 655-660 `unregister` -/
def Server.unregister (s : Server) (i : Nat) : Server :=
  { s with websockets := s.websockets.erase i, keyError := s.keyError || !s.websockets.contains i }

/-- The handler of a connection ends: 219-225. -/
def Server.endHandler (s : Server) (i : Nat) (c : Conn) : Server :=
  { s with conns := s.conns.set i { c with phase := .done } }.unregister i

/-- Replace a connection (legacy/server.py 632-660). -/
def Server.put (s : Server) (i : Nat) (c : Conn) : Server := { s with conns := s.conns.set i c }

/-- legacy/protocol.py 1107-1123, 1268-1327: a close frame is sent if the state is OPEN. -/
def Conn.sendClose (c : Conn) (code : Nat) : Conn :=
  if c.state = .open then { c with state := .closing, code := some code } else c

/-- What one event does; `none` if it can't occur (legacy/server.py 107-225, 599-748). -/
def step {X : Type} (s : Server) : Event X → Option Server
  | .accept =>
    some { s with conns := s.conns ++ [{}], websockets := s.websockets ++ [s.conns.length] }
  | .handshake i setup request =>
    match s.conns[i]? with
    | none => none
    | some c =>
      if c.phase = .handshake then
        match openingHandshake setup s.serving request with
        | .opened _ =>
          -- legacy/protocol.py 334-352 `connection_open`, then `ws_handler` is called
          if c.state = .connecting then
            some (s.put i { c with state := .open, phase := .running, opened := true, status := some 101 })
          else
            -- the connection is lost: `AssertionError`, then 175-193
            some (s.put i { c with phase := .waitClosed, status := some 500 })
        | .refused status _ _ _ =>
          -- 191-193: `fail_connection` creates `close_connection_task`
          some (s.put i { c with phase := .waitClosed, status := some status })
        | .dropped =>
          -- 213-218
          some (s.endHandler i { c with transportClosed := true })
      else none
  | .handshakeError i =>
    match s.conns[i]? with
    | none => none
    | some c =>
      if c.phase = .handshake then some (s.endHandler i { c with transportClosed := true }) else none
  | .waited i =>
    match s.conns[i]? with
    | none => none
    | some c =>
      if c.phase = .waitClosed ∧ c.lost = true then some (s.endHandler i c) else none
  | .returned i =>
    match s.conns[i]? with
    | none => none
    | some c =>
      if c.phase = .running then some (s.put i { c.sendClose 1000 with phase := .closing }) else none
  | .raised i =>
    match s.conns[i]? with
    | none => none
    | some c =>
      -- 198-202, 213-218
      if c.phase = .running then some (s.endHandler i { c.sendClose 1011 with transportClosed := true }) else none
  | .closed i =>
    match s.conns[i]? with
    | none => none
    | some c =>
      -- `close` waits for `close_connection_task`; it may raise an exception if the connection is lost
      if c.phase = .closing ∧ (c.closeEnded = true ∨ c.lost = true) then some (s.endHandler i c) else none
  | .cancel i =>
    match s.conns[i]? with
    | none => none
    | some c =>
      if c.phase = .done then none else some (s.endHandler i { c with cancelled := true })
  | .startClosing i code =>
    match s.conns[i]? with
    | none => none
    | some c => if c.state = .open then some (s.put i (c.sendClose code)) else none
  | .closeEnds i =>
    match s.conns[i]? with
    | none => none
    | some c =>
      if c.opened = true ∨ c.phase = .waitClosed then
        -- 1222-1245: nothing is left to do or the transport is closed or aborted: `C58_transport`
        some (s.put i { c with closeEnded := true, transportClosed := c.transportClosed || !c.lost })
      else none
  | .lose i =>
    match s.conns[i]? with
    | none => none
    | some c => some (s.put i { c with lost := true, state := .closed })
  | .serverClose =>
    match s.closer with
    | .none => some { s with closer := .created }
    | _ => some s
  | .stop =>
    match s.closer with
    | .created => some { s with closer := .stopped, serving := false }
    | _ => none
  | .snapshot =>
    match s.closer with
    | .stopped => some { s with closer := .closing (s.websockets.map (·, .scheduled)) }
    | _ => none
  | .taskStarts i =>
    match s.closer, s.conns[i]? with
    | .closing tasks, some c =>
      if (i, Task.scheduled) ∈ tasks then
        if c.opened then
          some { s.put i (c.sendClose 1001) with
            closer := .closing (tasks.map fun t => if t.1 = i then (i, .running) else t) }
        else
          -- legacy/protocol.py 717: there's no `transfer_data_task`: `AttributeError`
          some { s with closer := .closing (tasks.map fun t => if t.1 = i then (i, .ended) else t) }
      else none
    | _, _ => none
  | .taskEnds i =>
    match s.closer, s.conns[i]? with
    | .closing tasks, some c =>
      if (i, Task.running) ∈ tasks ∧ (c.closeEnded = true ∨ c.lost = true) then
        some { s with closer := .closing (tasks.map fun t => if t.1 = i then (i, .ended) else t) }
      else none
    | _, _ => none
  | .tasksEnded =>
    match s.closer with
    | .closing tasks =>
      if ∀ t ∈ tasks, t.2 = Task.ended then some { s with closer := .waiting s.websockets } else none
    | _ => none
  | .handlersEnded =>
    match s.closer with
    | .waiting ids =>
      if ∀ i ∈ ids, s.conns[i]?.map (·.phase) = some .done then some { s with closer := .done } else none
    | _ => none

/-- Several events (legacy/server.py 107-225, 599-748) -/
def run {X : Type} (s : Server) : List (Event X) → Option Server
  | [] => some s
  | e :: es =>
    match step s e with
    | none => none
    | some s' => run s' es

end WS.LegacyRegistry
