import Verif.Model.LegacySystem

/-!
# `async with serve(...)`: /repo/src/websockets/legacy/server.py 632-646, 947-973

A `Serve` object creates an asyncio server each time it's entered.  All of them use its `WebSocketServer`, which is described
in `Verif.Model.LegacySystem` with its connections.

asyncio starts listening in `create_server`, which then lets the event loop run once.  The task that called `create_server` is
already scheduled when asyncio looks for new connections, so it calls `wrap` before the first connection is made.  If that
task is cancelled at this point, asyncio goes on listening.  Connections made in this case aren't represented.
-/

namespace WS.LegacyServe

open LegacySystem (Sys)

/-- A task that runs `async with serve_object as server:` (952-962) -/
inductive User where
  /-- 971: in `create_server`; the rank of the asyncio server -/
  | creating (k : Nat)
  /-- in the body of the statement -/
  | body
  /-- 962: in `wait_closed` -/
  | leaving
  /-- `wait_closed` returned. -/
  | ended
  /-- `__aenter__` or `__aexit__` raised an exception. -/
  | interrupted
deriving DecidableEq

/-- A `Serve` object (947-948), the asyncio servers that it created and tasks that use it -/
structure St where
  /-- `ws_server` -/
  sys : Sys := {}
  /-- asyncio servers that were created; whether each of them is listening -/
  servers : List Bool := []
  /-- 646: `ws_server.server` -/
  wrapped : Option Nat := none
  users : List User := []

/-- What may happen -/
inductive Event where
  /-- 953, 971: `create_server` starts listening. -/
  | enter
  /-- 953, 971: `create_server` raises an exception. -/
  | refused
  /-- 972-973: `create_server` returns. -/
  | entered (u : Nat)
  /-- 961-962: the body of the statement ends, in any way. -/
  | leave (u : Nat)
  /-- 748: `wait_closed` returns. -/
  | left (u : Nat)
  /-- the task is cancelled in `create_server` or in `wait_closed`, which is shielded (748). -/
  | cancel (u : Nat)
  /-- anything else -/
  | sys (e : LegacySystem.Event)

/-- What one event does; `none` if it can't occur (legacy/server.py 632-646, 674-748, 947-973) -/
def step (cfg : Nat → LegacyLife.Config) (s : St) : Event → Option St
  | .enter => some { s with servers := s.servers ++ [true], users := s.users ++ [.creating s.servers.length] }
  | .refused => some { s with users := s.users ++ [.interrupted] }
  | .entered u =>
    match s.users[u]? with
    | some (.creating k) =>
      -- 664-672: `is_serving()` is about this server from now on.
      some { s with
        users := s.users.set u .body
        wrapped := some k
        sys := { s.sys with serving := s.servers.getD k false } }
    | _ => none
  | .leave u =>
    match s.users[u]? with
    | some .body =>
      match LegacySystem.step cfg s.sys .serverClose with
      | none => none
      | some sys => some { s with users := s.users.set u .leaving, sys := sys }
    | _ => none
  | .left u =>
    match s.users[u]? with
    | some .leaving => if s.sys.closer = .done then some { s with users := s.users.set u .ended } else none
    | _ => none
  | .cancel u =>
    match s.users[u]? with
    | some (.creating _) | some .leaving => some { s with users := s.users.set u .interrupted }
    | _ => none
  | .sys e =>
    match s.wrapped with
    | none => none
    | some k =>
      match LegacySystem.step cfg s.sys e with
      | none => none
      | some sys =>
        some { s with
          sys := sys
          -- 703: `self.server.close()`
          servers := match e with
            | .stop => s.servers.set k false
            | _ => s.servers }

/-- Several events (legacy/server.py 632-646, 674-748, 947-973) -/
def run (cfg : Nat → LegacyLife.Config) (s : St) : List Event → Option St
  | [] => some s
  | e :: es =>
    match step cfg s e with
    | none => none
    | some s' => run cfg s' es

end WS.LegacyServe
