import Verif.Model.Connection

/-!
# Keepalive: /repo/src/websockets/legacy/protocol.py 1125-1175

`keepalive_ping` runs concurrently with `transfer_data`, which reads the pongs, and with the application.  A step
is everything that a task does between two points where it's suspended; `Ev` lists what may happen next.  Times
are numbers of arbitrary units.

Simplifications.
* Code runs in no time: time doesn't pass while a task can run.
* Frames that the peer sends are complete messages, pings and pongs; anything else ends `transfer_data`, or the
  connection.
* A task that is suspended in `_drain` resumes when the transport resumes writing (see `Verif.Model.LegacyDrain` for
  the details).
* `asyncio.wait_for` raises `TimeoutError` when the timeout elapses, unless the future is done.
* `sleep` and `wait_for` accept the argument `loop`: Python < 3.10.
-/

namespace WS.LegacyKeepalive

/-- Parameters of the connection: `ping_interval` (if it's `None`, there's no keepalive), `ping_timeout`,
`max_queue` -/
structure Config where
  interval : Nat
  timeout : Option Nat
  maxQueue : Option Nat

/-- What the peer sends -/
inductive Item where
  | message
  | ping
  | pong (data : Bytes)
deriving DecidableEq

/-- How `keepalive_ping` ends: lines 1171-1172, 1160-1163, 1174-1175 (after line 772), 1168-1169 -/
inductive Exit where
  | connectionClosed
  | timedOut
  | keyError
  | cancelled
deriving DecidableEq

/-- Where `keepalive_ping` is suspended -/
inductive Phase where
  /-- 1141 -/
  | sleeping (wake : Nat)
  /-- 1152, in `ping` (770), in `_drain` -/
  | pinging (data : Bytes)
  /-- 1152, in `ping` (754), in `ensure_open` (818 or 832) -/
  | stuck
  /-- 1156 -/
  | waiting (data : Bytes) (deadline : Nat)
  | exited (how : Exit)
deriving DecidableEq

/-- Where `transfer_data` is suspended: in `read_frame`; waiting for room in the queue (859); in the `_drain` of a
pong; in the `ensure_open` of a pong; or it has ended. -/
inductive Transfer where
  | reading
  | putting
  | ponging
  | stuck
  | exited
deriving DecidableEq

/-- What happened: the connection sent a ping, a frame arrived, `transfer_data` read a frame. -/
inductive Hist where
  | sent (data : Bytes)
  | arrived (i : Item)
  | read (i : Item)
deriving DecidableEq

structure St where
  now : Nat := 0
  state : State := .opened
  /-- the transport has called `pause_writing` -/
  paused : Bool := false
  phase : Phase
  /-- the keys of `pings`; whether `keepalive_ping` sent the ping or holds its future -/
  pings : List (Bytes × Bool) := []
  transfer : Transfer := .reading
  /-- frames that haven't been read yet, and when they arrived -/
  incoming : List (Item × Nat) := []
  /-- `len(messages)` -/
  messages : Nat := 0
  /-- when `keepalive_ping` failed the connection -/
  failed : Option Nat := none
  /-- when `transfer_data` last read a frame -/
  lastRead : Nat := 0
  /-- history -/
  trace : List (Nat × Hist) := []

/-- What may happen: time passes; a frame arrives; `transfer_data` runs or ends; the application receives a message
or sends a ping; the transport pauses or resumes writing; `keepalive_ping` runs (`data`: the random payload, if
it needs one); the application starts closing the connection; the connection is lost; `close_connection`
cancels `keepalive_ping` (1196). -/
inductive Ev where
  | tick
  | arrive (i : Item)
  | transfer
  | transferEnds
  | recv
  | userPing (data : Bytes)
  | pause
  | resume
  | keepalive (data : Bytes)
  | close
  | lost
  | cancel
deriving DecidableEq

/-- The connection is established, and `keepalive_ping` starts (legacy/protocol.py 334-348). -/
def init (cfg : Config) : St := { phase := .sleeping cfg.interval }

/-- The keys of `pings` (legacy/protocol.py 289) -/
def St.keys (s : St) : List Bytes := s.pings.map (·.1)

/-- legacy/protocol.py 854: there's room in the queue. -/
def St.room (cfg : Config) (s : St) : Bool :=
  match cfg.maxQueue with
  | none => true
  | some m => s.messages < m

/-- legacy/protocol.py 813-821: `ensure_open` returns. -/
def St.isOpen (s : St) : Bool := s.state = .opened && s.transfer ≠ .exited

/-- legacy/protocol.py 1027-1040: removing the pings that a pong acknowledges -/
def ack (data : Bytes) : List (Bytes × Bool) → List (Bytes × Bool)
  | [] => []
  | p :: ps => if p.1 = data then ps else ack data ps

/-- `keepalive_ping` can run (legacy/protocol.py 1125-1175). -/
def St.keepaliveReady (s : St) : Bool :=
  match s.phase with
  | .sleeping wake => wake ≤ s.now
  | .pinging _ => !s.paused || s.state = .closed
  | .stuck => s.state = .closed
  | .waiting data deadline => (data, true) ∉ s.pings || s.state = .closed || deadline ≤ s.now
  | .exited _ => false

/-- `transfer_data` can run (legacy/protocol.py 839-906). -/
def St.transferReady (cfg : Config) (s : St) : Bool :=
  match s.transfer with
  | .reading => !s.incoming.isEmpty
  | .putting => s.room cfg
  | .ponging => !s.paused
  | .stuck => false
  | .exited => false

/-- legacy/protocol.py 1193-1196: `transfer_data` has ended and `close_connection` hasn't cancelled `keepalive_ping`. -/
def St.cancelReady (s : St) : Bool :=
  s.transfer = .exited && (match s.phase with | .exited _ => false | _ => true)

/-- legacy/protocol.py 768-770: `ping`, until `_drain` -/
def St.sendPing (s : St) (data : Bytes) (keepalive : Bool) : St :=
  { s with pings := s.pings ++ [(data, keepalive)], trace := s.trace ++ [(s.now, Hist.sent data)] }

/-- legacy/protocol.py 772: `keepalive_ping` gets the future of the ping whose payload is `data`. The application may
have sent it, if it sent a ping with the same payload after a pong acknowledged the ping of `keepalive_ping`
and before `ping` returned. -/
def mark (data : Bytes) (ps : List (Bytes × Bool)) : List (Bytes × Bool) :=
  ps.map fun p => if p.1 = data then (p.1, true) else p

/-- legacy/protocol.py 772, 1154-1156, 1141: `ping` returns. -/
def St.afterPing (cfg : Config) (s : St) (data : Bytes) : St :=
  if data ∈ s.keys then
    match cfg.timeout with
    | none => { s with phase := .sleeping (s.now + cfg.interval) }
    | some timeout => { s with phase := .waiting data (s.now + timeout), pings := mark data s.pings }
  else { s with phase := .exited .keyError }

/-- legacy/protocol.py 1139-1163: one step of `keepalive_ping` -/
def St.keepalive (cfg : Config) (s : St) (data : Bytes) : Option St :=
  match s.phase with
  | .sleeping wake =>
    if wake ≤ s.now then
      if s.isOpen then
        -- 757-770
        if data.length = 4 ∧ data ∉ s.keys then
          if s.paused then some { s.sendPing data true with phase := .pinging data }
          else some ((s.sendPing data true).afterPing cfg data)
        else none
      else if s.state = .closed then some { s with phase := .exited .connectionClosed }
      else some { s with phase := .stuck }
    else none
  | .pinging data =>
    if s.state = .closed then some { s with phase := .exited .connectionClosed }
    else if s.paused then none
    else some (s.afterPing cfg data)
  | .stuck => if s.state = .closed then some { s with phase := .exited .connectionClosed } else none
  | .waiting data deadline =>
    if (data, true) ∉ s.pings then some { s with phase := .sleeping (s.now + cfg.interval) }
    -- 1340-1342 `abort_pings`
    else if s.state = .closed then some { s with phase := .exited .connectionClosed }
    else if deadline ≤ s.now then
      -- 1162 `fail_connection(1011)`: 1268-1327
      some { s with phase := .exited .timedOut
                    failed := some s.now
                    transfer := .exited
                    state := if s.state = .opened then .closing else s.state }
    else none
  | .exited _ => none

/-- legacy/protocol.py 846-868, 985-1051: one step of `transfer_data` -/
def St.transferStep (cfg : Config) (s : St) : Option St :=
  match s.transfer with
  | .reading =>
    match s.incoming with
    | [] => none
    | (i, _) :: incoming =>
      let s := { s with incoming, lastRead := s.now, trace := s.trace ++ [(s.now, Hist.read i)] }
      match i with
      | .message =>
        if s.room cfg then some { s with messages := s.messages + 1 } else some { s with transfer := .putting }
      | .ping =>
        if s.isOpen then some { s with transfer := if s.paused then .ponging else .reading }
        -- 823-824: `ConnectionClosed`, then 900-906
        else if s.state = .closed then some { s with transfer := .exited }
        else some { s with transfer := .stuck }
      | .pong data =>
        if data ∈ s.keys then some { s with pings := ack data s.pings } else some s
  | .putting =>
    if s.room cfg then some { s with messages := s.messages + 1, transfer := .reading } else none
  | .ponging => if s.paused then none else some { s with transfer := .reading }
  | .stuck => none
  | .exited => none

/-- What happens next; `none`: it can't happen (legacy/protocol.py 839-906, 982-1062, 1125-1175). -/
def step (cfg : Config) (s : St) : Ev → Option St
  | .tick =>
    if s.keepaliveReady || s.transferReady cfg || s.cancelReady then none else some { s with now := s.now + 1 }
  | .arrive i =>
    some { s with incoming := s.incoming ++ [(i, s.now)], trace := s.trace ++ [(s.now, Hist.arrived i)] }
  | .transfer => s.transferStep cfg
  | .transferEnds => some { s with transfer := .exited }
  | .recv => if s.messages = 0 then none else some { s with messages := s.messages - 1 }
  | .userPing data =>
    if s.isOpen ∧ data ∉ s.keys then some (s.sendPing data false) else none
  | .pause => some { s with paused := true }
  | .resume => some { s with paused := false }
  | .keepalive data => s.keepalive cfg data
  | .close => if s.state = .opened then some { s with state := .closing } else none
  | .lost => some { s with state := .closed }
  | .cancel => if s.cancelReady then some { s with phase := .exited .cancelled } else none

/-- An execution (legacy/protocol.py 839-906, 982-1062, 1125-1175) -/
def exec (cfg : Config) (s : St) : List Ev → Option St
  | [] => some s
  | e :: es =>
    match step cfg s e with
    | none => none
    | some s' => exec cfg s' es

end WS.LegacyKeepalive
