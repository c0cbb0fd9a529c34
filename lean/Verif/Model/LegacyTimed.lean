import Verif.Model.LegacyLife

/-!
# Time in /repo/src/websockets/legacy/protocol.py 674-727, 1177-1266

`Verif.Model.LegacyLife` describes how tasks of a legacy connection interleave.  Here is the same with a clock.  Times are
numbers of arbitrary units.

As in `Verif.Model.LegacyClose`, code takes no time: time elapses only when every task is waiting.  Timeouts elapse exactly
when they should.  asyncio loses a connection `delay` after `transport.abort()` at most.  Everything else may take any time.
-/

namespace WS.LegacyTimed

open LegacyLife (St Ev Call Config)

/-- A connection and timers -/
structure Timed where
  life : St := {}
  now : Nat := 0
  /-- 1258: when `close_connection` started to wait -/
  closer : Nat := 0
  /-- 697, 718: when each call to `close` started to wait -/
  calls : Nat → Nat := fun _ => 0

/-- What may happen -/
inductive Event where
  /-- a unit of time elapses. -/
  | tick
  | ev (e : Ev)

/-- A task can run at once (legacy/protocol.py 674-727, 839-906, 1177-1266). -/
def urgent (cfg : Config) (s : St) : Bool :=
  (LegacyLife.step cfg s .transferWoken).isSome || (LegacyLife.step cfg s .transferCancelled).isSome ||
  (LegacyLife.step cfg s .closerRun).isSome || (LegacyLife.step cfg s .closerLost).isSome ||
  (List.range s.calls.length).any fun i =>
    (LegacyLife.step cfg s (.call i .run)).isSome || (LegacyLife.step cfg s (.call i .woken)).isSome

/-- 1203, 1214, 1234, 1245: a timeout of `close_connection` elapses, or asyncio loses the connection. -/
def closerDue (timeout delay : Nat) (t : Timed) : Bool :=
  match t.life.closer with
  | .waitClosed | .waitEof | .waitClose _ => t.closer + timeout ≤ t.now
  | .waitAbort _ => t.closer + min timeout delay ≤ t.now
  | _ => false

/-- 697, 718: a timeout of this call to `close` elapses. -/
def callDue (timeout : Nat) (t : Timed) (i : Nat) : Bool :=
  match t.life.calls[i]? with
  | some .closeWriting | some (.closeWaitTransfer true) => t.calls i + timeout ≤ t.now
  | _ => false

/-- Timeouts don't elapse early (`asyncio.wait_for`, at legacy/protocol.py 697, 718, 1258). -/
def allowed (timeout : Nat) (t : Timed) : Ev → Bool
  | .closerTimeout => t.closer + timeout ≤ t.now
  | .call i .timeout => t.calls i + timeout ≤ t.now
  | _ => true

/-- 718: the call starts to wait for `transfer_data_task`. -/
def startsTimer (old new : Option Call) : Bool := old = none || (new = some (.closeWaitTransfer true) && old ≠ new)

/-- One step; `none`: it isn't possible (legacy/protocol.py 674-727, 1177-1266). -/
def step (cfg : Config) (timeout delay : Nat) (t : Timed) : Event → Option Timed
  | .tick =>
    if urgent cfg t.life || closerDue timeout delay t ||
      (List.range t.life.calls.length).any (callDue timeout t) then none
    else some { t with now := t.now + 1 }
  | .ev e =>
    if allowed timeout t e then
      match LegacyLife.step cfg t.life e with
      | none => none
      | some life =>
        some { t with
          life := life
          closer := if life.closer = t.life.closer then t.closer else t.now
          calls := fun i => if startsTimer t.life.calls[i]? life.calls[i]? then t.now else t.calls i }
    else none

/-- Several steps (legacy/protocol.py 674-727, 1177-1266) -/
def run (cfg : Config) (timeout delay : Nat) (t : Timed) : List Event → Option Timed
  | [] => some t
  | e :: es =>
    match step cfg timeout delay t e with
    | none => none
    | some t' => run cfg timeout delay t' es

end WS.LegacyTimed
