/-!
# Flow control when writing: /repo/src/websockets/legacy/protocol.py 303-332, 1093-1105, 1427-1439

`write_frame` calls `_drain` while it holds `_drain_lock`, an `asyncio.Lock`, which is modelled as it is in
Python 3.11 (asyncio/locks.py 93-155; Python 3.7 to 3.9 have the same).  The transport calls `pause_writing`, `resume_writing` and
`connection_lost`.

Tasks run on one event loop: a step is everything that a task does between two points where it's suspended.
`Act` lists what may happen next.

Simplifications.
* The transport may call `pause_writing` while `write_frame` writes a frame; in the model, this happens just
  before `write_frame` is called.
* The transport calls `pause_writing` and `resume_writing` in turn and `connection_lost` once: this is what the
  assertions in lines 1428 and 1432 and the documentation of asyncio say.
* `asyncio.sleep` accepts the argument `loop`, as it does before Python 3.10 (line 329 raises `TypeError` in
  later versions).
* `write_frame` then handles exceptions, see `Verif.Model.LegacyConn`.
-/

namespace WS.LegacyDrain

/-- The state of an `asyncio.Future` -/
inductive Fut where
  | pending
  | result
  | exception
  | cancelled
deriving DecidableEq

/-- Where a task is suspended; `cancel` is the attribute `_must_cancel` of the task. -/
inductive Pc where
  /-- asyncio/locks.py 114: in `Lock.acquire`, waiting for the future `fut` -/
  | acquiring (fut : Nat) (cancel : Bool)
  /-- legacy/protocol.py 329: in `asyncio.sleep(0)` -/
  | sleeping (cancel : Bool)
  /-- legacy/protocol.py 313: waiting for the future `fut` -/
  | draining (fut : Nat) (cancel : Bool)
deriving DecidableEq

/-- Exceptions of `_drain`: line 306; the exception of the stream reader (320) or of the future (313), which
is what `connection_lost` was called with; line 310; `CancelledError`; asyncio/locks.py 140. -/
inductive Exn where
  | connectionReset
  | lost
  | assertionError
  | cancelled
  | runtimeError
deriving DecidableEq

/-- How lines 1097-1099 end. -/
inductive Obs where
  | returned (task : Nat)
  | raised (task : Nat) (e : Exn)
deriving DecidableEq

/-- Attributes: `_paused`, `connection_lost_waiter.done()`, `reader.exception() is not None`,
`transport.is_closing()`; `_drain_lock._locked`, `_drain_lock._waiters`, `_drain_waiter`; futures, which are
numbered; tasks. -/
structure Flow where
  paused : Bool := false
  lost : Bool := false
  broken : Bool := false
  closing : Bool := false
  locked : Bool := false
  waiters : List Nat := []
  drainWaiter : Option Nat := none
  lockFuts : Nat → Fut := fun _ => .pending
  drainFuts : Nat → Fut := fun _ => .pending
  next : Nat := 0
  tasks : Nat → Option Pc := fun _ => none

/-- What may happen.  `write task`: a task that isn't in `write_frame` reaches line 1097; `run task`: a task
that was suspended runs; `cancel task`: `task.cancel()`; methods that the transport calls (`lost exc`: whether
`connection_lost` is called with an exception); `transport.is_closing()` becomes true. -/
inductive Act where
  | write (task : Nat)
  | run (task : Nat)
  | cancel (task : Nat)
  | pause
  | resume
  | lost (exc : Bool)
  | close
deriving DecidableEq

/-- Update a function (the futures and tasks of asyncio; not in /repo). -/
def set {α : Type} (f : Nat → α) (n : Nat) (a : α) : Nat → α := fun x => if x = n then a else f x

/-- The task is suspended, or ends (legacy/protocol.py 304-332). -/
def Flow.suspend (s : Flow) (t : Nat) (pc : Option Pc) : Flow := { s with tasks := set s.tasks t pc }

/-- asyncio/locks.py 142-155 `_wake_up_first` -/
def Flow.wakeFirst (s : Flow) : Flow :=
  match s.waiters with
  | [] => s
  | f :: _ => if s.lockFuts f = .pending then { s with lockFuts := set s.lockFuts f .result } else s

/-- asyncio/locks.py 125-140 `release`, when a task leaves the block of lines 1097-1099 -/
def Flow.release (s : Flow) (t : Nat) (o : Obs) : Flow × List Obs :=
  if s.locked then ({ s with locked := false }.wakeFirst, [o]) else (s, [.raised t .runtimeError])

/-- legacy/protocol.py 310: the assertion -/
def Flow.mayWait (s : Flow) : Bool :=
  match s.drainWaiter with
  | none => true
  | some f => s.drainFuts f = .cancelled

/-- legacy/protocol.py 304-313 `_drain_helper` -/
def Flow.drainHelper (s : Flow) (t : Nat) : Flow × List Obs :=
  if s.lost then s.release t (.raised t .connectionReset)
  else if !s.paused then s.release t (.returned t)
  else if s.mayWait then
    ({ s with drainWaiter := some s.next, drainFuts := set s.drainFuts s.next .pending
              next := s.next + 1 }.suspend t (some (.draining s.next false)), [])
  else s.release t (.raised t .assertionError)

/-- legacy/protocol.py 316-332 `_drain`, called in line 1099 -/
def Flow.drain (s : Flow) (t : Nat) : Flow × List Obs :=
  if s.broken then s.release t (.raised t .lost)
  else if s.closing then (s.suspend t (some (.sleeping false)), [])
  else s.drainHelper t

/-- asyncio/locks.py 99-114 `acquire`, called in line 1097 -/
def Flow.write (s : Flow) (t : Nat) : Flow × List Obs :=
  if !s.locked && s.waiters.all (fun f => s.lockFuts f = .cancelled) then { s with locked := true }.drain t
  else
    ({ s with waiters := s.waiters ++ [s.next], lockFuts := set s.lockFuts s.next .pending
              next := s.next + 1 }.suspend t (some (.acquiring s.next false)), [])

/-- A task runs; the future for which it waits is done (legacy/protocol.py 304-332, 1093-1105). -/
def Flow.run (s : Flow) (t : Nat) : Option (Flow × List Obs) :=
  match s.tasks t with
  | none => none
  | some (.acquiring f c) =>
    if s.lockFuts f = .pending then none
    else
      let s := { s with waiters := s.waiters.filter (· ≠ f) }.suspend t none
      -- asyncio/locks.py 116-123
      if s.lockFuts f = .cancelled ∨ c then
        some (if s.locked then s else s.wakeFirst, [.raised t .cancelled])
      else some ({ s with locked := true }.drain t)
  | some (.sleeping c) =>
    let s := s.suspend t none
    if c then some (s.release t (.raised t .cancelled)) else some (s.drainHelper t)
  | some (.draining f c) =>
    let s := s.suspend t none
    match s.drainFuts f with
    | .pending => none
    | .cancelled => some (s.release t (.raised t .cancelled))
    | .result => some (s.release t (if c then .raised t .cancelled else .returned t))
    | .exception => some (s.release t (if c then .raised t .cancelled else .raised t .lost))

/-- asyncio/tasks.py `Task.cancel`: cancel the future for which the task waits, if it isn't done; otherwise,
`CancelledError` is raised when the task runs. -/
def Flow.cancel (s : Flow) (t : Nat) : Option Flow :=
  match s.tasks t with
  | none => none
  | some (.acquiring f _) =>
    if s.lockFuts f = .pending then some { s with lockFuts := set s.lockFuts f .cancelled }
    else some (s.suspend t (some (.acquiring f true)))
  | some (.sleeping _) => some (s.suspend t (some (.sleeping true)))
  | some (.draining f _) =>
    if s.drainFuts f = .pending then some { s with drainFuts := set s.drainFuts f .cancelled }
    else some (s.suspend t (some (.draining f true)))

/-- legacy/protocol.py 1416-1425, 1435-1439: `_drain_waiter` is done with `r`, if it's waited for. -/
def Flow.wakeDrain (s : Flow) (r : Fut) : Flow :=
  match s.drainWaiter with
  | none => s
  | some f =>
    if s.drainFuts f = .pending then { s with drainWaiter := none, drainFuts := set s.drainFuts f r }
    else { s with drainWaiter := none }

/-- One step, if it's possible (legacy/protocol.py 304-332, 1093-1105, 1379-1439). -/
def Flow.step (s : Flow) : Act → Option (Flow × List Obs)
  | .write t => if s.tasks t = none then some (s.write t) else none
  | .run t => s.run t
  | .cancel t => (s.cancel t).map (·, [])
  -- 1427-1429
  | .pause => if s.paused then none else some ({ s with paused := true }, [])
  -- 1431-1439
  | .resume => if s.paused then some ({ s with paused := false }.wakeDrain .result, []) else none
  -- 1402-1425
  | .lost exc =>
    if s.lost then none
    else
      let s := { s with lost := true, broken := exc }
      some (if s.paused then s.wakeDrain (if exc then .exception else .result) else s, [])
  | .close => some ({ s with closing := true }, [])

/-- An execution (legacy/protocol.py 304-332, 1093-1105, 1379-1439). -/
def Flow.exec (s : Flow) : List Act → Option (Flow × List Obs)
  | [] => some (s, [])
  | a :: as =>
    match s.step a with
    | none => none
    | some (s, o) =>
      match s.exec as with
      | none => none
      | some (s, os) => some (s, o ++ os)

end WS.LegacyDrain
