import Verif.Model.LegacyDrain

/-!
# The write buffer of legacy connections: /repo/src/websockets/legacy/protocol.py 1071-1105, 1356-1377, 1427-1439

`Verif.Model.LegacyDrain` with the buffer of the transport.  asyncio calls `pause_writing` when the buffer holds more than the
high-water limit, and `resume_writing` when it holds at most the low-water limit (asyncio/transports.py 277-335; asyncio/selector_events.py
`write`, `_write_ready`, `_force_close`).  Only the sizes of frames and of the buffer matter.
-/

namespace WS.LegacyBuffer

open LegacyDrain (Flow Act Obs)

/-- Limits of the buffer -/
structure Limits where
  high : Nat
  low : Nat

/-- 1372: `connection_made` calls `set_write_buffer_limits(self.write_limit)` (asyncio/transports.py 317-328). -/
def limits (writeLimit : Nat) : Limits := ⟨writeLimit, writeLimit / 4⟩

/-- The connection; the size of the buffer; the size of the last frame that each task wrote -/
structure Buf where
  flow : Flow := {}
  size : Nat := 0
  frame : Nat → Nat := fun _ => 0
  /-- 1294-1320: the size of the close frame that `fail_connection` wrote, if it did -/
  failed : Nat := 0

/-- What may happen -/
inductive Event where
  /-- a task calls `write_frame` (1093) with a frame of `n` bytes; the transport sends some of them at once and keeps `k`. -/
  | write (task n k : Nat)
  /-- `fail_connection` writes a close frame of `n` bytes, once because the connection isn't open anymore, and doesn't call `_drain`. -/
  | fail (n k : Nat)
  /-- the transport sends `n` bytes of the buffer. -/
  | sent (n : Nat)
  /-- the transport discards the buffer because of an error, or `transport.abort()`. -/
  | discard
  | run (task : Nat)
  | cancel (task : Nat)
  /-- `connection_lost` -/
  | lost (exc : Bool)
  /-- `transport.is_closing()` becomes true. -/
  | close
deriving DecidableEq

/-- A step of `LegacyDrain` (legacy/protocol.py 304-332, 1093-1105) -/
def Buf.act (b : Buf) (a : Act) : Option (Buf × List Obs) := (b.flow.step a).map fun (f, os) => ({ b with flow := f }, os)

/-- One step; `none`: it isn't possible (legacy/protocol.py 1071-1105, 1379-1439). -/
def Buf.step (l : Limits) (b : Buf) : Event → Option (Buf × List Obs)
  | .write t n k =>
    if k ≤ n ∧ b.flow.tasks t = none then
      let b := { b with frame := LegacyDrain.set b.frame t n }
      -- `transport.write` ignores data once the connection is lost
      if b.flow.lost then b.act (.write t)
      else
        let b := { b with size := b.size + k }
        -- `_maybe_pause_protocol`
        if l.high < b.size ∧ ¬ b.flow.paused then
          match b.act .pause with
          | none => none
          | some (b, _) => b.act (.write t)
        else b.act (.write t)
    else none
  | .fail n k =>
    if k ≤ n ∧ b.failed = 0 then
      if b.flow.lost then some (b, [])
      else
        let b := { b with size := b.size + k, failed := n }
        if l.high < b.size ∧ ¬ b.flow.paused then b.act .pause else some (b, [])
    else none
  | .sent n =>
    if n ≤ b.size then
      let b := { b with size := b.size - n }
      -- `_maybe_resume_protocol`
      if b.flow.paused ∧ b.size ≤ l.low then b.act .resume else some (b, [])
    else none
  | .discard => some ({ b with size := 0 }, [])
  | .run t => b.act (.run t)
  | .cancel t => b.act (.cancel t)
  | .lost exc => { b with size := 0 }.act (.lost exc)
  | .close => b.act .close

/-- Several steps (legacy/protocol.py 1071-1105, 1379-1439) -/
def Buf.exec (l : Limits) (b : Buf) : List Event → Option (Buf × List Obs)
  | [] => some (b, [])
  | e :: es =>
    match b.step l e with
    | none => none
    | some (b, os) =>
      match b.exec l es with
      | none => none
      | some (b, os') => some (b, os ++ os')

end WS.LegacyBuffer
