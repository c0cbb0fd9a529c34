import Verif.Model.LegacyQueue

/-!
# Iterating on a legacy connection: /repo/src/websockets/legacy/protocol.py `__aiter__`

`__aiter__` is an asynchronous generator.  It runs on top of the queue of messages
(`Verif.Model.LegacyQueue`); task 0 is the one that runs `async for`.

Simplified: the body of `async for` doesn't throw exceptions into the generator (only
`contextlib.asynccontextmanager` and explicit calls to `athrow` do).
-/

namespace WS.LegacyIter

open Legacy

/-- Exceptions that leave the generator: the `RuntimeError` of concurrent calls to `recv`,
`ConnectionClosedError`, `CancelledError`. -/
inductive IterExc where
  | runtimeError
  | closedError (code : Int)
  | cancelled
deriving DecidableEq, Repr

/-- The generator: suspended in `yield` or not started; suspended in `recv`; finished. -/
inductive Gen where
  | suspended
  | receiving
  | returned
  | raised (exc : IterExc)
deriving DecidableEq, Repr

/-- The queue, the parameter `legacy_recv`, the generator, and what `async for` got until now (if
there are several loops, one after the other, in all of them). -/
structure Iter (M : Type) where
  queue : Queue M
  legacyRecv : Bool := false
  gen : Gen := .suspended
  yielded : List (Option M) := []

/-- What may happen: `async for` starts (again); `async for` asks for the next message; something
else happens, including that task 0 resumes or is cancelled in `recv`.  `code` is the close code at
that time. -/
inductive Ev (M : Type) where
  | start
  | next
  | queue (a : Act M) (code : Int)

variable {M : Type}

/-- legacy/protocol.py 449-453, and 791-803 for the exception: what the generator does when `recv`
returns or raises an exception. -/
def Iter.observe (code : Int) (it : Iter M) : Obs M → Iter M
  | .returned 0 m => { it with gen := .suspended, yielded := it.yielded ++ [some m] }
  | .refused 0 => { it with gen := .raised .runtimeError }
  | .closed 0 =>
    if code = 1000 ∨ code = 1001 then { it with gen := .returned }
    else { it with gen := .raised (.closedError code) }
  | .cancelled 0 => { it with gen := .raised .cancelled }
  | _ => it

/-- legacy/protocol.py 509-517: task 0 resumes in `recv` because `transfer_data_task` is done, and
`legacy_recv` is set. -/
def Iter.returnsNone (it : Iter M) : Bool :=
  it.legacyRecv && it.queue.transfer.isExited &&
    match it.queue.find 0 with
    | some (.waiting f) => !it.queue.done.contains f
    | _ => false

/-- One step, if it's possible (legacy/protocol.py 440-453). -/
def Iter.step (it : Iter M) : Ev M → Option (Iter M)
  | .start => if it.gen = .receiving then none else some { it with gen := .suspended }
  | .next =>
    if it.gen = .suspended then
      (it.queue.step (.recv 0)).map fun (q, os) =>
        -- `recv` can't raise `ConnectionClosed` before it's suspended
        os.foldl (Iter.observe 1006) { it with queue := q, gen := .receiving }
    else none
  | .queue (.recv 0) _ => none
  | .queue (.wake 0) code =>
    if it.returnsNone then
      -- the generator yields `None`
      some { it with queue := { it.queue.drop 0 with popWaiter := none }, gen := .suspended,
                     yielded := it.yielded ++ [none] }
    else
      (it.queue.step (.wake 0)).map fun (q, os) =>
        os.foldl (Iter.observe code) { it with queue := q }
  | .queue a code =>
    (it.queue.step a).map fun (q, os) => os.foldl (Iter.observe code) { it with queue := q }

/-- A sequence of steps (legacy/protocol.py 440-453). -/
def Iter.exec (it : Iter M) : List (Ev M) → Option (Iter M)
  | [] => some it
  | e :: es => (it.step e).bind (·.exec es)

/-- A connection that was just opened (legacy/protocol.py 334-348). -/
def Iter.init (maxQueue : Option Nat) (legacyRecv : Bool := false) : Iter M :=
  { queue := .init maxQueue, legacyRecv }

end WS.LegacyIter
