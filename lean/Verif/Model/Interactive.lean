import Verif.Model.LegacyQueue
import Verif.Model.Prelude

/-!
# The interactive client: /repo/src/websockets/__main__.py `run_client`

`run_client` runs in a task, with two other tasks in each iteration of its loop: `incoming` calls `recv` of the
connection (`Verif.Model.LegacyQueue`), `outgoing` gets a line from `inputs`.  The main thread puts the lines that the
user types in `inputs`, and sets the result of `stop` when the user presses Ctrl-C or Ctrl-D.

`Act` lists what may happen next.  Tasks may run in any order, with two restrictions, which follow from the order in
which asyncio runs callbacks (first in, first out): a task that was created runs before `asyncio.wait` returns; a task
that was cancelled runs before a task that was created later.

`asyncio.Queue` is a list: `get` returns its first item; when `get` is cancelled, the item stays in the queue.  `connect`,
`send` and `close` end at any time, with or without an exception.
-/

namespace WS.Interactive

open WS.Legacy (Queue)

variable {M : Type}

/-- The task `incoming`: created, suspended in `recv`, or done: `recv` returned a message, or raised `ConnectionClosed`, or
another exception. -/
inductive Incoming (M : Type) where
  | new
  | running
  | returned (m : M)
  | closed
  | failed
deriving DecidableEq

/-- `incoming in done` (__main__.py 122) -/
def Incoming.isDone : Incoming M → Bool
  | .new | .running => false
  | _ => true

/-- The task was created and didn't run yet (__main__.py 108). -/
def Incoming.isNew : Incoming M → Bool
  | .new => true
  | _ => false

/-- The task `outgoing`: created, suspended in `get`, or done. -/
inductive Outgoing where
  | new
  | waiting
  | got (line : PyStr)
deriving DecidableEq

/-- Where `run_client` is suspended: in `connect` (98), `asyncio.wait` (112), `send` (135) — with `last` if `stop` was done —
or `close` (141); or it returned. -/
inductive Phase (M : Type) where
  | connecting
  | waiting (inc : Incoming M) (out : Outgoing)
  | sending (last : Bool)
  | closing
  | exited
deriving DecidableEq

structure Client (M : Type) where
  /-- The connection. -/
  queue : Queue M
  inputs : List PyStr := []
  /-- `stop.done()` -/
  stop : Bool := false
  phase : Phase M := .connecting
  /-- Tasks `incoming` are numbered. -/
  task : Nat := 0
  /-- A task `incoming` that was cancelled, and didn't run since. -/
  cancelled : Option Nat := none
deriving DecidableEq

/-- What `run_client` does: display a message (129, 131), call `send` (135), return (146), after it raised SIGINT in the
main thread or not (45-56). -/
inductive Obs (M : Type) where
  | shown (m : M)
  | sent (line : PyStr)
  | exits (interrupt : Bool)
deriving DecidableEq

inductive Act (M : Type) where
  /-- `connect` returns or raises an exception. -/
  | connect (ok : Bool)
  /-- The connection receives a message, etc. (not `recv`, `wake` and `cancel`) -/
  | transfer (a : Legacy.Act M)
  /-- The task `incoming` runs for the first time, or resumes. -/
  | startIncoming
  | wakeIncoming
  /-- A task `incoming` that was cancelled runs. -/
  | runCancelled
  /-- The task `outgoing` runs for the first time, or resumes. -/
  | startOutgoing
  | wakeOutgoing
  /-- The user types a line (main, 201-202). -/
  | type (line : PyStr)
  /-- The user presses Ctrl-C or Ctrl-D (main, 203-204). -/
  | interrupt
  /-- `asyncio.wait` returns. -/
  | resume
  /-- `send` returns or raises an exception. -/
  | sendEnds (ok : Bool)
  /-- `close` returns. -/
  | closeEnds

/-- What the connection does by itself (legacy/protocol.py 839-906) -/
def isTransfer : Legacy.Act M → Bool
  | .message _ | .wakeTransfer | .exit | .cancelTransfer => true
  | _ => false

/-- How a step of `recv` ended (legacy/protocol.py 455-531, for __main__.py 124). -/
def outcome : List (Legacy.Obs M) → Incoming M
  | [] => .running
  | .returned _ m :: _ => .returned m
  | .closed _ :: _ => .closed
  | _ :: _ => .failed

namespace Client

/-- __main__.py 108-114: an iteration of the loop starts. -/
def iterate (c : Client M) : Client M :=
  { c with task := c.task + 1, phase := .waiting .new .new }

/-- __main__.py 45-56 and 146 `exit_from_event_loop_thread` -/
def leave (c : Client M) : Client M × List (Obs M) :=
  ({ c with phase := .exited }, [.exits (!c.stop)])

/-- __main__.py 133-138: the end of an iteration of the loop -/
def proceed (c : Client M) (out : Outgoing) : Client M × List (Obs M) :=
  match out with
  | .got line => ({ c with phase := .sending c.stop }, [.sent line])
  | _ => if c.stop then ({ c with phase := .closing }, []) else (c.iterate, [])

/-- __main__.py 116-138: after `asyncio.wait` returned -/
def process (c : Client M) (inc : Incoming M) (out : Outgoing) : Client M × List (Obs M) :=
  match inc with
  | .new | .running => { c with cancelled := some c.task }.proceed out
  | .returned m =>
    let (c, os) := c.proceed out
    (c, .shown m :: os)
  -- 125-126 or an exception
  | .closed | .failed => ({ c with phase := .closing }, [])

/-- One step, if it's possible (__main__.py 106-146). -/
def step (c : Client M) : Act M → Option (Client M × List (Obs M))
  -- 97-106
  | .connect ok =>
    match c.phase with
    | .connecting => if ok then some (c.iterate, []) else some c.leave
    | _ => none
  | .transfer a =>
    if isTransfer a then
      match c.queue.step a with
      | none => none
      | some (q, _) => some ({ c with queue := q }, [])
    else none
  | .startIncoming =>
    match c.phase, c.cancelled with
    | .waiting .new out, none =>
      match c.queue.step (.recv c.task) with
      | none => none
      | some (q, o) => some ({ c with queue := q, phase := .waiting (outcome o) out }, [])
    | _, _ => none
  | .wakeIncoming =>
    match c.phase with
    | .waiting .running out =>
      match c.queue.step (.wake c.task) with
      | none => none
      | some (q, o) => some ({ c with queue := q, phase := .waiting (outcome o) out }, [])
    | _ => none
  | .runCancelled =>
    match c.cancelled with
    | none => none
    | some t =>
      match c.queue.step (.cancel t) with
      | none => none
      | some (q, _) => some ({ c with queue := q, cancelled := none }, [])
  | .startOutgoing =>
    match c.phase, c.inputs with
    | .waiting inc .new, [] => some ({ c with phase := .waiting inc .waiting }, [])
    | .waiting inc .new, line :: inputs => some ({ c with phase := .waiting inc (.got line), inputs }, [])
    | _, _ => none
  | .wakeOutgoing =>
    match c.phase, c.inputs with
    | .waiting inc .waiting, line :: inputs => some ({ c with phase := .waiting inc (.got line), inputs }, [])
    | _, _ => none
  | .type line => some ({ c with inputs := c.inputs ++ [line] }, [])
  | .interrupt => some ({ c with stop := true }, [])
  -- 112-138
  | .resume =>
    match c.phase with
    | .waiting inc out =>
      if inc.isNew = false ∧ out ≠ .new ∧ (inc.isDone = true ∨ out ≠ .waiting ∨ c.stop = true) then
        some (c.process inc out)
      else none
    | _ => none
  -- 135-141
  | .sendEnds ok =>
    match c.phase with
    | .sending last =>
      if ok = true ∧ last = false then some (c.iterate, []) else some ({ c with phase := .closing }, [])
    | _ => none
  -- 141-146
  | .closeEnds =>
    match c.phase with
    | .closing => some c.leave
    | _ => none

/-- A sequence of steps (__main__.py 106-146). -/
def exec (c : Client M) : List (Act M) → Option (Client M × List (Obs M))
  | [] => some (c, [])
  | a :: as =>
    match c.step a with
    | none => none
    | some (c, o) =>
      match c.exec as with
      | none => none
      | some (c, os) => some (c, o ++ os)

/-- The beginning of `run_client` (__main__.py 97-104). -/
def init (maxQueue : Option Nat) : Client M := { queue := .init maxQueue }

end Client

end WS.Interactive
