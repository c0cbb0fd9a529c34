/-!
# The queue of received messages: /repo/src/websockets/legacy/protocol.py `recv`, `transfer_data`

Tasks run on one event loop: a step is everything that a task does between two points where it's
suspended.  What isn't determined by the code that is modelled (which task runs next, what
`read_message` returns, when tasks are cancelled) is left open: `Act` lists what may happen next.

`read_message` isn't included here (see `Verif.Model.LegacyRead`): `message m` says that it returned
`m`, and `exit` that it returned `None` or raised an exception.  Nor is the rest of the connection;
`ensure_open` is modelled under the assumption that the opening handshake succeeded.
-/

namespace WS.Legacy

/-- The state of `transfer_data_task`: in `read_message`; or suspended in line 859 with a message in
hand, waiting for a future; or done. -/
inductive Transfer (M : Type) where
  | reading
  | full (m : M) (fut : Nat)
  | exited
deriving DecidableEq

/-- `self.transfer_data_task.done()` (legacy/protocol.py 505, 817) -/
def Transfer.isExited {M : Type} : Transfer M → Bool
  | exited => true
  | _ => false

/-- `transfer_data` isn't waiting for room in the queue (legacy/protocol.py 855-861). -/
def Transfer.isReading {M : Type} : Transfer M → Bool
  | reading => true
  | _ => false

/-- Where a call to `recv` is suspended: in `asyncio.wait` (line 504), with its own
`pop_message_waiter`; or in `ensure_open` (line 521). -/
inductive Recv where
  | waiting (fut : Nat)
  | ensuring
deriving DecidableEq

/-- The attributes that `recv` and `transfer_data` share, and the tasks.  Futures are numbers;
`done` lists those that have a result. -/
structure Queue (M : Type) where
  messages : List M := []
  maxQueue : Option Nat
  popWaiter : Option Nat := none
  putWaiter : Option Nat := none
  done : List Nat := []
  next : Nat := 0
  transfer : Transfer M := .reading
  recvs : List (Nat × Recv) := []
deriving DecidableEq

/-- What calls to `recv` give: a message, `RuntimeError`, `ConnectionClosed` (or `None` with
`legacy_recv`), `CancelledError`.  `invalidState` means that `set_result` was called on a future that
was done. -/
inductive Obs (M : Type) where
  | returned (task : Nat) (m : M)
  | refused (task : Nat)
  | closed (task : Nat)
  | cancelled (task : Nat)
  | invalidState
deriving DecidableEq

/-- What may happen: a task calls `recv`; a task that is suspended in `recv` resumes, or is
cancelled; `read_message` returns a message; `transfer_data_task` resumes, ends, or is cancelled. -/
inductive Act (M : Type) where
  | recv (task : Nat)
  | wake (task : Nat)
  | cancel (task : Nat)
  | message (m : M)
  | wakeTransfer
  | exit
  | cancelTransfer

variable {M : Type}

/-- `waiter.set_result(None)` (legacy/protocol.py 528, 868) -/
def Queue.setResult (q : Queue M) (fut : Nat) : Queue M × List (Obs M) :=
  if fut ∈ q.done then (q, [.invalidState]) else ({ q with done := fut :: q.done }, [])

/-- legacy/protocol.py 526-529: "notify transfer_data()" -/
def Queue.notifyPut (q : Queue M) : Queue M × List (Obs M) :=
  match q.putWaiter with
  | none => (q, [])
  | some f =>
    let (q, o) := q.setResult f
    ({ q with putWaiter := none }, o)

/-- legacy/protocol.py 866-869: "notify recv()" -/
def Queue.notifyPop (q : Queue M) : Queue M × List (Obs M) :=
  match q.popWaiter with
  | none => (q, [])
  | some f =>
    let (q, o) := q.setResult f
    ({ q with popWaiter := none }, o)

/-- legacy/protocol.py 498-531: the loop of `recv`, in task `t`, until it's suspended or it returns. -/
def Queue.recvLoop (q : Queue M) (t : Nat) : Queue M × List (Obs M) :=
  match q.messages with
  | [] =>
    ({ q with popWaiter := some q.next, next := q.next + 1,
              recvs := (t, .waiting q.next) :: q.recvs }, [])
  | m :: ms =>
    let (q, o) := { q with messages := ms }.notifyPut
    (q, o ++ [.returned t m])

/-- Remove a task (legacy/protocol.py 455-531). -/
def Queue.drop (q : Queue M) (t : Nat) : Queue M :=
  { q with recvs := q.recvs.filter (·.1 ≠ t) }

/-- The state of a task (legacy/protocol.py 455-531). -/
def Queue.find (q : Queue M) (t : Nat) : Option Recv :=
  (q.recvs.find? (·.1 = t)).map (·.2)

/-- legacy/protocol.py 855-856 -/
def Queue.isFull (q : Queue M) : Bool :=
  match q.maxQueue with
  | none => false
  | some n => n ≤ q.messages.length

/-- legacy/protocol.py 854-869: after `read_message` returned `m`, or after waking up in line 859. -/
def Queue.putLoop (q : Queue M) (m : M) : Queue M × List (Obs M) :=
  if q.isFull then
    ({ q with putWaiter := some q.next, next := q.next + 1, transfer := .full m q.next }, [])
  else { q with messages := q.messages ++ [m], transfer := .reading }.notifyPop

/-- One step, if it's possible (legacy/protocol.py 455-531, 839-906). -/
def Queue.step (q : Queue M) : Act M → Option (Queue M × List (Obs M))
  -- 484-488
  | .recv t =>
    if q.find t ≠ none then none
    else if q.popWaiter ≠ none then some (q, [.refused t])
    else some (q.recvLoop t)
  | .wake t =>
    match q.find t with
    | none => none
    | some (.waiting f) =>
      -- `asyncio.wait` returns when one of the two futures is done
      if f ∈ q.done ∨ q.transfer.isExited then
        -- 509-510
        let q := { q.drop t with popWaiter := none }
        -- 515
        if f ∈ q.done then some (q.recvLoop t)
        else some ({ q with recvs := (t, .ensuring) :: q.recvs }, [])
      else none
    | some .ensuring =>
      -- 521: `ensure_open` returns only if `transfer_data_task` isn't done
      if q.transfer.isExited then some (q.drop t, [.closed t])
      else some ((q.drop t).recvLoop t)
  | .cancel t =>
    match q.find t with
    | none => none
    -- 509-510
    | some (.waiting _) => some ({ q.drop t with popWaiter := none }, [.cancelled t])
    | some .ensuring => some (q.drop t, [.cancelled t])
  | .message m => if q.transfer.isReading then some (q.putLoop m) else none
  | .wakeTransfer =>
    match q.transfer with
    | .full m f =>
      -- 860-861
      if f ∈ q.done then some ({ q with putWaiter := none }.putLoop m) else none
    | _ => none
  -- 851-852 and 877-906
  | .exit => if q.transfer.isReading then some ({ q with transfer := .exited }, []) else none
  -- 860-861, 871-875
  | .cancelTransfer =>
    match q.transfer with
    | .exited => none
    | .reading => some ({ q with transfer := .exited }, [])
    | .full _ _ => some ({ q with transfer := .exited, putWaiter := none }, [])

/-- A sequence of steps (legacy/protocol.py 455-531, 839-906). -/
def Queue.exec (q : Queue M) : List (Act M) → Option (Queue M × List (Obs M))
  | [] => some (q, [])
  | a :: as =>
    match q.step a with
    | none => none
    | some (q, o) =>
      match q.exec as with
      | none => none
      | some (q, os) => some (q, o ++ os)

/-- A connection that was just opened (legacy/protocol.py 281-283). -/
def Queue.init (maxQueue : Option Nat) : Queue M := { maxQueue }

end WS.Legacy
