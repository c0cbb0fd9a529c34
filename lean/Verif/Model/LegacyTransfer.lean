import Verif.Model.LegacyStream
import Verif.Model.LegacyRead
import Verif.Model.LegacyQueue

/-!
# From bytes to messages: /repo/src/websockets/legacy/protocol.py `transfer_data`

This puts together reading bytes (`Verif.Model.LegacyStream`), reassembling messages
(`Verif.Model.LegacyRead`) and the queue (`Verif.Model.LegacyQueue`): lines 839-1075.

`transfer_data_task` is suspended in `read_frame`; or in `pong()` or `write_close_frame()`, in answer
to a control frame; or because the queue is full.  `RAct` lists what may happen next, as in the
models above.

Simplifications.
* After it has handled a frame, the task may be suspended even if the next frame was already
  received.  This adds executions; all those of the code are included.
* `pong()` and `write_close_frame()` are modelled in `Verif.Model.LegacyConn`; here, they end with any
  result, at any time.  So does acknowledging pings (1019-1058), which is left out.
* Frames that other tasks write matter only for the extensions, which may share state.
-/

namespace WS.Legacy

/-- Where `transfer_data_task` is suspended while it reads a message: in `read_frame` (993), in `pong()`
(1017), in `write_close_frame()` (1004). -/
inductive Phase where
  | reading
  | ponging
  | closing
deriving DecidableEq

/-- How `transfer_data_task` ended: 851-852 after a close frame, 877-906 with an exception (which is stored
in `transfer_data_exc`), or 871-875. -/
inductive Ending where
  | closed
  | raised (e : Exc)
  | cancelled
deriving DecidableEq

/-- Attributes of a connection: `not is_client`, `max_size`, the stream reader and the read that is in
progress, `extensions`, the data frames of the current message (they determine the local variables of
`read_message`), `messages` and other attributes of the queue, the end of `transfer_data_task`. -/
structure Receiver (X : Type) where
  server : Bool
  maxSize : Option Int
  io : Endpoint Frame
  exts : List X
  frames : List Frame := []
  phase : Phase := .reading
  queue : Queue Data
  ended : Option Ending := none

/-- What may happen: the transport delivers data or the end of the stream; `transfer_data_task` runs in
`read_frame`; `pong()` or `write_close_frame()` returns (`none`) or raises an exception that isn't
caught; a frame is written by any task; and the actions of `Verif.Model.LegacyQueue`. -/
inductive RAct where
  | data (d : Bytes)
  | eof
  | run
  | answered (e : Option Exc)
  | write (f : Frame)
  | recv (task : Nat)
  | wake (task : Nat)
  | cancel (task : Nat)
  | wakeTransfer
  | cancelTransfer
deriving DecidableEq

variable {X : Type}

/-- legacy/protocol.py 917, 972: the current value of `max_size`, which is `self.max_size` for the first
frame; `append` decreases it (952, 967). -/
def Receiver.limit (s : Receiver X) : Option Int :=
  s.frames.foldl (fun m f => m.map (· - (f.data.length : Int))) s.maxSize

/-- legacy/protocol.py 1069-1074: call `Frame.read`. -/
def Receiver.readNext (s : Receiver X) : Receiver X :=
  { s with phase := .reading
           io := { s.io with task := .ready (readFrame s.server s.limit) } }

/-- legacy/protocol.py 851-852 or 877-906: `transfer_data` ends. -/
def Receiver.exit (s : Receiver X) (e : Ending) : Receiver X :=
  { s with queue := { s.queue with transfer := .exited }, ended := some e }

/-- The queue changed: read the next message, unless it's full (848-849). -/
def Receiver.goOn (s : Receiver X) (q : Queue Data) : Receiver X :=
  if q.transfer.isReading then { s with queue := q }.readNext else { s with queue := q }

/-- legacy/protocol.py 848-869, 919-980: `read_data_frame` returned a data frame. -/
def Receiver.dataFrame (s : Receiver X) (f : Frame) : Receiver X × List (Obs Data) :=
  let fs := s.frames ++ [f]
  match readMessage s.maxSize (fs.map some) with
  | none => ({ s with frames := fs }.readNext, [])
  | some (.error e) => (s.exit (.raised e), [])
  | some (.ok none) => (s.exit .closed, [])
  | some (.ok (some m)) =>
    let (q, o) := s.queue.putLoop m
    ({ s with frames := [] }.goOn q, o)

/-- legacy/protocol.py 919-921, 971-974: `read_data_frame` returned `None`. -/
def Receiver.closeFrame (s : Receiver X) : Receiver X :=
  match readMessage s.maxSize (s.frames.map some ++ [none]) with
  | some (.error e) => s.exit (.raised e)
  | _ => s.exit .closed

/-- legacy/protocol.py 996-1062: `read_frame` returned a frame. -/
def Receiver.frame (s : Receiver X) (f : Frame) : Receiver X × List (Obs Data) :=
  match f.opcode with
  | .close =>
    match parseClose f.data with
    | .error e => (s.exit (.raised e), [])
    | .ok _ => ({ s with phase := .closing }, [])
  | .ping => ({ s with phase := .ponging }, [])
  | .pong => (s.readNext, [])
  | _ => s.dataFrame f

/-- legacy/framing.py 91-96, then `read_frame` returns or raises. -/
def Receiver.decoded (ops : ExtOps X) (s : Receiver X) : Except Exc Frame → Receiver X × List (Obs Data)
  | .error e => (s.exit (.raised e), [])
  | .ok raw =>
    match raw.finish ops s.exts s.limit with
    | (.error e, xs) => ({ s with exts := xs }.exit (.raised e), [])
    | (.ok f, xs) => { s with exts := xs }.frame f

/-- A step of the queue that doesn't involve `transfer_data_task` (legacy/protocol.py 455-531). -/
def Receiver.queueStep (s : Receiver X) (a : Act Data) : Option (Receiver X × List (Obs Data)) :=
  (s.queue.step a).map fun (q, o) => ({ s with queue := q }, o)

/-- One step, if it's possible (legacy/protocol.py 455-531, 839-906). -/
def Receiver.step (ops : ExtOps X) (s : Receiver X) : RAct → Option (Receiver X × List (Obs Data))
  | .data d => (s.io.step (.data d)).map fun io => ({ s with io }, [])
  | .eof => (s.io.step .eof).map fun io => ({ s with io }, [])
  | .run =>
    if s.queue.transfer = .reading ∧ s.phase = .reading then
      match s.io.step .run with
      | none => none
      | some io =>
        match io.task with
        | .ended (some res) => some ({ s with io }.decoded ops res)
        | _ => some ({ s with io }, [])
    else none
  | .answered e =>
    if s.queue.transfer = .reading then
      match s.phase, e with
      | .reading, _ => none
      | _, some e => some (s.exit (.raised e), [])
      | .ponging, none => some (s.readNext, [])
      | .closing, none => some (s.closeFrame, [])
    else none
  -- frames.py 194-195
  | .write f => some ({ s with exts := (applyExts ops.encode s.exts f).2 }, [])
  | .recv t => s.queueStep (.recv t)
  | .wake t => s.queueStep (.wake t)
  | .cancel t => s.queueStep (.cancel t)
  | .wakeTransfer =>
    match s.queue.step .wakeTransfer with
    | none => none
    | some (q, o) => some (s.goOn q, o)
  | .cancelTransfer =>
    (s.queueStep .cancelTransfer).map fun (s, o) => ({ s with ended := some .cancelled }, o)

/-- An execution (legacy/protocol.py 455-531, 839-906). -/
def Receiver.exec (ops : ExtOps X) (s : Receiver X) : List RAct → Option (Receiver X × List (Obs Data))
  | [] => some (s, [])
  | a :: as =>
    match s.step ops a with
    | none => none
    | some (s, o) =>
      match s.exec ops as with
      | none => none
      | some (s, os) => some (s, o ++ os)

/-- A connection that was just opened: legacy/protocol.py 243, 281-295, 346.  The stream reader may
already hold data. -/
def Receiver.init (server : Bool) (maxSize : Option Int) (maxQueue : Option Nat) (exts : List X)
    (r : AReader) : Receiver X :=
  { server, maxSize, io := ⟨r, .ready (readFrame server maxSize)⟩, exts, queue := .init maxQueue }

/-- What an endpoint does with its extensions: write a frame, with what `secrets.token_bytes(4)` returns;
or read one, with the current limit. -/
inductive Use where
  | write (f : Frame) (key : Bytes)
  | read (limit : Option Int) (raw : Frame)

/-- legacy/framing.py 100-124, frames.py 171-229: what an endpoint sends, as long as `Frame.write` doesn't
raise an exception. -/
def transmit (ops : ExtOps X) (client : Bool) : List X → List Use → Except Exc (List Bytes)
  | _, [] => .ok []
  | xs, .write f key :: us =>
    match f.serializeExt ops xs (if client then some key else none) with
    | (.error e, _) => .error e
    | (.ok w, xs) => (transmit ops client xs us).map (w :: ·)
  | xs, .read limit raw :: us => transmit ops client (raw.finish ops xs limit).2 us

end WS.Legacy
