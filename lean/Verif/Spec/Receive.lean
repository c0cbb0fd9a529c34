import Verif.Spec.Output

/-!
# The incoming side of a connection

What the application gets from `events_received()`, and what the connection must send because
of what it has received.
-/

namespace WS.Spec

/-- The frames among the events returned by `events_received()`. -/
def eventFrames {E : Type} (evs : List (Event E)) : List Frame :=
  evs.filterMap fun
    | .frame f => some f
    | .handshake _ => none

def isDataFrame (f : Frame) : Bool :=
  match f.opcode with
  | .cont | .text | .binary => true
  | _ => false

/-- No data frame follows a close frame. -/
def NoDataAfterClose (fs : List Frame) : Prop :=
  ∀ pre f post, fs = pre ++ f :: post → f.opcode = .close → ∀ g ∈ post, isDataFrame g = false

/-- Size of the last message of a sequence of frames, which may be unfinished: the total size of
the payloads of data frames since the last text or binary frame. -/
def messageSize (fs : List Frame) : Nat :=
  fs.foldl (fun n f => match f.opcode with
    | .text | .binary => f.data.length
    | .cont => n + f.data.length
    | _ => n) 0

/-- What a write contains, without the masking keys. -/
inductive Out where
  | raw (b : Bytes)
  | frame (f : Frame)
  | eof
deriving DecidableEq, Repr

def Item.out : Item → Out
  | .raw b => .raw b
  | .frame f _ => .frame f
  | .eof => .eof

/-- A control frame. -/
def ctrlFrame (opcode : Opcode) (data : Bytes) : Frame := { fin := true, opcode, data }

/-- What a connection must send in response to frames: a pong with the same payload for each
ping, until a close frame is received; a close frame with the same payload for the first close
frame, unless it has sent one, after which a server ends the stream.

`opened` tells whether the connection is open and `closed` whether a close frame has been
received. -/
def replies (side : Side) : (opened closed : Bool) → List Frame → List Out
  | _, _, [] => []
  | opened, closed, f :: fs =>
    match f.opcode with
    | .ping =>
      (if closed then [] else [.frame (ctrlFrame .pong f.data)]) ++ replies side opened closed fs
    | .close =>
      (if opened then
        .frame (ctrlFrame .close f.data) :: (if side = .server then [.eof] else [])
      else []) ++ replies side false true fs
    | _ => replies side opened closed fs

/-- Payloads of the pongs in what is sent. -/
def pongs (outs : List Out) : List Bytes :=
  outs.filterMap fun
    | .frame f => if f.opcode = .pong then some f.data else none
    | _ => none

/-- The handshake data in what is sent. -/
def raws (outs : List Out) : List Bytes :=
  outs.filterMap fun
    | .raw b => some b
    | _ => none

/-- Payloads of the pings received before a close frame. -/
def pingsBeforeClose : (closed : Bool) → List Frame → List Bytes
  | _, [] => []
  | closed, f :: fs =>
    match f.opcode with
    | .ping => (if closed then [] else [f.data]) ++ pingsBeforeClose closed fs
    | .close => pingsBeforeClose true fs
    | _ => pingsBeforeClose closed fs

end WS.Spec
