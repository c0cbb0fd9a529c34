import Verif.Spec.Wire
import Verif.Model.Connection

/-!
# The outgoing side of a connection, as seen from the network

The writes of a connection are interpreted as a sequence of items: handshake data, frames, and
the end of the stream.
-/

namespace WS.Spec

/-- What a write contains.  `frame f i` is a frame masked, for a client, with the `i`-th key
drawn from the random source. -/
inductive Item where
  | raw (b : Bytes)
  | frame (f : Frame) (i : Nat)
  | eof

/-- The masking key that must be used: a client masks with a key drawn from the random source,
a server doesn't mask. -/
def keyFor (rand : Nat → Bytes) (side : Side) (i : Nat) : Option Bytes :=
  match side with
  | .client => some (rand i)
  | .server => none

/-- Write `w` is exactly one item. -/
def Encodes (rand : Nat → Bytes) (side : Side) : Item → Bytes → Prop
  | .raw b, w => w = b
  | .frame f i, w => WireWith true (keyFor rand side i) f w
  | .eof, w => w = []

/-- The writes are exactly these items. -/
inductive Writes (rand : Nat → Bytes) (side : Side) : List Item → List Bytes → Prop where
  | nil : Writes rand side [] []
  | cons {i w is ws} : Encodes rand side i w → Writes rand side is ws →
      Writes rand side (i :: is) (w :: ws)

def Item.isFrame : Item → Bool
  | .frame _ _ => true
  | _ => false

def Item.isClose : Item → Bool
  | .frame f _ => f.opcode == .close
  | _ => false

def Item.isEof : Item → Bool
  | .eof => true
  | _ => false

/-- The handshake data of a sequence of items. -/
def rawItems (items : List Item) : List Bytes :=
  items.filterMap fun
    | .raw b => some b
    | _ => none

/-- No frame of any kind follows a close frame (so there is at most one close frame). -/
def CloseIsLast (items : List Item) : Prop :=
  ∀ pre c post, items = pre ++ c :: post → c.isClose = true → ∀ i ∈ post, i.isFrame = false

/-- Nothing follows the end of the stream (so it is signalled at most once). -/
def EofIsLast (items : List Item) : Prop :=
  ∀ pre c post, items = pre ++ c :: post → c.isEof = true → post = []

/-- The data frames of a sequence of items. -/
def dataFrames (items : List Item) : List Frame :=
  items.filterMap fun
    | .frame f _ => match f.opcode with
      | .cont | .text | .binary => some f
      | _ => none
    | _ => none

/-- A sequence of data frames that forms a sequence of messages: each one text or binary frame
followed by continuation frames, with FIN only on the last.  The flag tells whether a message
is left unfinished. -/
inductive Messages : List Frame → Bool → Prop where
  | nil : Messages [] false
  | whole {fs f} : Messages fs false → (f.opcode = .text ∨ f.opcode = .binary) →
      f.fin = true → Messages (fs ++ [f]) false
  | first {fs f} : Messages fs false → (f.opcode = .text ∨ f.opcode = .binary) →
      f.fin = false → Messages (fs ++ [f]) true
  | middle {fs f} : Messages fs true → f.opcode = .cont → f.fin = false →
      Messages (fs ++ [f]) true
  | last {fs f} : Messages fs true → f.opcode = .cont → f.fin = true →
      Messages (fs ++ [f]) false

end WS.Spec
