import Verif.Model.Utf8
import Verif.Model.Frames

/-!
# Reassembling messages: /repo/src/websockets/legacy/protocol.py `read_message`

`read_data_frame` returns data frames, or `None` when a close frame is received.  What it returns
in successive calls is the input here.
-/

namespace WS

/-- A message (`Data`). -/
inductive Data where
  | text (s : PyStr)
  | binary (b : Bytes)
deriving DecidableEq, Repr

/-- The local variables of `read_message` while a fragmented message is read: `text`, `chunks`
(joined, `str` or `bytes`), the buffer of `decoder`, `max_size`. -/
structure MsgReader where
  text : Bool
  str : PyStr := []
  bytes : Bytes := []
  pending : Bytes := []
  maxSize : Option Int
deriving DecidableEq, Repr

/-- legacy/protocol.py 938-967 `append` (four variants) -/
def MsgReader.append (r : MsgReader) (f : Frame) : Except Exc MsgReader :=
  if r.text then
    match utf8IncDecode r.pending f.data f.fin with
    | .error e => .error e
    | .ok (s, pending) =>
      .ok { r with str := r.str ++ s, pending, maxSize := r.maxSize.map (· - f.data.length) }
  else
    .ok { r with bytes := r.bytes ++ f.data, maxSize := r.maxSize.map (· - f.data.length) }

/-- legacy/protocol.py 980 -/
def MsgReader.result (r : MsgReader) : Data := if r.text then .text r.str else .binary r.bytes

/-- legacy/protocol.py 971-977: the loop, after a frame that isn't the last one.  `none` when more
frames are needed. -/
def MsgReader.loop (r : MsgReader) : List (Option Frame) → Option (Except Exc Data)
  | [] => none
  | none :: _ => some (.error (.protocolError p!"incomplete fragmented message"))
  | some f :: fs =>
    if f.opcode ≠ .cont then some (.error (.protocolError p!"unexpected opcode"))
    else
      match r.append f with
      | .error e => some (.error e)
      | .ok r => if f.fin then some (.ok r.result) else r.loop fs

/-- legacy/protocol.py 908-980 `read_message` -/
def readMessage (maxSize : Option Int) : List (Option Frame) → Option (Except Exc (Option Data))
  | [] => none
  | none :: _ => some (.ok none)
  | some f :: fs =>
    if f.opcode ≠ .text ∧ f.opcode ≠ .binary then
      some (.error (.protocolError p!"unexpected opcode"))
    else
      let text := decide (f.opcode = .text)
      if f.fin then
        if text then
          match utf8Decode f.data with
          | .error e => some (.error e)
          | .ok s => some (.ok (some (.text s)))
        else some (.ok (some (.binary f.data)))
      else
        match ({ text, maxSize } : MsgReader).append f with
        | .error e => some (.error e)
        | .ok r => (r.loop fs).map fun res => res.map some

end WS
