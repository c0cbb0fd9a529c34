import Verif.Spec.Receive
import Verif.Props.Frames

/-!
# What a conforming peer sends
-/

namespace WS.Spec

/-- Frames that a peer may send: valid frames, which form messages of an acceptable size; a close
frame comes between messages, has a valid payload and is the last frame. -/
structure Conforming (limit : Option Int) (fs : List Frame) : Prop where
  valid : ∀ f ∈ fs, ValidFrame f
  messages : ∃ unfinished, Messages (fs.filter isDataFrame) unfinished
  sizes : ∀ pre f post, fs = pre ++ f :: post → isDataFrame f = true →
    Within (messageSize (pre ++ [f])) limit
  close : ∀ pre f post, fs = pre ++ f :: post → f.opcode = .close →
    post = [] ∧ Messages (pre.filter isDataFrame) false ∧
      ∃ code reason, ClosePayload f.data code reason

/-- Control frames are small enough too. In the middle of a message, the size limit applies to
the total size of the control frame and of the beginning of the message. -/
def ControlFits (limit : Option Int) (fs : List Frame) : Prop :=
  ∀ pre f post unfinished, fs = pre ++ f :: post → isDataFrame f = false →
    Messages (pre.filter isDataFrame) unfinished →
    Within (f.data.length + if unfinished then messageSize pre else 0) limit

end WS.Spec
