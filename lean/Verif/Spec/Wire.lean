import Verif.Model.Frames
import Verif.Spec.Mask

/-!
# RFC 6455 section 5.2: the wire format of a frame

Only the type `Frame` (the API's notion of a frame) is shared with the model.
-/

namespace WS.Spec

/-- RFC 6455 section 5.2: `%x0` continuation, `%x1` text, `%x2` binary, `%x8` close, `%x9`
ping, `%xA` pong. -/
def opcodeNumber : Opcode → Nat
  | .cont => 0 | .text => 1 | .binary => 2 | .close => 8 | .ping => 9 | .pong => 10

def bit (b : Bool) : Nat := if b then 1 else 0

/-- A payload length `n` given by the 7-bit field `len7` followed by extended length bytes. -/
inductive LengthField (n : Nat) : Nat → Bytes → Prop where
  | short : n < 126 → LengthField n n []
  | medium (b1 b0 : UInt8) : n = b1.toNat * 256 + b0.toNat → LengthField n 126 [b1, b0]
  | long (b7 b6 b5 b4 b3 b2 b1 b0 : UInt8) :
      n = b7.toNat * 2 ^ 56 + b6.toNat * 2 ^ 48 + b5.toNat * 2 ^ 40 + b4.toNat * 2 ^ 32 +
          b3.toNat * 2 ^ 24 + b2.toNat * 2 ^ 16 + b1.toNat * 2 ^ 8 + b0.toNat →
      LengthField n 127 [b7, b6, b5, b4, b3, b2, b1, b0]

/-- The minimal number of bytes is used to encode the length. -/
def MinimalLength (n len7 : Nat) : Prop :=
  (len7 = 126 → 126 ≤ n) ∧ (len7 = 127 → 65536 ≤ n)

/-- `bytes` is a wire encoding of `f`, masked with `key` or not masked. -/
def WireWith (minimal : Bool) (key : Option Bytes) (f : Frame) (bytes : Bytes) : Prop :=
  ∃ (h1 h2 : UInt8) (len7 : Nat) (ext : Bytes),
    h1.toNat = 128 * bit f.fin + 64 * bit f.rsv1 + 32 * bit f.rsv2 + 16 * bit f.rsv3 +
      opcodeNumber f.opcode ∧
    h2.toNat = 128 * bit key.isSome + len7 ∧
    LengthField f.data.length len7 ext ∧
    (minimal = true → MinimalLength f.data.length len7) ∧
    match key with
    | some k => k.length = 4 ∧ bytes = [h1, h2] ++ ext ++ k ++ maskOctets k f.data
    | none => bytes = [h1, h2] ++ ext ++ f.data

/-- `bytes` is some wire encoding of `f` with the given value of the MASK bit. -/
def Wire (masked : Bool) (f : Frame) (bytes : Bytes) : Prop :=
  ∃ key : Option Bytes, key.isSome = masked ∧ WireWith false key f bytes

/-- Control frames: close, ping, pong (RFC 6455 section 5.5). -/
def IsControl (op : Opcode) : Prop := op = .close ∨ op = .ping ∨ op = .pong

/-- Frames allowed when no extension is in use: reserved bits 0; control frames are not
fragmented and carry at most 125 bytes. -/
def ValidFrame (f : Frame) : Prop :=
  f.rsv1 = false ∧ f.rsv2 = false ∧ f.rsv3 = false ∧
  (IsControl f.opcode → f.fin = true ∧ f.data.length ≤ 125)

/-- A length is within an optional limit. -/
def Within (n : Nat) (limit : Option Int) : Prop := ∀ m, limit = some m → (n : Int) ≤ m

end WS.Spec
