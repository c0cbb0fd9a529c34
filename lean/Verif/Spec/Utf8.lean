import Verif.Model.Prelude

/-!
# Independent specification of UTF-8

Stated with Lean's own `Char` (Unicode scalar values) and `String.utf8EncodeChar`.
-/

namespace WS.Spec

/-- `bytes` is the UTF-8 encoding of the text `s`. -/
def IsUtf8 (bytes : Bytes) (s : PyStr) : Prop :=
  ∃ cs : List Char, s = cs.map Char.toNat ∧ bytes = cs.flatMap String.utf8EncodeChar

/-- A code point that is a Unicode scalar value (not a surrogate). -/
def IsScalar (c : Nat) : Prop := c < 0xD800 ∨ (0xE000 ≤ c ∧ c < 0x110000)

end WS.Spec
