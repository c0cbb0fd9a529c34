import Verif.Model.Prelude

/-!
# RFC 4648: base64, as a regrouping of bits
-/

namespace WS.Spec

/-- The bits of a byte, most significant first. -/
def byteBits (b : UInt8) : List Bool := (List.range 8).map fun i => b.toNat.testBit (7 - i)

/-- The number with these binary digits, most significant first. -/
def ofBits (l : List Bool) : Nat := l.foldl (fun n b => 2 * n + b.toNat) 0

/-- RFC 4648, table 1. -/
def b64Alphabet : PyStr := p!"ABCDEFGHIJKLMNOPQRSTUVWXYZabcdefghijklmnopqrstuvwxyz0123456789+/"

/-- Groups of six bits; the last one is completed with zeros. -/
def sextets : List Bool → List (List Bool)
  | a :: b :: c :: d :: e :: f :: rest => [a, b, c, d, e, f] :: sextets rest
  | [] => []
  | l => [l ++ List.replicate (6 - l.length) false]

/-- RFC 4648, section 4: each group of six bits is a character of the alphabet; the result is padded
to a multiple of four characters. -/
def base64 (b : Bytes) : PyStr :=
  let chars := (sextets (b.map byteBits).flatten).map fun s => b64Alphabet.getD (ofBits s) 0
  chars ++ List.replicate ((4 - chars.length % 4) % 4) 61

/-- The bits of six-bit values, most significant first. -/
def sextetBits (v : Nat) : List Bool := (List.range 6).map fun i => v.testBit (5 - i)

/-- RFC 4648, sections 3.2, 3.3 and 3.5, with the choices of Python: characters outside of the alphabet are ignored
(here, before padding), there must be enough padding, or more, and the bits that are left needn't be zeros. -/
def Base64Of (s : PyStr) (b : Bytes) : Prop :=
  ∃ body n extra, s = body ++ List.replicate n 61 ∧ 61 ∉ body ∧ extra.length < 6 ∧
    ((body.filterMap b64Alphabet.idxOf?).map sextetBits).flatten = (b.map byteBits).flatten ++ extra ∧
    ((body.filterMap b64Alphabet.idxOf?).length % 4 = 0 ∨ 4 ≤ (body.filterMap b64Alphabet.idxOf?).length % 4 + n)

end WS.Spec
