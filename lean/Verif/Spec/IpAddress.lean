import Verif.Model.Prelude

/-!
# IP addresses in URIs

The grammar of RFC 3986, section 3.2.2, and the zone identifiers of RFC 6874 and RFC 4007.  Strings are lists
of code points.
-/

namespace WS.Uri.Spec

/-- RFC 5234 `DIGIT` -/
def Digit (c : Nat) : Prop := 48 ≤ c ∧ c ≤ 57

/-- RFC 5234 `HEXDIG`, in upper case or lower case -/
def HexDig (c : Nat) : Prop := Digit c ∨ (65 ≤ c ∧ c ≤ 70) ∨ (97 ≤ c ∧ c ≤ 102)

/-- RFC 3986 `dec-octet` -/
inductive DecOctet : PyStr → Prop
  | one {a} : Digit a → DecOctet [a]
  | two {a b} : 49 ≤ a ∧ a ≤ 57 → Digit b → DecOctet [a, b]
  | hundred {b c} : Digit b → Digit c → DecOctet [49, b, c]
  | twoHundred {b c} : 48 ≤ b ∧ b ≤ 52 → Digit c → DecOctet [50, b, c]
  | top {c} : 48 ≤ c ∧ c ≤ 53 → DecOctet [50, 53, c]

/-- RFC 3986 `IPv4address` -/
def IPv4 (s : PyStr) : Prop :=
  ∃ a b c d, DecOctet a ∧ DecOctet b ∧ DecOctet c ∧ DecOctet d ∧
    s = a ++ [46] ++ b ++ [46] ++ c ++ [46] ++ d

/-- RFC 3986 `h16`: one to four hexadecimal digits -/
def H16 (s : PyStr) : Prop := 1 ≤ s.length ∧ s.length ≤ 4 ∧ ∀ c ∈ s, HexDig c

/-- `n` groups of 16 bits, separated by colons; if `v4`, the last two may be an IPv4 address. -/
inductive Groups (v4 : Bool) : PyStr → Nat → Prop
  | last {h} : H16 h → Groups v4 h 1
  | ls32 {s} : v4 = true → IPv4 s → Groups v4 s 2
  | cons {h s n} : H16 h → Groups v4 s n → Groups v4 (h ++ [58] ++ s) (n + 1)

/-- Groups, or nothing -/
def Groups? (v4 : Bool) (s : PyStr) (n : Nat) : Prop := (s = [] ∧ n = 0) ∨ Groups v4 s n

/-- RFC 3986 `IPv6address`: eight groups, or at most seven if two colons stand for the others -/
def IPv6Address (s : PyStr) : Prop :=
  Groups true s 8 ∨
    ∃ a b m n, s = a ++ [58, 58] ++ b ∧ Groups? false a m ∧ Groups? true b n ∧ m + n ≤ 7

/-- An IPv6 address, possibly with a zone identifier: any text without a slash or a percent sign -/
def IPv6 (s : PyStr) : Prop :=
  IPv6Address s ∨ ∃ a z, s = a ++ [37] ++ z ∧ IPv6Address a ∧ z ≠ [] ∧ 37 ∉ z ∧ 47 ∉ z

/-- RFC 3986 `IPvFuture`, with any characters in the address -/
def IPvFuture (s : PyStr) : Prop :=
  ∃ v a, s = [118] ++ v ++ [46] ++ a ∧ v ≠ [] ∧ (∀ c ∈ v, HexDig c) ∧ a ≠ []

end WS.Uri.Spec
