import Verif.Model.Prelude

/-!
# RFC 7230: the syntax of HTTP/1.1 messages, as far as it is accepted by websockets
-/

namespace WS.Spec

/-- RFC 7230 section 3.2.6: a character of a token. -/
def TokenChar (c : Nat) : Prop :=
  c ∈ p!"!#$%&'*+-.^_`|~" ∨ (0x30 ≤ c ∧ c ≤ 0x39) ∨ (0x41 ≤ c ∧ c ≤ 0x5A) ∨ (0x61 ≤ c ∧ c ≤ 0x7A)

/-- A token: at least one token character. -/
def Token (b : Bytes) : Prop := b ≠ [] ∧ ∀ c ∈ b, TokenChar c.toNat

/-- A byte allowed in a header value: HTAB, SP, VCHAR or obs-text. -/
def ValueByte (c : UInt8) : Prop :=
  c.toNat = 9 ∨ (0x20 ≤ c.toNat ∧ c.toNat ≤ 0x7E) ∨ 0x80 ≤ c.toNat

/-- Optional whitespace. -/
def Blank (c : UInt8) : Prop := c = 0x20 ∨ c = 0x09

/-- No blank at the start or at the end. -/
def Trimmed (b : Bytes) : Prop :=
  (∀ c, b.head? = some c → ¬ Blank c) ∧ (∀ c, b.getLast? = some c → ¬ Blank c)

/-- A header line without its CRLF: `field-name ":" OWS field-value OWS`. -/
def HeaderLine (line name value : Bytes) : Prop :=
  ∃ o1 o2, line = name ++ b!":" ++ o1 ++ value ++ o2 ∧ (∀ c ∈ o1, Blank c) ∧ (∀ c ∈ o2, Blank c) ∧
    Token name ∧ (∀ c ∈ value, ValueByte c) ∧ Trimmed value

def crlf : Bytes := [13, 10]

/-- Header lines, each of at most 4110 bytes including CRLF, and an empty line. -/
inductive HeaderBlock : Bytes → List (Bytes × Bytes) → Prop where
  | nil : HeaderBlock crlf []
  | cons {line name value rest hs} : HeaderLine line name value → line.length + 2 ≤ 4110 →
      HeaderBlock rest hs → HeaderBlock (line ++ crlf ++ rest) ((name, value) :: hs)

/-- How a byte that isn't checked is represented in a `str`: ASCII, or a surrogate escape. -/
def asStr (b : Bytes) : PyStr := b.map fun c => if c.toNat ≤ 127 then c.toNat else 0xDC00 + c.toNat

/-- A GET request. -/
def RequestText (bytes path : Bytes) (hs : List (Bytes × Bytes)) : Prop :=
  ∃ block, bytes = b!"GET " ++ path ++ b!" HTTP/1.1" ++ crlf ++ block ∧
    32 ∉ path ∧ 10 ∉ path ∧ path.length + 15 ≤ 4110 ∧ HeaderBlock block hs ∧ hs.length ≤ 256

/-- Decimal digits that may be separated by single underscores, and their value. -/
inductive DigitString : List Nat → Nat → Prop where
  | one {d} : 48 ≤ d → d ≤ 57 → DigitString [d] (d - 48)
  | more {s n d} : DigitString s n → 48 ≤ d → d ≤ 57 → DigitString (s ++ [d]) (n * 10 + (d - 48))
  | sep {s n d} : DigitString s n → 48 ≤ d → d ≤ 57 →
      DigitString (s ++ [95, d]) (n * 10 + (d - 48))

/-- A blank character for `int()`. -/
def IntSpace (c : Nat) : Prop := c = 32 ∨ (9 ≤ c ∧ c ≤ 13)

/-- What `int()` accepts. -/
def IntLiteral (s : List Nat) (i : Int) : Prop :=
  ∃ s1 ds s2 n, (∀ c ∈ s1, IntSpace c) ∧ (∀ c ∈ s2, IntSpace c) ∧ DigitString ds n ∧
    ((s = s1 ++ ds ++ s2 ∧ i = n) ∨ (s = s1 ++ p!"+" ++ ds ++ s2 ∧ i = n) ∨
      (s = s1 ++ p!"-" ++ ds ++ s2 ∧ i = -n))

/-- The status line and the headers of a response. -/
def ResponseHead (bytes : Bytes) (code : Int) (reason : Bytes) (hs : List (Bytes × Bytes)) : Prop :=
  ∃ st block, bytes = b!"HTTP/1.1 " ++ st ++ b!" " ++ reason ++ crlf ++ block ∧
    32 ∉ st ∧ 10 ∉ st ∧ (∀ c ∈ reason, ValueByte c) ∧ st.length + reason.length + 12 ≤ 4110 ∧
    IntLiteral (st.map UInt8.toNat) code ∧ 100 ≤ code ∧ code < 1000 ∧
    HeaderBlock block hs ∧ hs.length ≤ 256

/-- RFC 7230 section 3.3.3: responses to GET that have no body. -/
def BodyLess (code : Int) : Prop := (100 ≤ code ∧ code < 200) ∨ code = 204 ∨ code = 304

/-- A header that can be sent: the name is a token; the value is made of visible ASCII characters,
blanks inside, and the line isn't too long. -/
structure GoodHeader (p : PyStr × PyStr) : Prop where
  name_ne : p.1 ≠ []
  name : ∀ c ∈ p.1, TokenChar c
  value : ∀ c ∈ p.2, c = 9 ∨ (0x20 ≤ c ∧ c ≤ 0x7E)
  first : ∀ c, p.2.head? = some c → c ≠ 9 ∧ c ≠ 0x20
  last : ∀ c, p.2.getLast? = some c → c ≠ 9 ∧ c ≠ 0x20
  length : p.1.length + p.2.length + 4 ≤ 4110

/-- Bytes made of lines. -/
def ofLines (lines : List Bytes) : Bytes := (lines.map (· ++ crlf)).flatten

end WS.Spec
