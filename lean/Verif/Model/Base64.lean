import Verif.Model.Prelude

/-!
# Python's `base64` module, as used by headers.py 494, 517, handshake code and server.py 199

`binascii` is C code of CPython; this is a transcription of its algorithm.
-/

namespace WS

/-- The character (code) of a 6-bit value, `table_b2a_base64` of binascii.c. -/
def b64Char (v : Nat) : Nat :=
  if v < 26 then 65 + v
  else if v < 52 then 97 + (v - 26)
  else if v < 62 then 48 + (v - 52)
  else if v = 62 then 43
  else 47

/-- The value of a character, `table_a2b_base64` of binascii.c; `none` if it isn't in the
alphabet. -/
def b64Val (c : Nat) : Option Nat :=
  if 65 ≤ c ∧ c ≤ 90 then some (c - 65)
  else if 97 ≤ c ∧ c ≤ 122 then some (c - 97 + 26)
  else if 48 ≤ c ∧ c ≤ 57 then some (c - 48 + 52)
  else if c = 43 then some 62
  else if c = 47 then some 63
  else none

/-- `base64.b64encode(data).decode()` -/
def b64encode : Bytes → PyStr
  | [] => []
  | [a] => [b64Char (a.toNat / 4), b64Char (a.toNat % 4 * 16), 61, 61]
  | [a, b] =>
    [b64Char (a.toNat / 4), b64Char (a.toNat % 4 * 16 + b.toNat / 16), b64Char (b.toNat % 16 * 4), 61]
  | a :: b :: c :: rest =>
    b64Char (a.toNat / 4) :: b64Char (a.toNat % 4 * 16 + b.toNat / 16) ::
      b64Char (b.toNat % 16 * 4 + c.toNat / 64) :: b64Char (c.toNat % 64) :: b64encode rest

/-- `binascii.a2b_base64`: the loop over the characters.  `quad` is the position in a group of
four characters, `left` the bits kept from the previous character, `pads` the number of padding
characters seen since the last data character.  Characters that aren't in the alphabet are
skipped. -/
def a2bLoop (quad left pads : Nat) : PyStr → Except Exc Bytes
  | [] => if quad = 0 then .ok [] else .error .binasciiError
  | c :: cs =>
    if c = 61 then
      if 2 ≤ quad then
        if 4 ≤ quad + (pads + 1) then .ok [] else a2bLoop quad left (pads + 1) cs
      else a2bLoop quad left pads cs
    else
      match b64Val c with
      | none => a2bLoop quad left pads cs
      | some v =>
        match quad with
        | 0 => a2bLoop 1 v 0 cs
        | 1 => match a2bLoop 2 (v % 16) 0 cs with
          | .ok out => .ok (UInt8.ofNat (left * 4 + v / 16) :: out)
          | .error e => .error e
        | 2 => match a2bLoop 3 (v % 4) 0 cs with
          | .ok out => .ok (UInt8.ofNat (left * 16 + v / 4) :: out)
          | .error e => .error e
        | _ => match a2bLoop 0 0 0 cs with
          | .ok out => .ok (UInt8.ofNat (left * 64 + v) :: out)
          | .error e => .error e

/-- `base64.b64decode(s)`, without validation: other characters are discarded. -/
def b64decode (s : PyStr) : Except Exc Bytes := a2bLoop 0 0 0 s

/-- `re.fullmatch(b"[A-Za-z0-9+/]*={0,2}", s)`; CPython, for server.py 202 and legacy/handshake.py 102 -/
def b64Valid (s : PyStr) : Bool :=
  let rest := s.dropWhile fun c => (b64Val c).isSome
  rest = [] || rest = [61] || rest = [61, 61]

/-- `base64.b64decode(s, validate=True)` -/
def b64decodeValid (s : PyStr) : Except Exc Bytes :=
  if b64Valid s then a2bLoop 0 0 0 s else .error .binasciiError

end WS
