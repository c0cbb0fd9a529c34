
/-!
# Values shared by the whole model

Bytes, Python strings, exceptions.  Nothing here is an algorithm of /repo; it fixes the
vocabulary.
-/

namespace WS

/-- A byte string (`bytes`, `bytearray` and `memoryview` are not distinguished, except in
`Verif.Model.BytesLike`). -/
abbrev Bytes := List UInt8

/-- A Python `str`: the list of its code points.  Lone surrogates (0xD800-0xDFFF) are
possible, as in Python. -/
abbrev PyStr := List Nat

open Lean in
/-- `b!"..."` : the UTF-8 bytes of a literal as an explicit list. -/
macro:max "b!" s:str : term => do
  let elems ← s.getString.toUTF8.toList.mapM fun b =>
    pure (⟨(Syntax.mkNumLit (toString b.toNat)).raw⟩ : TSyntax `term)
  `(([$(elems.toArray),*] : List UInt8))

open Lean in
/-- `p!"..."` : the code points of a literal as an explicit list. -/
macro:max "p!" s:str : term => do
  let elems ← s.getString.toList.mapM fun c =>
    pure (⟨(Syntax.mkNumLit (toString c.toNat)).raw⟩ : TSyntax `term)
  `(([$(elems.toArray),*] : List Nat))

/-- Python exceptions that the modelled code raises or lets through
(/repo/src/websockets/exceptions.py and builtins).  Messages are kept where they become
observable (close reasons, response bodies); otherwise the constructor alone identifies the
class. -/
inductive Exc where
  /-- exceptions.py `ProtocolError` -/
  | protocolError (msg : PyStr)
  /-- exceptions.py `PayloadTooBig` -/
  | payloadTooBig (msg : PyStr)
  /-- exceptions.py `InvalidState` -/
  | invalidState (msg : PyStr)
  /-- exceptions.py `SecurityError` -/
  | securityError (msg : PyStr)
  /-- exceptions.py `InvalidMessage` (an `InvalidHandshake`) -/
  | invalidHandshake (msg : PyStr)
  /-- exceptions.py `InvalidHeader(name, value)` -/
  | invalidHeader (name : PyStr) (value : Option PyStr)
  /-- exceptions.py `InvalidHeaderFormat(name, error, header, pos)` -/
  | invalidHeaderFormat (name error header : PyStr) (pos : Nat)
  /-- exceptions.py `InvalidHeaderValue(name, value)` -/
  | invalidHeaderValue (name : PyStr) (value : PyStr)
  /-- exceptions.py `InvalidOrigin(origin)` -/
  | invalidOrigin (origin : Option PyStr)
  /-- exceptions.py `InvalidUpgrade(name, value)` -/
  | invalidUpgrade (name : PyStr) (value : Option PyStr)
  /-- exceptions.py `InvalidStatusCode(status_code)` -/
  | invalidStatusCode (code : Int)
  /-- exceptions.py `NegotiationError` and its subclasses -/
  | negotiationError (msg : PyStr)
  /-- builtin `EOFError` -/
  | eofError
  /-- builtin `UnicodeDecodeError(reason, start)` -/
  | unicodeDecodeError (reason : PyStr) (start : Nat)
  /-- builtin `UnicodeEncodeError` -/
  | unicodeEncodeError
  | assertionError
  | valueError (msg : PyStr)
  | runtimeError
  | typeError
  /-- `struct.error` -/
  | structError
  /-- `binascii.Error` -/
  | binasciiError
  /-- `zlib.error` -/
  | zlibError
  | attributeError
  | keyError
  /-- datastructures.py `MultipleValuesError` -/
  | multipleValuesError
  | notImplementedError
  /-- not a Python exception: marks a computation that would not terminate.  Theorems show it
  is unreachable. -/
  | diverges
deriving DecidableEq, Repr

deriving instance DecidableEq for Except

/-- `str(n)` for a natural number (Python; for server.py 408, headers.py, permessage_deflate.py 176-197). -/
def decStr (n : Nat) : PyStr :=
  if n < 10 then [48 + n] else decStr (n / 10) ++ [48 + n % 10]
termination_by n
decreasing_by omega

/-- `str(i)` for an integer (Python; for exceptions.py 103, 245). -/
def intStr : Int → PyStr
  | .ofNat n => decStr n
  | .negSucc n => 45 :: decStr (n + 1)

/-- `struct.pack("!H", n)` for `n < 65536`. -/
def packH (n : Nat) : Bytes := [UInt8.ofNat (n / 256), UInt8.ofNat (n % 256)]

/-- `struct.pack("!Q", n)` for `n < 2**64`. -/
def packQ (n : Nat) : Bytes :=
  [UInt8.ofNat (n / 256 ^ 7 % 256), UInt8.ofNat (n / 256 ^ 6 % 256),
   UInt8.ofNat (n / 256 ^ 5 % 256), UInt8.ofNat (n / 256 ^ 4 % 256),
   UInt8.ofNat (n / 256 ^ 3 % 256), UInt8.ofNat (n / 256 ^ 2 % 256),
   UInt8.ofNat (n / 256 % 256), UInt8.ofNat (n % 256)]

/-- `struct.unpack("!H", data)` / `struct.unpack("!Q", data)`: big-endian value of `data` (frames.py 146, 149, 306). -/
def unpackBE (data : Bytes) : Nat := data.foldl (fun acc b => acc * 256 + b.toNat) 0

end WS
