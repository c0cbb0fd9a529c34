import Verif.Model.Prelude

/-!
# CPython's strict UTF-8 codec, as used by `str.encode("utf-8")`, `bytes.decode("utf-8")` and
`codecs.getincrementaldecoder("utf-8")`

Used at /repo/src/websockets/frames.py 265, 287, 308, 325; headers.py 494, 515; http11.py;
legacy/protocol.py 930-960.  The codec itself is CPython's; it is written here after the
Unicode standard, table 3-7, with CPython's error reasons and positions.
-/

namespace WS

/-- Encode one code point.  Surrogates (and non-code-points) cannot be encoded (CPython, for frames.py 265, 287, 325). -/
def utf8EncodeCp (c : Nat) : Option Bytes :=
  if c < 0x80 then some [UInt8.ofNat c]
  else if c < 0x800 then
    some [UInt8.ofNat (0xC0 + c / 64), UInt8.ofNat (0x80 + c % 64)]
  else if c < 0x10000 then
    if 0xD800 ≤ c ∧ c < 0xE000 then none
    else some [UInt8.ofNat (0xE0 + c / 4096), UInt8.ofNat (0x80 + c / 64 % 64),
               UInt8.ofNat (0x80 + c % 64)]
  else if c < 0x110000 then
    some [UInt8.ofNat (0xF0 + c / 262144), UInt8.ofNat (0x80 + c / 4096 % 64),
          UInt8.ofNat (0x80 + c / 64 % 64), UInt8.ofNat (0x80 + c % 64)]
  else none

/-- `s.encode("utf-8")` (frames.py 265, 287, 325) -/
def utf8Encode : PyStr → Except Exc Bytes
  | [] => .ok []
  | c :: cs =>
    match utf8EncodeCp c with
    | none => .error .unicodeEncodeError
    | some b =>
      match utf8Encode cs with
      | .error e => .error e
      | .ok bs => .ok (b ++ bs)

/-- Why a sequence is not decodable (CPython's `UnicodeDecodeError.reason`). -/
inductive Utf8Err where
  | invalidStart
  | invalidCont
  | unexpectedEnd
deriving DecidableEq, Repr

/-- CPython's `UnicodeDecodeError.reason` (for exceptions of legacy/protocol.py 893) -/
def Utf8Err.reason : Utf8Err → PyStr
  | .invalidStart => p!"invalid start byte"
  | .invalidCont => p!"invalid continuation byte"
  | .unexpectedEnd => p!"unexpected end of data"

/-- continuation byte 0x80-0xBF -/
def isCont (b : UInt8) : Bool := 0x80 ≤ b.toNat && b.toNat < 0xC0

/-- Result of decoding the first character of a non-empty byte string: the code point and the
number of bytes it takes, or an error (CPython, for frames.py 308). -/
def utf8First : Bytes → Except Utf8Err (Nat × Nat)
  | [] => .error .unexpectedEnd
  | b0 :: rest =>
    let n0 := b0.toNat
    if n0 < 0x80 then .ok (n0, 1)
    else if n0 < 0xC2 then .error .invalidStart
    else if n0 < 0xE0 then
      match rest with
      | [] => .error .unexpectedEnd
      | b1 :: _ =>
        if isCont b1 then .ok ((n0 - 0xC0) * 64 + (b1.toNat - 0x80), 2)
        else .error .invalidCont
    else if n0 < 0xF0 then
      match rest with
      | [] => .error .unexpectedEnd
      | b1 :: rest =>
        if !isCont b1 || (n0 == 0xE0 && b1.toNat < 0xA0) || (n0 == 0xED && 0xA0 ≤ b1.toNat) then
          .error .invalidCont
        else
          match rest with
          | [] => .error .unexpectedEnd
          | b2 :: _ =>
            if isCont b2 then
              .ok ((n0 - 0xE0) * 4096 + (b1.toNat - 0x80) * 64 + (b2.toNat - 0x80), 3)
            else .error .invalidCont
    else if n0 < 0xF5 then
      match rest with
      | [] => .error .unexpectedEnd
      | b1 :: rest =>
        if !isCont b1 || (n0 == 0xF0 && b1.toNat < 0x90) || (n0 == 0xF4 && 0x90 ≤ b1.toNat) then
          .error .invalidCont
        else
          match rest with
          | [] => .error .unexpectedEnd
          | b2 :: rest =>
            if !isCont b2 then .error .invalidCont
            else
              match rest with
              | [] => .error .unexpectedEnd
              | b3 :: _ =>
                if isCont b3 then
                  .ok ((n0 - 0xF0) * 262144 + (b1.toNat - 0x80) * 4096
                    + (b2.toNat - 0x80) * 64 + (b3.toNat - 0x80), 4)
                else .error .invalidCont
    else .error .invalidStart

/-- Decode as many characters as possible: the text, the position reached, and the error met
there unless the input is exhausted.  `fuel` bounds the number of characters; callers pass the
length of the input (CPython, for frames.py 308). -/
def utf8Scan : Nat → Bytes → PyStr × Nat × Option Utf8Err
  | 0, _ => ([], 0, none)
  | _ + 1, [] => ([], 0, none)
  | fuel + 1, b :: bs =>
    match utf8First (b :: bs) with
    | .error e => ([], 0, some e)
    | .ok (c, n) =>
      let (s, pos, err) := utf8Scan fuel ((b :: bs).drop n)
      (c :: s, n + pos, err)

/-- `data.decode("utf-8")`: strict (frames.py 308, http11.py 187, headers.py 493, legacy/protocol.py 932). -/
def utf8Decode (data : Bytes) : Except Exc PyStr :=
  match utf8Scan data.length data with
  | (s, _, none) => .ok s
  | (_, pos, some e) => .error (.unicodeDecodeError e.reason pos)

/-- `codecs.getincrementaldecoder("utf-8")(errors="strict").decode(data, final)`
(`codecs.BufferedIncrementalDecoder.decode`): `pending` is the decoder's buffer; the result is
the decoded text and the new buffer (legacy/protocol.py 938-950). -/
def utf8IncDecode (pending data : Bytes) (final : Bool) : Except Exc (PyStr × Bytes) :=
  let all := pending ++ data
  match utf8Scan all.length all with
  | (s, pos, none) => .ok (s, all.drop pos)
  | (s, pos, some .unexpectedEnd) =>
    if final then .error (.unicodeDecodeError Utf8Err.unexpectedEnd.reason pos)
    else .ok (s, all.drop pos)
  | (_, pos, some e) => .error (.unicodeDecodeError e.reason pos)

end WS
