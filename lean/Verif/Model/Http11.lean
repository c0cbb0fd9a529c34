import Verif.Model.Streams
import Verif.Model.Headers

/-!
# /repo/src/websockets/http11.py

The `EOFError` raised by `read_line` is caught and replaced by another `EOFError` (lines 85-88,
167-170, 253-256); messages of `EOFError` are not modelled.  Error messages don't interpolate
the offending input (helper `d`, lines 12-17).
-/

namespace WS

/-- http11.py 8 `MAX_HEADERS` -/
def maxHeaders : Nat := 256

/-- http11.py 9 `MAX_LINE` -/
def maxLine : Nat := 4110

/-- A byte in `[-!#$%&\'*+.^_`|~0-9a-zA-Z]` (http11.py 24, headers.py 77), given by its code. -/
def isTokenChar (c : Nat) : Bool :=
  [45, 33, 35, 36, 37, 38, 39, 42, 43, 46, 94, 95, 96, 124, 126].contains c ||
    (48 ≤ c && c ≤ 57) || (97 ≤ c && c ≤ 122) || (65 ≤ c && c ≤ 90)

/-- A byte in `[\x09\x20-\x7e\x80-\xff]` (http11.py 37), given by its code. -/
def isValueChar (c : Nat) : Bool :=
  c == 9 || (32 ≤ c && c ≤ 126) || (128 ≤ c && c ≤ 255)

/-- http11.py 24 `_token_re.fullmatch` -/
def isToken (b : Bytes) : Bool := !b.isEmpty && b.all fun c => isTokenChar c.toNat

/-- http11.py 37 `_value_re.fullmatch` -/
def isValue (b : Bytes) : Bool := b.all fun c => isValueChar c.toNat

/-- `b.split(sep, 1)` when `sep` occurs in `b`; `none` when it doesn't (http11.py 259). -/
def splitAt1 (sep : UInt8) : Bytes → Option (Bytes × Bytes)
  | [] => none
  | c :: cs =>
    if c = sep then some ([], cs)
    else match splitAt1 sep cs with
      | none => none
      | some (a, b) => some (c :: a, b)

/-- `x, y, z = b.split(sep, 2)`; `none` stands for `ValueError` (http11.py 90, 171). -/
def split3 (sep : UInt8) (b : Bytes) : Option (Bytes × Bytes × Bytes) :=
  match splitAt1 sep b with
  | none => none
  | some (x, r) =>
    match splitAt1 sep r with
    | none => none
    | some (y, z) => some (x, y, z)

/-- a blank: space or horizontal tab (http11.py 264) -/
def isBlank (c : UInt8) : Bool := c = 32 || c = 9

/-- `b.strip(b" \t")` (http11.py 264) -/
def stripBlank (b : Bytes) : Bytes :=
  ((b.dropWhile isBlank).reverse.dropWhile isBlank).reverse

/-- `b.decode("ascii", "surrogateescape")` (http11.py 98, 269) -/
def surrogateEscape (b : Bytes) : PyStr :=
  b.map fun c => if c.toNat < 128 then c.toNat else 0xDC00 + c.toNat

/-- `Py_ISSPACE` (CPython, for http11.py 178, 210) -/
def isSpace (c : Nat) : Bool := c == 32 || (9 ≤ c && c ≤ 13)

/-- An ASCII digit (for http11.py 178, 210) -/
def isDigit (c : Nat) : Bool := 48 ≤ c && c ≤ 57

/-- The digits of an integer literal, where single underscores may separate digits.  `acc` is the
value so far; `prev` tells whether the previous character was a digit (CPython's `int`, for http11.py 178, 210). -/
def intDigits (acc : Nat) (prev : Bool) : List Nat → Option Nat
  | [] => if prev then some acc else none
  | c :: cs =>
    if isDigit c then intDigits (acc * 10 + (c - 48)) true cs
    else if c = 95 ∧ prev = true then intDigits acc false cs
    else none

/-- An integer literal without blanks around: an optional sign and digits (CPython's `int`, for http11.py 178, 210). -/
def signedInt : List Nat → Option Int
  | 43 :: s => (intDigits 0 false s).map Int.ofNat
  | 45 :: s => (intDigits 0 false s).map fun n : Nat => -(n : Int)
  | s => (intDigits 0 false s).map Int.ofNat

/-- `int(x)` for `bytes` or `str` made of the given codes; `none` stands for `ValueError`.
(For `str`, Unicode blanks and digits aren't modelled: `int` is only called on header values,
which are ASCII except for surrogates.  The limit on the number of digits of recent Python
versions, 4300, can't be reached in a line.) -/
def pyInt (s : List Nat) : Option Int :=
  signedInt ((s.dropWhile isSpace).reverse.dropWhile isSpace).reverse

/-- http11.py 278-298 `parse_line` -/
def parseLine : Coro Bytes :=
  Coro.line.bind fun line =>
  if line.length > maxLine then .raise (.securityError p!"line too long")
  else if ¬ [13, 10] <:+ line then .raise .eofError
  else .ret (line.take (line.length - 2))

/-- http11.py 251-273: iterations left, headers so far. -/
def parseHeadersLoop : Nat → Headers → Coro Headers
  | 0, _ => .raise (.securityError p!"too many HTTP headers")
  | n + 1, headers =>
    parseLine.bind fun line =>
    if line = [] then .ret headers
    else
      match splitAt1 58 line with
      | none => .raise (.valueError p!"invalid HTTP header line")
      | some (rawName, rawValue) =>
        if !isToken rawName then .raise (.valueError p!"invalid HTTP header name")
        else
          let rawValue := stripBlank rawValue
          if !isValue rawValue then .raise (.valueError p!"invalid HTTP header value")
          else
            parseHeadersLoop n (headers.set (rawName.map UInt8.toNat) (surrogateEscape rawValue))

/-- http11.py 233-275 `parse_headers` -/
def parseHeaders : Coro Headers := parseHeadersLoop (maxHeaders + 1) {}

/-- http11.py 43-53 -/
structure Request where
  path : PyStr
  headers : Headers
deriving DecidableEq, Repr

/-- http11.py 56-102 `Request.parse` -/
def Request.parse : Coro Request :=
  parseLine.bind fun requestLine =>
  match split3 32 requestLine with
  | none => .raise (.valueError p!"invalid HTTP request line")
  | some (method, rawPath, version) =>
    if method ≠ b!"GET" then .raise (.valueError p!"unsupported HTTP method")
    else if version ≠ b!"HTTP/1.1" then .raise (.valueError p!"unsupported HTTP version")
    else
      parseHeaders.bind fun headers =>
      .ret { path := surrogateEscape rawPath, headers }

/-- http11.py 104-113 `Request.serialize` -/
def Request.serialize (r : Request) : Except Exc Bytes :=
  match utf8Encode (p!"GET " ++ r.path ++ p!" HTTP/1.1" ++ [13, 10]) with
  | .error e => .error e
  | .ok line =>
    match r.headers.serialize with
    | .error e => .error e
    | .ok hs => .ok (line ++ hs)

/-- http11.py 119-131 -/
structure Response where
  statusCode : Int
  reason : PyStr
  headers : Headers
  body : Option Bytes := none
  exception : Option Exc := none
deriving DecidableEq, Repr

/-- http11.py 199 -/
def noBody (status : Int) : Bool := (100 ≤ status && status < 200) || status == 204 || status == 304

/-- http11.py 191-217: after the headers. -/
def Response.parseBody (status : Int) (reason : PyStr) (headers : Headers) : Coro Response :=
  if headers.contains p!"Transfer-Encoding" then .raise .notImplementedError
  else if noBody status then .ret { statusCode := status, reason, headers, body := none }
  else
    match headers.get p!"Content-Length" with
    | .error .keyError =>
      Coro.toEof.bind fun body => .ret { statusCode := status, reason, headers, body := some body }
    | .error e => .raise e
    | .ok raw =>
      match pyInt raw with
      | none => .raise (.valueError p!"invalid literal for int()")
      | some n =>
        -- streams.py 52: `assert n >= 0`
        if n < 0 then .raise .assertionError
        else
          (Coro.exact n.toNat).bind fun body =>
          .ret { statusCode := status, reason, headers, body := some body }

/-- http11.py 133-217 `Response.parse` -/
def Response.parse : Coro Response :=
  parseLine.bind fun statusLine =>
  match split3 32 statusLine with
  | none => .raise (.valueError p!"invalid HTTP status line")
  | some (version, rawStatus, rawReason) =>
    if version ≠ b!"HTTP/1.1" then .raise (.valueError p!"unsupported HTTP version")
    else
      match pyInt (rawStatus.map UInt8.toNat) with
      | none => .raise (.valueError p!"invalid HTTP status code")
      | some status =>
        if ¬ (100 ≤ status ∧ status < 1000) then
          .raise (.valueError p!"unsupported HTTP status code")
        else if !isValue rawReason then .raise (.valueError p!"invalid HTTP reason phrase")
        else
          match utf8Decode rawReason with
          | .error e => .raise e
          | .ok reason => parseHeaders.bind fun headers => Response.parseBody status reason headers

/-- http11.py 219-230 `Response.serialize` -/
def Response.serialize (r : Response) : Except Exc Bytes :=
  match utf8Encode (p!"HTTP/1.1 " ++ intStr r.statusCode ++ p!" " ++ r.reason ++ [13, 10]) with
  | .error e => .error e
  | .ok line =>
    match r.headers.serialize with
    | .error e => .error e
    | .ok hs => .ok (line ++ hs ++ r.body.getD [])

end WS
