import Verif.Model.Http11
import Verif.Model.Base64

/-!
# /repo/src/websockets/headers.py

Parsers take the whole header value (`header`) and the part that isn't parsed yet (`rest`); the
position `pos` of the code is the difference of their lengths.
-/

namespace WS

/-- The position of the part that isn't parsed yet (headers.py 54-465: the parameter `pos`). -/
def posOf (header rest : PyStr) : Nat := header.length - rest.length

/-- A parser for a part of a header: header, rest, name of the header. -/
abbrev HeaderParser (α : Type) := PyStr → PyStr → PyStr → Except Exc (α × PyStr)

/-- `raise InvalidHeaderFormat(header_name, error, header, pos)` (headers.py 91, 114, 185, 248, 289, 455, 465, 485) -/
def fmtError {α : Type} (name error header rest : PyStr) : Except Exc α :=
  .error (.invalidHeaderFormat name error header (posOf header rest))

/-- headers.py 47-56 `peek_ahead` -/
def peekAhead (rest : PyStr) : Option Nat := rest.head?

/-- headers.py 59 `[\t ]` -/
def isOws (c : Nat) : Bool := c == 32 || c == 9

/-- headers.py 62-74 `parse_OWS` -/
def parseOws (rest : PyStr) : PyStr := rest.dropWhile isOws

/-- headers.py 80-92 `parse_token` -/
def parseToken : HeaderParser PyStr := fun header rest name =>
  match rest.takeWhile isTokenChar with
  | [] => fmtError name p!"expected token" header rest
  | tok => .ok (tok, rest.dropWhile isTokenChar)

/-- headers.py 96 `[\x09\x20-\x21\x23-\x5b\x5d-\x7e]` -/
def isQdText (c : Nat) : Bool :=
  c == 9 || (0x20 ≤ c && c ≤ 0x21) || (0x23 ≤ c && c ≤ 0x5b) || (0x5d ≤ c && c ≤ 0x7e)

/-- headers.py 96, 100, 121 `[\x09\x20-\x7e\x80-\xff]` -/
def isQuotable (c : Nat) : Bool := c == 9 || (0x20 ≤ c && c ≤ 0x7e) || (0x80 ≤ c && c ≤ 0xff)

/-- headers.py 96, after the opening quote: the text up to the closing quote and what follows it.
(No backtracking is possible: the two alternatives and the closing quote start with different
characters.) -/
def scanQuoted : PyStr → Option (PyStr × PyStr)
  | [] => none
  | 34 :: rest => some ([], rest)
  | 92 :: c :: rest =>
    if isQuotable c then
      match scanQuoted rest with
      | some (text, rest) => some (92 :: c :: text, rest)
      | none => none
    else none
  | c :: rest =>
    if isQdText c then
      match scanQuoted rest with
      | some (text, rest) => some (c :: text, rest)
      | none => none
    else none

/-- headers.py 100 `_unquote_re.sub(r"\1", text)` -/
def unquote : PyStr → PyStr
  | 92 :: c :: rest => if isQuotable c then c :: unquote rest else 92 :: unquote (c :: rest)
  | c :: rest => c :: unquote rest
  | [] => []

/-- headers.py 103-115 `parse_quoted_string` -/
def parseQuotedString : HeaderParser PyStr := fun header rest name =>
  match rest with
  | 34 :: tail =>
    match scanQuoted tail with
    | some (text, after) => .ok (unquote text, after)
    | none => fmtError name p!"expected quoted string" header rest
  | _ => fmtError name p!"expected quoted string" header rest

/-- headers.py 124-134 `build_quoted_string` -/
def buildQuotedString (value : PyStr) : Except Exc PyStr :=
  if value.all isQuotable then
    .ok ([34] ++ (value.map fun c => if c = 34 ∨ c = 92 then [92, c] else [c]).flatten ++ [34])
  else .error (.valueError p!"invalid characters for quoted-string encoding")

/-- headers.py 166-167, 185-186: `while peek_ahead(header, pos) == ",": pos = parse_OWS(...)`.
The first argument bounds the number of iterations; it is never reached. -/
def skipCommas : Nat → PyStr → PyStr
  | n + 1, 44 :: rest => skipCommas n (parseOws rest)
  | _, rest => rest

/-- headers.py 170-191: the loop of `parse_list`.  The first argument bounds the number of
iterations. -/
def parseListLoop {α : Type} (parseItem : HeaderParser α) (header name : PyStr) :
    Nat → PyStr → Except Exc (List α)
  | 0, _ => .error .diverges
  | n + 1, rest =>
    match parseItem header rest name with
    | .error e => .error e
    | .ok (item, rest) =>
      let rest := parseOws rest
      match rest with
      | [] => .ok [item]
      | 44 :: tail =>
        let rest := parseOws tail
        let rest := skipCommas rest.length rest
        if rest = [] then .ok [item]
        else
          match parseListLoop parseItem header name n rest with
          | .ok items => .ok (item :: items)
          | .error e => .error e
      | _ => fmtError name p!"expected comma" header rest

/-- headers.py 137-197 `parse_list` -/
def parseList {α : Type} (parseItem : HeaderParser α) (header name : PyStr) :
    Except Exc (List α) :=
  let rest := skipCommas header.length header
  parseListLoop parseItem header name (rest.length + 1) rest

/-- headers.py 200-226 `parse_connection_option`, `parse_connection` -/
def parseConnection (header : PyStr) : Except Exc (List PyStr) :=
  parseList parseToken header p!"Connection"

/-- headers.py 229-249 `parse_upgrade_protocol` -/
def parseUpgradeProtocol : HeaderParser PyStr := fun header rest name =>
  match rest.takeWhile isTokenChar with
  | [] => fmtError name p!"expected protocol" header rest
  | tok =>
    match rest.dropWhile isTokenChar with
    | 47 :: tail =>
      match tail.takeWhile isTokenChar with
      | [] => .ok (tok, 47 :: tail)
      | version => .ok (tok ++ [47] ++ version, tail.dropWhile isTokenChar)
    | after => .ok (tok, after)

/-- headers.py 252-262 `parse_upgrade` -/
def parseUpgrade (header : PyStr) : Except Exc (List PyStr) :=
  parseList parseUpgradeProtocol header p!"Upgrade"

/-- An extension parameter. -/
abbrev ExtParam := PyStr × Option PyStr

/-- An item of `Sec-WebSocket-Extensions`. -/
abbrev ExtHeader := PyStr × List ExtParam

/-- headers.py 265-296 `parse_extension_item_param` -/
def parseExtensionItemParam : HeaderParser ExtParam := fun header rest name =>
  match parseToken header rest name with
  | .error e => .error e
  | .ok (pname, rest) =>
    let rest := parseOws rest
    match rest with
    | 61 :: tail =>
      let rest := parseOws tail
      if peekAhead rest = some 34 then
        match parseQuotedString header rest name with
        | .error e => .error e
        | .ok (value, after) =>
          -- `_token_re.fullmatch(value)`
          if value = [] ∨ ¬ value.all isTokenChar then
            fmtError name p!"invalid quoted header content" header rest
          else .ok ((pname, some value), parseOws after)
      else
        match parseToken header rest name with
        | .error e => .error e
        | .ok (value, after) => .ok ((pname, some value), parseOws after)
    | _ => .ok ((pname, none), rest)

/-- headers.py 316-319: the loop of `parse_extension_item`. -/
def parseExtensionParams (header name : PyStr) :
    Nat → PyStr → Except Exc (List ExtParam × PyStr)
  | 0, _ => .error .diverges
  | n + 1, 59 :: tail =>
    match parseExtensionItemParam header (parseOws tail) name with
    | .error e => .error e
    | .ok (param, rest) =>
      match parseExtensionParams header name n rest with
      | .error e => .error e
      | .ok (params, rest) => .ok (param :: params, rest)
  | _, rest => .ok ([], rest)

/-- headers.py 299-320 `parse_extension_item` -/
def parseExtensionItem : HeaderParser ExtHeader := fun header rest name =>
  match parseToken header rest name with
  | .error e => .error e
  | .ok (ename, rest) =>
    let rest := parseOws rest
    match parseExtensionParams header name (rest.length + 1) rest with
    | .error e => .error e
    | .ok (params, rest) => .ok ((ename, params), rest)

/-- headers.py 323-345 `parse_extension` -/
def parseExtension (header : PyStr) : Except Exc (List ExtHeader) :=
  parseList parseExtensionItem header p!"Sec-WebSocket-Extensions"

/-- `sep.join(items)` (headers.py 360, 377, 422) -/
def strJoin (sep : PyStr) : List PyStr → PyStr
  | [] => []
  | [x] => x
  | x :: y :: rest => x ++ sep ++ strJoin sep (y :: rest)

/-- headers.py 351-367 `build_extension_item` -/
def buildExtensionItem (e : ExtHeader) : PyStr :=
  strJoin p!"; " (e.1 :: e.2.map fun p =>
    match p.2 with
    | none => p.1
    | some v => p.1 ++ p!"=" ++ v)

/-- headers.py 370-379 `build_extension` -/
def buildExtension (exts : List ExtHeader) : PyStr := strJoin p!", " (exts.map buildExtensionItem)

/-- headers.py 385-408 `parse_subprotocol_item`, `parse_subprotocol` -/
def parseSubprotocol (header : PyStr) : Except Exc (List PyStr) :=
  parseList parseToken header p!"Sec-WebSocket-Protocol"

/-- headers.py 414-422 `build_subprotocol` -/
def buildSubprotocol (protocols : List PyStr) : PyStr := strJoin p!", " protocols

/-- headers.py 428-438 `build_www_authenticate_basic` -/
def buildWwwAuthenticateBasic (realm : PyStr) : Except Exc PyStr :=
  match buildQuotedString realm with
  | .error e => .error e
  | .ok realm =>
    match buildQuotedString p!"UTF-8" with
    | .error e => .error e
    | .ok charset => .ok (p!"Basic realm=" ++ realm ++ p!", charset=" ++ charset)

/-- headers.py 441 `[A-Za-z0-9-._~+/]` -/
def isToken68Char (c : Nat) : Bool :=
  (65 ≤ c && c ≤ 90) || (97 ≤ c && c ≤ 122) || (48 ≤ c && c ≤ 57) ||
    [45, 46, 95, 126, 43, 47].contains c

/-- headers.py 444-456 `parse_token68` -/
def parseToken68 : HeaderParser PyStr := fun header rest name =>
  match rest.takeWhile isToken68Char with
  | [] => fmtError name p!"expected token68" header rest
  | tok =>
    let after := rest.dropWhile isToken68Char
    .ok (tok ++ after.takeWhile (· == 61), after.dropWhile (· == 61))

/-- `s.split(":", 1)`; `none` stands for `ValueError` (headers.py 499). -/
def splitColon : PyStr → Option (PyStr × PyStr)
  | [] => none
  | c :: cs =>
    if c = 58 then some ([], cs)
    else match splitColon cs with
      | none => none
      | some (a, b) => some (c :: a, b)

/-- headers.py 468-505 `parse_authorization_basic` (with `parse_end`, 459-465) -/
def parseAuthorizationBasic (header : PyStr) : Except Exc (PyStr × PyStr) :=
  let name := p!"Authorization"
  match parseToken header header name with
  | .error e => .error e
  | .ok (scheme, rest) =>
    if pyLower scheme ≠ p!"basic" then
      .error (.invalidHeaderValue name (p!"unsupported scheme: " ++ scheme))
    else
      match rest with
      | 32 :: rest =>
        match parseToken68 header rest name with
        | .error e => .error e
        | .ok (credentials, rest) =>
          if rest ≠ [] then fmtError name p!"trailing data" header rest
          else
            match b64decode credentials with
            | .error .binasciiError =>
              .error (.invalidHeaderValue name p!"expected base64-encoded credentials")
            | .error e => .error e
            | .ok raw =>
              match utf8Decode raw with
              | .error e => .error e
              | .ok userPass =>
                match splitColon userPass with
                | none => .error (.invalidHeaderValue name p!"expected username:password credentials")
                | some p => .ok p
      | _ => fmtError name p!"expected space after scheme" header rest

/-- headers.py 508-519 `build_authorization_basic` -/
def buildAuthorizationBasic (username password : PyStr) : Except Exc PyStr :=
  if 58 ∈ username then .error .assertionError
  else
    match utf8Encode (username ++ p!":" ++ password) with
    | .error e => .error e
    | .ok userPass => .ok (p!"Basic " ++ b64encode userPass)

end WS
