import Verif.Model.Handshake

/-!
# Parsing WebSocket URIs: /repo/src/websockets/uri.py

The functions of the standard library that `parse_uri` and `build_host` call are modelled too, as they are
in Python 3.11: `urllib.parse.urlparse`, `urllib.parse.quote` and `ipaddress.ip_address`.  Outside the model:
`str.lower` for strings that aren't ASCII, NFKC normalization (in `urllib.parse._checknetloc`) and the `idna`
codec; they are parameters.
-/

namespace WS.Uri

/-- What `parse_uri` takes from outside. -/
structure Env where
  /-- `str.lower`, for strings that aren't ASCII -/
  lower : PyStr → PyStr
  /-- `_checknetloc` doesn't raise an exception, for strings that aren't ASCII. -/
  nfkcOk : PyStr → Bool
  /-- `host.encode("idna").decode()`; `none`: `UnicodeError`. -/
  idna : PyStr → Option PyStr

/-- Exceptions of `parse_uri` -/
inductive UriError where
  /-- exceptions.py `InvalidURI` -/
  | invalidUri
  /-- builtin `ValueError`, raised in the standard library -/
  | valueError
  /-- builtin `UnicodeError` or `UnicodeEncodeError` -/
  | unicodeError
deriving DecidableEq, Repr

/-- `s.isascii()` (uri.py 86-93; also `urllib.parse`) -/
def isAscii (s : PyStr) : Bool := s.all (· < 128)

/-- `before, sep, after = s.partition(c)`; `none` if `c` isn't in `s` (`urllib.parse`, for uri.py 63). -/
def partition (c : Nat) : PyStr → Option (PyStr × PyStr)
  | [] => none
  | x :: xs =>
    if x = c then some ([], xs)
    else
      match partition c xs with
      | none => none
      | some (a, b) => some (x :: a, b)

/-- `before, sep, after = s.rpartition(c)`; `none` if `c` isn't in `s` (`urllib.parse`, for uri.py 63). -/
def rpartition (c : Nat) : PyStr → Option (PyStr × PyStr)
  | [] => none
  | x :: xs =>
    match rpartition c xs with
    | some (a, b) => some (x :: a, b)
    | none => if x = c then some ([], xs) else none

/-- `s.split(c)` (`ipaddress`, for http.py 40) -/
def splitOn (c : Nat) : PyStr → List PyStr
  | [] => [[]]
  | x :: xs =>
    if x = c then [] :: splitOn c xs
    else
      match splitOn c xs with
      | [] => [[x]]
      | p :: ps => (x :: p) :: ps

/-! ## ipaddress -/

/-- `octet_str.isascii() and octet_str.isdigit()`, for a string that isn't empty (`urllib.parse` and `ipaddress`) -/
def isDigits (s : PyStr) : Bool := !s.isEmpty && s.all isDigit

/-- `int(s)`, for a string of ASCII digits (`urllib.parse` and `ipaddress`) -/
def digitsValue (s : PyStr) : Nat := s.foldl (fun n c => n * 10 + (c - 48)) 0

/-- ipaddress.py 1214-1246 `_parse_octet` doesn't raise an exception. -/
def isOctet (s : PyStr) : Bool :=
  isDigits s && decide (s.length ≤ 3) && (s = p!"0" || s.head? ≠ some 48) && decide (digitsValue s ≤ 255)

/-- ipaddress.py 1300-1319 and 1188-1211: `IPv4Address(s)` doesn't raise an exception. -/
def isIPv4 (s : PyStr) : Bool :=
  !s.contains 47 && (splitOn 46 s).length = 4 && (splitOn 46 s).all isOctet

/-- ipaddress.py 1624 `_HEX_DIGITS` -/
def isHexDigit (c : Nat) : Bool := isDigit c || (65 ≤ c && c ≤ 70) || (97 ≤ c && c ≤ 102)

/-- ipaddress.py 1757-1782 `_parse_hextet` doesn't raise an exception. -/
def isHextet (s : PyStr) : Bool := !s.isEmpty && s.all isHexDigit && decide (s.length ≤ 4)

/-- ipaddress.py 1674-1681: the IPv4 suffix becomes two hextets (their values don't matter);
`none`: `AddressValueError`. -/
def expandV4 (parts : List PyStr) : Option (List PyStr) :=
  match parts.getLast? with
  | none => some parts
  | some l =>
    if l.contains 46 then
      if isIPv4 l then some (parts.dropLast ++ [p!"0", p!"0"]) else none
    else some parts

/-- ipaddress.py 1691-1700: the indexes of empty parts, disregarding the endpoints -/
def skips (parts : List PyStr) : List Nat :=
  (List.range parts.length).filter fun i =>
    1 ≤ i && i + 1 < parts.length && (parts[i]? = some [])

/-- ipaddress.py 1702-1753 -/
def hextetsOk (parts : List PyStr) : Bool :=
  match skips parts with
  | [] =>
    -- 1720-1735
    parts.length = 8 && parts.all isHextet
  | [skip] =>
    -- 1704-1719
    let hi := if parts.head? = some [] then skip - 1 else skip
    let lo := if parts.getLast? = some [] then parts.length - skip - 2 else parts.length - skip - 1
    (parts.head? ≠ some [] || hi = 0) && (parts.getLast? ≠ some [] || lo = 0) && hi + lo < 8 &&
      (parts.take hi).all isHextet && (parts.drop (parts.length - lo)).all isHextet
  | _ => false

/-- ipaddress.py 1652-1755 `_ip_int_from_string` doesn't raise an exception. -/
def isIPv6Addr (s : PyStr) : Bool :=
  let parts := splitOn 58 s
  if parts.length < 3 then false
  else
    match expandV4 parts with
    | none => false
    | some parts => parts.length ≤ 9 && hextetsOk parts

/-- ipaddress.py 1956-1961 and 1889-1906: `IPv6Address(s)` doesn't raise an exception. -/
def isIPv6 (s : PyStr) : Bool :=
  !s.contains 47 &&
    match partition 37 s with
    | none => isIPv6Addr s
    | some (addr, scope) => !scope.isEmpty && !scope.contains 37 && isIPv6Addr addr

/-- ipaddress.py 28-54: `ip_address(s)` returns an address of version 6. -/
def isV6 (s : PyStr) : Bool := !isIPv4 s && isIPv6 s

/-! ## urllib.parse -/

/-- `str.lower` (`urllib.parse`, for uri.py 63-73) -/
def lowerStr (env : Env) (s : PyStr) : PyStr := if isAscii s then pyLower s else env.lower s

/-- urllib/parse.py 82-85 `scheme_chars` -/
def isSchemeChar (c : Nat) : Bool :=
  isDigit c || (65 ≤ c && c ≤ 90) || (97 ≤ c && c ≤ 122) || c = 43 || c = 45 || c = 46

/-- `c.isascii() and c.isalpha()` (`urllib.parse`, for uri.py 63) -/
def isAlpha (c : Nat) : Bool := (65 ≤ c && c ≤ 90) || (97 ≤ c && c ≤ 122)

/-- urllib/parse.py 477-482: control characters and spaces at the beginning are removed; TAB, CR and LF
are removed everywhere. -/
def cleanUrl (url : PyStr) : PyStr :=
  (url.dropWhile (· ≤ 32)).filter fun c => c ≠ 9 ∧ c ≠ 13 ∧ c ≠ 10

/-- urllib/parse.py 486-492 -/
def splitScheme (url : PyStr) : PyStr × PyStr :=
  match partition 58 url with
  | none => ([], url)
  | some (s, rest) =>
    match s with
    | [] => ([], url)
    | c :: _ => if isAlpha c && s.all isSchemeChar then (pyLower s, rest) else ([], url)

/-- urllib/parse.py 413-419 `_splitnetloc` -/
def splitNetloc (url : PyStr) : PyStr × PyStr :=
  (url.takeWhile fun c => c ≠ 47 ∧ c ≠ 63 ∧ c ≠ 35, url.dropWhile fun c => c ≠ 47 ∧ c ≠ 63 ∧ c ≠ 35)

/-- urllib/parse.py 493-494 -/
def splitAuthority : PyStr → PyStr × PyStr
  | 47 :: 47 :: rest => splitNetloc rest
  | url => ([], url)

/-- urllib/parse.py 441-448 `_check_bracketed_host` doesn't raise an exception. -/
def bracketedOk (host : PyStr) : Bool :=
  match host with
  | 118 :: rest =>
    let hex := rest.takeWhile isHexDigit
    match rest.dropWhile isHexDigit with
    | 46 :: tail => !hex.isEmpty && !tail.isEmpty && !tail.contains 10
    | _ => false
  | _ => isV6 host

/-- urllib/parse.py 495-500 and 421-437: the checks of the network location -/
def netlocOk (env : Env) (netloc : PyStr) : Bool :=
  (if netloc.contains 91 && netloc.contains 93 then
    match partition 91 netloc with
    | none => true
    | some (_, t) =>
      match partition 93 t with
      | none => bracketedOk t
      | some (host, _) => bracketedOk host
  else !netloc.contains 91 && !netloc.contains 93) &&
  (isAscii netloc || env.nfkcOk netloc)

/-- urllib/parse.py 374-403, 453-507: the result of `urlparse`, apart from `params`, which is empty for the
schemes that `parse_uri` accepts. -/
structure Split where
  scheme : PyStr
  netloc : PyStr
  path : PyStr
  query : PyStr
  fragment : PyStr
deriving DecidableEq, Repr

/-- urllib/parse.py 453-507 `urlsplit`; `none`: `ValueError`. -/
def urlsplit (env : Env) (url : PyStr) : Option Split :=
  let (scheme, url) := splitScheme (cleanUrl url)
  let (netloc, url) := splitAuthority url
  if netlocOk env netloc then
    let (url, fragment) := (partition 35 url).getD (url, [])
    let (url, query) := (partition 63 url).getD (url, [])
    some { scheme, netloc, path := url, query, fragment }
  else none

/-- urllib/parse.py 205-217 `_hostinfo` -/
def Split.hostinfo (s : Split) : PyStr × Option PyStr :=
  let hostinfo := ((rpartition 64 s.netloc).getD ([], s.netloc)).2
  let (hostname, port) := match partition 91 hostinfo with
    | some (_, bracketed) =>
      let (hostname, port) := (partition 93 bracketed).getD (bracketed, [])
      (hostname, ((partition 58 port).getD (port, [])).2)
    | none => (partition 58 hostinfo).getD (hostinfo, [])
  (hostname, if port = [] then none else some port)

/-- urllib/parse.py 164-173 `hostname` -/
def Split.hostname (env : Env) (s : Split) : Option PyStr :=
  let hostname := s.hostinfo.1
  if hostname = [] then none
  else
    match partition 37 hostname with
    | none => some (lowerStr env hostname)
    | some (h, zone) => some (lowerStr env h ++ p!"%" ++ zone)

/-- urllib/parse.py 175-185 `port`; `none`: `ValueError`. -/
def Split.port (s : Split) : Option (Option Nat) :=
  match s.hostinfo.2 with
  | none => some none
  | some port =>
    if isDigits port && decide (digitsValue port ≤ 65535) then some (some (digitsValue port)) else none

/-- urllib/parse.py 193-203 `_userinfo`: `username` and `password` -/
def Split.userinfo (s : Split) : Option (PyStr × Option PyStr) :=
  match rpartition 64 s.netloc with
  | none => none
  | some (userinfo, _) =>
    match partition 58 userinfo with
    | some (username, password) => some (username, some password)
    | none => some (userinfo, none)

/-- uri.py 53 `DELIMS`, and urllib/parse.py 811-814 `_ALWAYS_SAFE` -/
def isSafe (c : Nat) : Bool :=
  isDigit c || isAlpha c || (p!"_.-~" ++ p!":/?#[]@!$&'()*+,;=").contains c

/-- A digit of `"{:02X}"` -/
def hexUpper (n : Nat) : Nat := if n < 10 then 48 + n else 55 + n

/-- urllib/parse.py 847-899, 923-941: `quote(s, safe=DELIMS)` -/
def quote (s : PyStr) : Except UriError PyStr :=
  match utf8Encode s with
  | .error _ => .error .unicodeError
  | .ok bs => .ok (bs.flatMap fun b =>
      if isSafe b.toNat then [b.toNat] else [37, hexUpper (b.toNat / 16), hexUpper (b.toNat % 16)])

/-! ## uri.py -/

/-- uri.py 85-97: the conversion of an IRI to a URI -/
def toUri (env : Env) (w : WsUri) : Except UriError WsUri :=
  match env.idna w.host with
  | none => .error .unicodeError
  | some host =>
    match quote w.resourceName with
    | .error e => .error e
    | .ok resourceName =>
      match w.userInfo with
      | none => .ok { w with host, resourceName }
      | some (user, password) =>
        match quote user with
        | .error e => .error e
        | .ok user =>
          match quote password with
          | .error e => .error e
          | .ok password => .ok { w with host, resourceName, userInfo := some (user, password) }

/-- uri.py 56-99 `parse_uri` -/
def parseUri (env : Env) (uri : PyStr) : Except UriError WsUri :=
  match urlsplit env uri with
  | none => .error .valueError
  | some parsed =>
    -- 63-69
    if parsed.scheme ≠ p!"ws" ∧ parsed.scheme ≠ p!"wss" then .error .invalidUri
    else if parsed.fragment ≠ [] then .error .invalidUri
    else
      match parsed.hostname env with
      | none => .error .invalidUri
      | some host =>
        let secure : Bool := parsed.scheme = p!"wss"
        -- 73: `parsed.port or ...`
        match parsed.port with
        | none => .error .valueError
        | some port =>
          let port := match port with
            | none | some 0 => if secure then 443 else 80
            | some n => n
          let resourceName := if parsed.path = [] then p!"/" else parsed.path
          let resourceName := if parsed.query ≠ [] then resourceName ++ p!"?" ++ parsed.query else resourceName
          match parsed.userinfo with
          | some (_, none) => .error .invalidUri
          | some (user, some password) =>
            let w : WsUri := { secure, host, port, resourceName, userInfo := some (user, password) }
            if isAscii uri then .ok w else toUri env w
          | none =>
            let w : WsUri := { secure, host, port, resourceName, userInfo := none }
            if isAscii uri then .ok w else toUri env w

end WS.Uri
