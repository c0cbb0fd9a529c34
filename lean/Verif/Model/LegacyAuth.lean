import Verif.Model.LegacyServer

/-!
# HTTP Basic Authentication: /repo/src/websockets/legacy/auth.py
-/

namespace WS.LegacyAuth

open LegacyServer

/-- `BasicAuthWebSocketServerProtocol` (legacy/auth.py 32-47) -/
structure Auth where
  realm : PyStr
  /-- `check_credentials`, which may raise an exception -/
  check : PyStr → PyStr → Except Exc Bool
  /-- `process_request` of the superclass -/
  inner : PyStr → Headers → Except Exc (Option HttpResponse)

/-- legacy/auth.py 60-64, 69-73, 76-80: a response that asks for credentials -/
def unauthorized (realm : PyStr) (body : Bytes) : Except Exc (Option HttpResponse) :=
  match buildWwwAuthenticateBasic realm with
  | .error e => .error e
  | .ok challenge =>
    .ok (some { status := 401, phrase := p!"Unauthorized", headers := [(p!"WWW-Authenticate", challenge)], body })

/-- exceptions.py 177-240: `InvalidHeader` and its subclasses -/
def isInvalidHeader : Exc → Bool
  | .invalidHeader .. | .invalidHeaderFormat .. | .invalidHeaderValue .. | .invalidOrigin _ | .invalidUpgrade .. => true
  | _ => false

/-- legacy/auth.py 49-86 `process_request` -/
def Auth.processRequest (a : Auth) (path : PyStr) (headers : Headers) : Except Exc (Option HttpResponse) :=
  match headers.get p!"Authorization" with
  | .error .keyError => unauthorized a.realm b!"Missing credentials\n"
  | .error e => .error e
  | .ok authorization =>
    match parseAuthorizationBasic authorization with
    | .error e => if isInvalidHeader e then unauthorized a.realm b!"Unsupported credentials\n" else .error e
    | .ok (username, password) =>
      match a.check username password with
      | .error e => .error e
      | .ok false => unauthorized a.realm b!"Invalid credentials\n"
      | .ok true => a.inner path headers

/-- A server with this protocol (legacy/auth.py 32-77). -/
def Auth.setup {X : Type} (a : Auth) (py : PyEnv) (cfg : ServerConfig X) (date : PyStr) : Setup X :=
  { py, cfg, processRequest := a.processRequest, date }

/-! ## `basic_auth_protocol_factory` -/

/-- The Python values that may be passed as `credentials`: strings, tuples, lists, iterators (which can be
read once) and values that aren't iterable.  (Other iterables, such as sets, aren't modelled.) -/
inductive Val where
  | str (s : PyStr)
  | tuple (l : List Val)
  | list (l : List Val)
  | iter (l : List Val)
  | other

/-- The elements of an iterable; `none`: `TypeError` (for legacy/auth.py 25, 142-144). -/
def Val.elems : Val → Option (List Val)
  | .str s => some (s.map fun c => .str [c])
  | .tuple l => some l
  | .list l => some l
  | .iter l => some l
  | .other => none

/-- legacy/auth.py 23-30 `is_credentials`: the pair, if the value is one -/
def Val.pair? (v : Val) : Option (PyStr × PyStr) :=
  match v.elems with
  | some [.str u, .str p] => some (u, p)
  | _ => none

/-- The value after `is_credentials(value)`: `username, password = value` reads up to three elements of
an iterator (legacy/auth.py 23-29). -/
def Val.afterUnpack : Val → Val
  | .iter l => .iter (l.drop 3)
  | v => v

/-- `(username, password) == value` (legacy/auth.py 140) -/
def Val.eqPair (username password : PyStr) : Val → Bool
  | .tuple [.str u, .str p] => username = u && password = p
  | _ => false

/-- `dict(items)`, for values that are credentials; `none`: an element of an iterator has been read
already, which is a `ValueError` (legacy/auth.py 144). -/
def dictItems : List Val → Option (List (PyStr × PyStr))
  | [] => some []
  | v :: vs =>
    match v.afterUnpack.pair?, dictItems vs with
    | some p, some ps => some (p :: ps)
    | _, _ => none

/-- `dict(items).get(username)`: the last item with this key wins (legacy/auth.py 147). -/
def dictLookup (items : List (PyStr × PyStr)) (username : PyStr) : Option PyStr :=
  (items.reverse.find? fun p => p.1 = username).map Prod.snd

/-- legacy/auth.py 132-153: the function `check_credentials` for hard coded credentials; `none`:
`TypeError` or `ValueError`. -/
def checkHardCoded (credentials : Val) : Option (PyStr → PyStr → Bool) :=
  match credentials.pair? with
  | some _ => some fun u p => credentials.afterUnpack.eqPair u p
  | none =>
    match credentials.afterUnpack.elems with
    | none => none
    | some items =>
      if items.all fun v => v.pair?.isSome then
        match dictItems items with
        | none => none
        | some d => some fun u p => dictLookup d u = some p
      else none

/-- legacy/auth.py 129-165 `basic_auth_protocol_factory`, without `create_protocol`; `none`: an exception. -/
def factory (realm : PyStr) (credentials : Option Val) (check : Option (PyStr → PyStr → Except Exc Bool))
    (inner : PyStr → Headers → Except Exc (Option HttpResponse)) : Option Auth :=
  match credentials, check with
  | none, none => none
  | some _, some _ => none
  | none, some check => some { realm, check, inner }
  | some credentials, none =>
    match checkHardCoded credentials with
    | none => none
    | some check => some { realm, check := fun u p => .ok (check u p), inner }

end WS.LegacyAuth
