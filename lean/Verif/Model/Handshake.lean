import Verif.Model.Connection
import Verif.Model.HeaderParse
import Verif.Model.Sha1

/-!
# The opening handshake: /repo/src/websockets/server.py and /repo/src/websockets/client.py

Also utils.py 21-31, http.py 32-52, extensions/base.py and the messages of exceptions.py that end up
in responses.
-/

namespace WS

/-- What the handshake takes from outside: `http.USER_AGENT` (http.py 28-29); the order in which
Python iterates over `set(a) & set(b)` (server.py 380-386), which depends on hash randomisation; and
whether `ipaddress.ip_address(host)` is an IPv6 address (http.py 39-46). -/
structure PyEnv where
  agent : PyStr
  setOrder : List PyStr → List PyStr → List PyStr
  setOrder_nodup : ∀ a b, (setOrder a b).Nodup
  setOrder_mem : ∀ a b x, x ∈ setOrder a b ↔ x ∈ a ∧ x ∈ b
  isV6 : PyStr → Bool

/-- utils.py 10 -/
def guid : PyStr := p!"258EAFA5-E914-47DA-95CA-C5AB0DC85B11"

/-- utils.py 13-19 `generate_key`; `raw` is `secrets.token_bytes(16)`. -/
def generateKey (raw : Bytes) : PyStr := b64encode raw

/-- utils.py 22-30 `accept_key` -/
def acceptKey (key : PyStr) : Except Exc PyStr :=
  match utf8Encode (key ++ guid) with
  | .error e => .error e
  | .ok b => .ok (b64encode (Sha1.digest b))

/-- http.py 32-52 `build_host` -/
def buildHost (py : PyEnv) (host : PyStr) (port : Nat) (secure : Bool) : PyStr :=
  let host := if py.isV6 host then p!"[" ++ host ++ p!"]" else host
  if port ≠ (if secure then 443 else 80) then host ++ p!":" ++ decStr port else host

/-- exceptions.py: subclasses of `InvalidHandshake` -/
def Exc.isInvalidHandshake : Exc → Bool
  | .securityError _ | .invalidHandshake _ | .invalidHeader .. | .invalidHeaderFormat ..
  | .invalidHeaderValue .. | .invalidOrigin _ | .invalidUpgrade .. | .invalidStatusCode _
  | .negotiationError _ => true
  | _ => false

/-- exceptions.py 187-196 `InvalidHeader.__init__` -/
def headerMessage (name : PyStr) : Option PyStr → PyStr
  | none => p!"missing " ++ name ++ p!" header"
  | some [] => p!"empty " ++ name ++ p!" header"
  | some value => p!"invalid " ++ name ++ p!" header: " ++ value

/-- `str(exc)` for `InvalidHandshake` and its subclasses (exceptions.py); the messages of other
exceptions aren't used. -/
def Exc.str : Exc → PyStr
  | .securityError m | .invalidHandshake m | .negotiationError m => m
  | .invalidHeader name value | .invalidUpgrade name value => headerMessage name value
  | .invalidHeaderFormat name error header pos =>
    headerMessage name (some (error ++ p!" at " ++ decStr pos ++ p!" in " ++ header))
  | .invalidHeaderValue name value => headerMessage name (some value)
  | .invalidOrigin origin => headerMessage p!"Origin" origin
  | .invalidStatusCode code => p!"server rejected WebSocket connection: HTTP " ++ intStr code
  | _ => []

/-- `MutableMapping.setdefault` (`collections.abc`), used at server.py 149-150, 406-410 and client.py 115 -/
def Headers.setdefault (h : Headers) (key default : PyStr) : Except Exc Headers :=
  match h.get key with
  | .ok _ => .ok h
  | .error .keyError => .ok (h.set key default)
  | .error e => .error e

/-- `sum([parse(value) for value in values], [])`, used
at server.py 173, 182, 294, 348 and client.py 135, 144, 206, 260 -/
def parseAll {α : Type} (parse : PyStr → Except Exc (List α)) : List PyStr → Except Exc (List α)
  | [] => .ok []
  | v :: vs =>
    match parse v with
    | .error e => .error e
    | .ok l =>
      match parseAll parse vs with
      | .error e => .error e
      | .ok l' => .ok (l ++ l')

/-- `headers[name]`, with `KeyError` and `MultipleValuesError` turned into `InvalidHeader`
(server.py 190-198, 207-215, client.py 153-162). -/
def singleHeader (headers : Headers) (name : PyStr) : Except Exc PyStr :=
  match headers.get name with
  | .ok v => .ok v
  | .error .keyError => .error (.invalidHeader name none)
  | .error .multipleValuesError =>
    .error (.invalidHeader name (some (p!"more than one " ++ name ++ p!" header found")))
  | .error e => .error e

/-- `", ".join(values) if values else None`, used at server.py 179, 190 and client.py 141, 151 -/
def joined (values : List PyStr) : Option PyStr :=
  if values = [] then none else some (strJoin p!", " values)

/-- server.py 170-188 and client.py 133-151, which are the same. -/
def checkUpgrade (headers : Headers) : Except Exc Unit :=
  match parseAll parseConnection (headers.getAll p!"Connection") with
  | .error e => .error e
  | .ok connection =>
    if !connection.any (fun v => pyLower v == p!"upgrade") then
      .error (.invalidUpgrade p!"Connection" (joined connection))
    else
      match parseAll parseUpgrade (headers.getAll p!"Upgrade") with
      | .error e => .error e
      | .ok upgrade =>
        match upgrade with
        | [u] =>
          if pyLower u = p!"websocket" then .ok ()
          else .error (.invalidUpgrade p!"Upgrade" (joined upgrade))
        | _ => .error (.invalidUpgrade p!"Upgrade" (joined upgrade))

/-! ## Server -/

/-- extensions/base.py 88-119: a factory of extensions.  Factories are immutable. -/
structure ServerFactory (X : Type) where
  name : PyStr
  processRequestParams : List ExtParam → List X → Except Exc (List ExtParam × X)

/-- server.py 61-75: the configuration of a `ServerConnection`.  `extraHeaders` is the list of pairs
that lines 131-142 obtain from `extra_headers`, which may call it; `[]` if it's `None`. -/
structure ServerConfig (X : Type) where
  origins : Option (List (Option PyStr)) := none
  extensions : Option (List (ServerFactory X)) := none
  subprotocols : Option (List PyStr) := none
  extraHeaders : PyStr → Headers → Except Exc (List (PyStr × PyStr)) := fun _ _ => .ok []

section

variable {X : Type}

/-- server.py 168-218: the checks at the start of `process_request`; returns the key. -/
def checkRequest (headers : Headers) : Except Exc PyStr :=
  match checkUpgrade headers with
  | .error e => .error e
  | .ok () =>
    match singleHeader headers p!"Sec-WebSocket-Key" with
    | .error e => .error e
    | .ok key =>
      -- `key.encode()`
      match utf8Encode key with
      | .error e => .error e
      | .ok rawKey =>
        match b64decodeValid (rawKey.map UInt8.toNat) with
        | .error .binasciiError => .error (.invalidHeaderValue p!"Sec-WebSocket-Key" key)
        | .error e => .error e
        | .ok raw =>
          if raw.length ≠ 16 then .error (.invalidHeaderValue p!"Sec-WebSocket-Key" key)
          else
            match singleHeader headers p!"Sec-WebSocket-Version" with
            | .error e => .error e
            | .ok version =>
              if version ≠ p!"13" then
                .error (.invalidHeaderValue p!"Sec-WebSocket-Version" version)
              else .ok key

/-- server.py 229-247 `process_origin` -/
def ServerConfig.processOrigin (cfg : ServerConfig X) (headers : Headers) :
    Except Exc (Option PyStr) :=
  match headers.get? p!"Origin" with
  | .error .multipleValuesError =>
    .error (.invalidHeader p!"Origin" (some p!"more than one Origin header found"))
  | .error e => .error e
  | .ok origin =>
    match cfg.origins with
    | none => .ok origin
    | some origins => if origin ∈ origins then .ok origin else .error (.invalidOrigin origin)

/-- server.py 296-319: the loop over `self.available_extensions`, for one offer; `none` if no
extension matches. -/
def matchOffer (name : PyStr) (params : List ExtParam) (accepted : List X) :
    List (ServerFactory X) → Except Exc (Option (List ExtParam × X))
  | [] => .ok none
  | f :: fs =>
    if f.name ≠ name then matchOffer name params accepted fs
    else
      match f.processRequestParams params accepted with
      | .error (.negotiationError _) => matchOffer name params accepted fs
      | .error e => .error e
      | .ok r => .ok (some r)

/-- server.py 294-319: the loop over `parsed_header_values`; `exts` and `accepted` are
`extension_headers` and `accepted_extensions`. -/
def matchOffers (factories : List (ServerFactory X)) (exts : List ExtHeader) (accepted : List X) :
    List ExtHeader → Except Exc (List ExtHeader × List X)
  | [] => .ok (exts, accepted)
  | (name, params) :: offers =>
    match matchOffer name params accepted factories with
    | .error e => .error e
    | .ok none => matchOffers factories exts accepted offers
    | .ok (some (response, x)) =>
      matchOffers factories (exts ++ [(name, response)]) (accepted ++ [x]) offers

/-- server.py 249-328 `process_extensions` -/
def ServerConfig.processExtensions (cfg : ServerConfig X) (headers : Headers) :
    Except Exc (Option PyStr × List X) :=
  let values := headers.getAll p!"Sec-WebSocket-Extensions"
  let factories := cfg.extensions.getD []
  if values ≠ [] ∧ ¬ factories.isEmpty then
    match parseAll parseExtension values with
    | .error e => .error e
    | .ok offers =>
      match matchOffers factories [] [] offers with
      | .error e => .error e
      | .ok (exts, accepted) =>
        .ok (if exts = [] then none else some (buildExtension exts), accepted)
  else .ok (none, [])

/-- `list.index`, which is only called on elements of the list (server.py 385). -/
def indexOf (l : List PyStr) (x : PyStr) : Nat := l.findIdx (· == x)

/-- Insertion in a sorted list, before elements with the same key (server.py 387). -/
def insertBy (key : PyStr → Nat) (x : PyStr) : List PyStr → List PyStr
  | [] => [x]
  | y :: ys => if key x ≤ key y then x :: y :: ys else y :: insertBy key x ys

/-- `sorted(values, key=key)`, which is stable (server.py 387). -/
def sortedBy (key : PyStr → Nat) : List PyStr → List PyStr
  | [] => []
  | x :: xs => insertBy key x (sortedBy key xs)

/-- server.py 358-387 `select_subprotocol` -/
def selectSubprotocol (py : PyEnv) (client server : List PyStr) : Option PyStr :=
  (sortedBy (fun p => indexOf client p + indexOf server p) (py.setOrder client server)).head?

/-- server.py 330-356 `process_subprotocol` -/
def ServerConfig.processSubprotocol (py : PyEnv) (cfg : ServerConfig X) (headers : Headers) :
    Except Exc (Option PyStr) :=
  let values := headers.getAll p!"Sec-WebSocket-Protocol"
  let available := cfg.subprotocols.getD []
  if values ≠ [] ∧ available ≠ [] then
    match parseAll parseSubprotocol values with
    | .error e => .error e
    | .ok offers => .ok (selectSubprotocol py offers available)
  else .ok none

/-- What `process_request` does: the attributes `origin`, `extensions` and `subprotocol` that it has
set before returning or raising. -/
structure Assigned (X : Type) where
  origin : Option (Option PyStr) := none
  exts : Option (List X) := none
  subprotocol : Option (Option PyStr) := none

/-- server.py 154-227 `process_request`: key, extensions header and subprotocol header. -/
def ServerConfig.processRequest (py : PyEnv) (cfg : ServerConfig X) (req : Request) :
    Except Exc (PyStr × Option PyStr × Option PyStr) × Assigned X :=
  match checkRequest req.headers with
  | .error e => (.error e, {})
  | .ok key =>
    match cfg.processOrigin req.headers with
    | .error e => (.error e, {})
    | .ok origin =>
      match cfg.processExtensions req.headers with
      | .error e => (.error e, { origin := some origin })
      | .ok (header, exts) =>
        match cfg.processSubprotocol py req.headers with
        | .error e => (.error e, { origin := some origin, exts := some exts })
        | .ok sub =>
          (.ok (key, header, sub),
            { origin := some origin, exts := some exts, subprotocol := some sub })

/-- server.py 389-411 `reject`.  `date` is `email.utils.formatdate(usegmt=True)`. -/
def reject (py : PyEnv) (date : PyStr) (status : Int) (phrase text : PyStr) (headers : Headers) :
    Except Exc Response :=
  match utf8Encode text with
  | .error e => .error e
  | .ok body =>
    match headers.setdefault p!"Date" date with
    | .error e => .error e
    | .ok headers =>
    match headers.setdefault p!"Server" py.agent with
    | .error e => .error e
    | .ok headers =>
    match headers.setdefault p!"Content-Length" (decStr body.length) with
    | .error e => .error e
    | .ok headers =>
    match headers.setdefault p!"Content-Type" p!"text/plain; charset=utf-8" with
    | .error e => .error e
    | .ok headers =>
    match headers.setdefault p!"Connection" p!"close" with
    | .error e => .error e
    | .ok headers => .ok { statusCode := status, reason := phrase, headers, body := some body }

/-- server.py 88-120: the response for an exception raised by `process_request`. -/
def rejectExc (py : PyEnv) (date : PyStr) (exc : Exc) : Except Exc Response :=
  let failed := p!"Failed to open a WebSocket connection"
  let response :=
    match exc with
    | .invalidOrigin _ =>
      reject py date 403 p!"Forbidden" (failed ++ p!": " ++ exc.str ++ p!".\n") {}
    | .invalidUpgrade .. =>
      reject py date 426 p!"Upgrade Required"
        (failed ++ p!": " ++ exc.str ++ p!".\n\nYou cannot access a WebSocket server directly " ++
          p!"with a browser. You need a WebSocket client.\n")
        (Headers.ofList [(p!"Upgrade", p!"websocket")])
    | _ =>
      if exc.isInvalidHandshake then
        reject py date 400 p!"Bad Request" (failed ++ p!": " ++ exc.str ++ p!".\n") {}
      else
        reject py date 500 p!"Internal Server Error"
          (failed ++ p!".\nSee server log for more information.\n") {}
  match response with
  | .error e => .error e
  | .ok r => .ok { r with exception := some exc }

/-- server.py 122-152: the response for a valid request. -/
def ServerConfig.acceptResponse (py : PyEnv) (cfg : ServerConfig X) (date : PyStr) (req : Request)
    (key : PyStr) (extensionsHeader protocolHeader : Option PyStr) : Except Exc Response :=
  match acceptKey key with
  | .error e => .error e
  | .ok acc =>
    let headers : Headers := {}
    let headers := headers.set p!"Upgrade" p!"websocket"
    let headers := headers.set p!"Connection" p!"Upgrade"
    let headers := headers.set p!"Sec-WebSocket-Accept" acc
    let headers := match extensionsHeader with
      | none => headers
      | some v => headers.set p!"Sec-WebSocket-Extensions" v
    let headers := match protocolHeader with
      | none => headers
      | some v => headers.set p!"Sec-WebSocket-Protocol" v
    match cfg.extraHeaders req.path req.headers with
    | .error e => .error e
    | .ok extra =>
      let headers := extra.foldl (fun h p => h.set p.1 p.2) headers
      match headers.setdefault p!"Date" date with
      | .error e => .error e
      | .ok headers =>
        match headers.setdefault p!"Server" py.agent with
        | .error e => .error e
        | .ok headers => .ok { statusCode := 101, reason := p!"Switching Protocols", headers }

/-- server.py 77-152 `accept`: the response or the exception it raises, and the attributes that have
been set. -/
def ServerConfig.accept (py : PyEnv) (cfg : ServerConfig X) (date : PyStr) (req : Request) :
    Except Exc Response × Assigned X :=
  match cfg.processRequest py req with
  | (.error e, a) => (rejectExc py date e, a)
  | (.ok (key, extensionsHeader, protocolHeader), a) =>
    (cfg.acceptResponse py date req key extensionsHeader protocolHeader, a)

/-- The assignments of `process_request` in the attributes of a connection; tells whether
`self.extensions` has been rebound (server.py 221-225). -/
def Assigned.store {E : Type} (a : Assigned X) (c : Core X E) : Core X E × Bool :=
  ({ c with origin := a.origin.getD c.origin
            exts := a.exts.getD c.exts
            subprotocol := a.subprotocol.getD c.subprotocol }, a.exts.isSome)

/-- The calls of the handshake API of a `ServerConnection`.  (`reject` doesn't change the
connection.) -/
inductive ServerCall where
  | accept (date : PyStr) (req : Request)
  | sendResponse (r : Response)

/-- server.py 413-431 `send_response` -/
def Core.sendResponse (c : Core X Request) (r : Response) : Option Exc × Core X Request :=
  let c := if r.statusCode = 101 then { c with state := .opened } else c
  match r.serialize with
  | .error e => (some e, c)
  | .ok b => (none, { c with writes := c.writes ++ [b] })

/-- server.py 433-436: what `parse` does with a request. -/
def serverOnRequest (req : Request) (c : Core X Request) : Option Exc × Core X Request :=
  if c.state ≠ .connecting then (some .assertionError, c)
  else (none, c.addEvent (.handshake req))

/-- The environment of a `ServerConnection` (server.py 63-75, 433-437). -/
def ServerConfig.env (cfg : ServerConfig X) (py : PyEnv) (ops : ExtOps X) (rand : Nat → Bytes)
    (rand_len : ∀ i, (rand i).length = 4) : Env X Request ServerCall where
  ops := ops
  rand := rand
  rand_len := rand_len
  onHs := serverOnRequest
  hsOp h c :=
    match h with
    | .accept date req =>
      match cfg.accept py date req with
      | (.ok _, a) => (none, a.store c)
      | (.error e, a) => (some e, a.store c)
    | .sendResponse r =>
      match c.sendResponse r with
      | (e, c) => (e, c, false)

/-- server.py 60-75: a new `ServerConnection`. -/
def serverInit (maxSize : Option Int) : Conn X Request :=
  ⟨{ side := .server, state := .connecting, maxSize }, .init, .hs Request.parse⟩

end

/-! ## Client -/

/-- extensions/base.py 51-85 -/
structure ClientFactory (X : Type) where
  name : PyStr
  requestParams : List ExtParam
  processResponseParams : List ExtParam → List X → Except Exc X

/-- uri.py 22-43 -/
structure WsUri where
  secure : Bool
  host : PyStr
  port : Nat
  resourceName : PyStr
  userInfo : Option (PyStr × PyStr) := none
deriving DecidableEq

/-- client.py 54-69: the configuration of a `ClientConnection`; `raw` are the random bytes of
`generate_key()`. -/
structure ClientConfig (X : Type) where
  uri : WsUri
  origin : Option PyStr := none
  extensions : Option (List (ClientFactory X)) := none
  subprotocols : Option (List PyStr) := none
  extraHeaders : List (PyStr × PyStr) := []
  raw : Bytes

section

variable {X : Type}

/-- client.py 69 -/
def ClientConfig.key (cfg : ClientConfig X) : PyStr := generateKey cfg.raw

/-- client.py 80-83: the `Authorization` header. -/
def ClientConfig.setAuth (cfg : ClientConfig X) (headers : Headers) : Except Exc Headers :=
  match cfg.uri.userInfo with
  | none => .ok headers
  | some (user, password) =>
    match buildAuthorizationBasic user password with
    | .error e => .error e
    | .ok v => .ok (headers.set p!"Authorization" v)

/-- client.py 71-117 `connect` -/
def ClientConfig.connect (py : PyEnv) (cfg : ClientConfig X) : Except Exc Request :=
  let headers : Headers := {}
  let headers := headers.set p!"Host" (buildHost py cfg.uri.host cfg.uri.port cfg.uri.secure)
  match cfg.setAuth headers with
  | .error e => .error e
  | .ok headers =>
    let headers := match cfg.origin with
      | none => headers
      | some o => headers.set p!"Origin" o
    let headers := headers.set p!"Upgrade" p!"websocket"
    let headers := headers.set p!"Connection" p!"Upgrade"
    let headers := headers.set p!"Sec-WebSocket-Key" cfg.key
    let headers := headers.set p!"Sec-WebSocket-Version" p!"13"
    let headers := match cfg.extensions with
      | none => headers
      | some fs => headers.set p!"Sec-WebSocket-Extensions"
          (buildExtension (fs.map fun f : ClientFactory X => (f.name, f.requestParams)))
    let headers := match cfg.subprotocols with
      | none => headers
      | some ps => headers.set p!"Sec-WebSocket-Protocol" (buildSubprotocol ps)
    let headers := cfg.extraHeaders.foldl (fun h p => h.set p.1 p.2) headers
    match headers.setdefault p!"User-Agent" py.agent with
    | .error e => .error e
    | .ok headers => .ok { path := cfg.uri.resourceName, headers }

/-- client.py 213-232: the loop over `self.available_extensions` for one extension of the response;
`none` if no extension matches. -/
def matchAnswer (name : PyStr) (params : List ExtParam) (accepted : List X) :
    List (ClientFactory X) → Except Exc (Option X)
  | [] => .ok none
  | f :: fs =>
    if f.name ≠ name then matchAnswer name params accepted fs
    else
      match f.processResponseParams params accepted with
      | .error (.negotiationError _) => matchAnswer name params accepted fs
      | .error e => .error e
      | .ok x => .ok (some x)

/-- client.py 211-238: the loop over `parsed_extensions`.  (The message of the exception also shows
the parameters.) -/
def matchAnswers (factories : List (ClientFactory X)) (accepted : List X) :
    List ExtHeader → Except Exc (List X)
  | [] => .ok accepted
  | (name, params) :: answers =>
    match matchAnswer name params accepted factories with
    | .error e => .error e
    | .ok none => .error (.negotiationError (p!"Unsupported extension: name = " ++ name))
    | .ok (some x) => matchAnswers factories (accepted ++ [x]) answers

/-- client.py 170-240 `process_extensions` -/
def ClientConfig.processExtensions (cfg : ClientConfig X) (headers : Headers) :
    Except Exc (List X) :=
  let values := headers.getAll p!"Sec-WebSocket-Extensions"
  if values ≠ [] then
    match cfg.extensions with
    | none => .error (.invalidHandshake p!"no extensions supported")
    | some factories =>
      match parseAll parseExtension values with
      | .error e => .error e
      | .ok answers => matchAnswers factories [] answers
  else .ok []

/-- client.py 242-273 `process_subprotocol`.  (Line 268 cannot raise `IndexError`, because parsing a
header never returns an empty list.) -/
def ClientConfig.processSubprotocol (cfg : ClientConfig X) (headers : Headers) :
    Except Exc (Option PyStr) :=
  let values := headers.getAll p!"Sec-WebSocket-Protocol"
  if values ≠ [] then
    match cfg.subprotocols with
    | none => .error (.invalidHandshake p!"no subprotocols supported")
    | some available =>
      match parseAll parseSubprotocol values with
      | .error e => .error e
      | .ok [] => .error .runtimeError
      | .ok [sub] =>
        if sub ∈ available then .ok (some sub)
        else .error (.negotiationError (p!"unsupported subprotocol: " ++ sub))
      | .ok subs => .error (.invalidHandshake (p!"multiple subprotocols: " ++ strJoin p!", " subs))
  else .ok none

/-- client.py 129-164: the checks at the start of `process_response`. -/
def ClientConfig.checkResponse (cfg : ClientConfig X) (r : Response) : Except Exc Unit :=
  if r.statusCode ≠ 101 then .error (.invalidStatusCode r.statusCode)
  else
    match checkUpgrade r.headers with
    | .error e => .error e
    | .ok () =>
      match singleHeader r.headers p!"Sec-WebSocket-Accept" with
      | .error e => .error e
      | .ok acc =>
        match acceptKey cfg.key with
        | .error e => .error e
        | .ok expected =>
          if acc ≠ expected then .error (.invalidHeaderValue p!"Sec-WebSocket-Accept" acc)
          else .ok ()

/-- client.py 119-168 `process_response` -/
def ClientConfig.processResponse (cfg : ClientConfig X) (r : Response) (c : Core X Response) :
    Option Exc × Core X Response :=
  match cfg.checkResponse r with
  | .error e => (some e, c)
  | .ok () =>
    match cfg.processExtensions r.headers with
    | .error e => (some e, c)
    | .ok exts =>
      let c := { c with exts }
      match cfg.processSubprotocol r.headers with
      | .error e => (some e, c)
      | .ok subprotocol => (none, { c with subprotocol })

/-- client.py 285-298: what `parse` does with a response. -/
def ClientConfig.onResponse (cfg : ClientConfig X) (r : Response) (c : Core X Response) :
    Option Exc × Core X Response :=
  if c.state ≠ .connecting then (some .assertionError, c)
  else
    match cfg.processResponse r c with
    | (none, c) =>
      let c := { c with state := .opened }
      (none, c.addEvent (.handshake r))
    | (some e, c) =>
      if e.isInvalidHandshake then (none, c.addEvent (.handshake { r with exception := some e }))
      else (some e, c.addEvent (.handshake r))

/-- The calls of the handshake API of a `ClientConnection`.  (`connect` doesn't change the
connection.) -/
inductive ClientCall where
  | sendRequest (r : Request)

/-- client.py 275-283 `send_request` -/
def Core.sendRequest (c : Core X Response) (r : Request) : Option Exc × Core X Response :=
  match r.serialize with
  | .error e => (some e, c)
  | .ok b => (none, { c with writes := c.writes ++ [b] })

/-- The environment of a `ClientConnection` (client.py 54-72, 285-299). -/
def ClientConfig.env (cfg : ClientConfig X) (ops : ExtOps X) (rand : Nat → Bytes)
    (rand_len : ∀ i, (rand i).length = 4) : Env X Response ClientCall where
  ops := ops
  rand := rand
  rand_len := rand_len
  onHs := cfg.onResponse
  hsOp h c :=
    match h with
    | .sendRequest r =>
      match c.sendRequest r with
      | (e, c) => (e, c, false)

/-- client.py 54-69: a new `ClientConnection`. -/
def clientInit (maxSize : Option Int) (origin : Option PyStr) : Conn X Response :=
  ⟨{ side := .client, state := .connecting, maxSize, origin }, .init, .hs Response.parse⟩

end

/-- RFC 6455, section 1.3 -/
example : acceptKey p!"dGhlIHNhbXBsZSBub25jZQ==" = .ok p!"s3pPLMBiTxaQ9kYGzzhZRbK+xOo=" := by
  decide +kernel

end WS
