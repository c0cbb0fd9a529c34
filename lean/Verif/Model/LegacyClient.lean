import Verif.Model.Uri

/-!
# Legacy clients: /repo/src/websockets/legacy/client.py 60-555

The opening handshake (`WebSocketClientProtocol.handshake`) and `connect()` with redirects
(`Connect`).  `process_extensions` and `process_subprotocol` (117-240) have the same code as the methods of
the sans-I/O client (client.py), and `check_response` (legacy/handshake.py 138-179) differs from
`process_response` only in the text of `InvalidUpgrade`, so the model of these functions is used.

`read_response` (legacy/http.py) is modelled from its result on.  Closing the TCP connection after a
failed handshake (544-547) isn't modelled.
-/

namespace WS.LegacyClient

/-- What `await connect(...)` raises. -/
inductive Raised where
  | exc (e : Exc)
  | uri (e : Uri.UriError)
  /-- exceptions.py 321-331 `RedirectHandshake` -/
  | redirect (uri : PyStr)
  /-- exceptions.py `SecurityError` -/
  | security (msg : PyStr)
  /-- an exception of `create_connection` -/
  | network
deriving DecidableEq, Repr

/-- The `ssl` keyword argument of `connect()` -/
inductive SslArg where
  | absent
  | none
  | context
deriving DecidableEq, Repr

/-- The keyword arguments of `connect()` that determine where to connect: `path`, `ssl`, whether `sock` is
given, and the values of `host` and `port` if they are given. -/
structure Kwargs where
  path : Option PyStr := none
  ssl : SslArg := .absent
  sock : Bool := false
  host : Option (Option PyStr) := none
  port : Option (Option Nat) := none

/-- Positional arguments of `create_connection` or `create_unix_connection`, after the factory.
`unixTcp`: `create_unix_connection(factory, host, port)`, which raises `TypeError`. -/
inductive Endpoint where
  | tcp (host : Option PyStr) (port : Option Nat)
  | unix (path : PyStr)
  | unixTcp (host : PyStr) (port : Nat)
deriving DecidableEq, Repr

/-- The state of a `Connect` object: `_wsuri`, and `_create_connection` with its positional arguments, its
`ssl` argument (true: not `None`) and the arguments `host`, `port`, `secure` of the factory. -/
structure Connect where
  wsuri : WsUri
  endpoint : Endpoint
  tls : Bool
  protoHost : PyStr
  protoPort : Nat
  protoSecure : Bool
deriving DecidableEq

/-- legacy/client.py 418-473, in `Connect.__init__` -/
def Connect.init (env : Uri.Env) (uri : PyStr) (kw : Kwargs) : Except Raised Connect :=
  match Uri.parseUri env uri with
  | .error e => .error (.uri e)
  | .ok wsuri =>
    -- 419-425
    if !wsuri.secure && kw.ssl = .context then
      .error (.exc (.valueError (p!"connect() received a ssl argument for a ws:// URI, " ++
        p!"use a wss:// URI to enable TLS")))
    else
      let tls : Bool := wsuri.secure && kw.ssl ≠ .none
      -- 452-470
      let endpoint := match kw.path with
        | some path => .unix path
        | none =>
          let host := if kw.sock then none else some wsuri.host
          let port := if kw.sock then none else some wsuri.port
          .tcp (kw.host.getD host) (kw.port.getD port)
      .ok { wsuri, endpoint, tls, protoHost := wsuri.host, protoPort := wsuri.port, protoSecure := wsuri.secure }

/-- legacy/client.py 475-507 `handle_redirect` -/
def Connect.handleRedirect (env : Uri.Env) (c : Connect) (uri : PyStr) : Except Raised Connect :=
  match Uri.parseUri env uri with
  | .error e => .error (.uri e)
  | .ok new =>
    if c.wsuri.secure && !new.secure then .error (.security p!"redirect from WSS to WS")
    else if c.wsuri.host = new.host ∧ c.wsuri.port = new.port then .ok { c with wsuri := new }
    else
      let endpoint := match c.endpoint with
        | .tcp _ _ => .tcp (some new.host) (some new.port)
        | .unix _ | .unixTcp _ _ => .unixTcp new.host new.port
      .ok { c with wsuri := new, endpoint, protoHost := new.host, protoPort := new.port }

/-- What is received after sending the request: the result of `read_response`, `invalid` if it raises an
exception; or nothing, because the connection couldn't be established. -/
inductive Reply where
  | failed
  | invalid
  | response (status : Int) (headers : Headers)

/-- One iteration of the loop in `__await_impl__`: where the connection is made, for which URI, and what is
sent or the exception raised when building the request. -/
structure Attempt where
  wsuri : WsUri
  endpoint : Endpoint
  tls : Bool
  request : Except Exc Bytes

/-- What `connect()` takes from outside: the standard library, random bytes for the key of each attempt, and
servers, which may know all that happened before. -/
structure World where
  py : PyEnv
  uriEnv : Uri.Env
  random : Nat → Bytes
  reply : List Attempt → Reply

variable {X : Type}

/-- An open connection -/
structure Opened (X : Type) where
  wsuri : WsUri
  exts : List X
  subprotocol : Option PyStr

/-- legacy/client.py 294-299: the response is a redirect, or an error, or may be a valid handshake. -/
def redirectTo (status : Int) (headers : Headers) : Except Raised Unit :=
  if status = 301 ∨ status = 302 ∨ status = 303 ∨ status = 307 ∨ status = 308 then
    if headers.contains p!"Location" then
      match headers.get p!"Location" with
      | .error e => .error (.exc e)
      | .ok location => .error (.redirect location)
    else .error (.exc (.invalidHeader p!"Location" none))
  else .ok ()

/-- legacy/client.py 73-90, 254-291: the request; extra headers and so on are in `cfg`. -/
def request (py : PyEnv) (cfg : ClientConfig X) : Except Exc Bytes :=
  match cfg.connect py with
  | .error e => .error e
  | .ok r => r.serialize

/-- legacy/client.py 293-311: the end of `handshake` -/
def response (cfg : ClientConfig X) (status : Int) (headers : Headers) : Except Raised (Opened X) :=
  match redirectTo status headers with
  | .error e => .error e
  | .ok () =>
    match cfg.checkResponse { statusCode := status, reason := [], headers } with
    | .error e => .error (.exc e)
    | .ok () =>
      match cfg.processExtensions headers with
      | .error e => .error (.exc e)
      | .ok exts =>
        match cfg.processSubprotocol headers with
        | .error e => .error (.exc e)
        | .ok subprotocol => .ok { wsuri := cfg.uri, exts, subprotocol }

/-- legacy/client.py 530-549: one iteration of the loop, up to the exception for a redirect.  (Arguments that
`create_connection` refuses, such as `sock` with a host, aren't modelled: the reply may be `failed`.) -/
def handshake (cfg : ClientConfig X) (a : Attempt) (reply : Reply) : Except Raised (Opened X) :=
  match a.endpoint, reply with
  | .unixTcp _ _, _ => .error .network
  | _, .failed => .error .network
  | _, reply =>
    match a.request with
    | .error e => .error (.exc e)
    | .ok _ =>
      match reply with
      | .response status headers => response cfg status headers
      | _ => .error (.exc (.invalidHandshake p!"did not receive a valid HTTP response"))

/-- legacy/client.py 528-554: the loop with `n` remaining iterations; `cfg` contains the arguments of the factory
that don't change (its `uri` and `raw` are replaced). -/
def attempts (w : World) (cfg : ClientConfig X) : Nat → Connect → List Attempt → Except Raised (Opened X) × List Attempt
  | 0, _, log => (.error (.security p!"too many redirects"), log)
  | n + 1, c, log =>
    let cfg' := { cfg with uri := c.wsuri, raw := w.random log.length }
    let a : Attempt := { wsuri := c.wsuri, endpoint := c.endpoint, tls := c.tls, request := request w.py cfg' }
    let log := log ++ [a]
    match handshake cfg' a (w.reply log) with
    | .error (.redirect uri) =>
      match c.handleRedirect w.uriEnv uri with
      | .error e => (.error e, log)
      | .ok c => attempts w cfg n c log
    | r => (r, log)

/-- legacy/client.py 372-554: `await connect(uri, ...)` -/
def connect (w : World) (cfg : ClientConfig X) (uri : PyStr) (kw : Kwargs) : Except Raised (Opened X) × List Attempt :=
  match Connect.init w.uriEnv uri kw with
  | .error e => (.error e, [])
  | .ok c => attempts w cfg 10 c []

end WS.LegacyClient
