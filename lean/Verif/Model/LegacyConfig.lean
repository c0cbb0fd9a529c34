import Verif.Model.LegacyClient

/-!
# Arguments of `connect()` and `serve()`: /repo/src/websockets/legacy/{client,server,protocol}.py

How the arguments of `connect()` and `serve()` reach the connections that they create, through
`functools.partial` and the constructors of `WebSocketClientProtocol`, `WebSocketServerProtocol` and
`WebSocketCommonProtocol`.  Keyword arguments are lists of names and values, as in Python; a name occurs once.

Simplified: `loop` (there's one event loop); attributes that don't depend on arguments; subclasses of the
protocols don't override `__init__`; which arguments `create_connection` and `create_server` accept.
-/

namespace WS.LegacyConfig

/-- Python values: `None`, integers, booleans, strings, sequences of strings or `None`, other objects.  (Durations
that aren't integers are other objects.) -/
inductive Val where
  | none
  | int (n : Int)
  | bool (b : Bool)
  | str (s : PyStr)
  | strs (l : List (Option PyStr))
  | obj (id : Nat)
deriving DecidableEq, Repr

/-- Keyword arguments -/
abbrev Kw := List (PyStr × Val)

/-- The value of a parameter that has a default value (legacy/protocol.py 195-212 and similar) -/
def Kw.arg (kw : Kw) (name : PyStr) (default : Val) : Val := (kw.lookup name).getD default

/-- `**kwargs`: the arguments that aren't parameters (legacy/client.py 64, legacy/server.py 88) -/
def Kw.others (kw : Kw) (names : List PyStr) : Kw := kw.filter fun p => !names.contains p.1

/-- What `warnings.warn` says -/
inductive Warning where
  | timeout
  | klass
  | origins
deriving DecidableEq, Repr

/-- Attributes of a connection: 222-243 in legacy/protocol.py; `readerLimit` is the `limit` of the `StreamReader`. -/
structure Common where
  pingInterval : Val
  pingTimeout : Val
  closeTimeout : Val
  maxSize : Val
  maxQueue : Val
  readLimit : Val
  writeLimit : Val
  host : Val
  port : Val
  secure : Val
  legacyRecv : Val
  readerLimit : Int
deriving DecidableEq

/-- legacy/protocol.py 213-220, legacy/client.py 397-404, legacy/server.py 881-888 -/
def closeTimeout (kw : Kw) : Val × List Warning :=
  let timeout := kw.arg p!"timeout" .none
  let warnings := if timeout = .none then [] else [.timeout]
  let timeout := if timeout = .none then .int 10 else timeout
  let close := kw.arg p!"close_timeout" .none
  (if close = .none then timeout else close, warnings)

/-- legacy/client.py 406-413, legacy/server.py 890-897; `default` is the class of the library. -/
def createProtocol (default : Val) (kw : Kw) : Val × List Warning :=
  let klass := kw.arg p!"klass" .none
  let warnings := if klass = .none then [] else [.klass]
  let klass := if klass = .none then default else klass
  let create := kw.arg p!"create_protocol" .none
  (if create = .none then klass else create, warnings)

/-- Parameters of `WebSocketCommonProtocol.__init__`: legacy/protocol.py 195-212 -/
def commonParams : List PyStr := [p!"ping_interval", p!"ping_timeout", p!"close_timeout", p!"max_size", p!"max_queue",
  p!"read_limit", p!"write_limit", p!"loop", p!"host", p!"port", p!"secure", p!"legacy_recv", p!"timeout"]

/-- legacy/protocol.py 195-243 `WebSocketCommonProtocol.__init__`; `StreamReader` refuses limits that aren't
positive. -/
def commonInit (kw : Kw) : Except Exc (Common × List Warning) :=
  if kw.others commonParams ≠ [] then .error .typeError
  else
    let (close, warnings) := closeTimeout kw
    let readLimit := kw.arg p!"read_limit" (.int (2 ^ 16))
    match readLimit with
    | .int n =>
      if n / 2 ≤ 0 then .error (.valueError p!"Limit cannot be <= 0")
      else
        .ok ({
          pingInterval := kw.arg p!"ping_interval" (.int 20)
          pingTimeout := kw.arg p!"ping_timeout" (.int 20)
          closeTimeout := close
          maxSize := kw.arg p!"max_size" (.int (2 ^ 20))
          maxQueue := kw.arg p!"max_queue" (.int (2 ^ 5))
          readLimit
          writeLimit := kw.arg p!"write_limit" (.int (2 ^ 16))
          host := kw.arg p!"host" .none
          port := kw.arg p!"port" .none
          secure := kw.arg p!"secure" .none
          legacyRecv := kw.arg p!"legacy_recv" (.bool false)
          readerLimit := n / 2 }, warnings)
    | _ => .error .typeError

/-- Attributes of a client connection: legacy/client.py 67-71 -/
structure Client where
  origin : Val
  extensions : Val
  subprotocols : Val
  extraHeaders : Val
  common : Common
deriving DecidableEq

/-- legacy/client.py 58-71 `WebSocketClientProtocol.__init__` -/
def clientInit (kw : Kw) : Except Exc (Client × List Warning) :=
  match commonInit (kw.others [p!"origin", p!"extensions", p!"subprotocols", p!"extra_headers"]) with
  | .error e => .error e
  | .ok (common, warnings) => .ok ({
      origin := kw.arg p!"origin" .none
      extensions := kw.arg p!"extensions" .none
      subprotocols := kw.arg p!"subprotocols" .none
      extraHeaders := kw.arg p!"extra_headers" .none
      common }, warnings)

/-- Attributes of a server connection: legacy/server.py 97-104 -/
structure Server where
  handler : Val
  server : Val
  origins : Val
  extensions : Val
  subprotocols : Val
  extraHeaders : Val
  processRequest : Val
  selectSubprotocol : Val
  common : Common
deriving DecidableEq

/-- legacy/server.py 93-96 -/
def adjustOrigins : Val → Val × List Warning
  | .strs l =>
    if some [] ∈ l then (.strs (l.map fun o => if o = some [] then none else o), [.origins]) else (.strs l, [])
  | v => (v, [])

/-- legacy/server.py 76-105 `WebSocketServerProtocol.__init__` -/
def serverInit (handler server : Val) (kw : Kw) : Except Exc (Server × List Warning) :=
  let (origins, w1) := adjustOrigins (kw.arg p!"origins" .none)
  match commonInit (kw.others [p!"origins", p!"extensions", p!"subprotocols", p!"extra_headers", p!"process_request",
    p!"select_subprotocol"]) with
  | .error e => .error e
  | .ok (common, w2) => .ok ({
      handler, server, origins
      extensions := kw.arg p!"extensions" .none
      subprotocols := kw.arg p!"subprotocols" .none
      extraHeaders := kw.arg p!"extra_headers" .none
      processRequest := kw.arg p!"process_request" .none
      selectSubprotocol := kw.arg p!"select_subprotocol" .none
      common }, w1 ++ w2)

/-- `functools.partial` with the protocol factory: the callable and its keyword arguments -/
structure Factory where
  create : Val
  keywords : Kw

/-- legacy/client.py 427-430, legacy/server.py 906-909; `enable` is `enable_..._permessage_deflate`. -/
def compress (enable : Val → Val) (kw : Kw) : Except Exc Val :=
  let compression := kw.arg p!"compression" (.str p!"deflate")
  let extensions := kw.arg p!"extensions" .none
  if compression = .str p!"deflate" then .ok (enable extensions)
  else if compression ≠ .none then .error (.valueError p!"unsupported compression")
  else .ok extensions

/-- legacy/client.py 397-450, in `Connect.__init__`; `wsuri` is the parsed URI, `default` is
`WebSocketClientProtocol`. -/
def connectFactory (enable : Val → Val) (default : Val) (wsuri : WsUri) (kw : Kw) :
    Except Exc (Factory × List Warning) :=
  let (close, w1) := closeTimeout kw
  let (create, w2) := createProtocol default kw
  match compress enable kw with
  | .error e => .error e
  | .ok extensions => .ok ({
      create
      keywords := [
        (p!"ping_interval", kw.arg p!"ping_interval" (.int 20)),
        (p!"ping_timeout", kw.arg p!"ping_timeout" (.int 20)),
        (p!"close_timeout", close),
        (p!"max_size", kw.arg p!"max_size" (.int (2 ^ 20))),
        (p!"max_queue", kw.arg p!"max_queue" (.int (2 ^ 5))),
        (p!"read_limit", kw.arg p!"read_limit" (.int (2 ^ 16))),
        (p!"write_limit", kw.arg p!"write_limit" (.int (2 ^ 16))),
        (p!"host", .str wsuri.host),
        (p!"port", .int wsuri.port),
        (p!"secure", .bool wsuri.secure),
        (p!"legacy_recv", kw.arg p!"legacy_recv" (.bool false)),
        (p!"origin", kw.arg p!"origin" .none),
        (p!"extensions", extensions),
        (p!"subprotocols", kw.arg p!"subprotocols" .none),
        (p!"extra_headers", kw.arg p!"extra_headers" .none)] }, w1 ++ w2)

/-- legacy/client.py 491-497, in `handle_redirect`: `dict(factory.keywords, host=..., port=...)` -/
def Factory.redirect (f : Factory) (host : PyStr) (port : Nat) : Factory :=
  { f with keywords := f.keywords.map fun p =>
      if p.1 = p!"host" then (p.1, .str host) else if p.1 = p!"port" then (p.1, .int port) else p }

/-- legacy/server.py 881-939, in `Serve.__init__`; `wsServer` is the new `WebSocketServer`, `default` is
`WebSocketServerProtocol`. -/
def serveFactory (enable : Val → Val) (default : Val) (host port : Val) (kw : Kw) :
    Except Exc (Factory × List Warning) :=
  let (close, w1) := closeTimeout kw
  let (create, w2) := createProtocol default kw
  match compress enable kw with
  | .error e => .error e
  | .ok extensions =>
    -- 935-937
    if kw.arg p!"unix" (.bool false) = .bool true ∧ (host ≠ .none ∨ port ≠ .none) then .error .assertionError
    else .ok ({
      create
      keywords := [
        (p!"host", host),
        (p!"port", port),
        (p!"secure", .bool (kw.arg p!"ssl" .none ≠ .none)),
        (p!"ping_interval", kw.arg p!"ping_interval" (.int 20)),
        (p!"ping_timeout", kw.arg p!"ping_timeout" (.int 20)),
        (p!"close_timeout", close),
        (p!"max_size", kw.arg p!"max_size" (.int (2 ^ 20))),
        (p!"max_queue", kw.arg p!"max_queue" (.int (2 ^ 5))),
        (p!"read_limit", kw.arg p!"read_limit" (.int (2 ^ 16))),
        (p!"write_limit", kw.arg p!"write_limit" (.int (2 ^ 16))),
        (p!"legacy_recv", kw.arg p!"legacy_recv" (.bool false)),
        (p!"origins", kw.arg p!"origins" .none),
        (p!"extensions", extensions),
        (p!"subprotocols", kw.arg p!"subprotocols" .none),
        (p!"extra_headers", kw.arg p!"extra_headers" .none),
        (p!"process_request", kw.arg p!"process_request" .none),
        (p!"select_subprotocol", kw.arg p!"select_subprotocol" .none)] }, w1 ++ w2)

end WS.LegacyConfig
