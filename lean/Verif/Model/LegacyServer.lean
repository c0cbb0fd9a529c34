import Verif.Model.Handshake

/-!
# The opening handshake of legacy servers: /repo/src/websockets/legacy/server.py 120-243, 253-276, 507-596

`process_origin`, `process_extensions`, `process_subprotocol` and the default `select_subprotocol`
(legacy/server.py 330-505) have the same code as the methods of the sans-I/O server (server.py 229-387), so
the model of these methods is used.  A custom `select_subprotocol` isn't modelled.

`read_request` (legacy/http.py) has the same code as `Request.parse` (http11.py), except that lines are read
from an `asyncio.StreamReader`; the handshake is modelled from its result on.
-/

namespace WS.LegacyServer

/-- legacy/server.py 55: `HTTPResponse`; `phrase` is `status.phrase`. -/
structure HttpResponse where
  status : Nat
  phrase : PyStr
  headers : List (PyStr × PyStr)
  body : Bytes
deriving DecidableEq, Repr

/-- What `handshake` raises: `AbortHandshake` (exceptions.py 298-318) or another exception. -/
inductive Raised where
  | abort (r : HttpResponse)
  | exc (e : Exc)
deriving DecidableEq, Repr

/-- legacy/handshake.py 60-120 `check_request`, which differs from server.py only when `Connection` or
`Upgrade` is missing: then the value of `InvalidUpgrade` is empty. -/
def checkRequest (headers : Headers) : Except Exc PyStr :=
  match WS.checkRequest headers with
  | .error (.invalidUpgrade name value) => .error (.invalidUpgrade name (some (value.getD [])))
  | r => r

/-- What the server takes from outside. -/
structure Setup (X : Type) where
  py : PyEnv
  cfg : ServerConfig X
  /-- `process_request` (legacy/server.py 278-328), as overridden in a subclass or by an argument -/
  processRequest : PyStr → Headers → Except Exc (Option HttpResponse)
  /-- `email.utils.formatdate(usegmt=True)` -/
  date : PyStr

variable {X : Type}

/-- legacy/server.py 537-555: the hook, and the response of a server that's shutting down; `serving` is
`ws_server.is_serving()`. -/
def earlyResponse (s : Setup X) (serving : Bool) (req : Request) : Except Exc (Option HttpResponse) :=
  match s.processRequest req.path req.headers with
  | .error e => .error e
  | .ok r =>
    if serving then .ok r
    else .ok (some { status := 503, phrase := p!"Service Unavailable", headers := [],
                     body := b!"Server is shutting down.\n" })

/-- legacy/server.py 569-590: the headers of the response for a valid request -/
def responseHeaders (s : Setup X) (req : Request) (key : PyStr) (extensionsHeader protocolHeader : Option PyStr) :
    Except Exc Headers :=
  match acceptKey key with
  | .error e => .error e
  | .ok acc =>
    let headers : Headers := {}
    let headers := headers.set p!"Upgrade" p!"websocket"
    let headers := headers.set p!"Connection" p!"Upgrade"
    let headers := headers.set p!"Sec-WebSocket-Accept" acc
    let headers := match extensionsHeader with
      | none => headers
      | some v => headers.set p!"Sec-WebSocket-Extensions" v
    let headers := match protocolHeader with
      | none => headers
      | some v => headers.set p!"Sec-WebSocket-Protocol" v
    match s.cfg.extraHeaders req.path req.headers with
    | .error e => .error e
    | .ok extra =>
      let headers := extra.foldl (fun h p => h.set p.1 p.2) headers
      match headers.setdefault p!"Date" s.date with
      | .error e => .error e
      | .ok headers => headers.setdefault p!"Server" s.py.agent

/-- legacy/server.py 253-276 `write_http_response`: what is written, or the exception raised before
anything is written -/
def httpResponse (status : Nat) (phrase : PyStr) (headers : Headers) (body : Option Bytes) : Except Exc Bytes :=
  match utf8Encode (p!"HTTP/1.1 " ++ decStr status ++ p!" " ++ phrase ++ [13, 10] ++ headers.toStr) with
  | .error e => .error e
  | .ok b => .ok (b ++ body.getD [])

/-- A connection that is open: what was written and the attributes of the protocol. -/
structure Opened (X : Type) where
  path : PyStr
  headers : Headers
  written : Bytes
  origin : Option PyStr
  exts : List X
  subprotocol : Option PyStr

/-- legacy/server.py 507-596 `handshake`; `request` is the result of `read_request`, `none` if it raised an
exception. -/
def handshake (s : Setup X) (serving : Bool) (request : Option Request) : Except Raised (Opened X) :=
  match request with
  -- 240-243
  | none => .error (.exc (.invalidHandshake p!"did not receive a valid HTTP request"))
  | some req =>
    match earlyResponse s serving req with
    | .error e => .error (.exc e)
    | .ok (some r) => .error (.abort r)
    | .ok none =>
      match checkRequest req.headers with
      | .error e => .error (.exc e)
      | .ok key =>
        match s.cfg.processOrigin req.headers with
        | .error e => .error (.exc e)
        | .ok origin =>
          match s.cfg.processExtensions req.headers with
          | .error e => .error (.exc e)
          | .ok (extensionsHeader, exts) =>
            match s.cfg.processSubprotocol s.py req.headers with
            | .error e => .error (.exc e)
            | .ok sub =>
              match responseHeaders s req key extensionsHeader sub with
              | .error e => .error (.exc e)
              | .ok headers =>
                match httpResponse 101 p!"Switching Protocols" headers none with
                | .error e => .error (.exc e)
                | .ok written => .ok { path := req.path, headers, written, origin, exts, subprotocol := sub }

/-- legacy/server.py 145-184: the response for an exception; `none` if the message can't be encoded. -/
def errorResponse : Raised → Option HttpResponse
  | .abort r => some r
  | .exc exc =>
    let failed := p!"Failed to open a WebSocket connection"
    match exc with
    | .invalidOrigin _ =>
      match utf8Encode (failed ++ p!": " ++ exc.str ++ p!".\n") with
      | .error _ => none
      | .ok body => some { status := 403, phrase := p!"Forbidden", headers := [], body }
    | .invalidUpgrade .. =>
      match utf8Encode (failed ++ p!": " ++ exc.str ++ p!".\n\nYou cannot access a WebSocket server directly " ++
          p!"with a browser. You need a WebSocket client.\n") with
      | .error _ => none
      | .ok body => some { status := 426, phrase := p!"Upgrade Required",
                           headers := [(p!"Upgrade", p!"websocket")], body }
    | _ =>
      if exc.isInvalidHandshake then
        match utf8Encode (failed ++ p!": " ++ exc.str ++ p!".\n") with
        | .error _ => none
        | .ok body => some { status := 400, phrase := p!"Bad Request", headers := [], body }
      else
        some { status := 500, phrase := p!"Internal Server Error", headers := [],
               body := b!"Failed to open a WebSocket connection.\nSee server log for more information.\n" }

/-- legacy/server.py 185-189: default headers -/
def errorHeaders (s : Setup X) (r : HttpResponse) : Except Exc Headers :=
  match (Headers.ofList r.headers).setdefault p!"Date" s.date with
  | .error e => .error e
  | .ok headers =>
  match headers.setdefault p!"Server" s.py.agent with
  | .error e => .error e
  | .ok headers =>
  match headers.setdefault p!"Content-Length" (decStr r.body.length) with
  | .error e => .error e
  | .ok headers =>
  match headers.setdefault p!"Content-Type" p!"text/plain" with
  | .error e => .error e
  | .ok headers => headers.setdefault p!"Connection" p!"close"

/-- What a client sees of the opening handshake. -/
inductive Outcome (X : Type) where
  /-- the handshake succeeds; `ws_handler` is called -/
  | opened (o : Opened X)
  /-- an HTTP response is written and the connection is closed (191-194) -/
  | refused (status : Nat) (headers : Headers) (body : Bytes) (written : Bytes)
  /-- the connection is closed without a response (213-218) -/
  | dropped

/-- legacy/server.py 131-194: the opening handshake in `handler`.  (Connection errors, which prevent the
response from reaching the client, aren't modelled here.) -/
def openingHandshake (s : Setup X) (serving : Bool) (request : Option Request) : Outcome X :=
  match handshake s serving request with
  | .ok o => .opened o
  | .error raised =>
    match errorResponse raised with
    | none => .dropped
    | some r =>
      match errorHeaders s r with
      | .error _ => .dropped
      | .ok headers =>
        match httpResponse r.status r.phrase headers (some r.body) with
        | .error _ => .dropped
        | .ok written => .refused r.status headers r.body written

end WS.LegacyServer
