import Verif.Model.LegacyAttrs

/-!
# Addresses of legacy connections: /repo/src/websockets/legacy/protocol.py 371-399

`local_address` and `remote_address`, in executions of `Verif.Model.LegacyLife` that begin before `connection_made`.
-/

namespace WS.LegacyAddress

open LegacyLife (St Ev Config)

/-- What `asyncio` knows about a transport: what `getsockname` and `getpeername` returned when it was created (`none`: they
failed), and whether it's a TLS transport, on top of another transport. -/
structure Transport (Addr : Type) where
  sockname : Option Addr
  peername : Option Addr
  tls : Bool

/-- A connection: its transport and its state exist once `connection_made` ran; `down`: the transport below TLS is lost. -/
structure Conn (Addr : Type) where
  transport : Option (Transport Addr) := none
  life : Option St := none
  down : Bool := false

/-- `asyncio` calls `connection_made`; `asyncio` drops the transport below TLS; any event of `LegacyLife`. -/
inductive Event (Addr : Type) where
  | made (t : Transport Addr)
  | drop
  | life (e : Ev)

/-- legacy/protocol.py 1352-1379 `connection_made` assigns `transport`, and nothing deletes or replaces it (the other
events are those of `LegacyLife`). With TLS, `asyncio.sslproto` forgets the transport below before it calls
`connection_lost`, possibly in a later iteration of the event loop. -/
def Conn.step {Addr : Type} (cfg : Config) (c : Conn Addr) : Event Addr → Option (Conn Addr)
  | .made t => if c.transport.isNone then some { c with transport := some t, life := some {} } else none
  | .drop =>
    match c.transport with
    | some t => if t.tls then some { c with down := true } else none
    | none => none
  | .life e =>
    match c.transport, c.life with
    | some t, some s =>
      match e with
      | .lost exc => if t.tls && !c.down then none else (LegacyLife.step cfg s (.lost exc)).map fun s' => { c with life := some s' }
      | e => (LegacyLife.step cfg s e).map fun s' => { c with life := some s' }
    | _, _ => none

def Conn.run {Addr : Type} (cfg : Config) (c : Conn Addr) : List (Event Addr) → Option (Conn Addr)
  | [] => some c
  | e :: es => (c.step cfg e).bind fun c' => c'.run cfg es

/-- `transport.get_extra_info`: a TLS transport asks the transport below, if it still knows it. -/
def Transport.extra {Addr : Type} (t : Transport Addr) (down : Bool) (a : Option Addr) : Option Addr :=
  if t.tls && down then none else a

/-- legacy/protocol.py 371-384 `local_address` -/
def Conn.localAddress {Addr : Type} (c : Conn Addr) : Option Addr :=
  match c.transport with
  | none => none
  | some t => t.extra c.down t.sockname

/-- legacy/protocol.py 386-399 `remote_address` -/
def Conn.remoteAddress {Addr : Type} (c : Conn Addr) : Option Addr :=
  match c.transport with
  | none => none
  | some t => t.extra c.down t.peername

end WS.LegacyAddress
