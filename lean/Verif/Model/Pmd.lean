import Verif.Model.Handshake

/-!
# /repo/src/websockets/extensions/permessage_deflate.py

`zlib` isn't modelled: a structure `Zlib` stands for any implementation of the objects that the
extension uses.  What theorems assume about it is stated separately (`Zlib.Contract`).
-/

namespace WS

/-- The part of the `zlib` module that is used here.

* `compressobj w s` is `zlib.compressobj(wbits=-w, **s)`, which may raise an exception (according to
  the documentation of Python, raw streams support values of `wbits` from -9 to -15, so that it
  raises for `w = 8`);
* `decompressobj w` is `zlib.decompressobj(wbits=-w)` (values from -8 to -15 are supported);
* `compress` and `flush` (with `Z_SYNC_FLUSH`) return bytes and the new state of the encoder;
* `decompress d data n` is `decompress(data, n)`, which may raise an exception;
* `unconsumedTail` is the attribute of decoders. -/
structure Zlib where
  Enc : Type
  Dec : Type
  Settings : Type
  compressobj : Nat → Settings → Except Exc Enc
  decompressobj : Nat → Dec
  compress : Enc → Bytes → Bytes × Enc
  flush : Enc → Bytes × Enc
  decompress : Dec → Bytes → Int → Except Exc Bytes × Dec
  unconsumedTail : Dec → Bytes

/-- permessage_deflate.py 30 `_EMPTY_UNCOMPRESSED_BLOCK` -/
def emptyBlock : Bytes := [0x00, 0x00, 0xFF, 0xFF]

/-- permessage_deflate.py 42-80: the attributes of a `PerMessageDeflate`.  `decoder` and `encoder`
are `none` when the attribute isn't set. -/
structure Pmd (Z : Zlib) where
  remoteNct : Bool
  localNct : Bool
  remoteBits : Nat
  localBits : Nat
  settings : Z.Settings
  decoder : Option Z.Dec
  encoder : Option Z.Enc
  decodeCont : Bool := false

variable {Z : Zlib}

/-- permessage_deflate.py 42-80 `__init__`.  (`compress_settings` doesn't include `wbits` because
factories don't accept it.) -/
def Pmd.new (remoteNct localNct : Bool) (remoteBits localBits : Nat) (settings : Z.Settings) :
    Except Exc (Pmd Z) :=
  if ¬ (8 ≤ remoteBits ∧ remoteBits ≤ 15) then .error .assertionError
  else if ¬ (8 ≤ localBits ∧ localBits ≤ 15) then .error .assertionError
  else
    let decoder := if !remoteNct then some (Z.decompressobj remoteBits) else none
    if !localNct then
      match Z.compressobj localBits settings with
      | .error e => .error e
      | .ok enc =>
        .ok { remoteNct, localNct, remoteBits, localBits, settings, decoder, encoder := some enc }
    else .ok { remoteNct, localNct, remoteBits, localBits, settings, decoder, encoder := none }

/-- permessage_deflate.py 128-141: decompress the data of a frame. -/
def Pmd.inflate (p : Pmd Z) (f : Frame) (maxSize : Option Int) : Except Exc Frame × Pmd Z :=
  match p.decoder with
  | none => (.error .attributeError, p)
  | some dec =>
    let data := if f.fin then f.data ++ emptyBlock else f.data
    match Z.decompress dec data (maxSize.getD 0) with
    | (.error e, dec) => (.error e, { p with decoder := some dec })
    | (.ok data, dec) =>
      if Z.unconsumedTail dec ≠ [] then
        let limit := match maxSize with | none => p!"None" | some m => intStr m
        (.error (.payloadTooBig (p!"over size limit (? > " ++ limit ++ p!" bytes)")),
          { p with decoder := some dec })
      else
        (.ok { f with data },
          { p with decoder := if f.fin && p.remoteNct then none else some dec })

/-- permessage_deflate.py 93-141 `decode` -/
def Pmd.decode (p : Pmd Z) (f : Frame) (maxSize : Option Int) : Except Exc Frame × Pmd Z :=
  if f.opcode.isCtrl then (.ok f, p)
  else if f.opcode = .cont then
    if !p.decodeCont then (.ok f, p)
    else
      let p := if f.fin then { p with decodeCont := false } else p
      p.inflate f maxSize
  else if !f.rsv1 then (.ok f, p)
  else
    let f := { f with rsv1 := false }
    let p := if !f.fin then { p with decodeCont := true } else p
    let p := if p.remoteNct then { p with decoder := some (Z.decompressobj p.remoteBits) } else p
    p.inflate f maxSize

/-- permessage_deflate.py 164-173: compress the data of a frame. -/
def Pmd.deflate (p : Pmd Z) (f : Frame) : Except Exc Frame × Pmd Z :=
  match p.encoder with
  | none => (.error .attributeError, p)
  | some enc =>
    let (a, enc) := Z.compress enc f.data
    let (b, enc) := Z.flush enc
    let data := a ++ b
    let data := if f.fin && emptyBlock.isSuffixOf data then data.take (data.length - 4) else data
    (.ok { f with data }, { p with encoder := if f.fin && p.localNct then none else some enc })

/-- permessage_deflate.py 143-173 `encode` -/
def Pmd.encode (p : Pmd Z) (f : Frame) : Except Exc Frame × Pmd Z :=
  if f.opcode.isCtrl then (.ok f, p)
  else if f.opcode ≠ .cont then
    let f := { f with rsv1 := true }
    if p.localNct then
      match Z.compressobj p.localBits p.settings with
      | .error e => (.error e, p)
      | .ok enc => { p with encoder := some enc }.deflate f
    else p.deflate f
  else p.deflate f

/-- permessage_deflate.py 40 -/
def pmdName : PyStr := p!"permessage-deflate"

/-- The methods of `PerMessageDeflate` (permessage_deflate.py 93-173). -/
def pmdOps (Z : Zlib) : ExtOps (Pmd Z) where
  name _ := pmdName
  decode := Pmd.decode
  encode := Pmd.encode

/-! ## Negotiation -/

/-- The value of `client_max_window_bits` (`Union[int, bool]`): `any` is `True`. -/
inductive WBits where
  | any
  | val (n : Nat)
deriving DecidableEq, Repr

/-- As an `int` (permessage_deflate.py 237, 247). -/
def WBits.toNat : WBits → Nat
  | any => 1
  | val n => n

/-- The four parameters of permessage-deflate. -/
structure PmdParams where
  serverNct : Bool := false
  clientNct : Bool := false
  serverBits : Option Nat := none
  clientBits : Option WBits := none
deriving DecidableEq, Repr

/-- permessage_deflate.py 176-197 `_build_parameters` -/
def PmdParams.build (p : PmdParams) : List ExtParam :=
  (if p.serverNct then [(p!"server_no_context_takeover", none)] else []) ++
  (if p.clientNct then [(p!"client_no_context_takeover", none)] else []) ++
  (match p.serverBits with
    | none => []
    | some n => if n = 0 then [] else [(p!"server_max_window_bits", some (decStr n))]) ++
  (match p.clientBits with
    | none => []
    | some .any => [(p!"client_max_window_bits", none)]
    | some (.val n) => if n = 0 then [] else [(p!"client_max_window_bits", some (decStr n))])

/-- `int(value)` if `value in _MAX_WINDOW_BITS_VALUES` (permessage_deflate.py 32) -/
def windowBits (value : Option PyStr) : Option Nat :=
  match value with
  | none => none
  | some v => [8, 9, 10, 11, 12, 13, 14, 15].find? fun n => decStr n == v

/-- permessage_deflate.py 215-252: one iteration of the loop. -/
def PmdParams.extract1 (isServer : Bool) (p : PmdParams) (name : PyStr) (value : Option PyStr) :
    Except Exc PmdParams :=
  if name = p!"server_no_context_takeover" then
    if p.serverNct then .error (.negotiationError (p!"duplicate parameter: " ++ name))
    else if value = none then .ok { p with serverNct := true }
    else .error (.negotiationError (p!"invalid value for parameter " ++ name))
  else if name = p!"client_no_context_takeover" then
    if p.clientNct then .error (.negotiationError (p!"duplicate parameter: " ++ name))
    else if value = none then .ok { p with clientNct := true }
    else .error (.negotiationError (p!"invalid value for parameter " ++ name))
  else if name = p!"server_max_window_bits" then
    if p.serverBits ≠ none then .error (.negotiationError (p!"duplicate parameter: " ++ name))
    else
      match windowBits value with
      | some n => .ok { p with serverBits := some n }
      | none => .error (.negotiationError (p!"invalid value for parameter " ++ name))
  else if name = p!"client_max_window_bits" then
    if p.clientBits ≠ none then .error (.negotiationError (p!"duplicate parameter: " ++ name))
    else if isServer && value == none then .ok { p with clientBits := some .any }
    else
      match windowBits value with
      | some n => .ok { p with clientBits := some (.val n) }
      | none => .error (.negotiationError (p!"invalid value for parameter " ++ name))
  else .error (.negotiationError (p!"invalid parameter name: " ++ name))

/-- permessage_deflate.py 200-259 `_extract_parameters`, from some values of the variables. -/
def PmdParams.extract (isServer : Bool) : PmdParams → List ExtParam → Except Exc PmdParams
  | p, [] => .ok p
  | p, (name, value) :: params =>
    match p.extract1 isServer name value with
    | .error e => .error e
    | .ok p => p.extract isServer params

/-- permessage_deflate.py 283-325: `ClientPerMessageDeflateFactory`. -/
structure PmdClientConfig (Z : Zlib) where
  params : PmdParams
  settings : Z.Settings

/-- permessage_deflate.py 295-303: the arguments that don't raise `ValueError`. -/
def PmdClientConfig.valid (c : PmdClientConfig Z) : Bool :=
  (match c.params.serverBits with
    | none => true
    | some n => decide (8 ≤ n ∧ n ≤ 15)) &&
  (match c.params.clientBits with
    | none => true
    | some .any => true
    | some (.val n) => decide (8 ≤ n ∧ n ≤ 15))

/-- permessage_deflate.py 390-397: the check of `server_max_window_bits` in a response. -/
def serverBitsError (requested answered : Option Nat) : Option PyStr :=
  match requested with
  | none => none
  | some n =>
    match answered with
    | none => some p!"expected server_max_window_bits"
    | some m => if m > n then some p!"unsupported server_max_window_bits" else none

/-- permessage_deflate.py 363-422: from the parameters `r` of the response to the
final parameters. -/
def PmdClientConfig.negotiate (c : PmdClientConfig Z) (r : PmdParams) : Except Exc PmdParams :=
  if c.params.serverNct && !r.serverNct then
    .error (.negotiationError p!"expected server_no_context_takeover")
  else
    let r := if c.params.clientNct then { r with clientNct := true } else r
    match serverBitsError c.params.serverBits r.serverBits with
    | some e => .error (.negotiationError e)
    | none =>
      match c.params.clientBits with
      | none =>
        if r.clientBits ≠ none then .error (.negotiationError p!"unexpected client_max_window_bits")
        else .ok r
      | some .any => .ok r
      | some (.val n) =>
        match r.clientBits with
        | none => .ok { r with clientBits := some (.val n) }
        | some m =>
          if m.toNat > n then .error (.negotiationError p!"unsupported client_max_window_bits")
          else .ok r

/-- `bits or 15` -/
def orDefault (n : Option Nat) : Nat :=
  match n with
  | none => 15
  | some n => if n = 0 then 15 else n

/-- permessage_deflate.py 327-430 `process_response_params`; `others` are the names of the accepted
extensions. -/
def PmdClientConfig.processResponseParams (c : PmdClientConfig Z) (params : List ExtParam)
    (others : List PyStr) : Except Exc (Pmd Z) :=
  if pmdName ∈ others then .error (.negotiationError (p!"received duplicate " ++ pmdName))
  else
    match PmdParams.extract false {} params with
    | .error e => .error e
    | .ok r =>
      match c.negotiate r with
      | .error e => .error e
      | .ok r =>
        Pmd.new r.serverNct r.clientNct (orDefault r.serverBits)
          (orDefault (r.clientBits.map WBits.toNat)) c.settings

/-- permessage_deflate.py 477-503: `ServerPerMessageDeflateFactory`. -/
structure PmdServerConfig (Z : Zlib) where
  serverNct : Bool := false
  clientNct : Bool := false
  serverBits : Option Nat := none
  clientBits : Option Nat := none
  settings : Z.Settings

/-- permessage_deflate.py 489-492: the arguments that don't raise `ValueError`. -/
def PmdServerConfig.valid (c : PmdServerConfig Z) : Bool :=
  (match c.serverBits with
    | none => true
    | some n => decide (8 ≤ n ∧ n ≤ 15)) &&
  (match c.clientBits with
    | none => true
    | some n => decide (8 ≤ n ∧ n ≤ 15))

/-- permessage_deflate.py 541-599: from the parameters `r` of the request to those of the
response. -/
def PmdServerConfig.negotiate (c : PmdServerConfig Z) (r : PmdParams) : Except Exc PmdParams :=
  let r := if c.serverNct then { r with serverNct := true } else r
  let r := if c.clientNct then { r with clientNct := true } else r
  let r :=
    match c.serverBits with
    | none => r
    | some n =>
      match r.serverBits with
      | none => { r with serverBits := some n }
      | some m => if m > n then { r with serverBits := some n } else r
  match c.clientBits with
  | none => if r.clientBits = some .any then .ok { r with clientBits := none } else .ok r
  | some n =>
    match r.clientBits with
    | none => .error (.negotiationError p!"required client_max_window_bits")
    | some .any => .ok { r with clientBits := some (.val n) }
    | some (.val m) => if n < m then .ok { r with clientBits := some (.val n) } else .ok r

/-- permessage_deflate.py 505-615 `process_request_params`; `others` are the names of the accepted
extensions. -/
def PmdServerConfig.processRequestParams (c : PmdServerConfig Z) (params : List ExtParam)
    (others : List PyStr) : Except Exc (List ExtParam × Pmd Z) :=
  if pmdName ∈ others then .error (.negotiationError (p!"skipped duplicate " ++ pmdName))
  else
    match PmdParams.extract true {} params with
    | .error e => .error e
    | .ok r =>
      match c.negotiate r with
      | .error e => .error e
      | .ok r =>
        match Pmd.new r.clientNct r.serverNct (orDefault (r.clientBits.map WBits.toNat))
            (orDefault r.serverBits) c.settings with
        | .error e => .error e
        | .ok x => .ok (r.build, x)

/-- permessage_deflate.py 262-430: a `ClientPerMessageDeflateFactory`, when permessage-deflate is
the only kind of extension. -/
def PmdClientConfig.factory (c : PmdClientConfig Z) : ClientFactory (Pmd Z) where
  name := pmdName
  requestParams := c.params.build
  processResponseParams params accepted :=
    c.processResponseParams params (accepted.map (pmdOps Z).name)

/-- permessage_deflate.py 455-615: a `ServerPerMessageDeflateFactory`, likewise. -/
def PmdServerConfig.factory (c : PmdServerConfig Z) : ServerFactory (Pmd Z) where
  name := pmdName
  processRequestParams params accepted :=
    c.processRequestParams params (accepted.map (pmdOps Z).name)

/-- permessage_deflate.py 433-452 `enable_client_permessage_deflate`; `default` stands for
`compress_settings=None`. -/
def enableClientPmd (default : Z.Settings) (fs : Option (List (ClientFactory (Pmd Z)))) :
    List (ClientFactory (Pmd Z)) :=
  let fs := fs.getD []
  if !fs.any (fun f => f.name == pmdName) then
    fs ++ [({ params := { clientBits := some .any }, settings := default } :
      PmdClientConfig Z).factory]
  else fs

/-- permessage_deflate.py 618-636 `enable_server_permessage_deflate` -/
def enableServerPmd (default : Z.Settings) (fs : Option (List (ServerFactory (Pmd Z)))) :
    List (ServerFactory (Pmd Z)) :=
  let fs := fs.getD []
  if !fs.any (fun f => f.name == pmdName) then
    fs ++ [({ settings := default } : PmdServerConfig Z).factory]
  else fs

end WS
