import Verif.Model.Streams
import Verif.Model.Utils
import Verif.Model.Utf8

/-!
# /repo/src/websockets/frames.py
-/

namespace WS

/-- frames.py 40-42 -/
inductive Opcode where
  | cont | text | binary | close | ping | pong
deriving DecidableEq, Repr

/-- frames.py 41-42: the integer value of an opcode. -/
def Opcode.toNat : Opcode → Nat
  | cont => 0x00
  | text => 0x01
  | binary => 0x02
  | close => 0x08
  | ping => 0x09
  | pong => 0x0A

/-- frames.py 136 `Opcode(value)`: `none` stands for `ValueError`. -/
def Opcode.ofNat? : Nat → Option Opcode
  | 0x00 => some cont
  | 0x01 => some text
  | 0x02 => some binary
  | 0x08 => some close
  | 0x09 => some ping
  | 0x0A => some pong
  | _ => none

/-- frames.py 53: `opcode in CTRL_OPCODES` -/
def Opcode.isCtrl : Opcode → Bool
  | close | ping | pong => true
  | cont | text | binary => false

/-- frames.py 76-97 -/
structure Frame where
  fin : Bool
  opcode : Opcode
  data : Bytes
  rsv1 : Bool := false
  rsv2 : Bool := false
  rsv3 : Bool := false
deriving DecidableEq, Repr

/-- frames.py 57-70 and 336: `code in EXTERNAL_CLOSE_CODES or 3000 <= code < 5000` -/
def closeCodeOk (code : Int) : Bool :=
  [1000, 1001, 1002, 1003, 1007, 1008, 1009, 1010, 1011, 1012, 1013, 1014].contains code ||
    (decide (3000 ≤ code) && decide (code < 5000))

/-- frames.py 328-337 `check_close` -/
def checkClose (code : Int) : Except Exc Unit :=
  if !closeCodeOk code then .error (.protocolError p!"invalid status code") else .ok ()

/-- frames.py 294-314 `parse_close` -/
def parseClose (data : Bytes) : Except Exc (Int × PyStr) :=
  match data with
  | b0 :: b1 :: rest =>
    let code : Int := unpackBE [b0, b1]
    match checkClose code with
    | .error e => .error e
    | .ok () =>
      match utf8Decode rest with
      | .error e => .error e
      | .ok reason => .ok (code, reason)
  | [] => .ok (1005, [])
  | [_] => .error (.protocolError p!"close frame too short")

/-- frames.py 317-325 `serialize_close` -/
def serializeClose (code : Int) (reason : PyStr) : Except Exc Bytes :=
  match checkClose code with
  | .error e => .error e
  | .ok () =>
    match utf8Encode reason with
    | .error e => .error e
    | .ok r => .ok (packH code.toNat ++ r)

/-- frames.py 231-246 `Frame.check` -/
def Frame.check (f : Frame) : Except Exc Unit :=
  if f.rsv1 || f.rsv2 || f.rsv3 then .error (.protocolError p!"reserved bits must be 0")
  else if f.opcode.isCtrl then
    if f.data.length > 125 then .error (.protocolError p!"control frame too long")
    else if !f.fin then .error (.protocolError p!"fragmented control frame")
    else .ok ()
  else .ok ()

/-- frames.py 151: the message of `PayloadTooBig`. -/
def tooBigMsg (length : Nat) (maxSize : Int) : PyStr :=
  p!"over size limit (" ++ decStr length ++ p!" > " ++ intStr maxSize ++ p!" bytes)"

/-- frames.py 150: `max_size is not None and length > max_size` -/
def exceeds (length : Nat) (maxSize : Option Int) : Option Int :=
  match maxSize with
  | none => none
  | some m => if (length : Int) > m then some m else none

/-- frames.py 150-160: after the length is known. -/
def Frame.parseBody (mask : Bool) (maxSize : Option Int) (fin rsv1 rsv2 rsv3 : Bool)
    (opcode : Opcode) (length : Nat) : Coro Frame :=
  match exceeds length maxSize with
  | some m => .raise (.payloadTooBig (tooBigMsg length m))
  | none =>
    if mask then
      (Coro.exact 4).bind fun maskBytes =>
      (Coro.exact length).bind fun data =>
      match applyMask data maskBytes with
      | .error e => .raise e
      | .ok data => .ret { fin, opcode, data, rsv1, rsv2, rsv3 }
    else
      (Coro.exact length).bind fun data =>
      .ret { fin, opcode, data, rsv1, rsv2, rsv3 }

/-- frames.py 125-160: `Frame.parse` up to the point where the frame has been read and
unmasked, before extensions are applied. -/
def Frame.parseRaw (mask : Bool) (maxSize : Option Int) : Coro Frame :=
  (Coro.exact 2).bind fun data =>
  match data with
  | [head1, head2] =>
    let fin := head1 &&& 0b10000000 != 0
    let rsv1 := head1 &&& 0b01000000 != 0
    let rsv2 := head1 &&& 0b00100000 != 0
    let rsv3 := head1 &&& 0b00010000 != 0
    match Opcode.ofNat? (head1 &&& 0b00001111).toNat with
    | none => .raise (.protocolError p!"invalid opcode")
    | some opcode =>
      if (head2 &&& 0b10000000 != 0) != mask then
        .raise (.protocolError p!"incorrect masking")
      else
        let length := (head2 &&& 0b01111111).toNat
        if length = 126 then
          (Coro.exact 2).bind fun data =>
          Frame.parseBody mask maxSize fin rsv1 rsv2 rsv3 opcode (unpackBE data)
        else if length = 127 then
          (Coro.exact 8).bind fun data =>
          Frame.parseBody mask maxSize fin rsv1 rsv2 rsv3 opcode (unpackBE data)
        else
          Frame.parseBody mask maxSize fin rsv1 rsv2 rsv3 opcode length
  | _ => .raise .structError

/-- The two methods of an extension (extensions/base.py `Extension`), on a type `X` of
extension states: each returns the new frame or raises, and the updated state of the
extension object. -/
structure ExtOps (X : Type) where
  name : X → PyStr
  decode : X → Frame → Option Int → Except Exc Frame × X
  encode : X → Frame → Except Exc Frame × X

/-- Apply `f` to the extension objects of a list in order, threading the frame; stop at the
first exception (frames.py 164-165 with the list reversed, 194-195). -/
def applyExts {X : Type} (f : X → Frame → Except Exc Frame × X) :
    List X → Frame → Except Exc Frame × List X
  | [], fr => (.ok fr, [])
  | x :: xs, fr =>
    match f x fr with
    | (.error e, x') => (.error e, x' :: xs)
    | (.ok fr', x') =>
      let (res, xs') := applyExts f xs fr'
      (res, x' :: xs')

/-- frames.py 162-169: apply the extensions in reverse order, then check.  Returns the new
states of the extension objects, in the original order. -/
def Frame.finish {X : Type} (ops : ExtOps X) (exts : List X) (maxSize : Option Int)
    (raw : Frame) : Except Exc Frame × List X :=
  match applyExts (fun x fr => ops.decode x fr maxSize) exts.reverse raw with
  | (.error e, xs) => (.error e, xs.reverse)
  | (.ok fr, xs) =>
    match fr.check with
    | .error e => (.error e, xs.reverse)
    | .ok () => (.ok fr, xs.reverse)

/-- frames.py 100-169 `Frame.parse` without extensions. -/
def Frame.parse (mask : Bool) (maxSize : Option Int) : Coro Frame :=
  (Frame.parseRaw mask maxSize).bind fun raw =>
  match raw.check with
  | .error e => .raise e
  | .ok () => .ret raw

/-- frames.py 200-206 -/
def Frame.head1 (f : Frame) : UInt8 :=
  (if f.fin then 0b10000000 else 0) ||| (if f.rsv1 then 0b01000000 else 0) |||
  (if f.rsv2 then 0b00100000 else 0) ||| (if f.rsv3 then 0b00010000 else 0) |||
  UInt8.ofNat f.opcode.toNat

/-- frames.py 197-229: bytes of a frame once checked and transformed by extensions.
`maskKey = some key` when masking (lines 218-224, `key` is what `secrets.token_bytes(4)`
returned).  Payloads of `2**64` bytes or more make `struct.pack` raise. -/
def Frame.wire (f : Frame) (maskKey : Option Bytes) : Except Exc Bytes :=
  let head2 : UInt8 := if maskKey.isSome then 0b10000000 else 0
  let length := f.data.length
  if length < 2 ^ 64 then
    let head :=
      if length < 126 then [f.head1, head2 ||| UInt8.ofNat length]
      else if length < 65536 then [f.head1, head2 ||| 126] ++ packH length
      else [f.head1, head2 ||| 127] ++ packQ length
    match maskKey with
    | none => .ok (head ++ f.data)
    | some key =>
      match applyMask f.data key with
      | .error e => .error e
      | .ok data => .ok (head ++ key ++ data)
  else .error .structError

/-- frames.py 171-229 `Frame.serialize` with extensions; returns the new extension states. -/
def Frame.serializeExt {X : Type} (ops : ExtOps X) (exts : List X) (maskKey : Option Bytes)
    (f : Frame) : Except Exc Bytes × List X :=
  match f.check with
  | .error e => (.error e, exts)
  | .ok () =>
    match applyExts ops.encode exts f with
    | (.error e, xs) => (.error e, xs)
    | (.ok fr, xs) => (fr.wire maskKey, xs)

/-- frames.py 171-229 `Frame.serialize` without extensions. -/
def Frame.serialize (f : Frame) (maskKey : Option Bytes) : Except Exc Bytes :=
  match f.check with
  | .error e => .error e
  | .ok () => f.wire maskKey

/-- frames.py 249-269 `prepare_data` (text is a Python `str`, binary any bytes-like). -/
def prepareData : PyStr ⊕ Bytes → Except Exc (Opcode × Bytes)
  | .inl s =>
    match utf8Encode s with
    | .error e => .error e
    | .ok b => .ok (.text, b)
  | .inr b => .ok (.binary, b)

/-- frames.py 272-291 `prepare_ctrl` -/
def prepareCtrl : PyStr ⊕ Bytes → Except Exc Bytes
  | .inl s => utf8Encode s
  | .inr b => .ok b

end WS
