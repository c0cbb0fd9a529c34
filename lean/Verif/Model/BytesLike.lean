import Verif.Model.Frames

/-!
# Bytes-like objects: /repo/src/websockets/frames.py 171-269, utils.py 33-44 and speedups.c 13-56

The other modules don't distinguish `bytes`, `bytearray` and `memoryview`.  This one does: it says what Python does with each
of these types when a message is sent, without extensions.  (permessage-deflate replaces the object by a `bytes` object.)

A `memoryview` has items, which may have several bytes; `len` counts items.  The items of a `memoryview` with several dimensions are
those of its first dimension.  Integers are little-endian.
-/

namespace WS.BytesLike

/-- The format of the items of a `memoryview`: integers (B, b, H, h, I, i, …), single bytes (c), or anything that can't be an
operand of `^` or that iteration doesn't support (f, d, several dimensions, …).  The last two have a size in bytes. -/
inductive Fmt where
  | int (signed : Bool) (size : Nat)
  | char
  | other (size : Nat)
deriving DecidableEq

/-- The size of an item, in bytes: `memoryview.itemsize` (for frames.py 210, `len(self.data)`) -/
def Fmt.size : Fmt → Nat
  | .int _ n => n
  | .char => 1
  | .other n => n

/-- A `memoryview`: its items, in memory; `contiguous`: `memoryview.c_contiguous` -/
structure View where
  fmt : Fmt
  items : List Bytes
  contiguous : Bool
deriving DecidableEq

/-- What `isinstance(data, (bytes, bytearray, memoryview))` accepts (frames.py 266) -/
inductive Data where
  | bytes (b : Bytes)
  | bytearray (b : Bytes)
  | view (v : View)
deriving DecidableEq

/-- Exceptions -/
inductive Err where
  | exc (e : Exc)
  | bufferError
deriving DecidableEq

/-- `bytes(data)`, for example in frames.py 289 -/
def Data.toBytes : Data → Bytes
  | .bytes b => b
  | .bytearray b => b
  | .view v => v.items.flatten

/-- `len(data)` (frames.py 210) -/
def Data.len : Data → Nat
  | .bytes b => b.length
  | .bytearray b => b.length
  | .view v => v.items.length

/-- An item of a `memoryview` as an integer; `none`: it isn't an integer (utils.py 44). -/
def Fmt.value (f : Fmt) (item : Bytes) : Option Int :=
  match f with
  | .int false _ => some (C.loadLE item)
  | .int true n =>
    let v := C.loadLE item
    some (if 2 * v < 256 ^ n then v else (v : Int) - 256 ^ n)
  | .char => none
  | .other _ => none

/-- `iter(data)` (utils.py 44) -/
def Data.values : Data → List (Option Int)
  | .bytes b => b.map fun x => some (x.toNat : Int)
  | .bytearray b => b.map fun x => some (x.toNat : Int)
  | .view v => v.items.map v.fmt.value

/-- utils.py 44: an item of `bytes(b ^ m for …)`.  `b ^ m` is in `range(256)` exactly when `b` is, since `m` is. -/
def maskItem (b : Option Int) (m : UInt8) : Except Err UInt8 :=
  match b with
  | none => .error (.exc .typeError)
  | some b =>
    if 0 ≤ b ∧ b < 256 then .ok (UInt8.ofNat b.toNat ^^^ m)
    else .error (.exc (.valueError p!"bytes must be in range(0, 256)"))

/-- utils.py 44 `bytes(b ^ m for b, m in zip(data, itertools.cycle(mask)))`; `i`: the position in `mask` -/
def maskItems (mask : Bytes) : Nat → List (Option Int) → Except Err Bytes
  | _, [] => .ok []
  | i, b :: bs =>
    match maskItem b (mask.getD (i % 4) 0) with
    | .error e => .error e
    | .ok x =>
      match maskItems mask (i + 1) bs with
      | .error e => .error e
      | .ok xs => .ok (x :: xs)

/-- `apply_mask(data, mask)`, where `mask` is a `bytes` object: utils.py 33-44 (`none`), or speedups.c 60-178 for a target; lines 22-45
take the bytes of the object, and make a contiguous copy if needed. -/
def applyMask (impl : Option C.Target) (data : Data) (mask : Bytes) : Except Err Bytes :=
  match impl with
  | some target =>
    match C.applyMask target data.toBytes mask with
    | .error e => .error (.exc e)
    | .ok out => .ok out
  | none =>
    if mask.length ≠ 4 then .error (.exc (.valueError p!"mask must contain 4 bytes"))
    else maskItems mask 0 data.values

/-- `io.BytesIO.write(data)` (frames.py 227) -/
def Data.write : Data → Except Err Bytes
  | .bytes b => .ok b
  | .bytearray b => .ok b
  | .view v => if v.contiguous then .ok v.items.flatten else .error .bufferError

/-- frames.py 200-216: the header of a frame -/
def header (fin : Bool) (opcode : Opcode) (masked : Bool) (length : Nat) : Bytes :=
  let head1 := (Frame.mk fin opcode [] false false false).head1
  let head2 : UInt8 := if masked then 0b10000000 else 0
  if length < 126 then [head1, head2 ||| UInt8.ofNat length]
  else if length < 65536 then [head1, head2 ||| 126] ++ packH length
  else [head1, head2 ||| 127] ++ packQ length

/-- frames.py 171-229 `Frame(fin, opcode, data).serialize(mask=…)` without extensions, for frames that contain messages: `check`
(231-246) accepts them. -/
def serialize (impl : Option C.Target) (fin : Bool) (opcode : Opcode) (maskKey : Option Bytes) (data : Data) : Except Err Bytes :=
  if data.len < 2 ^ 64 then
    match maskKey with
    | none =>
      match data.write with
      | .error e => .error e
      | .ok payload => .ok (header fin opcode false data.len ++ payload)
    | some key =>
      match applyMask impl data key with
      | .error e => .error e
      | .ok payload => .ok (header fin opcode true data.len ++ key ++ payload)
  else .error (.exc .structError)

/-- frames.py 249-269 `prepare_data`, then 171-229: an unfragmented message (legacy/protocol.py 578-580) -/
def send (impl : Option C.Target) (maskKey : Option Bytes) (message : Data) : Except Err Bytes :=
  serialize impl true .binary maskKey message

end WS.BytesLike
