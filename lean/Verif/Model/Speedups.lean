import Verif.Model.BytesLike

/-!
# The memory that speedups.c uses: /repo/src/websockets/speedups.c 13-178

`Verif.Model.Utils` says what `apply_mask` computes.  This module says which memory it reads and writes, on which paths it returns, and which
references it releases.

`none` stands for undefined behaviour: reading or writing outside of a buffer, overflow of a `Py_ssize_t`, releasing a reference twice,
dereferencing NULL, and, if `strict`, accessing an integer at an address that isn't a multiple of its size.  (The rule on effective
types isn't modelled.)

`Api` says which calls of the CPython API fail.  When they succeed, they do what CPython documents.  No Python code runs in the
meantime, hence the objects don't change.
-/

namespace WS.Speedups

open WS.BytesLike (View)

/-- Python objects (speedups.c 22-53); `other`: an object that isn't a `bytes`, `bytearray` or `memoryview` -/
inductive Obj where
  | bytes (b : Bytes)
  | bytearray (b : Bytes)
  | view (v : View)
  | other
deriving DecidableEq

/-- Exceptions: `TypeError` (93 and 49), any exception raised by `PyMemoryView_GetContiguous` (36), `ValueError` (110), `MemoryError`
(116) -/
inductive Error where
  | arguments
  | notBytesLike
  | buffer
  | maskLength
  | memory
deriving DecidableEq

/-- The references that `apply_mask` owns (speedups.c 73-83) -/
inductive Ref where
  | inputTmp
  | maskTmp
  | result
deriving DecidableEq

/-- The calls that succeed: `PyArg_ParseTupleAndKeywords` (92), `PyMemoryView_GetContiguous` for the data (98) and for the mask (103),
`PyBytes_FromStringAndSize` (116); the addresses of the buffers of the data, of the mask and of the result -/
structure Api where
  parse : Bool := true
  input : Bool := true
  mask : Bool := true
  alloc : Bool := true
  inputAddr : Nat := 0
  maskAddr : Nat := 0
  outputAddr : Nat := 0

/-- A `char *` and the memory that it points to (speedups.c 74-78) -/
structure Buffer where
  addr : Nat
  bytes : Bytes

/-- The buffer of the result (speedups.c 84); `none`: uninitialised -/
structure Output where
  addr : Nat
  bytes : List (Option UInt8)

/-- The largest `Py_ssize_t`, plus one (speedups.c 88) -/
def ssizeMax : Nat := 2 ^ 63

/-- Is an access of `n` bytes at `addr` allowed, if they're accessed as an integer (`strict`)? (speedups.c 139, 155, 160) -/
def alignOk (strict : Bool) (addr n : Nat) : Bool := !strict || addr % n = 0

/-- Read `n` bytes (speedups.c 139, 143, 155, 160, 170). -/
def Buffer.load (b : Buffer) (strict : Bool) (i n : Nat) : Option Bytes :=
  if i + n ≤ b.bytes.length ∧ alignOk strict (b.addr + i) n = true then some ((b.bytes.drop i).take n) else none

/-- Write bytes (speedups.c 145, 160, 170). -/
def Output.store (o : Output) (strict : Bool) (i : Nat) (bs : Bytes) : Option Output :=
  if i + bs.length ≤ o.bytes.length ∧ alignOk strict (o.addr + i) bs.length = true then
    some { o with bytes := o.bytes.take i ++ bs.map some ++ o.bytes.drop (i + bs.length) }
  else none

/-- `i += n` on a `Py_ssize_t` (speedups.c 141, 158, 168) -/
def increment (i n : Nat) : Option Nat := if i + n < ssizeMax then some (i + n) else none

/-- `input_len & ~15` (speedups.c 138) and `input_len & ~7` (154): `~15` is an `int`, converted to `Py_ssize_t` -/
def roundDown (len : Nat) (m : BitVec 32) : Nat := (BitVec.ofNat 64 len &&& (~~~m).signExtend 64).toNat

/-- speedups.c 141-146 or 158-161: from `i` to `lim` by `size`; `fuel` bounds the number of iterations (there are at most `lim`);
loops that don't end are undefined behaviour. -/
def blockLoop (strict : Bool) (size : Nat) (f : Bytes → Bytes) (input : Buffer) (lim : Nat) :
    Nat → Nat → Output → Option (Nat × Output)
  | fuel, i, o =>
    if i < lim then
      match fuel with
      | 0 => none
      | fuel + 1 =>
        match input.load strict i size with
        | none => none
        | some block =>
          match o.store strict i (f block) with
          | none => none
          | some o =>
            match increment i size with
            | none => none
            | some i => blockLoop strict size f input lim fuel i o
    else some (i, o)

/-- speedups.c 168-171; `i & (MASK_LEN - 1)` on a `Py_ssize_t` -/
def byteLoop (input mask : Buffer) (lim : Nat) : Nat → Nat → Output → Option Output
  | fuel, i, o =>
    if i < lim then
      match fuel with
      | 0 => none
      | fuel + 1 =>
        match input.load false i 1, mask.load false (BitVec.ofNat 64 i &&& (4 - 1)).toNat 1 with
        | some [b], some [m] =>
          match o.store false i [b ^^^ m] with
          | none => none
          | some o =>
            match increment i 1 with
            | none => none
            | some i => byteLoop input mask lim fuel i o
        | _, _ => none
    else some o

/-- speedups.c 129-164: the first loop.  With SSE2, `loadu` and `storeu` have no restriction on addresses (143, 145). -/
def firstLoop (strict : Bool) (target : C.Target) (input mask : Buffer) (o : Output) : Option (Nat × Output) :=
  -- 139 or 155
  match mask.load strict 0 4 with
  | none => none
  | some m =>
    let len := input.bytes.length
    match target with
    | .sse2 => blockLoop false 16 (C.block128 m) input (roundDown len 15) len 0 o
    | .word64le => blockLoop strict 8 (C.block64 false m) input (roundDown len 7) len 0 o
    | .word64be => blockLoop strict 8 (C.block64 true m) input (roundDown len 7) len 0 o

/-- What a call returns: `result`, or NULL; the exception that is set; the references that weren't released (speedups.c 173-176) -/
structure Return where
  result : Option (List (Option UInt8))
  error : Option Error
  refs : List Ref
deriving DecidableEq

/-- speedups.c 15-56 `_PyBytesLike_AsStringAndSize`: returns -1 after it set an exception, or 0 after it set `*buffer`, `*length` and
`*tmp`; `ok`: `PyMemoryView_GetContiguous` succeeds. -/
def asStringAndSize (ok : Bool) (addr : Nat) (obj : Obj) : Except Error (Bool × Buffer) :=
  match obj with
  | .bytes b => .ok (false, ⟨addr, b⟩)
  | .bytearray b => .ok (false, ⟨addr, b⟩)
  | .view v => if ok then .ok (true, ⟨addr, v.items.flatten⟩) else .error .buffer
  | .other => .error .notBytesLike

/-- `Py_XDECREF` (speedups.c 174-175): `held` tells if the variable isn't NULL. -/
def xdecref (held : Bool) (r : Ref) (refs : List Ref) : Option (List Ref) :=
  if held then if r ∈ refs then some (refs.erase r) else none
  else some refs

/-- speedups.c 173-176: `exit:` -/
def leave (inputTmp maskTmp : Bool) (result : Option (List (Option UInt8))) (error : Option Error) (refs : List Ref) :
    Option Return :=
  match xdecref inputTmp .inputTmp refs with
  | none => none
  | some refs =>
    match xdecref maskTmp .maskTmp refs with
    | none => none
    | some refs => some ⟨result, error, refs⟩

/-- speedups.c 60-178 `apply_mask` -/
def applyMask (strict : Bool) (target : C.Target) (api : Api) (data maskObj : Obj) : Option Return :=
  -- 92-96
  if !api.parse then leave false false none (some .arguments) []
  else
    -- 98-101
    match asStringAndSize api.input api.inputAddr data with
    | .error e => leave false false none (some e) []
    | .ok (inputTmp, input) =>
      let refs := if inputTmp then [Ref.inputTmp] else []
      -- 103-106
      match asStringAndSize api.mask api.maskAddr maskObj with
      | .error e => leave inputTmp false none (some e) refs
      | .ok (maskTmp, mask) =>
        let refs := if maskTmp then Ref.maskTmp :: refs else refs
        -- 108-112
        if mask.bytes.length ≠ 4 then leave inputTmp maskTmp none (some .maskLength) refs
        -- 116-120
        else if !api.alloc then leave inputTmp maskTmp none (some .memory) refs
        else
          let refs := Ref.result :: refs
          let output : Output := ⟨api.outputAddr, List.replicate input.bytes.length none⟩
          match firstLoop strict target input mask output with
          | none => none
          | some (i, output) =>
            match byteLoop input mask input.bytes.length input.bytes.length i output with
            | none => none
            | some output => leave inputTmp maskTmp (some output.bytes) none refs

end WS.Speedups
