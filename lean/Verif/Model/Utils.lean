import Verif.Model.Prelude

/-!
# /repo/src/websockets/utils.py `apply_mask` and /repo/src/websockets/speedups.c
-/

namespace WS

/-- `zip(data, itertools.cycle(mask))` followed by XOR (utils.py 44).  `cur` is what is left of
the current pass of `cycle` over `mask`; when it is exhausted the pass starts again. -/
def xorCycle (mask : Bytes) : Bytes → Bytes → Bytes
  | [], _ => []
  | b :: bs, m :: cur => (b ^^^ m) :: xorCycle mask bs cur
  | b :: bs, [] =>
    match mask with
    | [] => []        -- cycling over nothing ends the zip
    | m :: cur => (b ^^^ m) :: xorCycle mask bs cur

/-- utils.py 33-44 `apply_mask` -/
def applyMask (data mask : Bytes) : Except Exc Bytes :=
  if mask.length ≠ 4 then .error (.valueError p!"mask must contain 4 bytes")
  else .ok (xorCycle mask data mask)

/-! ## speedups.c -/

namespace C

/-- A little-endian load of an integer of `bytes.length` bytes, `*(uintN_t *)p`.
(x86, the target of the SSE2 path, is little-endian; `loadBE` covers the other byte order
for the non-SSE2 path.) -/
def loadLE : Bytes → Nat
  | [] => 0
  | b :: bs => b.toNat + 256 * loadLE bs

/-- Store an integer of `n` bytes in little-endian order (speedups.c 143-145, 160). -/
def storeLE : Nat → Nat → Bytes
  | 0, _ => []
  | n + 1, v => UInt8.ofNat (v % 256) :: storeLE n (v / 256)

/-- Big-endian load (speedups.c 155-160). -/
def loadBE (bs : Bytes) : Nat := loadLE bs.reverse

/-- Big-endian store (speedups.c 155-160). -/
def storeBE (n v : Nat) : Bytes := (storeLE n v).reverse

/-- speedups.c 139 `_mm_set1_epi32(*(uint32_t *)mask)`: the 32-bit word repeated four times in
a 128-bit register. -/
def mask128 (mask : Bytes) : Nat :=
  let w := loadLE mask
  w + 2 ^ 32 * (w + 2 ^ 32 * (w + 2 ^ 32 * w))

/-- speedups.c 155-156 `((uint64_t)mask_32 << 32) | (uint64_t)mask_32`, for either byte
order. -/
def mask64 (big : Bool) (mask : Bytes) : Nat :=
  let mask32 := if big then loadBE mask else loadLE mask
  (mask32 <<< 32) ||| mask32

/-- speedups.c 141-146: one 16-byte block of the SSE2 loop. -/
def block128 (mask block : Bytes) : Bytes := storeLE 16 (loadLE block ^^^ mask128 mask)

/-- speedups.c 158-161: one 8-byte block of the non-SSE2 loop. -/
def block64 (big : Bool) (mask block : Bytes) : Bytes :=
  if big then storeBE 8 (loadBE block ^^^ mask64 true mask)
  else storeLE 8 (loadLE block ^^^ mask64 false mask)

/-- speedups.c 138-146 and 154-161: the block loop `for (; i < (input_len & ~(size-1)); i +=
size)`.  `fuel` is the number of full blocks. -/
def blocks (size : Nat) (f : Bytes → Bytes) : Nat → Bytes → Bytes
  | 0, _ => []
  | fuel + 1, input => f (input.take size) ++ blocks size f fuel (input.drop size)

/-- speedups.c 168-171: the byte-wise loop from index `i`. -/
def remainder (mask : Bytes) : Nat → Bytes → Bytes
  | _, [] => []
  | i, b :: bs => (b ^^^ mask.getD (i &&& 3) 0) :: remainder mask (i + 1) bs

/-- The three compilations of speedups.c: SSE2, or 64-bit words in either byte order. -/
inductive Target | sse2 | word64le | word64be
deriving DecidableEq, Repr

/-- speedups.c 60-178 `apply_mask`, after argument conversion (lines 92-106, 116-123 are
CPython API calls: not modelled). -/
def applyMask (t : Target) (input mask : Bytes) : Except Exc Bytes :=
  if mask.length ≠ 4 then .error (.valueError p!"mask must contain 4 bytes")
  else
    match t with
    | .sse2 =>
      let len128 := input.length - input.length % 16      -- input_len & ~15
      .ok (blocks 16 (block128 mask) (len128 / 16) input ++
        remainder mask len128 (input.drop len128))
    | .word64le =>
      let len64 := input.length - input.length % 8        -- input_len & ~7
      .ok (blocks 8 (block64 false mask) (len64 / 8) input ++
        remainder mask len64 (input.drop len64))
    | .word64be =>
      let len64 := input.length - input.length % 8
      .ok (blocks 8 (block64 true mask) (len64 / 8) input ++
        remainder mask len64 (input.drop len64))

end C

end WS
