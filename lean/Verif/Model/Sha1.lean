import Verif.Model.Prelude

/-!
# `hashlib.sha1`, as used by utils.py 30

`hashlib` is C code of CPython or OpenSSL; this is a transcription of FIPS 180-4, sections 5.1.1,
5.2.1 and 6.1.2.  32-bit words are natural numbers below `2 ^ 32`.
-/

namespace WS.Sha1

/-- `x + y` modulo `2 ^ 32` -/
def add (x y : Nat) : Nat := (x + y) % 2 ^ 32

/-- `ROTL^n(x)` (FIPS 180-4, for utils.py 29) -/
def rotl (n x : Nat) : Nat := ((x <<< n) ||| (x >>> (32 - n))) % 2 ^ 32

/-- bitwise complement of a 32-bit word -/
def compl (x : Nat) : Nat := 2 ^ 32 - 1 - x

/-- 5.1.1: padding (FIPS 180-4, for utils.py 29) -/
def pad (msg : Bytes) : Bytes :=
  msg ++ [0x80] ++ List.replicate ((119 - msg.length % 64) % 64) 0 ++ packQ (8 * msg.length)

/-- 5.2.1: a block of 64 bytes as 16 words -/
def words : Nat → Bytes → List Nat
  | 0, _ => []
  | n + 1, b => unpackBE (b.take 4) :: words n (b.drop 4)

/-- 6.1.2, step 1: `n` more words of the message schedule; the schedule is in reverse order
(FIPS 180-4, for utils.py 29). -/
def schedule : Nat → List Nat → List Nat
  | 0, w => w
  | n + 1, w =>
    schedule n (rotl 1 (w.getD 2 0 ^^^ w.getD 7 0 ^^^ w.getD 13 0 ^^^ w.getD 15 0) :: w)

/-- 4.1.1 and 4.2.1: the function and the constant of round `t` (FIPS 180-4, for utils.py 29) -/
def roundFn (t x y z : Nat) : Nat × Nat :=
  if t < 20 then ((x &&& y) ^^^ (compl x &&& z), 0x5a827999)
  else if t < 40 then (x ^^^ y ^^^ z, 0x6ed9eba1)
  else if t < 60 then ((x &&& y) ^^^ (x &&& z) ^^^ (y &&& z), 0x8f1bbcdc)
  else (x ^^^ y ^^^ z, 0xca62c1d6)

structure Hash where
  a : Nat
  b : Nat
  c : Nat
  d : Nat
  e : Nat

/-- 6.1.2, step 3 (FIPS 180-4, for utils.py 29) -/
def rounds (t : Nat) (h : Hash) : List Nat → Hash
  | [] => h
  | w :: ws =>
    let (f, k) := roundFn t h.b h.c h.d
    rounds (t + 1) ⟨add (add (add (add (rotl 5 h.a) f) h.e) k) w, h.a, rotl 30 h.b, h.c, h.d⟩ ws

/-- 6.1.2, steps 1 to 4, for one block (FIPS 180-4, for utils.py 29) -/
def block (h : Hash) (b : Bytes) : Hash :=
  let w := (schedule 64 (words 16 b).reverse).reverse
  let h' := rounds 0 h w
  ⟨add h.a h'.a, add h.b h'.b, add h.c h'.c, add h.d h'.d, add h.e h'.e⟩

/-- 6.1.2: `n` blocks (FIPS 180-4, for utils.py 29) -/
def blocks : Nat → Hash → Bytes → Hash
  | 0, h, _ => h
  | n + 1, h, b => blocks n (block h (b.take 64)) (b.drop 64)

/-- 5.3.1 (FIPS 180-4, for utils.py 29) -/
def init : Hash := ⟨0x67452301, 0xefcdab89, 0x98badcfe, 0x10325476, 0xc3d2e1f0⟩

/-- A word as 4 bytes (FIPS 180-4, for utils.py 29) -/
def wordBytes (w : Nat) : Bytes :=
  [UInt8.ofNat (w / 2 ^ 24 % 256), UInt8.ofNat (w / 2 ^ 16 % 256), UInt8.ofNat (w / 2 ^ 8 % 256),
    UInt8.ofNat (w % 256)]

/-- `hashlib.sha1(msg).digest()` (utils.py 29) -/
def digest (msg : Bytes) : Bytes :=
  let b := pad msg
  let h := blocks (b.length / 64) init b
  wordBytes h.a ++ wordBytes h.b ++ wordBytes h.c ++ wordBytes h.d ++ wordBytes h.e

/-- The result has 20 bytes. -/
theorem digest_length (msg : Bytes) : (digest msg).length = 20 := rfl

/-- FIPS 180 test vector -/
example : digest b!"abc" = [0xa9, 0x99, 0x3e, 0x36, 0x47, 0x06, 0x81, 0x6a, 0xba, 0x3e, 0x25, 0x71,
    0x78, 0x50, 0xc2, 0x6c, 0x9c, 0xd0, 0xd8, 0x9d] := by decide +kernel

example : digest b!"abcdbcdecdefdefgefghfghighijhijkijkljklmklmnlmnomnopnopq" =
    [0x84, 0x98, 0x3e, 0x44, 0x1c, 0x3b, 0xd2, 0x6e, 0xba, 0xae, 0x4a, 0xa1, 0xf9, 0x51, 0x29, 0xe5,
      0xe5, 0x46, 0x70, 0xf1] := by decide +kernel

end WS.Sha1
