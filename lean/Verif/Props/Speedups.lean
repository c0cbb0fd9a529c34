import Verif.Model.Speedups
import Verif.Props.BytesLike

/-!
# C99: the C extension uses memory correctly
-/

namespace WS.Speedups

open WS.Spec

namespace Spec

/-- The bytes of a bytes-like object -/
def bytesOf : Obj → Option Bytes
  | .bytes b => some b
  | .bytearray b => some b
  | .view v => some v.items.flatten
  | .other => none

/-- CPython objects have fewer than `2 ** 63` bytes. -/
def Fits (x : Obj) : Prop := ∀ b, bytesOf x = some b → b.length < 2 ^ 63

/-- Buffers are aligned as required by the loops. -/
def Aligned (target : C.Target) (api : Api) : Prop :=
  api.maskAddr % 4 = 0 ∧ (target ≠ .sse2 → api.inputAddr % 8 = 0 ∧ api.outputAddr % 8 = 0)

def isView : Obj → Bool
  | .view _ => true
  | _ => false

/-- The exceptions, in the order in which they're raised. -/
def failures (api : Api) (data mask : Obj) : List (Bool × Error) :=
  [(!api.parse, .arguments),
   (isView data && !api.input, .buffer), ((bytesOf data).isNone, .notBytesLike),
   (isView mask && !api.mask, .buffer), ((bytesOf mask).isNone, .notBytesLike),
   ((bytesOf mask).any (·.length ≠ 4), .maskLength),
   (!api.alloc, .memory)]

/-- The first failure -/
def firstFailure (api : Api) (data mask : Obj) : Option Error := ((failures api data mask).find? (·.1)).map (·.2)

end Spec

open Spec

theorem roundDown_15 {n : Nat} (h : n < 2 ^ 63) : roundDown n 15 = n - n % 16 := by
  have e : BitVec.ofNat 64 n &&& (~~~(15 : BitVec 32)).signExtend 64 = (BitVec.ofNat 64 n >>> 4) <<< 4 := by
    rw [show (~~~(15 : BitVec 32)).signExtend 64 = (BitVec.allOnes 64 >>> 4) <<< 4 by decide]
    ext i hi
    simp only [BitVec.getElem_and, BitVec.getElem_shiftLeft, BitVec.getElem_ushiftRight]
    by_cases h4 : i < 4
    · simp [h4]
    · have : 4 + (i - 4) = i := by omega
      simp [h4, this, hi]
      intro _
      rw [show 18446744073709551615#64 = BitVec.allOnes 64 by decide, BitVec.getElem_allOnes]
  rw [roundDown, e]
  simp only [BitVec.toNat_shiftLeft, BitVec.toNat_ushiftRight, BitVec.toNat_ofNat, Nat.shiftRight_eq_div_pow, Nat.shiftLeft_eq]
  omega

theorem roundDown_7 {n : Nat} (h : n < 2 ^ 63) : roundDown n 7 = n - n % 8 := by
  have e : BitVec.ofNat 64 n &&& (~~~(7 : BitVec 32)).signExtend 64 = (BitVec.ofNat 64 n >>> 3) <<< 3 := by
    rw [show (~~~(7 : BitVec 32)).signExtend 64 = (BitVec.allOnes 64 >>> 3) <<< 3 by decide]
    ext i hi
    simp only [BitVec.getElem_and, BitVec.getElem_shiftLeft, BitVec.getElem_ushiftRight]
    by_cases h4 : i < 3
    · simp [h4]
    · have : 3 + (i - 3) = i := by omega
      simp [h4, this, hi]
      intro _
      rw [show 18446744073709551615#64 = BitVec.allOnes 64 by decide, BitVec.getElem_allOnes]
  rw [roundDown, e]
  simp only [BitVec.toNat_shiftLeft, BitVec.toNat_ushiftRight, BitVec.toNat_ofNat, Nat.shiftRight_eq_div_pow, Nat.shiftLeft_eq]
  omega

theorem and_three (i : Nat) : (BitVec.ofNat 64 i &&& (4 - 1)).toNat = i &&& 3 := by
  rw [BitVec.toNat_and, BitVec.toNat_ofNat, show ((4 : BitVec 64) - 1).toNat = 2 ^ 2 - 1 by decide,
    Nat.and_two_pow_sub_one_eq_mod, show (3 : Nat) = 2 ^ 2 - 1 from rfl, Nat.and_two_pow_sub_one_eq_mod]
  omega

theorem blockLoop_eq {strict : Bool} {size : Nat} {f : Bytes → Bytes} {input : Buffer} {addr : Nat} (hs : 0 < size)
    (hf : ∀ b, b.length = size → (f b).length = size) (hl : input.bytes.length < 2 ^ 63)
    (ha : ∀ i, i % size = 0 → alignOk strict (input.addr + i) size = true ∧ alignOk strict (addr + i) size = true)
    (k fuel i : Nat) (o : List (Option UInt8)) (hi : i % size = 0) (hlim : i + k * size ≤ input.bytes.length)
    (ho : o.length = input.bytes.length) (hfuel : k ≤ fuel) :
    blockLoop strict size f input (i + k * size) fuel i ⟨addr, o⟩ =
      some (i + k * size,
        ⟨addr, o.take i ++ (C.blocks size f k (input.bytes.drop i)).map some ++ o.drop (i + k * size)⟩) := by
  induction k generalizing fuel i o with
  | zero =>
    unfold blockLoop
    simp [C.blocks]
  | succ k ih =>
    obtain ⟨fuel, rfl⟩ : ∃ m, fuel = m + 1 := ⟨fuel - 1, by omega⟩
    have hk : (k + 1) * size = size + k * size := by rw [Nat.add_mul]; omega
    obtain ⟨ha1, ha2⟩ := ha i hi
    have hb : ((input.bytes.drop i).take size).length = size := by
      rw [List.length_take, List.length_drop]; omega
    have hfb := hf _ hb
    have hinc : increment i size = some (i + size) := by
      unfold increment
      exact if_pos (by unfold ssizeMax; omega)
    have hload : input.load strict i size = some ((input.bytes.drop i).take size) := by
      simp only [Buffer.load, ha1, and_true]
      rw [if_pos (by omega)]
    have hstore : Output.store ⟨addr, o⟩ strict i (f ((input.bytes.drop i).take size)) = some
        ⟨addr, o.take i ++ (f ((input.bytes.drop i).take size)).map some ++ o.drop (i + size)⟩ := by
      simp only [Output.store, hfb, ha2, and_true]
      rw [if_pos (by omega)]
    unfold blockLoop
    rw [if_pos (by omega)]
    simp only [hload, hstore, hinc]
    have hlen1 : (o.take i ++ (f ((input.bytes.drop i).take size)).map some).length = i + size := by
      rw [List.length_append, List.length_map, hfb, List.length_take]; omega
    have e : i + (k + 1) * size = i + size + k * size := by omega
    rw [e, ih fuel (i + size) _ (by rw [Nat.add_mod_right]; exact hi) (by omega)
      (by rw [List.length_append, hlen1, List.length_drop]; omega) (by omega)]
    rw [List.take_left' hlen1, C.blocks, List.map_append, List.drop_drop]
    simp only [Option.some.injEq, Prod.mk.injEq, true_and, Output.mk.injEq, List.append_assoc]
    congr 3
    rw [← List.append_assoc, List.drop_append, hlen1, List.drop_eq_nil_of_le (by rw [hlen1]; omega), List.nil_append,
      List.drop_drop]
    congr 1
    omega

theorem byteLoop_eq {input mask : Buffer} {addr : Nat} (hm : mask.bytes.length = 4) (hl : input.bytes.length < 2 ^ 63)
    (k fuel i : Nat) (o : List (Option UInt8)) (hi : i + k = input.bytes.length) (ho : o.length = input.bytes.length)
    (hfuel : k ≤ fuel) :
    byteLoop input mask input.bytes.length fuel i ⟨addr, o⟩ =
      some ⟨addr, o.take i ++ (C.remainder mask.bytes i (input.bytes.drop i)).map some⟩ := by
  induction k generalizing fuel i o with
  | zero =>
    unfold byteLoop
    rw [if_neg (by omega), List.drop_eq_nil_of_le (by omega), List.take_of_length_le (by omega)]
    simp [C.remainder]
  | succ k ih =>
    obtain ⟨fuel, rfl⟩ : ∃ m, fuel = m + 1 := ⟨fuel - 1, by omega⟩
    have hlt : i < input.bytes.length := by omega
    have h3 : i &&& 3 < 4 := by
      rw [show (3 : Nat) = 2 ^ 2 - 1 from rfl, Nat.and_two_pow_sub_one_eq_mod]; omega
    have hd : input.bytes.drop i = input.bytes[i] :: input.bytes.drop (i + 1) := List.drop_eq_getElem_cons hlt
    have hload : input.load false i 1 = some [input.bytes[i]] := by
      simp only [Buffer.load, alignOk, Bool.not_false, Bool.true_or, and_true]
      rw [if_pos (by omega), hd]
      rfl
    have hload2 : mask.load false (BitVec.ofNat 64 i &&& (4 - 1)).toNat 1 = some [mask.bytes.getD (i &&& 3) 0] := by
      rw [and_three]
      simp only [Buffer.load, alignOk, Bool.not_false, Bool.true_or, and_true]
      rw [if_pos (by omega), List.drop_eq_getElem_cons (by omega : i &&& 3 < mask.bytes.length)]
      rw [List.getD_eq_getElem?_getD, List.getElem?_eq_getElem (by omega : i &&& 3 < mask.bytes.length)]
      rfl
    have hinc : increment i 1 = some (i + 1) := by
      unfold increment
      exact if_pos (by unfold ssizeMax; omega)
    have hstore : ∀ x, Output.store ⟨addr, o⟩ false i [x] = some ⟨addr, o.take i ++ [some x] ++ o.drop (i + 1)⟩ := by
      intro x
      simp only [Output.store, alignOk, Bool.not_false, Bool.true_or, and_true, List.length_cons, List.length_nil]
      rw [if_pos (by omega)]
      rfl
    unfold byteLoop
    rw [if_pos hlt]
    simp only [hload, hload2, hstore, hinc]
    have hlen1 : ∀ x : Option UInt8, (o.take i ++ [x]).length = i + 1 := by
      intro x
      simp only [List.length_append, List.length_take, List.length_cons, List.length_nil]; omega
    rw [ih fuel (i + 1) _ (by omega) (by rw [List.length_append, hlen1, List.length_drop]; omega) (by omega)]
    rw [List.take_left' (hlen1 _), hd, C.remainder]
    simp

/-- Both loops -/
theorem loops_eq {strict : Bool} {target : C.Target} {input mask : Buffer} {addr : Nat} (hm : mask.bytes.length = 4)
    (hl : input.bytes.length < 2 ^ 63)
    (ha : strict = true → mask.addr % 4 = 0 ∧ (target ≠ .sse2 → input.addr % 8 = 0 ∧ addr % 8 = 0)) :
    ∃ i o, firstLoop strict target input mask ⟨addr, List.replicate input.bytes.length none⟩ = some (i, o) ∧
      byteLoop input mask input.bytes.length input.bytes.length i o =
        some ⟨addr, (maskOctets mask.bytes input.bytes).map some⟩ := by
  have hload : mask.load strict 0 4 = some mask.bytes := by
    have h1 : alignOk strict (mask.addr + 0) 4 = true := by
      cases strict with
      | false => rfl
      | true => simp [alignOk, (ha rfl).1]
    simp only [Buffer.load, h1, and_true]
    rw [if_pos (by omega), List.drop_zero, List.take_of_length_le (by omega)]
  have main : ∀ (s : Bool) (size : Nat) (f : Bytes → Bytes), 0 < size → size % 4 = 0 →
      (∀ b i, b.length = size → i % 4 = 0 → f b = maskFrom mask.bytes i b) →
      (∀ i, i % size = 0 → alignOk s (input.addr + i) size = true ∧ alignOk s (addr + i) size = true) →
      ∃ i o, blockLoop s size f input (input.bytes.length - input.bytes.length % size) input.bytes.length 0
          ⟨addr, List.replicate input.bytes.length none⟩ = some (i, o) ∧
        byteLoop input mask input.bytes.length input.bytes.length i o =
          some ⟨addr, (maskOctets mask.bytes input.bytes).map some⟩ := by
    intro s size f hs hs4 hf hal
    have hf' : ∀ b, b.length = size → (f b).length = size := by
      intro b hb
      rw [hf b 0 hb rfl, maskFrom_eq_mapIdx, List.length_mapIdx, hb]
    have hdiv := Nat.div_add_mod input.bytes.length size
    have hq : input.bytes.length - input.bytes.length % size = 0 + input.bytes.length / size * size := by
      rw [Nat.mul_comm] at hdiv; omega
    have hmul : input.bytes.length / size * size ≤ input.bytes.length := Nat.div_mul_le_self _ _
    have h1 := blockLoop_eq (strict := s) (addr := addr) hs hf' hl hal (input.bytes.length / size) input.bytes.length 0
      (List.replicate input.bytes.length none) (Nat.zero_mod _) (by omega) (by simp) (Nat.div_le_self _ _)
    rw [← hq] at h1
    refine ⟨_, _, h1, ?_⟩
    have hbl : (C.blocks size f (input.bytes.length / size) input.bytes).length =
        input.bytes.length - input.bytes.length % size := by
      rw [C.blocks_eq hs4 hf _ input.bytes 0 rfl hmul, maskFrom_eq_mapIdx, List.length_mapIdx, List.length_take]
      omega
    have hle := Nat.mod_le input.bytes.length size
    rw [List.take_zero, List.nil_append, List.drop_zero]
    rw [byteLoop_eq hm hl (input.bytes.length % size) _ _ _ (by omega)
      (by rw [List.length_append, List.length_map, hbl, List.length_drop, List.length_replicate]; omega) hle]
    rw [List.take_left' (by rw [List.length_map, hbl]), ← List.map_append]
    have hb := C.body_eq hs4 hf input.bytes
    rw [show (input.bytes.length - input.bytes.length % size) / size = input.bytes.length / size by
      rw [hq, Nat.zero_add, Nat.mul_div_cancel _ hs]] at hb
    rw [hb]
  simp only [firstLoop, hload]
  have ha8 : target ≠ .sse2 → ∀ i, i % 8 = 0 →
      alignOk strict (input.addr + i) 8 = true ∧ alignOk strict (addr + i) 8 = true := by
    intro ht i hi
    cases strict with
    | false => exact ⟨rfl, rfl⟩
    | true =>
      obtain ⟨h1, h2⟩ := (ha rfl).2 ht
      simp only [alignOk, Bool.not_true, Bool.false_or, decide_eq_true_eq]
      omega
  cases target with
  | sse2 =>
    simp only [roundDown_15 hl]
    exact main false 16 _ (by decide) rfl (fun b i hb hi => C.block128_eq hm hb i hi) (fun _ _ => ⟨rfl, rfl⟩)
  | word64le =>
    simp only [roundDown_7 hl]
    exact main strict 8 _ (by decide) rfl (fun b i hb hi => C.block64_eq hm hb i hi) (ha8 nofun)
  | word64be =>
    simp only [roundDown_7 hl]
    exact main strict 8 _ (by decide) rfl (fun b i hb hi => C.block64_eq hm hb i hi) (ha8 nofun)

theorem asStringAndSize_eq (ok : Bool) (addr : Nat) (x : Obj) :
    asStringAndSize ok addr x =
      if isView x && !ok then .error .buffer
      else match bytesOf x with
        | none => .error .notBytesLike
        | some b => .ok (isView x, ⟨addr, b⟩) := by
  cases x with
  | view v => cases ok <;> rfl
  | _ => rfl

theorem leave_eq (a b : Bool) (result : Option (List (Option UInt8))) (error : Option Error) :
    leave a b result error (if b then .maskTmp :: (if a then [.inputTmp] else []) else (if a then [.inputTmp] else [])) =
      some ⟨result, error, []⟩ ∧
    leave a b result error (.result ::
        (if b then .maskTmp :: (if a then [.inputTmp] else []) else (if a then [.inputTmp] else []))) =
      some ⟨result, error, [.result]⟩ := by
  cases a <;> cases b <;> exact ⟨rfl, rfl⟩

/-- The whole function -/
theorem applyMask_eq {strict : Bool} {target : C.Target} {api : Api} {data mask : Obj} (hd : Fits data)
    (ha : strict = true → Aligned target api) :
    (∃ e, firstFailure api data mask = some e ∧ applyMask strict target api data mask = some ⟨none, some e, []⟩) ∨
    ∃ d m, firstFailure api data mask = none ∧ bytesOf data = some d ∧ bytesOf mask = some m ∧ m.length = 4 ∧
      applyMask strict target api data mask = some ⟨some ((maskOctets m d).map some), none, [.result]⟩ := by
  unfold applyMask
  cases hp : api.parse with
  | false => exact .inl ⟨.arguments, by simp [firstFailure, failures, hp], by simp [leave, xdecref]⟩
  | true =>
    simp only [Bool.not_true, Bool.false_eq_true, if_false, asStringAndSize_eq]
    cases h1 : isView data && !api.input with
    | true => exact .inl ⟨.buffer, by simp [firstFailure, failures, hp, h1], by simp [leave, xdecref]⟩
    | false =>
      simp only [Bool.false_eq_true, if_false]
      cases h2 : bytesOf data with
      | none => exact .inl ⟨.notBytesLike, by simp [firstFailure, failures, hp, h1, h2], by simp [leave, xdecref]⟩
      | some d =>
        simp only
        cases h3 : isView mask && !api.mask with
        | true =>
          exact .inl ⟨.buffer, by simp [firstFailure, failures, hp, h1, h2, h3], (leave_eq (isView data) false _ _).1⟩
        | false =>
          simp only [Bool.false_eq_true, if_false]
          cases h4 : bytesOf mask with
          | none =>
            exact .inl ⟨.notBytesLike, by simp [firstFailure, failures, hp, h1, h2, h3, h4],
              (leave_eq (isView data) false _ _).1⟩
          | some m =>
            simp only
            by_cases h5 : m.length = 4
            · simp only [h5, ne_eq, not_true_eq_false, if_false]
              cases h6 : api.alloc with
              | false =>
                exact .inl ⟨.memory, by simp [firstFailure, failures, hp, h1, h2, h3, h4, h5, h6], (leave_eq _ _ _ _).1⟩
              | true =>
                simp only [Bool.not_true, Bool.false_eq_true, if_false]
                obtain ⟨i, o, e1, e2⟩ := loops_eq (strict := strict) (target := target) (input := ⟨api.inputAddr, d⟩)
                  (mask := ⟨api.maskAddr, m⟩) (addr := api.outputAddr) h5 (hd d h2) ha
                refine .inr ⟨d, m, by simp [firstFailure, failures, hp, h1, h2, h3, h4, h5, h6], rfl, rfl, h5, ?_⟩
                simp only at e1 e2
                simp only [e1, e2]
                exact (leave_eq _ _ _ _).2
            · simp only [h5, ne_eq, not_false_eq_true, if_true]
              exact .inl ⟨.maskLength, by simp [firstFailure, failures, hp, h1, h2, h3, h4, h5], (leave_eq _ _ _ _).1⟩

/-- **C99.** For all objects, whichever calls of the CPython API fail, wherever buffers are, `apply_mask` in speedups.c accesses only the
memory of the buffers, doesn't overflow, and returns.  It returns NULL exactly when it raises an exception, which is the first that
applies.  It releases every reference that it owns once, except its result. -/
theorem C99_safe (target : C.Target) (api : Api) (data mask : Obj) (hd : Fits data) :
    ∃ r, applyMask false target api data mask = some r ∧ r.error = firstFailure api data mask ∧
      (r.result = none ↔ r.error ≠ none) ∧ r.refs = (if r.result = none then [] else [.result]) := by
  rcases applyMask_eq (strict := false) (target := target) (api := api) (mask := mask) hd nofun with
    ⟨e, h1, h2⟩ | ⟨d, m, h1, -, -, -, h2⟩
  · exact ⟨_, h2, h1.symm, by simp, by simp⟩
  · exact ⟨_, h2, h1.symm, by simp, by simp⟩

/-- Example: the mask has five bytes, and both arguments are `memoryview` objects. -/
example : applyMask false .sse2 {} (.view ⟨.int false 2, [[1, 2]], false⟩) (.view ⟨.char, [[1], [2], [3], [4], [5]], true⟩) =
    some ⟨none, some .maskLength, []⟩ := by decide +kernel

/-- **C99.** When no call fails, and the mask has four bytes, every byte of the result is initialised, and masked as RFC 6455
requires. -/
theorem C99_result (target : C.Target) (api : Api) (data mask : Obj) (hd : Fits data) (r : Return)
    (h : applyMask false target api data mask = some r) (out : List (Option UInt8)) (hr : r.result = some out) :
    ∃ d m, bytesOf data = some d ∧ bytesOf mask = some m ∧ m.length = 4 ∧ out = (maskOctets m d).map some := by
  rcases applyMask_eq (strict := false) (target := target) (api := api) (mask := mask) hd nofun with
    ⟨e, h1, h2⟩ | ⟨d, m, h1, h3, h4, h5, h2⟩
  · rw [h2] at h
    cases h
    cases hr
  · rw [h2] at h
    cases h
    cases hr
    exact ⟨d, m, h3, h4, h5, rfl⟩

/-- Example: 19 bytes, hence one block of 16 bytes and three bytes -/
example : applyMask false .sse2 { inputAddr := 3 } (.bytes (List.replicate 19 1)) (.bytearray [1, 2, 3, 4]) =
    some ⟨some ((List.replicate 4 ([0, 3, 2, 5] : Bytes)).flatten ++ [0, 3, 2] |>.map some), none, [.result]⟩ := by decide +kernel

/-- **C99.** speedups.c returns what `Verif.Model.Utils` says: a `bytes` object with the same content, or `ValueError`. -/
theorem C99_utils (target : C.Target) (api : Api) (data mask : Bytes) (hd : data.length < 2 ^ 63) (hp : api.parse = true)
    (hm : api.alloc = true) :
    (applyMask false target api (.bytes data) (.bytes mask)).map (fun r => (r.result, r.error)) =
      some (match C.applyMask target data mask with
        | .ok out => (some (out.map some), none)
        | .error _ => (none, some .maskLength)) := by
  rw [C05_c_eq_python]
  rcases applyMask_eq (strict := false) (target := target) (api := api) (data := .bytes data) (mask := .bytes mask)
      (by rintro b h; cases h; exact hd) nofun with ⟨e, h1, h2⟩ | ⟨d, m, h1, h3, h4, h5, h2⟩
  · rw [h2]
    by_cases h5 : mask.length = 4
    · simp [firstFailure, failures, hp, hm, bytesOf, isView, h5] at h1
    · simp [firstFailure, failures, hp, bytesOf, isView, h5] at h1
      simp [WS.applyMask, h5, ← h1]
  · cases h3
    cases h4
    rw [h2, WS.applyMask_eq h5]
    rfl

/-- **C99, partial.** Integers are accessed only at addresses that are multiples of their size, if the addresses of the mask and — without
SSE2 — of the data and of the result are.  Missing: other addresses, for which the C standard doesn't define the result. -/
theorem C99_aligned_partial (target : C.Target) (api : Api) (data mask : Obj) (hd : Fits data) (ha : Aligned target api) :
    applyMask true target api data mask = applyMask false target api data mask ∧
      applyMask true target api data mask ≠ none := by
  rcases applyMask_eq (strict := true) (target := target) (api := api) (mask := mask) hd (fun _ => ha) with
    ⟨e, h1, h2⟩ | ⟨d, m, h1, h3, h4, h5, h2⟩ <;>
  rcases applyMask_eq (strict := false) (target := target) (api := api) (mask := mask) hd nofun with
    ⟨e', h1', h2'⟩ | ⟨d', m', h1', h3', h4', h5', h2'⟩
  · rw [h2, h2', ← h1, ← h1']; simp
  · rw [h1] at h1'; cases h1'
  · rw [h1] at h1'; cases h1'
  · rw [h3] at h3'
    rw [h4] at h4'
    cases h3'
    cases h4'
    rw [h2, h2']; simp

/-- Example: 64-bit words, and 9 bytes -/
example : applyMask true .word64be { inputAddr := 4096, maskAddr := 8196, outputAddr := 32 } (.bytes (List.replicate 9 1))
    (.bytes [1, 2, 3, 4]) = some ⟨some ([0, 3, 2, 5, 0, 3, 2, 5, 0].map some), none, [.result]⟩ := by decide +kernel

/-- **C99, negative.** Without SSE2, if the data has 8 bytes or more, at an address that isn't a multiple of 8 — such as that of a
slice of a `memoryview`, or of a `bytearray` whose first bytes were deleted — an integer is read at an address that isn't allowed.  With
or without SSE2, this also happens if the address of the mask isn't a multiple of 4. -/
theorem C99_aligned_false (target : C.Target) (api : Api) (data mask : Obj) (d m : Bytes) (hd : bytesOf data = some d)
    (hm : bytesOf mask = some m) (hl : d.length < 2 ^ 63) (hf : firstFailure api data mask = none)
    (ha : api.maskAddr % 4 ≠ 0 ∨ target ≠ .sse2 ∧ 8 ≤ d.length ∧ api.inputAddr % 8 ≠ 0) :
    applyMask true target api data mask = none := by
  simp only [firstFailure, failures, Option.map_eq_none_iff, List.find?_eq_none, List.mem_cons, List.not_mem_nil, or_false,
    forall_eq_or_imp, forall_eq, hd, hm, Option.any_some, Bool.not_eq_true, Bool.not_eq_false',
    decide_eq_false_iff_not, ne_eq, Decidable.not_not] at hf
  obtain ⟨f1, f2, -, f3, -, f4, f5⟩ := hf
  unfold applyMask
  simp only [f1, f5, f2, f3, hd, hm, f4, asStringAndSize_eq, Bool.not_true, Bool.false_eq_true, if_false, ne_eq,
    not_true_eq_false]
  suffices h : firstLoop true target ⟨api.inputAddr, d⟩ ⟨api.maskAddr, m⟩ ⟨api.outputAddr, List.replicate d.length none⟩ =
      none by rw [h]
  unfold firstLoop
  by_cases h4 : api.maskAddr % 4 = 0
  · rcases ha with ha | ⟨ht, h8, ha⟩
    · exact absurd h4 ha
    · have hload : Buffer.load ⟨api.maskAddr, m⟩ true 0 4 = some m := by
        simp only [Buffer.load, alignOk, Nat.add_zero, h4]
        rw [if_pos ⟨by omega, rfl⟩, List.drop_zero, List.take_of_length_le (by omega)]
      have hlim : 0 < roundDown d.length 7 := by rw [roundDown_7 hl]; omega
      have hbad : Buffer.load ⟨api.inputAddr, d⟩ true 0 8 = none := by
        simp [Buffer.load, alignOk, ha]
      have hloop : ∀ f o, blockLoop true 8 f ⟨api.inputAddr, d⟩ (roundDown d.length 7) d.length 0 o = none := by
        intro f o
        obtain ⟨n, hn⟩ : ∃ n, d.length = n + 1 := ⟨d.length - 1, by omega⟩
        unfold blockLoop
        rw [if_pos hlim]
        simp only [hn, hbad]
      cases target with
      | sse2 => exact absurd rfl ht
      | word64le => simp only [hload, hloop]
      | word64be => simp only [hload, hloop]
  · have hload : Buffer.load ⟨api.maskAddr, m⟩ true 0 4 = none := by
      simp [Buffer.load, alignOk, h4]
    simp only [hload]

/-- Example: a `memoryview` that starts one byte after the beginning of a buffer -/
example : applyMask true .word64le { inputAddr := 4097, maskAddr := 8192, outputAddr := 32 }
    (.view ⟨.int false 1, List.replicate 8 [0], true⟩) (.bytes [1, 2, 3, 4]) = none :=
  C99_aligned_false _ _ _ _ (List.replicate 8 0) [1, 2, 3, 4] rfl rfl (by decide) (by decide) (.inr ⟨nofun, by decide, by decide⟩)

end WS.Speedups
