import Verif.Model.Utils
import Verif.Spec.Mask

/-! Helper lemmas on masking. -/

namespace WS

/-- Masking with the key position starting at `i`. -/
def maskFrom (m : Bytes) : Nat → Bytes → Bytes
  | _, [] => []
  | i, b :: bs => (b ^^^ m.getD (i % 4) 0) :: maskFrom m (i + 1) bs

theorem maskFrom_eq_mapIdx (m : Bytes) (i : Nat) (data : Bytes) :
    maskFrom m i data = data.mapIdx fun j b => b ^^^ m.getD ((i + j) % 4) 0 := by
  induction data generalizing i with
  | nil => rfl
  | cons b bs ih =>
    rw [maskFrom, ih, List.mapIdx_cons]
    simp only [Nat.add_zero, List.cons.injEq, true_and]
    congr 1
    funext j x
    congr 3
    omega

theorem maskFrom_zero (m data : Bytes) : maskFrom m 0 data = Spec.maskOctets m data := by
  rw [maskFrom_eq_mapIdx, Spec.maskOctets]
  simp

theorem maskFrom_mod (m : Bytes) (i : Nat) (data : Bytes) :
    maskFrom m (i % 4) data = maskFrom m i data := by
  rw [maskFrom_eq_mapIdx, maskFrom_eq_mapIdx]
  congr 1
  funext j b
  congr 2
  omega

theorem maskFrom_append (m : Bytes) (i : Nat) (a b : Bytes) :
    maskFrom m i (a ++ b) = maskFrom m i a ++ maskFrom m (i + a.length) b := by
  induction a generalizing i with
  | nil => simp [maskFrom]
  | cons x xs ih =>
    simp only [List.cons_append, maskFrom, ih, List.length_cons]
    congr 3
    omega

theorem xorCycle_drop (m : Bytes) (h : m.length = 4) (k : Nat) (hk : k ≤ 4) (data : Bytes) :
    xorCycle m data (m.drop k) = maskFrom m k data := by
  match m, h with
  | [m0, m1, m2, m3], _ =>
    induction data generalizing k with
    | nil => simp [xorCycle, maskFrom]
    | cons b bs ih =>
      match k, hk with
      | 0, _ => simpa [xorCycle, maskFrom] using ih 1 (by omega)
      | 1, _ => simpa [xorCycle, maskFrom] using ih 2 (by omega)
      | 2, _ => simpa [xorCycle, maskFrom] using ih 3 (by omega)
      | 3, _ => simpa [xorCycle, maskFrom] using ih 4 (by omega)
      | 4, _ =>
        have := ih 1 (by omega)
        rw [← maskFrom_mod] at this
        simp only [maskFrom, List.drop, xorCycle] at *
        rw [← maskFrom_mod _ (4 + 1)]
        simpa using this

theorem applyMask_eq {data mask : Bytes} (h : mask.length = 4) :
    applyMask data mask = .ok (Spec.maskOctets mask data) := by
  have := xorCycle_drop mask h 0 (by omega) data
  rw [List.drop_zero] at this
  simp [applyMask, h, this, maskFrom_zero]

theorem maskOctets_involutive (key data : Bytes) :
    Spec.maskOctets key (Spec.maskOctets key data) = data := by
  rw [← maskFrom_zero, ← maskFrom_zero]
  generalize 0 = i
  induction data generalizing i with
  | nil => rfl
  | cons b bs ih => simp [maskFrom, ih, UInt8.xor_assoc]

@[simp] theorem maskOctets_length (key data : Bytes) :
    (Spec.maskOctets key data).length = data.length := by simp [Spec.maskOctets]

namespace C

theorem loadLE_append (a b : Bytes) :
    loadLE (a ++ b) = loadLE a + 256 ^ a.length * loadLE b := by
  induction a with
  | nil => simp [loadLE]
  | cons x xs ih =>
    simp only [List.cons_append, loadLE, ih, List.length_cons, Nat.pow_succ]
    rw [Nat.mul_add, Nat.add_assoc]
    congr 2
    rw [← Nat.mul_assoc, Nat.mul_comm 256]

theorem loadLE_lt (a : Bytes) : loadLE a < 256 ^ a.length := by
  induction a with
  | nil => simp [loadLE]
  | cons x xs ih =>
    have := x.toNat_lt
    simp only [loadLE, List.length_cons, Nat.pow_succ]
    omega

theorem storeLE_xor (a b : Bytes) (h : a.length = b.length) :
    storeLE a.length (loadLE a ^^^ loadLE b) = List.zipWith (· ^^^ ·) a b := by
  induction a generalizing b with
  | nil => cases b <;> simp_all [storeLE]
  | cons x xs ih =>
    cases b with
    | nil => simp at h
    | cons y ys =>
      have hx := x.toNat_lt
      have hy := y.toNat_lt
      have e1 : (x.toNat + 256 * loadLE xs) % 2 ^ 8 = x.toNat := by omega
      have e2 : (y.toNat + 256 * loadLE ys) % 2 ^ 8 = y.toNat := by omega
      have e3 : (x.toNat + 256 * loadLE xs) / 2 ^ 8 = loadLE xs := by omega
      have e4 : (y.toNat + 256 * loadLE ys) / 2 ^ 8 = loadLE ys := by omega
      simp only [List.length_cons, storeLE, loadLE, List.zipWith_cons_cons]
      have m : (x.toNat + 256 * loadLE xs ^^^ y.toNat + 256 * loadLE ys) % 256 = x.toNat ^^^ y.toNat := by
        have := Nat.xor_mod_two_pow (a := x.toNat + 256 * loadLE xs) (b := y.toNat + 256 * loadLE ys) (n := 8)
        rw [e1, e2] at this
        exact this
      have d : (x.toNat + 256 * loadLE xs ^^^ y.toNat + 256 * loadLE ys) / 256 = loadLE xs ^^^ loadLE ys := by
        have := Nat.xor_div_two_pow (a := x.toNat + 256 * loadLE xs) (b := y.toNat + 256 * loadLE ys) (n := 8)
        rw [e3, e4] at this
        exact this
      rw [m, d, ih ys (by simpa using h)]
      congr 1
      rw [← UInt8.toNat_xor, UInt8.ofNat_toNat]

theorem mask128_eq {m : Bytes} (h : m.length = 4) : mask128 m = loadLE (m ++ (m ++ (m ++ m))) := by
  simp only [mask128, loadLE_append, h]

theorem mask64_le {m : Bytes} (h : m.length = 4) : mask64 false m = loadLE (m ++ m) := by
  have hlt := loadLE_lt m
  rw [h] at hlt
  simp only [mask64, Bool.false_eq_true, if_false, loadLE_append, h]
  rw [← Nat.shiftLeft_add_eq_or_of_lt (by simpa using hlt), Nat.shiftLeft_eq]
  omega

theorem mask64_be {m : Bytes} (h : m.length = 4) : mask64 true m = loadBE (m ++ m) := by
  have hlt := loadLE_lt m.reverse
  rw [List.length_reverse, h] at hlt
  simp only [mask64, if_true, loadBE, List.reverse_append, loadLE_append, List.length_reverse, h]
  rw [← Nat.shiftLeft_add_eq_or_of_lt (by simpa using hlt), Nat.shiftLeft_eq]
  omega

theorem zipWith_mask4 {m x : Bytes} (hm : m.length = 4) (hx : x.length = 4) (i : Nat)
    (hi : i % 4 = 0) : List.zipWith (· ^^^ ·) x m = maskFrom m i x := by
  rw [← maskFrom_mod, hi]
  match m, hm, x, hx with
  | [m0, m1, m2, m3], _, [x0, x1, x2, x3], _ => simp [maskFrom]

theorem zipWith_step {m x ks : Bytes} (hm : m.length = 4) (hx : 4 ≤ x.length) (i : Nat)
    (hi : i % 4 = 0) (hrest : List.zipWith (· ^^^ ·) (x.drop 4) ks = maskFrom m (i + 4) (x.drop 4)) :
    List.zipWith (· ^^^ ·) x (m ++ ks) = maskFrom m i x := by
  have hl : (x.take 4).length = m.length := by simp [hm]; omega
  have e : x = x.take 4 ++ x.drop 4 := by simp
  rw [e, List.zipWith_append hl, maskFrom_append, zipWith_mask4 hm (by omega) i hi]
  simp only [hl, hm]
  simpa using hrest

theorem block128_eq {m block : Bytes} (hm : m.length = 4) (hb : block.length = 16) (i : Nat)
    (hi : i % 4 = 0) : block128 m block = maskFrom m i block := by
  have hl : block.length = (m ++ (m ++ (m ++ m))).length := by simp [hm, hb]
  have := storeLE_xor block (m ++ (m ++ (m ++ m))) hl
  rw [hb] at this
  rw [block128, mask128_eq hm, this]
  apply zipWith_step hm (by omega) i hi
  apply zipWith_step hm (by simp; omega) _ (by omega)
  apply zipWith_step hm (by simp; omega) _ (by omega)
  apply zipWith_mask4 hm (by simp; omega) _ (by omega)

theorem block64_eq {big : Bool} {m block : Bytes} (hm : m.length = 4) (hb : block.length = 8)
    (i : Nat) (hi : i % 4 = 0) : block64 big m block = maskFrom m i block := by
  have key : List.zipWith (· ^^^ ·) block (m ++ m) = maskFrom m i block := by
    apply zipWith_step hm (by omega) i hi
    apply zipWith_mask4 hm (by simp; omega) _ (by omega)
  have hl : block.length = (m ++ m).length := by simp [hm, hb]
  cases big with
  | false =>
    have := storeLE_xor block (m ++ m) hl
    rw [hb] at this
    simp only [block64, Bool.false_eq_true, if_false]
    rw [mask64_le hm, this, key]
  | true =>
    have := storeLE_xor block.reverse (m ++ m).reverse (by simpa using hl)
    rw [List.length_reverse, hb] at this
    simp only [block64, if_true, storeBE]
    rw [mask64_be hm, loadBE, loadBE, this, ← List.reverse_zipWith hl, List.reverse_reverse, key]

theorem blocks_eq {size : Nat} {f : Bytes → Bytes} {m : Bytes} (hs : size % 4 = 0)
    (hf : ∀ (block : Bytes) i, block.length = size → i % 4 = 0 → f block = maskFrom m i block)
    (n : Nat) (input : Bytes) (i : Nat) (hi : i % 4 = 0) (hn : n * size ≤ input.length) :
    blocks size f n input = maskFrom m i (input.take (n * size)) := by
  induction n generalizing input i with
  | zero => simp [blocks, maskFrom]
  | succ n ih =>
    rw [Nat.succ_mul] at hn
    have hlen : (input.take size).length = size := by simp; omega
    rw [blocks, hf _ i hlen hi, ih (input.drop size) (i + size) (by omega) (by simp; omega)]
    have : input.take ((n + 1) * size) =
        input.take size ++ (input.drop size).take (n * size) := by
      rw [Nat.succ_mul, Nat.add_comm, List.take_add]
    rw [this, maskFrom_append, hlen]

theorem remainder_eq (m : Bytes) (i : Nat) (data : Bytes) :
    remainder m i data = maskFrom m i data := by
  induction data generalizing i with
  | nil => rfl
  | cons b bs ih =>
    rw [remainder, maskFrom, ih]
    congr 3
    exact Nat.and_two_pow_sub_one_eq_mod i 2

theorem body_eq {size : Nat} {f : Bytes → Bytes} {m : Bytes} (hs : size % 4 = 0)
    (hf : ∀ (block : Bytes) i, block.length = size → i % 4 = 0 → f block = maskFrom m i block)
    (input : Bytes) :
    blocks size f ((input.length - input.length % size) / size) input ++
      remainder m (input.length - input.length % size)
        (input.drop (input.length - input.length % size)) = Spec.maskOctets m input := by
  have hmul : (input.length - input.length % size) / size * size =
      input.length - input.length % size := by
    apply Nat.div_mul_cancel
    exact Nat.dvd_sub_mod _
  rw [blocks_eq hs hf _ input 0 rfl (by rw [hmul]; omega), hmul, remainder_eq, ← maskFrom_zero]
  generalize hn : input.length - input.length % size = n
  have : maskFrom m 0 (input.take n ++ input.drop n) = _ := maskFrom_append m 0 _ _
  rw [List.take_append_drop] at this
  rw [this]
  congr 2
  simp
  omega

end C

end WS
