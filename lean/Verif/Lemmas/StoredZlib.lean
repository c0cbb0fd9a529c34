import Verif.Spec.Pmd

/-!
# A fragment of raw DEFLATE

Streams of stored blocks (RFC 1951, section 3.2.4), which start at byte boundaries: a byte `00`
(`BFINAL=0`, `BTYPE=00`, padding), `LEN` and its complement `NLEN`, then `LEN` bytes.  The encoder
only makes such blocks, and the decoder only accepts them.  This isn't a model of zlib; this is a
codec for examples that shows that what theorems assume about zlib can be satisfied, and how a
decoder behaves when frames don't end where blocks end.
-/

namespace WS

open Spec

/-- A decoder: the part of the header of a block that has been received, the number of bytes that
are still expected in a block, and the input that wasn't consumed. -/
structure Stored where
  hdr : Bytes := []
  left : Nat := 0
  tail : Bytes := []
deriving DecidableEq

/-- What the beginning of a header tells. -/
inductive StoredHdr where
  | bad
  | more
  | block (n : Nat)

def storedHdr : Bytes → StoredHdr
  | [h] => if h = 0 then .more else .bad
  | [_, l0, l1, n0, n1] =>
    if n0 = ~~~ l0 ∧ n1 = ~~~ l1 then .block (l0.toNat + 256 * l1.toNat) else .bad
  | _ => .more

/-- Consume input until it's exhausted, or until there's no room for output. -/
def storedRun : Option Nat → Bytes → Nat → Bytes → Except Exc (Bytes × Stored)
  | _, hdr, left, [] => .ok ([], { hdr, left })
  | some 0, hdr, left + 1, b :: bs => .ok ([], { hdr, left := left + 1, tail := b :: bs })
  | room, hdr, left + 1, b :: bs =>
    match storedRun (room.map (· - 1)) hdr left bs with
    | .error e => .error e
    | .ok (out, d) => .ok (b :: out, d)
  | room, hdr, 0, b :: bs =>
    match storedHdr (hdr ++ [b]) with
    | .bad => .error .zlibError
    | .more => storedRun room (hdr ++ [b]) 0 bs
    | .block n => storedRun room [] n bs

/-- Write data as stored blocks. -/
def storedBlocks : Nat → Bytes → Bytes
  | 0, _ => []
  | _, [] => []
  | fuel + 1, data =>
    let n := min data.length 65535
    let l0 := UInt8.ofNat (n % 256)
    let l1 := UInt8.ofNat (n / 256)
    [0, l0, l1, ~~~ l0, ~~~ l1] ++ data.take n ++ storedBlocks fuel (data.drop n)

/-- The codec.  It refuses a window of 8 bits, as zlib does. -/
def storedZlib : Zlib where
  Enc := Unit
  Dec := Stored
  Settings := Unit
  compressobj w _ :=
    if 9 ≤ w ∧ w ≤ 15 then .ok () else .error (.valueError p!"Invalid initialization option")
  decompressobj _ := {}
  compress e data := (storedBlocks data.length data, e)
  flush e := ([0, 0x00, 0x00, 0xFF, 0xFF], e)
  decompress d data max :=
    if max < 0 then (.error (.valueError p!"max_length must be non-negative"), d)
    else
      match storedRun (if max = 0 then none else some max.toNat) d.hdr d.left data with
      | .error e => (.error e, d)
      | .ok (out, d) => (.ok out, d)
  unconsumedTail d := d.tail

theorem storedRun_chunk (r : Option Nat) (c rest : Bytes) (hr : ∀ k, r = some k → c.length ≤ k) :
    storedRun r [] c.length (c ++ rest) =
      match storedRun (r.map (· - c.length)) [] 0 rest with
      | .error e => .error e
      | .ok (out, d) => .ok (c ++ out, d) := by
  induction c generalizing r with
  | nil =>
    have : r.map (· - ([] : Bytes).length) = r := by cases r <;> simp
    rw [this]
    simp only [List.length_nil, List.nil_append]
    cases storedRun r [] 0 rest <;> rfl
  | cons b c ih =>
    have h1 := ih (r.map (· - 1)) (by
      intro k hk
      cases r with
      | none => cases hk
      | some m =>
        have := hr m rfl
        simp only [Option.map_some, Option.some.injEq, List.length_cons] at hk this
        omega)
    have h2 : (r.map (· - 1)).map (· - c.length) = r.map (· - (b :: c).length) := by
      cases r
      · rfl
      · simp only [Option.map_some, List.length_cons, Option.some.injEq]; omega
    rw [h2] at h1
    have h3 : storedRun r [] (c.length + 1) (b :: (c ++ rest)) =
        match storedRun (r.map (· - 1)) [] c.length (c ++ rest) with
        | .error e => .error e
        | .ok (out, d) => .ok (b :: out, d) := by
      cases r with
      | none => rfl
      | some k =>
        cases k with
        | zero => have := hr 0 rfl; simp at this
        | succ k => rfl
    simp only [List.length_cons, List.cons_append] at h3 h1 ⊢
    rw [h3, h1]
    cases storedRun (r.map (· - (c.length + 1))) [] 0 rest <;> rfl

theorem storedRun_header (r : Option Nat) (l0 l1 : UInt8) (rest : Bytes) :
    storedRun r [] 0 ([0, l0, l1, ~~~ l0, ~~~ l1] ++ rest) =
      storedRun r [] (l0.toNat + 256 * l1.toNat) rest := by
  cases r <;> simp [storedRun, storedHdr]

theorem storedRun_blocks (r : Option Nat) (fuel : Nat) (data rest : Bytes) (hf : data.length ≤ fuel)
    (hr : ∀ k, r = some k → data.length ≤ k) :
    storedRun r [] 0 (storedBlocks fuel data ++ rest) =
      match storedRun (r.map (· - data.length)) [] 0 rest with
      | .error e => .error e
      | .ok (out, d) => .ok (data ++ out, d) := by
  induction fuel generalizing r data with
  | zero =>
    have : data = [] := List.length_eq_zero_iff.1 (by omega)
    subst this
    have : r.map (· - ([] : Bytes).length) = r := by cases r <;> simp
    rw [this]
    simp only [storedBlocks, List.nil_append]
    cases storedRun r [] 0 rest <;> rfl
  | succ fuel ih =>
    cases data with
    | nil =>
      have : r.map (· - ([] : Bytes).length) = r := by cases r <;> simp
      rw [this]
      simp only [storedBlocks, List.nil_append]
      cases storedRun r [] 0 rest <;> rfl
    | cons b data =>
      simp only [storedBlocks]
      generalize hd : b :: data = d at *
      have hpos : 0 < d.length := by rw [← hd]; simp
      generalize hn : min d.length 65535 = n
      have hn1 : n < 65536 := by omega
      have hn2 : n ≤ d.length := by omega
      have hn3 : 0 < n := by omega
      rw [List.append_assoc, List.append_assoc, storedRun_header]
      have hlen : (UInt8.ofNat (n % 256)).toNat + 256 * (UInt8.ofNat (n / 256)).toNat =
          (d.take n).length := by
        rw [List.length_take, UInt8.toNat_ofNat', UInt8.toNat_ofNat']
        omega
      rw [hlen, storedRun_chunk _ _ _ (by
        intro k hk
        have := hr k hk
        rw [List.length_take]
        omega), ih _ _ (by rw [List.length_drop]; omega) (by
        intro k hk
        cases r with
        | none => cases hk
        | some m =>
          have := hr m rfl
          simp only [Option.map_some, Option.some.injEq, List.length_take] at hk
          rw [List.length_drop]
          omega)]
      have h2 : (r.map (· - (d.take n).length)).map (· - (d.drop n).length) =
          r.map (· - d.length) := by
        cases r
        · rfl
        · simp only [Option.map_some, List.length_take, List.length_drop, Option.some.injEq]; omega
      rw [h2]
      cases storedRun (r.map (· - d.length)) [] 0 rest with
      | error e => rfl
      | ok x => simp only [← List.append_assoc, List.take_append_drop]

/-- This codec meets the contract. -/
def storedZlib_contract : Contract storedZlib where
  Sync _ d := d = {}
  init _ _ := rfl
  step := by
    rintro e d data rfl
    refine ⟨⟨storedBlocks data.length data ++ [0], by simp [storedZlib, emptyBlock]⟩, ?_⟩
    intro max hm
    refine ⟨{}, ?_, rfl, rfl⟩
    simp only [storedZlib]
    rw [if_neg (by omega), storedRun_blocks _ _ _ _ (Nat.le_refl _) (by
      intro k hk
      split at hk
      · cases hk
      · simp only [Option.some.injEq] at hk; omega)]
    have : ∀ r : Option Nat, storedRun r [] 0 [0, 0, 0, 0xFF, 0xFF] = .ok ([], {}) := by
      intro r
      exact (storedRun_header r 0 0 []).trans (by cases r <;> rfl)
    rw [this]
    simp

theorem storedRun_bounded {k : Nat} {hdr data out : Bytes} {left : Nat} {d : Stored}
    (h : storedRun (some k) hdr left data = .ok (out, d)) : out.length ≤ k := by
  induction data generalizing k hdr left out with
  | nil => simp only [storedRun, Except.ok.injEq, Prod.mk.injEq] at h; rw [← h.1]; simp
  | cons b bs ih =>
    cases left with
    | zero =>
      have h3 : storedRun (some k) hdr 0 (b :: bs) = match storedHdr (hdr ++ [b]) with
          | .bad => .error .zlibError
          | .more => storedRun (some k) (hdr ++ [b]) 0 bs
          | .block n => storedRun (some k) [] n bs := by
        cases k <;> rfl
      rw [h3] at h
      split at h
      · cases h
      · exact ih h
      · exact ih h
    | succ left =>
      cases k with
      | zero => simp only [storedRun, Except.ok.injEq, Prod.mk.injEq] at h; rw [← h.1]; simp
      | succ k =>
        simp only [storedRun, Option.map_some, Nat.add_sub_cancel] at h
        split at h
        · cases h
        · rename_i out' d' he
          simp only [Except.ok.injEq, Prod.mk.injEq] at h
          obtain ⟨rfl, rfl⟩ := h
          rw [List.length_cons]
          have := ih he
          omega

theorem storedZlib_bounded : Bounded storedZlib := by
  constructor
  · intro d data max out d' hm h
    simp only [storedZlib] at h
    rw [if_neg (by omega), if_neg (by omega)] at h
    split at h
    · cases h
    · rename_i out' d'' he
      cases h
      have := storedRun_bounded he
      omega
  · intro d data max hm
    exact ⟨_, _, by simp only [storedZlib]; exact if_pos hm⟩

end WS
