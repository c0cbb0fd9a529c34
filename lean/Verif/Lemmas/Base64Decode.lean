import Verif.Lemmas.Base64

/-!
# Decoding base64
-/

namespace WS

open Spec

theorem b64Val_idx (c : Nat) : b64Val c = b64Alphabet.idxOf? c := by
  by_cases h : c < 128
  · exact (by decide +kernel : ∀ n : Fin 128, b64Val n = b64Alphabet.idxOf? n.val) ⟨c, h⟩
  · have h1 : b64Val c = none := by
      unfold b64Val
      rw [if_neg (by omega), if_neg (by omega), if_neg (by omega), if_neg (by omega), if_neg (by omega)]
    have h2 : b64Alphabet.idxOf? c = none := by
      rw [List.idxOf?_eq_none_iff]
      intro hc
      have : ∀ c ∈ b64Alphabet, c < 128 := by decide +kernel
      exact h (this c hc)
    rw [h1, h2]

theorem b64Val_lt {c v : Nat} (h : b64Val c = some v) : v < 64 := by
  unfold b64Val at h
  split at h
  · simp only [Option.some.injEq] at h; omega
  · split at h
    · simp only [Option.some.injEq] at h; omega
    · split at h
      · simp only [Option.some.injEq] at h; omega
      · split at h
        · simp only [Option.some.injEq] at h; omega
        · split at h
          · simp only [Option.some.injEq] at h; omega
          · cases h

/-- The last `k` bits -/
def lowBits (k v : Nat) : List Bool := (List.range k).map fun i => v.testBit (k - 1 - i)

theorem lowBits_length (k v : Nat) : (lowBits k v).length = k := by simp [lowBits]

theorem byteBits_ofNat {x : Nat} (h : x < 256) : byteBits (UInt8.ofNat x) = lowBits 8 x := by
  unfold byteBits lowBits
  rw [UInt8.toNat_ofNat_of_lt' h]

theorem byteBits_length (b : UInt8) : (byteBits b).length = 8 := by simp [byteBits]

theorem byteBits_inj {a b : UInt8} (h : byteBits a = byteBits b) : a = b := by
  apply UInt8.toNat_inj.mp
  have hh : ∀ x : Fin 256, ofBits ((List.range 8).map fun i => x.val.testBit (7 - i)) = x.val := by decide +kernel
  have ha := hh ⟨a.toNat, a.toNat_lt⟩
  have hb := hh ⟨b.toNat, b.toNat_lt⟩
  unfold byteBits at h
  exact ha.symm.trans ((congrArg ofBits h).trans hb)

theorem join_1 {l v : Nat} (hl : l < 64) (hv : v < 64) :
    lowBits 6 l ++ lowBits 6 v = lowBits 8 (l * 4 + v / 16) ++ lowBits 4 (v % 16) :=
  (by decide +kernel : ∀ (l v : Fin 64),
    lowBits 6 l ++ lowBits 6 v = lowBits 8 (l.val * 4 + v.val / 16) ++ lowBits 4 (v.val % 16)) ⟨l, hl⟩ ⟨v, hv⟩

theorem join_2 {l v : Nat} (hl : l < 16) (hv : v < 64) :
    lowBits 4 l ++ lowBits 6 v = lowBits 8 (l * 16 + v / 4) ++ lowBits 2 (v % 4) :=
  (by decide +kernel : ∀ (l : Fin 16) (v : Fin 64),
    lowBits 4 l ++ lowBits 6 v = lowBits 8 (l.val * 16 + v.val / 4) ++ lowBits 2 (v.val % 4)) ⟨l, hl⟩ ⟨v, hv⟩

theorem join_3 {l v : Nat} (hl : l < 4) (hv : v < 64) :
    lowBits 2 l ++ lowBits 6 v = lowBits 8 (l * 64 + v) :=
  (by decide +kernel : ∀ (l : Fin 4) (v : Fin 64),
    lowBits 2 l ++ lowBits 6 v = lowBits 8 (l.val * 64 + v.val)) ⟨l, hl⟩ ⟨v, hv⟩

/-- The number of bits kept from the previous character -/
def keptBits : Nat → Nat
  | 1 => 6
  | 2 => 4
  | 3 => 2
  | _ => 0

theorem a2b_pads {quad left : Nat} (hq : quad ≤ 3) (n : Nat) : ∀ pads, quad + pads < 4 → ∀ raw,
    a2bLoop quad left pads (List.replicate n 61) = .ok raw ↔
      raw = [] ∧ (quad = 0 ∨ 2 ≤ quad ∧ 4 ≤ quad + pads + n) := by
  induction n with
  | zero =>
    intro pads hp raw
    simp only [List.replicate_zero, a2bLoop]
    split
    · next h => simp only [Except.ok.injEq, h, true_or, and_true]; exact eq_comm
    · next h => simp [h]; omega
  | succ n ih =>
    intro pads hp raw
    simp only [List.replicate_succ, a2bLoop, if_true]
    split
    · split
      · simp only [Except.ok.injEq]
        constructor
        · intro h; exact ⟨h.symm, Or.inr ⟨by assumption, by omega⟩⟩
        · intro h; exact h.1.symm
      · rw [ih (pads + 1) (by omega)]
        refine and_congr_right fun _ => ?_
        omega
    · rw [ih pads hp]
      refine and_congr_right fun _ => ?_
      omega

/-- What is decoded from a byte on -/
theorem decode_cons {x : Nat} (hx : x < 256) {r : Except Exc Bytes} {kept bits : List Bool} {raw : Bytes} {ok : Prop}
    (h : ∀ out, r = .ok out ↔ ∃ extra : List Bool, extra.length < 6 ∧ kept ++ bits = (out.map byteBits).flatten ++ extra ∧ ok) :
    (match r with
      | .ok out => Except.ok (UInt8.ofNat x :: out)
      | .error e => .error e) = .ok raw ↔
    ∃ extra : List Bool, extra.length < 6 ∧ lowBits 8 x ++ kept ++ bits = (raw.map byteBits).flatten ++ extra ∧ ok := by
  constructor
  · intro hr
    split at hr
    · next out =>
      cases hr
      obtain ⟨extra, h1, h2, h3⟩ := (h out).mp rfl
      exact ⟨extra, h1, by simp [byteBits_ofNat hx, ← h2], h3⟩
    · cases hr
  · rintro ⟨extra, h1, h2, h3⟩
    cases raw with
    | nil =>
      have := congrArg List.length h2
      simp [lowBits_length] at this
      omega
    | cons a out =>
      simp only [List.map_cons, List.flatten_cons, List.append_assoc] at h2
      obtain ⟨e1, e2⟩ := List.append_inj h2 (by simp [lowBits_length, byteBits_length])
      rw [← byteBits_ofNat hx] at e1
      have := byteBits_inj e1
      subst this
      rw [(h out).mpr ⟨extra, h1, e2, h3⟩]

theorem a2b_body (n : Nat) (body : PyStr) : ∀ quad left, quad ≤ 3 → left < 2 ^ keptBits quad → 61 ∉ body → ∀ raw,
    a2bLoop quad left 0 (body ++ List.replicate n 61) = .ok raw ↔
      ∃ extra : List Bool, extra.length < 6 ∧
        lowBits (keptBits quad) left ++ ((body.filterMap b64Val).map sextetBits).flatten =
          (raw.map byteBits).flatten ++ extra ∧
        ((quad + (body.filterMap b64Val).length) % 4 = 0 ∨
          4 ≤ (quad + (body.filterMap b64Val).length) % 4 + n) := by
  induction body with
  | nil =>
    intro quad left hq hl _ raw
    rw [List.nil_append, a2b_pads hq n 0 (by omega) raw]
    simp only [List.filterMap_nil, List.map_nil, List.flatten_nil, List.append_nil, List.length_nil, Nat.add_zero]
    constructor
    · rintro ⟨rfl, h⟩
      refine ⟨lowBits (keptBits quad) left, ?_, by simp, by omega⟩
      rw [lowBits_length]
      match quad, hq with
      | 0, _ => decide
      | 1, _ => omega
      | 2, _ => decide
      | 3, _ => decide
    · rintro ⟨extra, h1, h2, h3⟩
      have hlen := congrArg List.length h2
      rw [lowBits_length, List.length_append] at hlen
      cases raw with
      | nil =>
        refine ⟨rfl, ?_⟩
        simp only [List.map_nil, List.flatten_nil, List.length_nil] at hlen
        match quad, hq with
        | 0, _ => omega
        | 1, _ => simp [keptBits] at hlen; omega
        | 2, _ => omega
        | 3, _ => omega
      | cons a raw =>
        simp only [List.map_cons, List.flatten_cons, List.length_append, byteBits_length] at hlen
        match quad, hq with
        | 0, _ => simp [keptBits] at hlen; omega
        | 1, _ => simp [keptBits] at hlen; omega
        | 2, _ => simp [keptBits] at hlen; omega
        | 3, _ => simp [keptBits] at hlen; omega
  | cons c body ih =>
    intro quad left hq hl hb raw
    have hc : c ≠ 61 := fun h => hb (by simp [h])
    have hb' : 61 ∉ body := fun h => hb (by simp [h])
    rw [List.cons_append, a2bLoop, if_neg hc]
    cases hv : b64Val c with
    | none => simp only [List.filterMap_cons, hv]; exact ih quad left hq hl hb' raw
    | some v =>
      have hv64 := b64Val_lt hv
      simp only [List.filterMap_cons, hv, List.map_cons, List.flatten_cons, List.length_cons]
      have hs : sextetBits v = lowBits 6 v := rfl
      rw [hs, ← List.append_assoc]
      match quad, hq with
      | 0, _ =>
        have := ih 1 v (by omega) hv64 hb' raw
        simp only [keptBits] at this ⊢
        rw [this]
        simp only [lowBits, List.range_zero, List.map_nil, List.nil_append, Nat.add_comm, Nat.add_left_comm]
      | 1, _ =>
        simp only [keptBits] at hl ⊢
        rw [join_1 hl hv64]
        refine (decode_cons (by omega) (ih 2 (v % 16) (by omega) (by simp only [keptBits]; omega) hb')).trans ?_
        rw [show 1 + ((body.filterMap b64Val).length + 1) = 2 + (body.filterMap b64Val).length by omega]
        rfl
      | 2, _ =>
        simp only [keptBits] at hl ⊢
        rw [join_2 hl hv64]
        refine (decode_cons (by omega) (ih 3 (v % 4) (by omega) (by simp only [keptBits]; omega) hb')).trans ?_
        rw [show 2 + ((body.filterMap b64Val).length + 1) = 3 + (body.filterMap b64Val).length by omega]
        rfl
      | 3, _ =>
        simp only [keptBits] at hl ⊢
        rw [join_3 hl hv64]
        refine (decode_cons (by omega) (ih 0 0 (by omega) (by simp [keptBits]) hb')).trans ?_
        rw [show (3 + ((body.filterMap b64Val).length + 1)) % 4 = (0 + (body.filterMap b64Val).length) % 4 by omega]
        simp only [keptBits, lowBits, List.range_zero, List.map_nil, List.append_nil]

/-- Decoding, when padding is at the end -/
theorem b64decode_iff {s : PyStr} (hs : ∃ body n, s = body ++ List.replicate n 61 ∧ 61 ∉ body) (b : Bytes) :
    b64decode s = .ok b ↔ Base64Of s b := by
  have hval : b64Val = b64Alphabet.idxOf? := funext b64Val_idx
  constructor
  · intro h
    obtain ⟨body, n, rfl, hb⟩ := hs
    obtain ⟨extra, h1, h2, h3⟩ := (a2b_body n body 0 0 (by omega) (by decide) hb b).mp h
    rw [hval] at h2 h3
    exact ⟨body, n, extra, rfl, hb, h1, by simpa [keptBits, lowBits] using h2, by simpa using h3⟩
  · rintro ⟨body, n, extra, rfl, hb, h1, h2, h3⟩
    rw [← hval] at h2 h3
    exact (a2b_body n body 0 0 (by omega) (by decide) hb b).mpr
      ⟨extra, h1, by simpa [keptBits, lowBits] using h2, by simpa using h3⟩

end WS
