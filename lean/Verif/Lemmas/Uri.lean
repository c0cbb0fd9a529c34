import Verif.Model.Uri
import Verif.Lemmas.HttpInt

/-!
# Lemmas about URIs
-/

namespace WS.Uri

/-! ## Splitting strings -/

theorem partition_none {c : Nat} {s : PyStr} : partition c s = none ↔ c ∉ s := by
  induction s with
  | nil => simp [partition]
  | cons x xs ih =>
    simp only [partition]
    split
    · rename_i h; subst h; simp
    · rename_i h
      split
      · rename_i h'
        simp only [List.mem_cons, not_or, true_iff]
        exact ⟨fun e => h e.symm, ih.1 h'⟩
      · rename_i h'
        simp only [reduceCtorEq, false_iff]
        intro hn
        rw [List.mem_cons, not_or] at hn
        rw [ih.2 hn.2] at h'
        cases h'

theorem partition_some {c : Nat} {s a b : PyStr} :
    partition c s = some (a, b) ↔ s = a ++ c :: b ∧ c ∉ a := by
  induction s generalizing a with
  | nil => simp [partition]
  | cons x xs ih =>
    simp only [partition]
    split
    · rename_i h
      subst h
      constructor
      · intro h; cases h; simp
      · rintro ⟨h1, h2⟩
        rcases a with _ | ⟨y, a⟩
        · cases h1; rfl
        · simp only [List.cons_append, List.cons.injEq] at h1
          exact absurd (by simp [h1.1]) h2
    · rename_i h
      split
      · rename_i h'
        simp only [reduceCtorEq, false_iff, not_and, Classical.not_not]
        intro he
        rcases a with _ | ⟨y, a⟩
        · cases he; exact absurd rfl h
        · simp only [List.cons_append, List.cons.injEq] at he
          have := partition_none.1 h'
          rw [he.2] at this
          exact absurd (by simp) this
      · rename_i a' b' h'
        constructor
        · intro he
          cases he
          obtain ⟨e1, e2⟩ := ih.1 h'
          exact ⟨by rw [e1]; rfl, by simp only [List.mem_cons, not_or]; exact ⟨fun e => h e.symm, e2⟩⟩
        · rintro ⟨h1, h2⟩
          rcases a with _ | ⟨y, a⟩
          · cases h1; exact absurd rfl h
          · simp only [List.cons_append, List.cons.injEq] at h1
            obtain ⟨rfl, h1⟩ := h1
            have := ih.2 ⟨h1, fun hm => h2 (List.mem_cons_of_mem _ hm)⟩
            rw [h'] at this
            cases this
            rfl

theorem rpartition_none {c : Nat} {s : PyStr} : rpartition c s = none ↔ c ∉ s := by
  induction s with
  | nil => simp [rpartition]
  | cons x xs ih =>
    simp only [rpartition]
    split
    · rename_i h'
      simp only [reduceCtorEq, false_iff]
      intro hn
      rw [List.mem_cons, not_or] at hn
      rw [ih.2 hn.2] at h'
      cases h'
    · rename_i h'
      split
      · rename_i h; subst h; simp
      · rename_i h
        simp only [List.mem_cons, not_or, true_iff]
        exact ⟨fun e => h e.symm, ih.1 h'⟩

theorem rpartition_append {c : Nat} {a b : PyStr} (h : c ∉ b) :
    rpartition c (a ++ c :: b) = some (a, b) := by
  induction a with
  | nil => simp [rpartition, rpartition_none.2 h]
  | cons x a ih => simp [rpartition, ih]

theorem rpartition_some {c : Nat} {s a b : PyStr} (h : rpartition c s = some (a, b)) :
    s = a ++ c :: b ∧ c ∉ b := by
  induction s generalizing a with
  | nil => simp [rpartition] at h
  | cons x xs ih =>
    simp only [rpartition] at h
    split at h
    · rename_i a' b' h'
      cases h
      obtain ⟨e1, e2⟩ := ih h'
      exact ⟨by rw [e1]; rfl, e2⟩
    · rename_i h'
      split at h
      · rename_i he
        cases h
        subst he
        exact ⟨rfl, rpartition_none.1 h'⟩
      · cases h

theorem partition_map {c : Nat} {f : Nat → Nat} (hf : ∀ x, f x = c ↔ x = c) (s : PyStr) :
    partition c (s.map f) = (partition c s).map fun p => (p.1.map f, p.2.map f) := by
  induction s with
  | nil => rfl
  | cons x xs ih =>
    simp only [List.map_cons, partition, hf, ih]
    split
    · rfl
    · cases partition c xs <;> rfl

theorem splitOn_map {c : Nat} {f : Nat → Nat} (hf : ∀ x, f x = c ↔ x = c) (s : PyStr) :
    splitOn c (s.map f) = (splitOn c s).map (List.map f) := by
  induction s with
  | nil => rfl
  | cons x xs ih =>
    simp only [List.map_cons, splitOn, hf, ih]
    split
    · rfl
    · cases splitOn c xs <;> rfl

/-! ## Addresses -/

/-- The function that `pyLower` maps -/
def lowerChar (c : Nat) : Nat := if 65 ≤ c ∧ c ≤ 90 then c + 32 else c

theorem pyLower_map (s : PyStr) : pyLower s = s.map lowerChar := rfl

theorem lowerChar_iff {c : Nat} (h : c < 65 ∨ (90 < c ∧ c < 97) ∨ 122 < c) (x : Nat) :
    lowerChar x = c ↔ x = c := by
  unfold lowerChar
  split <;> omega

theorem contains_map_lower {c : Nat} (h : c < 65 ∨ (90 < c ∧ c < 97) ∨ 122 < c) (s : PyStr) :
    (s.map lowerChar).contains c = s.contains c := by
  have : c ∈ s.map lowerChar ↔ c ∈ s := by
    rw [List.mem_map]
    constructor
    · rintro ⟨x, hx, he⟩
      rw [lowerChar_iff h] at he
      exact he ▸ hx
    · intro hc
      exact ⟨c, hc, (lowerChar_iff h c).2 rfl⟩
  rw [Bool.eq_iff_iff, List.contains_iff_mem, List.contains_iff_mem, this]

theorem all_map_lower {p : Nat → Bool} (hp : ∀ c, p (lowerChar c) = p c) (s : PyStr) :
    (s.map lowerChar).all p = s.all p := by
  induction s with
  | nil => rfl
  | cons x xs ih => simp [hp, ih]

theorem isDigit_lower (c : Nat) : isDigit (lowerChar c) = isDigit c := by
  unfold lowerChar
  split
  · rw [Bool.eq_iff_iff]
    simp only [isDigit, Bool.and_eq_true, decide_eq_true_eq]
    omega
  · rfl

theorem isHexDigit_lower (c : Nat) : isHexDigit (lowerChar c) = isHexDigit c := by
  unfold lowerChar
  split
  · rw [Bool.eq_iff_iff]
    simp only [isHexDigit, isDigit, Bool.and_eq_true, Bool.or_eq_true, decide_eq_true_eq]
    omega
  · rfl

theorem isHextet_lower (s : PyStr) : isHextet (s.map lowerChar) = isHextet s := by
  simp [isHextet, all_map_lower isHexDigit_lower]

theorem map_lower_digits {s : PyStr} (h : s.all isDigit = true) : s.map lowerChar = s := by
  induction s with
  | nil => rfl
  | cons x xs ih =>
    simp only [List.all_cons, Bool.and_eq_true] at h
    rw [List.map_cons, ih h.2]
    congr 1
    have := h.1
    simp only [isDigit, Bool.and_eq_true, decide_eq_true_eq] at this
    unfold lowerChar
    split <;> omega

theorem isOctet_lower (s : PyStr) : isOctet (s.map lowerChar) = isOctet s := by
  cases h : s.all isDigit with
  | true => rw [map_lower_digits h]
  | false =>
    have h' : (s.map lowerChar).all isDigit = false := by rw [all_map_lower isDigit_lower]; exact h
    simp [isOctet, isDigits, h, h']

theorem all_octets_lower (l : List PyStr) : (l.map (List.map lowerChar)).all isOctet = l.all isOctet := by
  induction l with
  | nil => rfl
  | cons x xs ih => simp only [List.map_cons, List.all_cons, isOctet_lower, ih]

theorem all_hextets_lower (l : List PyStr) :
    (l.map (List.map lowerChar)).all isHextet = l.all isHextet := by
  induction l with
  | nil => rfl
  | cons x xs ih => simp only [List.map_cons, List.all_cons, isHextet_lower, ih]

theorem isIPv4_lower (s : PyStr) : isIPv4 (s.map lowerChar) = isIPv4 s := by
  unfold isIPv4
  rw [contains_map_lower (by omega), splitOn_map (lowerChar_iff (by omega)), all_octets_lower,
    List.length_map]

theorem skips_lower (l : List PyStr) : skips (l.map (List.map lowerChar)) = skips l := by
  unfold skips
  rw [List.length_map]
  congr 1
  funext i
  rw [List.getElem?_map]
  cases l[i]? with
  | none => rfl
  | some x => cases x <;> rfl

theorem hextetsOk_lower (l : List PyStr) : hextetsOk (l.map (List.map lowerChar)) = hextetsOk l := by
  have h1 : ((l.map (List.map lowerChar)).head? = some []) ↔ l.head? = some [] := by
    cases l with
    | nil => simp
    | cons x xs => cases x <;> simp
  have h2 : ((l.map (List.map lowerChar)).getLast? = some []) ↔ l.getLast? = some [] := by
    rw [List.getLast?_map]
    cases l.getLast? with
    | none => simp
    | some x => cases x <;> simp
  unfold hextetsOk
  rw [skips_lower]
  split
  · rw [List.length_map, all_hextets_lower]
  · simp only [h1, h2, List.length_map, ← List.map_take, ← List.map_drop, all_hextets_lower, ne_eq]
  · rfl

theorem expandV4_lower (l : List PyStr) :
    expandV4 (l.map (List.map lowerChar)) = (expandV4 l).map (List.map (List.map lowerChar)) := by
  unfold expandV4
  rw [List.getLast?_map]
  cases l.getLast? with
  | none => rfl
  | some x =>
    simp only [Option.map_some, contains_map_lower (show (46 < 65 ∨ _) by omega), isIPv4_lower]
    split
    · split
      · simp [lowerChar, List.map_dropLast]
      · rfl
    · rfl

theorem isIPv6Addr_lower (s : PyStr) : isIPv6Addr (s.map lowerChar) = isIPv6Addr s := by
  unfold isIPv6Addr
  simp only [splitOn_map (lowerChar_iff (show (58 < 65 ∨ _) by omega)), List.length_map, expandV4_lower]
  split
  · rfl
  · cases expandV4 (splitOn 58 s) with
    | none => rfl
    | some p => simp [hextetsOk_lower]

theorem splitOn_length {c : Nat} {s : PyStr} (h : c ∉ s) : (splitOn c s).length = 1 := by
  induction s with
  | nil => rfl
  | cons x xs ih =>
    rw [List.mem_cons, not_or] at h
    have := ih h.2
    simp only [splitOn]
    rw [if_neg (fun e => h.1 e.symm)]
    split
    · rfl
    · rename_i p ps he
      rw [he] at this
      simpa using this

theorem isIPv6Addr_colon {s : PyStr} (h : isIPv6Addr s = true) : 58 ∈ s := by
  refine Classical.byContradiction fun hn => ?_
  simp [isIPv6Addr, splitOn_length hn] at h

theorem isV6_colon {s : PyStr} (h : isV6 s = true) : 58 ∈ s := by
  simp only [isV6, isIPv6, Bool.and_eq_true] at h
  have h := h.2.2
  split at h
  · exact isIPv6Addr_colon h
  · rename_i a b he
    simp only [Bool.and_eq_true] at h
    rw [(partition_some.1 he).1]
    exact List.mem_append_left _ (isIPv6Addr_colon h.2)

/-- An IPv4 address contains neither colons nor percent signs. -/
theorem isOctet_chars {s : PyStr} (h : isOctet s = true) : ∀ c ∈ s, isDigit c = true := by
  simp only [isOctet, isDigits, Bool.and_eq_true, List.all_eq_true] at h
  exact h.1.1.1.2

theorem splitOn_mem {c x : Nat} {s : PyStr} (h : x ∈ s) (hx : x ≠ c) : ∃ p ∈ splitOn c s, x ∈ p := by
  induction s with
  | nil => cases h
  | cons y ys ih =>
    simp only [splitOn]
    split
    · rename_i he
      rcases List.mem_cons.1 h with rfl | h
      · exact absurd he hx
      · obtain ⟨p, hp, hm⟩ := ih h
        exact ⟨p, List.mem_cons_of_mem _ hp, hm⟩
    · split
      · rename_i he
        rcases List.mem_cons.1 h with rfl | h
        · exact ⟨[x], by simp, by simp⟩
        · obtain ⟨p, hp, -⟩ := ih h
          rw [he] at hp
          cases hp
      · rename_i q qs he
        rcases List.mem_cons.1 h with rfl | h
        · exact ⟨x :: q, by simp, by simp⟩
        · obtain ⟨p, hp, hm⟩ := ih h
          rw [he] at hp
          rcases List.mem_cons.1 hp with rfl | hp
          · exact ⟨y :: p, by simp, by simp [hm]⟩
          · exact ⟨p, by simp [hp], hm⟩

theorem isIPv4_chars {s : PyStr} (h : isIPv4 s = true) {c : Nat} (hc : c ∈ s) :
    isDigit c = true ∨ c = 46 := by
  simp only [isIPv4, Bool.and_eq_true, List.all_eq_true] at h
  by_cases he : c = 46
  · exact .inr he
  · obtain ⟨p, hp, hm⟩ := splitOn_mem hc he
    exact .inl (isOctet_chars (h.2 p hp) c hm)

theorem isV6_lower {h zone : PyStr} {s : PyStr} (hp : partition 37 s = some (h, zone))
    (hv : isV6 s = true) : isV6 (pyLower h ++ 37 :: zone) = true := by
  obtain ⟨hs, hn⟩ := partition_some.1 hp
  have hn' : 37 ∉ pyLower h := by
    have := contains_map_lower (c := 37) (by omega) h
    rw [Bool.eq_iff_iff, List.contains_iff_mem, List.contains_iff_mem] at this
    rw [pyLower_map]
    exact fun hm => hn (this.1 hm)
  have hp' : partition 37 (pyLower h ++ 37 :: zone) = some (pyLower h, zone) :=
    partition_some.2 ⟨rfl, hn'⟩
  simp only [isV6, isIPv6, hp, hp', Bool.and_eq_true, Bool.not_eq_true'] at hv ⊢
  rw [pyLower_map, isIPv6Addr_lower]
  refine ⟨?_, ?_, hv.2.2⟩
  · cases hc : isIPv4 (h.map lowerChar ++ 37 :: zone) with
    | false => rfl
    | true =>
      have := isIPv4_chars hc (c := 37) (by simp)
      simp [isDigit] at this
  · have h47 := hv.2.1
    rw [hs] at h47
    have hh := contains_map_lower (c := 47) (by omega) h
    rw [Bool.eq_false_iff, ne_eq, List.contains_iff_mem] at h47 ⊢
    rw [Bool.eq_iff_iff, List.contains_iff_mem, List.contains_iff_mem] at hh
    intro hm
    apply h47
    rcases List.mem_append.1 hm with hm | hm
    · exact List.mem_append_left _ (hh.1 hm)
    · exact List.mem_append_right _ hm

theorem isV6_lower' {s : PyStr} (hp : partition 37 s = none) (hv : isV6 s = true) :
    isV6 (pyLower s) = true := by
  have hp' : partition 37 (pyLower s) = none := by
    rw [pyLower_map, partition_map (lowerChar_iff (by omega)), hp]; rfl
  simp only [isV6, isIPv6, hp, hp'] at hv ⊢
  rw [pyLower_map, isIPv4_lower, isIPv6Addr_lower, contains_map_lower (by omega)]
  exact hv

end WS.Uri
