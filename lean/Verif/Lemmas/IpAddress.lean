import Verif.Lemmas.Uri
import Verif.Spec.IpAddress

/-!
# `ipaddress` accepts the addresses of RFC 3986
-/

namespace WS.Uri

open Spec

/-! ## Splitting and joining -/

/-- `c.join(parts)` -/
def joinOn (c : Nat) : List PyStr → PyStr
  | [] => []
  | [p] => p
  | p :: q :: qs => p ++ c :: joinOn c (q :: qs)

theorem splitOn_ne_nil (c : Nat) (s : PyStr) : splitOn c s ≠ [] := by
  cases s with
  | nil => simp [splitOn]
  | cons x xs =>
    simp only [splitOn]
    split
    · simp
    · split <;> simp

theorem splitOn_self {c : Nat} {s : PyStr} (h : c ∉ s) : splitOn c s = [s] := by
  induction s with
  | nil => rfl
  | cons x xs ih =>
    rw [List.mem_cons, not_or] at h
    simp only [splitOn, if_neg (fun e => h.1 (Eq.symm e)), ih h.2]

theorem splitOn_append (c : Nat) (a b : PyStr) : splitOn c (a ++ c :: b) = splitOn c a ++ splitOn c b := by
  induction a with
  | nil => simp [splitOn]
  | cons x xs ih =>
    rw [List.cons_append, splitOn, splitOn]
    split
    · rw [ih]; rfl
    · rw [ih]
      cases hs : splitOn c xs with
      | nil => exact absurd hs (splitOn_ne_nil c xs)
      | cons p ps => rfl

theorem joinOn_cons {c : Nat} {p : PyStr} {ps : List PyStr} (h : ps ≠ []) :
    joinOn c (p :: ps) = p ++ c :: joinOn c ps := by
  cases ps with
  | nil => exact absurd rfl h
  | cons q qs => rfl

theorem joinOn_append {c : Nat} {ps qs : List PyStr} (hp : ps ≠ []) (hq : qs ≠ []) :
    joinOn c (ps ++ qs) = joinOn c ps ++ c :: joinOn c qs := by
  induction ps with
  | nil => exact absurd rfl hp
  | cons p ps ih =>
    cases ps with
    | nil => rw [List.singleton_append, joinOn_cons hq]; rfl
    | cons r rs =>
      rw [List.cons_append, joinOn_cons (by simp), ih (by simp), joinOn_cons (p := p) (ps := r :: rs) (by simp)]
      simp

theorem joinOn_splitOn (c : Nat) (s : PyStr) : joinOn c (splitOn c s) = s := by
  induction s with
  | nil => rfl
  | cons x xs ih =>
    rw [splitOn]
    split
    · rename_i h
      rw [joinOn_cons (splitOn_ne_nil _ _), ih, h]; rfl
    · cases hs : splitOn c xs with
      | nil => exact absurd hs (splitOn_ne_nil c xs)
      | cons p ps =>
        rw [hs] at ih
        simp only
        cases ps with
        | nil => rw [← ih]; rfl
        | cons q qs =>
          rw [joinOn_cons (by simp)] at ih ⊢
          rw [← ih]; rfl

theorem splitOn_not_mem {c : Nat} {s p : PyStr} (h : p ∈ splitOn c s) : c ∉ p := by
  induction s generalizing p with
  | nil =>
    simp only [splitOn, List.mem_singleton] at h
    subst h
    simp
  | cons x xs ih =>
    rw [splitOn] at h
    split at h
    · rcases List.mem_cons.1 h with rfl | h
      · simp
      · exact ih h
    · rename_i hx
      cases hs : splitOn c xs with
      | nil => exact absurd hs (splitOn_ne_nil c xs)
      | cons q qs =>
        rw [hs] at h ih
        rcases List.mem_cons.1 h with rfl | h
        · have := ih (List.mem_cons_self ..)
          rw [List.mem_cons, not_or]
          exact ⟨fun e => hx e.symm, this⟩
        · exact ih (List.mem_cons_of_mem _ h)

theorem splitOn_joinOn {c : Nat} {ps : List PyStr} (h : ∀ p ∈ ps, c ∉ p) (hne : ps ≠ []) :
    splitOn c (joinOn c ps) = ps := by
  induction ps with
  | nil => exact absurd rfl hne
  | cons p ps ih =>
    cases ps with
    | nil => exact splitOn_self (h p (by simp))
    | cons q qs =>
      rw [joinOn_cons (by simp), splitOn_append, ih (fun p hp => h p (List.mem_cons_of_mem _ hp)) (by simp),
        splitOn_self (h p (by simp))]
      rfl

/-! ## IPv4 -/

theorem isDigit_iff {c : Nat} : isDigit c = true ↔ Digit c := by
  simp [isDigit, Digit]

theorem isHexDigit_iff {c : Nat} : isHexDigit c = true ↔ HexDig c := by
  simp [isHexDigit, HexDig, isDigit_iff, or_assoc]

theorem isOctet_iff {s : PyStr} : isOctet s = true ↔ DecOctet s := by
  constructor
  · intro h
    simp only [isOctet, isDigits, Bool.and_eq_true, Bool.or_eq_true, decide_eq_true_eq, List.all_eq_true] at h
    obtain ⟨⟨⟨⟨h1, h2⟩, h3⟩, h4⟩, h5⟩ := h
    have h2 : ∀ c ∈ s, Digit c := fun c hc => isDigit_iff.1 (h2 c hc)
    match s, h1, h2, h3, h4, h5 with
    | [], h1, _, _, _, _ => simp at h1
    | [a], _, h2, _, _, _ => exact .one (h2 a (by simp))
    | [a, b], _, h2, _, h4, h5 =>
      have ha := h2 a (by simp)
      have hb := h2 b (by simp)
      simp only [List.head?_cons, ne_eq, Option.some.injEq, List.cons.injEq, reduceCtorEq, and_false, false_or] at h4
      unfold Digit at ha hb
      exact .two (by omega) hb
    | [a, b, c], _, h2, _, h4, h5 =>
      have ha := h2 a (by simp)
      have hb := h2 b (by simp)
      have hc := h2 c (by simp)
      simp only [List.head?_cons, ne_eq, Option.some.injEq, List.cons.injEq, reduceCtorEq, and_false, false_or] at h4
      simp only [digitsValue, List.foldl_cons, List.foldl_nil] at h5
      unfold Digit at ha hb hc
      have : a = 49 ∨ a = 50 := by omega
      rcases this with rfl | rfl
      · exact .hundred hb hc
      · by_cases hb' : b ≤ 52
        · exact .twoHundred (by omega) hc
        · obtain rfl : b = 53 := by omega
          exact .top (by omega)
    | _ :: _ :: _ :: _ :: _, _, _, h3, _, _ => simp at h3
  · intro h
    simp only [isOctet, isDigits, Bool.and_eq_true, Bool.or_eq_true, decide_eq_true_eq, List.all_eq_true]
    cases h with
    | one ha =>
      rename_i a
      have ha' := isDigit_iff.2 ha
      unfold Digit at ha
      refine ⟨⟨⟨⟨by simp, by simpa using ha'⟩, by simp⟩, ?_⟩, by simp [digitsValue]; omega⟩
      by_cases h0 : a = 48
      · left; subst h0; rfl
      · right; simpa using h0
    | two ha hb =>
      rename_i a b
      have ha' : isDigit a = true := isDigit_iff.2 (by unfold Digit; omega)
      have hb' := isDigit_iff.2 hb
      unfold Digit at hb
      refine ⟨⟨⟨⟨by simp, by simp [ha', hb']⟩, by simp⟩, .inr (by simp; omega)⟩, by simp [digitsValue]; omega⟩
    | hundred hb hc =>
      rename_i b c
      have hb' := isDigit_iff.2 hb
      have hc' := isDigit_iff.2 hc
      unfold Digit at hb hc
      refine ⟨⟨⟨⟨by simp, by simp [hb', hc']; decide⟩, by simp⟩, .inr (by simp)⟩, by simp [digitsValue]; omega⟩
    | twoHundred hb hc =>
      rename_i b c
      have hb' : isDigit b = true := isDigit_iff.2 (by unfold Digit; omega)
      have hc' := isDigit_iff.2 hc
      unfold Digit at hc
      refine ⟨⟨⟨⟨by simp, by simp [hb', hc']; decide⟩, by simp⟩, .inr (by simp)⟩, by simp [digitsValue]; omega⟩
    | top hc =>
      rename_i c
      have hc' : isDigit c = true := isDigit_iff.2 (by unfold Digit; omega)
      refine ⟨⟨⟨⟨by simp, by simp [hc']; decide⟩, by simp⟩, .inr (by simp)⟩, by simp [digitsValue]; omega⟩

theorem isIPv4_iff {s : PyStr} : isIPv4 s = true ↔ IPv4 s := by
  constructor
  · intro h
    simp only [isIPv4, Bool.and_eq_true, decide_eq_true_eq, List.all_eq_true] at h
    obtain ⟨⟨-, h1⟩, h2⟩ := h
    have hj := joinOn_splitOn 46 s
    match hs : splitOn 46 s, h1 with
    | [a, b, c, d], _ =>
      rw [hs] at h2 hj
      refine ⟨a, b, c, d, isOctet_iff.1 (h2 _ (by simp)), isOctet_iff.1 (h2 _ (by simp)),
        isOctet_iff.1 (h2 _ (by simp)), isOctet_iff.1 (h2 _ (by simp)), ?_⟩
      rw [← hj]
      simp [joinOn]
  · rintro ⟨a, b, c, d, ha, hb, hc, hd, rfl⟩
    have hdig : ∀ {x}, DecOctet x → ∀ y ∈ x, Digit y :=
      fun hx y hy => isDigit_iff.1 (isOctet_chars (isOctet_iff.2 hx) y hy)
    have h46 : ∀ {x}, DecOctet x → 46 ∉ x := fun hx hm => by
      have := hdig hx _ hm
      unfold Digit at this
      omega
    have h47 : ∀ {x}, DecOctet x → 47 ∉ x := fun hx hm => by
      have := hdig hx _ hm
      unfold Digit at this
      omega
    have hj : a ++ [46] ++ b ++ [46] ++ c ++ [46] ++ d = joinOn 46 [a, b, c, d] := by simp [joinOn]
    have hs : splitOn 46 (a ++ [46] ++ b ++ [46] ++ c ++ [46] ++ d) = [a, b, c, d] := by
      rw [hj]
      refine splitOn_joinOn ?_ (by simp)
      intro p hp
      simp only [List.mem_cons, List.not_mem_nil, or_false] at hp
      rcases hp with rfl | rfl | rfl | rfl
      · exact h46 ha
      · exact h46 hb
      · exact h46 hc
      · exact h46 hd
    unfold isIPv4
    rw [hs]
    have hc47 : (a ++ [46] ++ b ++ [46] ++ c ++ [46] ++ d).contains 47 = false := by
      rw [← Bool.not_eq_true, List.contains_iff_mem]
      simp [h47 ha, h47 hb, h47 hc, h47 hd]
    rw [hc47]
    simp [isOctet_iff.2 ha, isOctet_iff.2 hb, isOctet_iff.2 hc, isOctet_iff.2 hd]

theorem isIPv4_dot {s : PyStr} (h : isIPv4 s = true) : 46 ∈ s := by
  obtain ⟨a, b, c, d, -, -, -, -, rfl⟩ := isIPv4_iff.1 h
  simp

/-! ## IPv6 -/

theorem isHextet_iff {s : PyStr} : isHextet s = true ↔ H16 s := by
  simp only [isHextet, H16, Bool.and_eq_true, decide_eq_true_eq, List.all_eq_true, isHexDigit_iff]
  cases s with
  | nil => simp
  | cons x xs => simp; grind

theorem h16_not_mem {s : PyStr} (h : H16 s) {c : Nat} (hc : c < 48 ∨ 57 < c ∧ c < 65) : c ∉ s := by
  intro hm
  have := h.2.2 c hm
  unfold HexDig Digit at this
  omega

/-- Parts of an address -/
def GroupParts (v4 : Bool) (ps : List PyStr) (n : Nat) : Prop :=
  (ps ≠ [] ∧ (∀ p ∈ ps, H16 p) ∧ n = ps.length) ∨
    (v4 = true ∧ ∃ qs l, ps = qs ++ [l] ∧ (∀ p ∈ qs, H16 p) ∧ IPv4 l ∧ n = qs.length + 2)

theorem groups_parts {v4 : Bool} {s : PyStr} {n : Nat} (h : Groups v4 s n) :
    GroupParts v4 (splitOn 58 s) n := by
  induction h with
  | last hh =>
    rw [splitOn_self (h16_not_mem hh (by omega))]
    exact .inl ⟨by simp, by simpa using hh, rfl⟩
  | ls32 hv hs =>
    have hn : 58 ∉ _ := fun hm => by
      have := isIPv4_chars (isIPv4_iff.2 hs) hm
      revert this
      decide
    rw [splitOn_self hn]
    exact .inr ⟨hv, [], _, rfl, by simp, hs, rfl⟩
  | cons hh _ ih =>
    rename_i h' s' n' _
    rw [List.append_assoc, List.singleton_append, splitOn_append, splitOn_self (h16_not_mem hh (by omega)),
      List.singleton_append]
    rcases ih with ⟨h1, h2, h3⟩ | ⟨hv, qs, l, h1, h2, h3, h4⟩
    · refine .inl ⟨by simp, ?_, by simp [h3]⟩
      intro p hp
      rcases List.mem_cons.1 hp with rfl | hp
      · exact hh
      · exact h2 p hp
    · refine .inr ⟨hv, h' :: qs, l, by rw [h1]; rfl, ?_, h3, by simp [h4]⟩
      intro p hp
      rcases List.mem_cons.1 hp with rfl | hp
      · exact hh
      · exact h2 p hp

theorem parts_groups {v4 : Bool} {ps : List PyStr} {n : Nat} (h : GroupParts v4 ps n) :
    Groups v4 (joinOn 58 ps) n := by
  induction ps generalizing n with
  | nil =>
    rcases h with ⟨h1, -⟩ | ⟨-, qs, l, h1, -⟩
    · exact absurd rfl h1
    · exact absurd h1.symm (by simp)
  | cons p ps ih =>
    cases ps with
    | nil =>
      rcases h with ⟨-, h2, h3⟩ | ⟨hv, qs, l, h1, h2, h3, h4⟩
      · subst h3
        exact .last (h2 p (by simp))
      · cases qs with
        | nil =>
          cases h1
          subst h4
          exact .ls32 hv h3
        | cons q qs => simp at h1
    | cons q ps =>
      rw [joinOn_cons (by simp)]
      have hcons : ∀ {s : PyStr} {n}, H16 p → Groups v4 s n → Groups v4 (p ++ 58 :: s) (n + 1) := by
        intro s n hp hs
        have := Groups.cons hp hs
        simpa using this
      rcases h with ⟨-, h2, h3⟩ | ⟨hv, qs, l, h1, h2, h3, h4⟩
      · subst h3
        exact hcons (h2 p (by simp)) (ih (.inl ⟨by simp, fun x hx => h2 x (List.mem_cons_of_mem _ hx), rfl⟩))
      · cases qs with
        | nil => simp at h1
        | cons r rs =>
          simp only [List.cons_append, List.cons.injEq] at h1
          obtain ⟨rfl, h1⟩ := h1
          subst h4
          have := ih (n := rs.length + 2)
            (.inr ⟨hv, rs, l, h1, fun x hx => h2 x (List.mem_cons_of_mem _ hx), h3, rfl⟩)
          have := hcons (h2 p (by simp)) this
          simpa using this

/-- Parts of an address, or the empty part next to the two colons at one end -/
def GroupParts? (v4 : Bool) (ps : List PyStr) (n : Nat) : Prop := (ps = [[]] ∧ n = 0) ∨ GroupParts v4 ps n

/-- `IPv6Address`, in terms of the parts -/
def V6Parts (ps : List PyStr) : Prop :=
  GroupParts true ps 8 ∨
    ∃ A B m n, ps = A ++ [] :: B ∧ GroupParts? false A m ∧ GroupParts? true B n ∧ m + n ≤ 7

theorem groupParts?_ne {v4 : Bool} {ps : List PyStr} {n : Nat} (h : GroupParts? v4 ps n) : ps ≠ [] := by
  rcases h with ⟨rfl, -⟩ | ⟨h, -⟩ | ⟨-, qs, l, rfl, -⟩
  · simp
  · exact h
  · simp

theorem ipv6Address_iff {s : PyStr} : IPv6Address s ↔ V6Parts (splitOn 58 s) := by
  constructor
  · rintro (h | ⟨a, b, m, n, rfl, ha, hb, hmn⟩)
    · exact .inl (groups_parts h)
    · refine .inr ⟨splitOn 58 a, splitOn 58 b, m, n, ?_, ?_, ?_, hmn⟩
      · rw [List.append_assoc, show ([58, 58] ++ b) = 58 :: 58 :: b from rfl, splitOn_append]
        simp [splitOn]
      · rcases ha with ⟨rfl, rfl⟩ | ha
        · exact .inl ⟨rfl, rfl⟩
        · exact .inr (groups_parts ha)
      · rcases hb with ⟨rfl, rfl⟩ | hb
        · exact .inl ⟨rfl, rfl⟩
        · exact .inr (groups_parts hb)
  · intro h
    have hs := joinOn_splitOn 58 s
    rcases h with h | ⟨A, B, m, n, he, hA, hB, hmn⟩
    · have := parts_groups h
      rw [hs] at this
      exact .inl this
    · refine .inr ⟨joinOn 58 A, joinOn 58 B, m, n, ?_, ?_, ?_, hmn⟩
      · rw [← hs, he, joinOn_append (groupParts?_ne hA) (by simp), joinOn_cons (groupParts?_ne hB)]
        simp
      · rcases hA with ⟨rfl, rfl⟩ | hA
        · exact .inl ⟨rfl, rfl⟩
        · exact .inr (parts_groups hA)
      · rcases hB with ⟨rfl, rfl⟩ | hB
        · exact .inl ⟨rfl, rfl⟩
        · exact .inr (parts_groups hB)

/-- `V6Parts`, without IPv4 addresses -/
def HexParts (ps : List PyStr) : Prop :=
  GroupParts false ps 8 ∨
    ∃ A B m n, ps = A ++ [] :: B ∧ GroupParts? false A m ∧ GroupParts? false B n ∧ m + n ≤ 7

theorem groupParts_false {ps : List PyStr} {n : Nat} :
    GroupParts false ps n ↔ ps ≠ [] ∧ (∀ p ∈ ps, H16 p) ∧ n = ps.length := by
  unfold GroupParts
  simp

theorem mem_skips {ps : List PyStr} {i : Nat} :
    i ∈ skips ps ↔ 1 ≤ i ∧ i + 1 < ps.length ∧ ps[i]? = some [] := by
  unfold skips
  rw [List.mem_filter, List.mem_range]
  simp only [Bool.and_eq_true, decide_eq_true_eq]
  constructor
  · rintro ⟨-, ⟨h1, h2⟩, h3⟩
    exact ⟨h1, h2, h3⟩
  · rintro ⟨h1, h2, h3⟩
    exact ⟨by omega, ⟨h1, h2⟩, h3⟩

theorem filter_range_single {p : Nat → Bool} {k : Nat} (n : Nat) (h : ∀ i, i < n → (p i = true ↔ i = k)) :
    (List.range n).filter p = if k < n then [k] else [] := by
  induction n with
  | zero => simp
  | succ n ih =>
    rw [List.range_succ, List.filter_append, ih fun i hi => h i (by omega)]
    by_cases hk : k = n
    · subst hk
      rw [if_neg (by omega), if_pos (by omega)]
      simp [(h k (by omega)).2 rfl]
    · have : p n = false := by
        rw [← Bool.not_eq_true, h n (by omega)]
        omega
      simp only [List.filter_cons, this, List.filter_nil, List.append_nil, Bool.false_eq_true, if_false]
      by_cases hk' : k < n
      · rw [if_pos hk', if_pos (by omega)]
      · rw [if_neg hk', if_neg (by omega)]

theorem skips_single {ps : List PyStr} {k : Nat} (hk : k ∈ skips ps) (h : ∀ i ∈ skips ps, i = k) :
    skips ps = [k] := by
  have hk' := mem_skips.1 hk
  unfold skips
  rw [filter_range_single (k := k), if_pos (by omega)]
  intro i hi
  constructor
  · intro hp
    refine h i ?_
    unfold skips
    rw [List.mem_filter, List.mem_range]
    exact ⟨hi, hp⟩
  · rintro rfl
    unfold skips at hk
    exact (List.mem_filter.1 hk).2

theorem h16_ne {s : PyStr} (h : H16 s) : s ≠ [] := by
  rintro rfl
  exact absurd h.1 (by simp)

theorem getLast?_drop_lt {α : Type} {l : List α} {k : Nat} (h : k < l.length) :
    (l.drop k).getLast? = l.getLast? := by
  rw [List.getLast?_drop, if_neg (by omega)]

theorem hextetsOk_iff {ps : List PyStr} : hextetsOk ps = true ↔ HexParts ps := by
  constructor
  · intro h
    unfold hextetsOk at h
    split at h
    · simp only [Bool.and_eq_true, decide_eq_true_eq, List.all_eq_true, isHextet_iff] at h
      exact .inl (groupParts_false.2 ⟨by intro e; simp [e] at h, h.2, h.1.symm⟩)
    · rename_i k hk
      obtain ⟨h1, h2, h3⟩ := mem_skips.1 (show k ∈ skips ps by rw [hk]; simp)
      simp only [Bool.and_eq_true, Bool.or_eq_true, decide_eq_true_eq, List.all_eq_true, isHextet_iff] at h
      obtain ⟨⟨⟨⟨a1, a2⟩, a3⟩, a4⟩, a5⟩ := h
      right
      have hsplit : ps = ps.take k ++ [] :: ps.drop (k + 1) := by
        conv => lhs; rw [← List.take_append_drop k ps]
        congr 1
        rw [List.getElem?_eq_some_iff] at h3
        obtain ⟨hk', h3⟩ := h3
        rw [List.drop_eq_getElem_cons hk', h3]
      have hA : GroupParts? false (ps.take k) (if ps.head? = some [] then k - 1 else k) := by
        split at a4
        · rename_i hh
          rw [if_pos hh] at a1
          rw [if_pos hh]
          have hk1 : k = 1 := by
            rcases a1 with a1 | a1
            · exact absurd hh a1
            · omega
          subst hk1
          left
          cases ps with
          | nil => cases hh
          | cons x xs => cases hh; exact ⟨rfl, rfl⟩
        · rename_i hh
          rw [if_neg hh]
          refine .inr (groupParts_false.2 ⟨?_, a4, by rw [List.length_take]; omega⟩)
          intro e
          have := congrArg List.length e
          rw [List.length_take, List.length_nil] at this
          omega
      have hB : GroupParts? false (ps.drop (k + 1))
          (if ps.getLast? = some [] then ps.length - k - 2 else ps.length - k - 1) := by
        split at a5
        · rename_i hh
          rw [if_pos hh] at a2
          rw [if_pos hh]
          have hk1 : ps.length = k + 2 := by
            rcases a2 with a2 | a2
            · exact absurd hh a2
            · omega
          left
          have hlen : (ps.drop (k + 1)).length = 1 := by rw [List.length_drop]; omega
          have hl := getLast?_drop_lt (l := ps) (k := k + 1) (by omega)
          rw [hh] at hl
          match hd : ps.drop (k + 1), hlen with
          | [x], _ =>
            rw [hd] at hl
            cases hl
            exact ⟨rfl, by omega⟩
        · rename_i hh
          rw [if_neg hh]
          rw [show ps.length - (ps.length - k - 1) = k + 1 from by omega] at a5
          refine .inr (groupParts_false.2 ⟨?_, a5, by rw [List.length_drop]; omega⟩)
          intro e
          have := congrArg List.length e
          rw [List.length_drop, List.length_nil] at this
          omega
      exact ⟨_, _, _, _, hsplit, hA, hB, by omega⟩
    · cases h
  · rintro (h | ⟨A, B, m, n, rfl, hA, hB, hmn⟩)
    · obtain ⟨h1, h2, h3⟩ := groupParts_false.1 h
      have hs : skips ps = [] := by
        rw [List.eq_nil_iff_forall_not_mem]
        intro i hi
        have := (mem_skips.1 hi).2.2
        exact absurd rfl (h16_ne (h2 _ (List.mem_of_getElem? this)))
      unfold hextetsOk
      rw [hs]
      simp only [Bool.and_eq_true, decide_eq_true_eq, List.all_eq_true, isHextet_iff]
      exact ⟨h3.symm, h2⟩
    · have hA0 := groupParts?_ne hA
      have hB0 := groupParts?_ne hB
      have hAl : 1 ≤ A.length := by
        cases A with
        | nil => exact absurd rfl hA0
        | cons => simp
      have hBl : 1 ≤ B.length := by
        cases B with
        | nil => exact absurd rfl hB0
        | cons => simp
      have hs : skips (A ++ [] :: B) = [A.length] := by
        refine skips_single (mem_skips.2 ⟨hAl, by simp; omega, by simp⟩) ?_
        intro i hi
        obtain ⟨h1, h2, h3⟩ := mem_skips.1 hi
        refine Classical.byContradiction fun hne => ?_
        rcases Nat.lt_or_ge i A.length with hlt | hge
        · rw [List.getElem?_append_left hlt] at h3
          rcases hA with ⟨rfl, -⟩ | hA
          · simp at hlt; omega
          · exact absurd rfl (h16_ne ((groupParts_false.1 hA).2.1 _ (List.mem_of_getElem? h3)))
        · rw [List.getElem?_append_right hge] at h3
          obtain ⟨j, hj⟩ : ∃ j, i - A.length = j + 1 := ⟨i - A.length - 1, by omega⟩
          rw [hj, List.getElem?_cons_succ] at h3
          rcases hB with ⟨rfl, -⟩ | hB
          · simp at h2; omega
          · exact absurd rfl (h16_ne ((groupParts_false.1 hB).2.1 _ (List.mem_of_getElem? h3)))
      have hhead : (A ++ [] :: B).head? = A.head? := by
        cases A with
        | nil => exact absurd rfl hA0
        | cons => rfl
      have hlast : (A ++ [] :: B).getLast? = B.getLast? := by
        rw [List.getLast?_append]
        cases B with
        | nil => exact absurd rfl hB0
        | cons y ys =>
          rw [List.getLast?_cons_cons]
          cases hl : (y :: ys).getLast? with
          | none => simp at hl
          | some z => rfl
      have hlen : (A ++ [] :: B).length = A.length + B.length + 1 := by simp; omega
      -- the parts before
      have eA : (A.head? = some [] ∧ A.length = 1 ∧ m = 0) ∨
          (A.head? ≠ some [] ∧ A.length = m ∧ ∀ p ∈ A, H16 p) := by
        rcases hA with ⟨rfl, rfl⟩ | hA
        · exact .inl ⟨rfl, rfl, rfl⟩
        · obtain ⟨-, g1, g2⟩ := groupParts_false.1 hA
          refine .inr ⟨?_, g2.symm, g1⟩
          cases A with
          | nil => simp
          | cons x xs =>
            have := h16_ne (g1 x (by simp))
            simpa using this
      have eB : (B.getLast? = some [] ∧ B.length = 1 ∧ n = 0) ∨
          (B.getLast? ≠ some [] ∧ B.length = n ∧ ∀ p ∈ B, H16 p) := by
        rcases hB with ⟨rfl, rfl⟩ | hB
        · exact .inl ⟨rfl, rfl, rfl⟩
        · obtain ⟨-, g1, g2⟩ := groupParts_false.1 hB
          refine .inr ⟨?_, g2.symm, g1⟩
          intro hl
          exact absurd rfl (h16_ne (g1 _ (List.mem_of_getLast? hl)))
      unfold hextetsOk
      rw [hs]
      simp only [hhead, hlast, hlen, Bool.and_eq_true, Bool.or_eq_true, decide_eq_true_eq, List.all_eq_true,
        isHextet_iff]
      rcases eA with ⟨a1, a2, a3⟩ | ⟨a1, a2, a3⟩ <;> rcases eB with ⟨b1, b2, b3⟩ | ⟨b1, b2, b3⟩
      · simp only [if_pos a1, if_pos b1]
        refine ⟨⟨⟨⟨.inr (by omega), .inr (by omega)⟩, by omega⟩, ?_⟩, ?_⟩
        · rw [show A.length - 1 = 0 from by omega]; simp
        · rw [List.drop_eq_nil_of_le (by rw [hlen]; omega)]; simp
      · simp only [if_pos a1, if_neg b1]
        refine ⟨⟨⟨⟨.inr (by omega), .inl b1⟩, by omega⟩, ?_⟩, ?_⟩
        · rw [show A.length - 1 = 0 from by omega]; simp
        · rw [show A.length + B.length + 1 - (A.length + B.length + 1 - A.length - 1) = A.length + 1 from by omega,
            List.drop_append, List.drop_eq_nil_of_le (by omega)]
          simpa using b3
      · simp only [if_neg a1, if_pos b1]
        refine ⟨⟨⟨⟨.inl a1, .inr (by omega)⟩, by omega⟩, ?_⟩, ?_⟩
        · simpa using a3
        · rw [List.drop_eq_nil_of_le (by rw [hlen]; omega)]; simp
      · simp only [if_neg a1, if_neg b1]
        refine ⟨⟨⟨⟨.inl a1, .inl b1⟩, by omega⟩, ?_⟩, ?_⟩
        · simpa using a3
        · rw [show A.length + B.length + 1 - (A.length + B.length + 1 - A.length - 1) = A.length + 1 from by omega,
            List.drop_append, List.drop_eq_nil_of_le (by omega)]
          simpa using b3

/-- `expandV4` replaces an IPv4 address by two groups. -/
theorem expand_iff {ps : List PyStr} (hne : ps ≠ []) :
    (∃ qs, expandV4 ps = some qs ∧ HexParts qs) ↔ V6Parts ps := by
  obtain ⟨qs, l, rfl⟩ : ∃ qs l, ps = qs ++ [l] := ⟨_, _, (List.dropLast_concat_getLast hne).symm⟩
  have hl : (qs ++ [l]).getLast? = some l := by simp
  have hd : (qs ++ [l]).dropLast = qs := by simp
  have h0 : H16 p!"0" := ⟨by decide, by decide, by simp [HexDig, Digit]⟩
  unfold expandV4
  rw [hl, hd]
  simp only
  by_cases hdot : l.contains 46 = true
  · rw [if_pos hdot]
    have hmem : 46 ∈ l := List.contains_iff_mem.1 hdot
    have hh : ¬H16 l := fun h => h16_not_mem h (by omega) hmem
    have hle : l ≠ [] := by
      rintro rfl
      cases hmem
    by_cases hv4 : isIPv4 l = true
    · rw [if_pos hv4]
      have hv4' := isIPv4_iff.1 hv4
      simp only [Option.some.injEq, exists_eq_left']
      constructor
      · rintro (h | ⟨A, B, m, n, he, hA, hB, hmn⟩)
        · obtain ⟨-, h2, h3⟩ := groupParts_false.1 h
          exact .inl (.inr ⟨rfl, qs, l, rfl, fun p hp => h2 p (List.mem_append_left _ hp), hv4', by simpa using h3⟩)
        · -- the two groups are after the two colons
          have hB' : ∃ B', B = B' ++ [p!"0", p!"0"] ∧ qs = A ++ [] :: B' := by
            rw [List.append_eq_append_iff] at he
            rcases he with ⟨a', h1, h2⟩ | ⟨c', h1, h2⟩
            · -- `A` is longer
              have : GroupParts? false B n := hB
              match a', h2 with
              | [], h2 => cases h2
              | [_], h2 => cases h2
              | [_, _], h2 => cases h2
              | _ :: _ :: _ :: _, h2 => simp at h2
            · cases c' with
              | nil => cases h2
              | cons y ys =>
                simp only [List.cons_append, List.cons.injEq] at h2
                obtain ⟨rfl, h2⟩ := h2
                exact ⟨ys, h2, h1⟩
          obtain ⟨B', rfl, rfl⟩ := hB'
          refine .inr ⟨A, B' ++ [l], m, n, by simp, hA, .inr (.inr ⟨rfl, B', l, rfl, ?_, hv4', ?_⟩), hmn⟩
          · intro p hp
            rcases hB with ⟨hB, -⟩ | hB
            · have := congrArg List.length hB
              simp at this
            · exact (groupParts_false.1 hB).2.1 p (List.mem_append_left _ hp)
          · rcases hB with ⟨hB, -⟩ | hB
            · have := congrArg List.length hB
              simp at this
            · simpa using (groupParts_false.1 hB).2.2
      · rintro (h | ⟨A, B, m, n, he, hA, hB, hmn⟩)
        · rcases h with ⟨-, h2, -⟩ | ⟨-, qs', l', h1, h2, -, h4⟩
          · exact absurd (h2 l (by simp)) hh
          · obtain ⟨rfl, -⟩ := List.append_inj' h1 rfl
            refine .inl (groupParts_false.2 ⟨by simp, ?_, by simpa using h4⟩)
            intro p hp
            rcases List.mem_append.1 hp with hp | hp
            · exact h2 p hp
            · simp only [List.mem_cons, List.not_mem_nil, or_false, or_self] at hp
              rw [hp]
              exact h0
        · have hB' : ∃ B', B = B' ++ [l] := by
            have hB0 := groupParts?_ne hB
            have := congrArg List.getLast? he
            rw [hl, List.getLast?_append] at this
            cases B with
            | nil => exact absurd rfl hB0
            | cons y ys =>
              rw [List.getLast?_cons_cons] at this
              refine ⟨(y :: ys).dropLast, ?_⟩
              rw [List.getLast?_eq_some_getLast (by simp)] at this
              simp only [Option.some_or, Option.some.injEq] at this
              rw [this]
              exact (List.dropLast_concat_getLast _).symm
          obtain ⟨B', rfl⟩ := hB'
          have hq : qs = A ++ [] :: B' := by
            rw [show A ++ [] :: (B' ++ [l]) = (A ++ [] :: B') ++ [l] from by simp] at he
            exact (List.append_inj' he rfl).1
          subst hq
          refine .inr ⟨A, B' ++ [p!"0", p!"0"], m, n, by simp, hA, .inr (groupParts_false.2 ⟨by simp, ?_, ?_⟩), hmn⟩
          · intro p hp
            rcases List.mem_append.1 hp with hp | hp
            · rcases hB with ⟨hB, -⟩ | ⟨-, h2, -⟩ | ⟨-, qs', l', h1, h2, -, h4⟩
              · rw [show ([[]] : List PyStr) = [] ++ [[]] from rfl] at hB
                have := (List.append_inj' hB rfl).1
                subst this
                cases hp
              · exact absurd (h2 l (by simp)) hh
              · obtain ⟨rfl, -⟩ := List.append_inj' h1 rfl
                exact h2 p hp
            · simp only [List.mem_cons, List.not_mem_nil, or_false, or_self] at hp
              rw [hp]
              exact h0
          · rcases hB with ⟨hB, -⟩ | ⟨-, h2, -⟩ | ⟨-, qs', l', h1, h2, -, h4⟩
            · rw [show ([[]] : List PyStr) = [] ++ [[]] from rfl] at hB
              have := (List.append_inj' hB rfl).2
              simp at this
              exact absurd this hle
            · exact absurd (h2 l (by simp)) hh
            · obtain ⟨rfl, -⟩ := List.append_inj' h1 rfl
              simpa using h4
    · rw [if_neg hv4]
      refine ⟨fun ⟨_, h, _⟩ => (by cases h), ?_⟩
      have hlast : ∀ {ps : List PyStr} {n}, GroupParts true ps n → ps.getLast? = some l → False := by
        rintro ps n (⟨-, h2, -⟩ | ⟨-, qs', l', h1, -, h3, -⟩) hp
        · exact hh (h2 l (List.mem_of_getLast? hp))
        · rw [h1] at hp
          simp only [List.getLast?_append, List.getLast?_singleton, Option.some_or, Option.some.injEq] at hp
          subst hp
          exact hv4 (isIPv4_iff.2 h3)
      rintro (h | ⟨A, B, m, n, he, hA, hB, hmn⟩)
      · exact (hlast h hl).elim
      · have hB0 := groupParts?_ne hB
        have hlB : B.getLast? = some l := by
          rw [← hl, he, List.getLast?_append]
          cases B with
          | nil => exact absurd rfl hB0
          | cons y ys =>
            rw [List.getLast?_cons_cons, List.getLast?_eq_some_getLast (by simp)]
            rfl
        rcases hB with ⟨rfl, -⟩ | hB
        · cases hlB
          exact absurd rfl hle
        · exact (hlast hB hlB).elim
  · rw [if_neg hdot]
    have hv4 : ¬IPv4 l := fun h => hdot (List.contains_iff_mem.2 (isIPv4_dot (isIPv4_iff.2 h)))
    have hlast : ∀ {ps : List PyStr} {n}, ps.getLast? = some l → (GroupParts true ps n ↔ GroupParts false ps n) := by
      intro ps n hp
      rw [groupParts_false]
      constructor
      · rintro (h | ⟨-, qs', l', h1, -, h3, -⟩)
        · exact h
        · rw [h1] at hp
          simp only [List.getLast?_append, List.getLast?_singleton, Option.some_or, Option.some.injEq] at hp
          subst hp
          exact absurd h3 hv4
      · exact .inl
    simp only [Option.some.injEq, exists_eq_left']
    unfold HexParts V6Parts
    rw [hlast hl]
    refine or_congr Iff.rfl ?_
    constructor
    · rintro ⟨A, B, m, n, he, hA, hB, hmn⟩
      refine ⟨A, B, m, n, he, hA, ?_, hmn⟩
      rcases hB with hB | hB
      · exact .inl hB
      · exact .inr (.inl (groupParts_false.1 hB))
    · rintro ⟨A, B, m, n, he, hA, hB, hmn⟩
      refine ⟨A, B, m, n, he, hA, ?_, hmn⟩
      have hB0 := groupParts?_ne hB
      have hlB : B.getLast? = some l := by
        rw [← hl, he, List.getLast?_append]
        cases B with
        | nil => exact absurd rfl hB0
        | cons y ys =>
          rw [List.getLast?_cons_cons, List.getLast?_eq_some_getLast (by simp)]
          rfl
      rcases hB with hB | hB
      · exact .inl hB
      · exact .inr ((hlast hlB).1 hB)

/-- The number of parts of an address -/
theorem v6Parts_length {ps : List PyStr} (h : V6Parts ps) : 3 ≤ ps.length := by
  rcases h with (⟨-, -, h⟩ | ⟨-, qs, l, rfl, -, -, h⟩) | ⟨A, B, m, n, rfl, hA, hB, -⟩
  · omega
  · simp; omega
  · have h1 := groupParts?_ne hA
    have h2 := groupParts?_ne hB
    cases A with
    | nil => exact absurd rfl h1
    | cons =>
      cases B with
      | nil => exact absurd rfl h2
      | cons => simp; omega

theorem hexParts_length {ps : List PyStr} (h : HexParts ps) : ps.length ≤ 9 := by
  rcases h with h | ⟨A, B, m, n, rfl, hA, hB, hmn⟩
  · have := (groupParts_false.1 h).2.2
    omega
  · have h1 : A.length ≤ m ∨ (A.length = 1 ∧ m = 0) := by
      rcases hA with ⟨rfl, rfl⟩ | hA
      · exact .inr ⟨rfl, rfl⟩
      · exact .inl (by have := (groupParts_false.1 hA).2.2; omega)
    have h2 : B.length ≤ n ∨ (B.length = 1 ∧ n = 0) := by
      rcases hB with ⟨rfl, rfl⟩ | hB
      · exact .inr ⟨rfl, rfl⟩
      · exact .inl (by have := (groupParts_false.1 hB).2.2; omega)
    simp only [List.length_append, List.length_cons]
    omega

/-- `_ip_int_from_string` accepts the addresses of RFC 3986. -/
theorem isIPv6Addr_iff {s : PyStr} : isIPv6Addr s = true ↔ IPv6Address s := by
  rw [ipv6Address_iff, ← expand_iff (splitOn_ne_nil 58 s)]
  unfold isIPv6Addr
  simp only
  constructor
  · intro h
    split at h
    · cases h
    · split at h
      · cases h
      · rename_i qs he
        rw [Bool.and_eq_true] at h
        exact ⟨qs, he, hextetsOk_iff.1 h.2⟩
  · rintro ⟨qs, he, hq⟩
    have h3 := v6Parts_length ((expand_iff (splitOn_ne_nil 58 s)).1 ⟨qs, he, hq⟩)
    rw [if_neg (by omega), he]
    simp only [Bool.and_eq_true, decide_eq_true_eq]
    exact ⟨hexParts_length hq, hextetsOk_iff.2 hq⟩

theorem ipv4_mem {s : PyStr} (h : IPv4 s) {c : Nat} (hc : c ∈ s) : HexDig c ∨ c = 58 ∨ c = 46 := by
  rcases isIPv4_chars (isIPv4_iff.2 h) hc with h | h
  · exact .inl (.inl (isDigit_iff.1 h))
  · exact .inr (.inr h)

theorem groups_mem {v4 : Bool} {s : PyStr} {n : Nat} (h : Groups v4 s n) {c : Nat} (hc : c ∈ s) :
    HexDig c ∨ c = 58 ∨ c = 46 := by
  induction h with
  | last hh => exact .inl (hh.2.2 c hc)
  | ls32 _ hs => exact ipv4_mem hs hc
  | cons hh _ ih =>
    simp only [List.mem_append, List.mem_singleton] at hc
    rcases hc with (hc | hc) | hc
    · exact .inl (hh.2.2 c hc)
    · exact .inr (.inl hc)
    · exact ih hc

/-- The characters of an address -/
theorem ipv6Address_mem {s : PyStr} (h : IPv6Address s) {c : Nat} (hc : c ∈ s) :
    HexDig c ∨ c = 58 ∨ c = 46 := by
  rcases h with h | ⟨a, b, m, n, rfl, ha, hb, -⟩
  · exact groups_mem h hc
  · simp only [List.mem_append, List.mem_cons, List.not_mem_nil, or_false, or_self] at hc
    rcases hc with (hc | hc) | hc
    · rcases ha with ⟨rfl, -⟩ | ha
      · cases hc
      · exact groups_mem ha hc
    · exact .inr (.inl hc)
    · rcases hb with ⟨rfl, -⟩ | hb
      · cases hc
      · exact groups_mem hb hc

theorem ipv6Address_not_mem {s : PyStr} (h : IPv6Address s) : 37 ∉ s ∧ 47 ∉ s := by
  constructor <;>
  · intro hm
    have := ipv6Address_mem h hm
    unfold HexDig Digit at this
    omega

theorem isIPv6_iff {s : PyStr} : isIPv6 s = true ↔ IPv6 s := by
  unfold isIPv6 IPv6
  rw [Bool.and_eq_true]
  constructor
  · rintro ⟨h1, h2⟩
    rw [Bool.not_eq_true', ← Bool.not_eq_true, List.contains_iff_mem] at h1
    split at h2
    · exact .inl (isIPv6Addr_iff.1 h2)
    · rename_i a z hp
      obtain ⟨hs, -⟩ := partition_some.1 hp
      simp only [Bool.and_eq_true, Bool.not_eq_true', List.isEmpty_eq_false_iff] at h2
      obtain ⟨⟨h3, h4⟩, h5⟩ := h2
      rw [← Bool.not_eq_true, List.contains_iff_mem] at h4
      refine .inr ⟨a, z, by simpa using hs, isIPv6Addr_iff.1 h5, h3, h4, ?_⟩
      intro hm
      exact h1 (by rw [hs]; simp [hm])
  · rintro (h | ⟨a, z, rfl, ha, h3, h4, h5⟩)
    · obtain ⟨h1, h2⟩ := ipv6Address_not_mem h
      rw [partition_none.2 h1]
      exact ⟨by simpa using h2, isIPv6Addr_iff.2 h⟩
    · obtain ⟨h1, h2⟩ := ipv6Address_not_mem ha
      rw [show partition 37 (a ++ [37] ++ z) = some (a, z) from partition_some.2 ⟨by simp, h1⟩]
      refine ⟨by simp [h2, h5], ?_⟩
      simp only [Bool.and_eq_true, Bool.not_eq_true', List.isEmpty_eq_false_iff]
      exact ⟨⟨h3, by simpa using h4⟩, isIPv6Addr_iff.2 ha⟩

theorem ipv6_colon {s : PyStr} (h : IPv6 s) : 58 ∈ s := by
  rcases h with h | ⟨a, z, rfl, ha, -⟩
  · exact isIPv6Addr_colon (isIPv6Addr_iff.2 h)
  · have := isIPv6Addr_colon (isIPv6Addr_iff.2 ha)
    simp [this]

/-- `ip_address(s).version == 6` -/
theorem isV6_iff {s : PyStr} : isV6 s = true ↔ IPv6 s := by
  unfold isV6
  rw [Bool.and_eq_true, isIPv6_iff]
  refine ⟨And.right, fun h => ⟨?_, h⟩⟩
  rw [Bool.not_eq_true', ← Bool.not_eq_true]
  intro h4
  have := isIPv4_chars h4 (ipv6_colon h)
  revert this
  decide

end WS.Uri
