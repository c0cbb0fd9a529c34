import Verif.Lemmas.Http

/-!
# Lemmas about `int()`
-/

namespace WS

open Spec

/-- One character of an integer literal. -/
def intStep (s : Option (Nat × Bool)) (c : Nat) : Option (Nat × Bool) :=
  match s with
  | none => none
  | some (acc, prev) =>
    if isDigit c then some (acc * 10 + (c - 48), true)
    else if c = 95 ∧ prev = true then some (acc, false)
    else none

theorem intStep_none (l : List Nat) : l.foldl intStep none = none := by
  induction l with
  | nil => rfl
  | cons c l ih => exact ih

theorem intDigits_foldl (acc : Nat) (prev : Bool) (l : List Nat) :
    intDigits acc prev l = match l.foldl intStep (some (acc, prev)) with
      | some (n, true) => some n
      | _ => none := by
  induction l generalizing acc prev with
  | nil => cases prev <;> simp [intDigits]
  | cons c l ih =>
    unfold intDigits
    simp only [List.foldl_cons, intStep]
    by_cases h : isDigit c = true
    · rw [if_pos h, if_pos h, ih]
    · rw [if_neg h, if_neg h]
      by_cases h2 : c = 95 ∧ prev = true
      · rw [if_pos h2, if_pos h2, ih]
      · rw [if_neg h2, if_neg h2, intStep_none]

theorem isDigit_iff (c : Nat) : isDigit c = true ↔ 48 ≤ c ∧ c ≤ 57 := by
  simp [isDigit]

theorem Spec.DigitString.foldl {s : List Nat} {n : Nat} (h : DigitString s n) :
    s.foldl intStep (some (0, false)) = some (n, true) := by
  induction h with
  | one h1 h2 => simp [intStep, isDigit, h1, h2]
  | more _ h1 h2 ih => simp [List.foldl_append, ih, intStep, isDigit, h1, h2]
  | sep _ h1 h2 ih => simp [List.foldl_append, ih, intStep, isDigit, h1, h2]

theorem foldl_intStep (s : List Nat) :
    (∀ n, s.foldl intStep (some (0, false)) = some (n, true) → DigitString s n) ∧
    (∀ n, s.foldl intStep (some (0, false)) = some (n, false) →
      (s = [] ∧ n = 0) ∨ ∃ t, s = t ++ [95] ∧ DigitString t n) := by
  generalize hl : s.length = l
  induction l generalizing s with
  | zero =>
    have : s = [] := List.length_eq_zero_iff.1 hl
    subst this
    simp
  | succ l ih =>
    have hne : s ≠ [] := by rintro rfl; simp at hl
    obtain ⟨t, c, rfl⟩ : ∃ t c, s = t ++ [c] :=
      ⟨s.dropLast, s.getLast hne, (List.dropLast_concat_getLast hne).symm⟩
    have ht : t.length = l := by simpa using hl
    obtain ⟨ih1, ih2⟩ := ih t ht
    simp only [List.foldl_append, List.foldl_cons, List.foldl_nil]
    cases hf : t.foldl intStep (some (0, false)) with
    | none => simp [intStep]
    | some p =>
      obtain ⟨a, prev⟩ := p
      simp only [intStep]
      by_cases hd : isDigit c = true
      · rw [if_pos hd]
        obtain ⟨d1, d2⟩ := (isDigit_iff c).1 hd
        refine ⟨fun n h => ?_, fun n h => ?_⟩
        · simp only [Option.some.injEq, Prod.mk.injEq, and_true] at h
          subst h
          cases prev with
          | true => exact .more (ih1 a hf) d1 d2
          | false =>
            rcases ih2 a hf with ⟨rfl, rfl⟩ | ⟨u, rfl, hu⟩
            · simpa using DigitString.one d1 d2
            · have := DigitString.sep hu d1 d2
              simpa using this
        · simp at h
      · rw [if_neg hd]
        by_cases hc : c = 95 ∧ prev = true
        · rw [if_pos hc]
          refine ⟨fun n h => by simp at h, fun n h => ?_⟩
          simp only [Option.some.injEq, Prod.mk.injEq, and_true] at h
          subst h
          obtain ⟨rfl, rfl⟩ := hc
          exact .inr ⟨t, rfl, ih1 a hf⟩
        · rw [if_neg hc]; simp

theorem intDigits_iff (s : List Nat) (n : Nat) : intDigits 0 false s = some n ↔ DigitString s n := by
  rw [intDigits_foldl]
  constructor
  · intro h
    split at h
    · rename_i m hm
      simp only [Option.some.injEq] at h
      subst h
      exact (foldl_intStep s).1 _ hm
    · cases h
  · intro h
    rw [h.foldl]

theorem Spec.DigitString.ends {s : List Nat} {n : Nat} (h : DigitString s n) :
    (∃ c t, s = c :: t ∧ 48 ≤ c ∧ c ≤ 57) ∧ (∃ c t, s = t ++ [c] ∧ 48 ≤ c ∧ c ≤ 57) := by
  induction h with
  | @one d h1 h2 => exact ⟨⟨d, [], rfl, h1, h2⟩, ⟨d, [], rfl, h1, h2⟩⟩
  | more _ h1 h2 ih =>
    obtain ⟨⟨c, t, rfl, h3⟩, _⟩ := ih
    exact ⟨⟨c, _, rfl, h3⟩, ⟨_, _, rfl, h1, h2⟩⟩
  | @sep s n d _ h1 h2 ih =>
    obtain ⟨⟨c, t, rfl, h3⟩, _⟩ := ih
    exact ⟨⟨c, _, rfl, h3⟩, ⟨d, c :: t ++ [95], by simp, h1, h2⟩⟩

theorem isSpace_iff (c : Nat) : isSpace c = true ↔ IntSpace c := by
  simp [isSpace, IntSpace]

theorem pyInt_iff (s : List Nat) (i : Int) : pyInt s = some i ↔ IntLiteral s i := by
  have strip : ∀ v, ((s.dropWhile isSpace).reverse.dropWhile isSpace).reverse = v ↔ _ :=
    fun v => strip_iff isSpace s v
  have core : ∀ v : List Nat, signedInt v = some i ↔
      ∃ ds n, DigitString ds n ∧ ((v = ds ∧ i = n) ∨ (v = p!"+" ++ ds ∧ i = n) ∨
        (v = p!"-" ++ ds ∧ i = -n)) := by
    intro v
    have key : ∀ (l : List Nat) (f : Nat → Int), ((intDigits 0 false l).map f) = some i ↔
        ∃ n, DigitString l n ∧ i = f n := by
      intro l f
      simp only [Option.map_eq_some_iff, intDigits_iff]
      constructor
      · rintro ⟨a, h1, h2⟩; exact ⟨a, h1, h2.symm⟩
      · rintro ⟨a, h1, h2⟩; exact ⟨a, h1, h2.symm⟩
    unfold signedInt
    split
    · rename_i l
      rw [key]
      constructor
      · rintro ⟨n, h1, h2⟩; exact ⟨l, n, h1, .inr (.inl ⟨rfl, h2⟩)⟩
      · rintro ⟨ds, n, h1, ⟨h2, h3⟩ | ⟨h2, h3⟩ | ⟨h2, h3⟩⟩
        · obtain ⟨⟨c, t, rfl, h4, _⟩, _⟩ := h1.ends
          simp only [List.cons.injEq] at h2
          omega
        · simp only [List.cons_append, List.nil_append, List.cons.injEq, true_and] at h2
          exact ⟨n, h2 ▸ h1, h3⟩
        · simp at h2
    · rename_i l
      rw [key]
      constructor
      · rintro ⟨n, h1, h2⟩; exact ⟨l, n, h1, .inr (.inr ⟨rfl, h2⟩)⟩
      · rintro ⟨ds, n, h1, ⟨h2, h3⟩ | ⟨h2, h3⟩ | ⟨h2, h3⟩⟩
        · obtain ⟨⟨c, t, rfl, h4, _⟩, _⟩ := h1.ends
          simp only [List.cons.injEq] at h2
          omega
        · simp at h2
        · simp only [List.cons_append, List.nil_append, List.cons.injEq, true_and] at h2
          exact ⟨n, h2 ▸ h1, h3⟩
    · rename_i n1 n2
      rw [key]
      constructor
      · rintro ⟨n, h1, h2⟩; exact ⟨v, n, h1, .inl ⟨rfl, h2⟩⟩
      · rintro ⟨ds, n, h1, ⟨h2, h3⟩ | ⟨h2, h3⟩ | ⟨h2, h3⟩⟩
        · exact ⟨n, h2 ▸ h1, h3⟩
        · exact absurd h2 (n1 ds)
        · exact absurd h2 (n2 ds)
  unfold pyInt
  rw [core]
  have hsp : ∀ c, isSpace c = false ↔ ¬ IntSpace c := by
    intro c; rw [← isSpace_iff]; simp
  constructor
  · rintro ⟨ds, n, h1, h2⟩
    obtain ⟨a, b, e1, e2, e3, -, -⟩ := (strip _).1 rfl
    refine ⟨a, ds, b, n, fun c hc => (isSpace_iff c).1 (e2 c hc),
      fun c hc => (isSpace_iff c).1 (e3 c hc), h1, ?_⟩
    rcases h2 with ⟨h2, h3⟩ | ⟨h2, h3⟩ | ⟨h2, h3⟩ <;> rw [h2] at e1
    · exact .inl ⟨e1, h3⟩
    · exact .inr (.inl ⟨by simpa using e1, h3⟩)
    · exact .inr (.inr ⟨by simpa using e1, h3⟩)
  · rintro ⟨a, ds, b, n, h1, h2, h3, h4⟩
    obtain ⟨⟨c, t, hc, c1, c2⟩, ⟨d, u, hd, d1, d2⟩⟩ := h3.ends
    refine ⟨ds, n, h3, ?_⟩
    have go : ∀ v, s = a ++ v ++ b → (∀ x, v.head? = some x → isSpace x = false) →
        (∀ x, v.getLast? = some x → isSpace x = false) →
        ((s.dropWhile isSpace).reverse.dropWhile isSpace).reverse = v := by
      intro v hs g1 g2
      exact (strip v).2 ⟨a, b, hs, fun x hx => (isSpace_iff x).2 (h1 x hx),
        fun x hx => (isSpace_iff x).2 (h2 x hx), g1, g2⟩
    have dig : ∀ x, 43 ≤ x → isSpace x = false := by
      intro x hx; rw [hsp]; unfold IntSpace; omega
    have last : ∀ (p : List Nat) x, (p ++ ds).getLast? = some x → isSpace x = false := by
      intro p x hx
      rw [hd, ← List.append_assoc, List.getLast?_concat, Option.some.injEq] at hx
      exact dig x (by omega)
    rcases h4 with ⟨h4, h5⟩ | ⟨h4, h5⟩ | ⟨h4, h5⟩
    · exact .inl ⟨go ds h4 (by rw [hc]; intro x hx; simp at hx; exact dig x (by omega))
        (last []), h5⟩
    · exact .inr (.inl ⟨go (p!"+" ++ ds) (by rw [h4]; simp)
        (by intro x hx; simp at hx; exact dig x (by omega)) (last _), h5⟩)
    · exact .inr (.inr ⟨go (p!"-" ++ ds) (by rw [h4]; simp)
        (by intro x hx; simp at hx; exact dig x (by omega)) (last _), h5⟩)

theorem digitString_decStr (n : Nat) : DigitString (decStr n) n := by
  induction n using Nat.strongRecOn with
  | ind n ih =>
    unfold decStr
    split
    · have := DigitString.one (d := 48 + n) (by omega) (by omega)
      rwa [Nat.add_sub_cancel_left] at this
    · have := DigitString.more (ih (n / 10) (by omega)) (d := 48 + n % 10) (by omega) (by omega)
      rw [Nat.add_sub_cancel_left] at this
      have e : n / 10 * 10 + n % 10 = n := by omega
      rwa [e] at this

theorem intLiteral_decStr (n : Nat) : IntLiteral (decStr n) n :=
  ⟨[], decStr n, [], n, by simp, by simp, digitString_decStr n, .inl ⟨by simp, rfl⟩⟩

end WS
