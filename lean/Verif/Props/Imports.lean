import Verif.Model.ImportTables

/-!
# C85: Lazy imports provide exactly the names that they declare

A module that calls `lazy_import` has, besides its variables, one attribute for each alias: the object with this
name in the module that the alias designates, as a relative import would find it.  There are no other attributes.
Deprecated aliases issue one warning each time.  Names can't be declared twice.  `dir()` lists these names, but
not those defined after the call to `lazy_import`.
-/

namespace WS.Imports

/-! ## Specification -/

/-- `source` consists of `level` dots and the name `rest` of a module. -/
def Spec.Dots (source : PyStr) (level : Nat) (rest : PyStr) : Prop :=
  source = List.replicate level 46 ++ rest ∧ ∃ c r, rest = c :: r ∧ c ≠ 46

/-- The absolute name of a module, from a relative name: with one dot, it's in the package, with two dots, in the
parent of the package, etc. -/
def Spec.Absolute (package : PyStr) : Nat → PyStr → PyStr → Prop
  | 0, rest, abs => abs = rest
  | n + 1, rest, abs => package ≠ [] ∧ ∃ (base : PyStr) (comps : List PyStr), comps.length = n ∧ (∀ c ∈ comps, 46 ∉ c) ∧
      package = base ++ (comps.flatMap fun c => 46 :: c) ∧ abs = base ++ 46 :: rest

/-- `o` is the attribute `name` of a module, or its submodule `name`. -/
def Spec.Attribute {Obj : Type} (W : World Obj) (abs name : PyStr) (o : Obj) : Prop :=
  ∃ m, W.find abs = some m ∧ (dictGet m.attrs name = some o ∨
    dictGet m.attrs name = none ∧ m.isPackage = true ∧ (∃ s, W.find (abs ++ 46 :: name) = some s) ∧
      o = W.moduleObj (abs ++ 46 :: name))

/-- `from source import name` finds `o`. -/
def Spec.Provides {Obj : Type} (W : World Obj) (package source name : PyStr) (o : Obj) : Prop :=
  ∃ level rest abs, Dots source level rest ∧ Absolute package level rest abs ∧ Attribute W abs name o

/-- A name is declared at most once. -/
def Spec.Declared {Obj : Type} (c : Call Obj) : Prop :=
  ∀ k, ¬(k ∈ c.vars.map (·.1) ∧ k ∈ c.aliases.map (·.1)) ∧ ¬(k ∈ c.vars.map (·.1) ∧ k ∈ c.deprecated.map (·.1)) ∧
    ¬(k ∈ c.aliases.map (·.1) ∧ k ∈ c.deprecated.map (·.1))

open Spec

/-! ## `import_name` -/

theorem importLevel_iff (s : PyStr) (k level : Nat) (rest : PyStr) :
    importLevel s k = .ok (level, rest) ↔ ∃ n, level = k + n ∧ Dots s n rest := by
  induction s generalizing k with
  | nil =>
    simp only [importLevel, Dots]
    constructor
    · intro h; cases h
    · rintro ⟨n, -, h, c, r, rfl, -⟩
      simp at h
  | cons c s ih =>
    unfold importLevel
    by_cases hc : c = 46
    · subst hc
      rw [if_pos rfl]
      cases s with
      | nil =>
        simp only [Dots]
        constructor
        · intro h; cases h
        · rintro ⟨n, -, h, c, r, rfl, hc⟩
          cases n with
          | zero => simp at h; exact absurd h.1.symm hc
          | succ n => simp [List.replicate_succ] at h
      | cons d s =>
        simp only
        rw [ih]
        constructor
        · rintro ⟨n, rfl, h1, h2⟩
          exact ⟨n + 1, by omega, by rw [List.replicate_succ, List.cons_append, ← h1], h2⟩
        · rintro ⟨n, rfl, h1, c, r, rfl, hc⟩
          cases n with
          | zero => simp at h1; exact absurd h1.1.symm hc
          | succ n =>
            rw [List.replicate_succ, List.cons_append, List.cons.injEq] at h1
            exact ⟨n, by omega, h1.2, c, r, rfl, hc⟩
    · rw [if_neg hc]
      constructor
      · intro h
        cases h
        exact ⟨0, rfl, rfl, c, s, rfl, hc⟩
      · rintro ⟨n, rfl, h1, h2⟩
        cases n with
        | zero => simp at h1; rw [h1]; rfl
        | succ n => simp [List.replicate_succ] at h1; exact absurd h1.1 hc

theorem parent_iff (s b : PyStr) : parent s = some b ↔ ∃ c, 46 ∉ c ∧ s = b ++ 46 :: c := by
  unfold parent
  constructor
  · intro h
    split at h
    · cases h
    · rename_i d r hd
      cases h
      refine ⟨(s.reverse.takeWhile (· ≠ 46)).reverse, ?_, ?_⟩
      · intro hm
        rw [List.mem_reverse] at hm
        have := List.all_eq_true.1 (List.all_takeWhile (p := fun x => decide (x ≠ 46)) (l := s.reverse)) _ hm
        simp at this
      · have h1 := List.takeWhile_append_dropWhile (p := fun x => decide (x ≠ 46)) (l := s.reverse)
        have hd46 : d = 46 := by
          have := List.head?_dropWhile_not (fun x => decide (x ≠ 46)) s.reverse
          rw [hd] at this
          simpa using this
        rw [hd, hd46] at h1
        have h2 := congrArg List.reverse h1
        rw [List.reverse_reverse] at h2
        conv => lhs; rw [← h2]
        simp
  · rintro ⟨c, hc, rfl⟩
    have : (b ++ 46 :: c).reverse.dropWhile (fun x => decide (x ≠ 46)) = 46 :: b.reverse := by
      rw [List.reverse_append, List.reverse_cons, List.append_assoc, List.dropWhile_append_of_pos]
      · simp
      · intro x hx
        rw [List.mem_reverse] at hx
        simp only [decide_eq_true_eq]
        rintro rfl
        exact hc hx
    rw [this]
    simp

theorem ancestor_iff (n : Nat) (p base : PyStr) : ancestor n p = some base ↔
    ∃ comps : List PyStr, comps.length = n ∧ (∀ c ∈ comps, 46 ∉ c) ∧ p = base ++ (comps.flatMap fun c => 46 :: c) := by
  induction n generalizing p with
  | zero =>
    simp only [ancestor, Option.some.injEq, List.length_eq_zero_iff]
    constructor
    · rintro rfl
      exact ⟨[], rfl, by simp, by simp⟩
    · rintro ⟨_, rfl, -, h⟩
      simpa using h
  | succ n ih =>
    simp only [ancestor, Option.bind_eq_some_iff]
    constructor
    · rintro ⟨q, hq, h⟩
      obtain ⟨c, hc, rfl⟩ := (parent_iff _ _).1 hq
      obtain ⟨comps, rfl, h1, rfl⟩ := (ih _).1 h
      refine ⟨comps ++ [c], by simp, ?_, by simp⟩
      intro x hx
      rcases List.mem_append.1 hx with hx | hx
      · exact h1 x hx
      · rw [List.mem_singleton] at hx; rw [hx]; exact hc
    · rintro ⟨comps, hl, h1, rfl⟩
      have hne : comps ≠ [] := by intro h; rw [h] at hl; simp at hl
      have hs := List.dropLast_concat_getLast hne
      refine ⟨base ++ (comps.dropLast.flatMap fun c => 46 :: c), (parent_iff _ _).2
        ⟨comps.getLast hne, h1 _ (List.getLast_mem hne), ?_⟩, (ih _).2 ⟨comps.dropLast, by simp [hl], ?_, rfl⟩⟩
      · conv => lhs; rw [← hs]
        simp
      · exact fun c hc => h1 c (List.dropLast_subset _ hc)

theorem resolve_iff (package rest abs : PyStr) (level : Nat) :
    resolve package rest level = .ok abs ↔ Absolute package level rest abs := by
  cases level with
  | zero => simp [resolve, Absolute, eq_comm]
  | succ n =>
    simp only [resolve, Absolute]
    by_cases hp : package = []
    · simp [hp]
    · rw [if_neg hp]
      cases ha : ancestor n package with
      | none =>
        simp only [reduceCtorEq, false_iff, not_and, not_exists]
        intro _ base comps h1 h2 h3
        have := (ancestor_iff n package base).2 ⟨comps, h1, h2, h3⟩
        rw [ha] at this
        cases this
      | some base =>
        simp only [Except.ok.injEq]
        constructor
        · rintro rfl
          obtain ⟨comps, h1, h2, h3⟩ := (ancestor_iff n package base).1 ha
          exact ⟨hp, base, comps, h1, h2, h3, by simp⟩
        · rintro ⟨-, base', comps, h1, h2, h3, rfl⟩
          have := (ancestor_iff n package base').2 ⟨comps, h1, h2, h3⟩
          rw [ha] at this
          cases this
          simp

theorem Spec.Dots.unique {s : PyStr} {n n' : Nat} {r r' : PyStr} (h : Dots s n r) (h' : Dots s n' r') :
    n = n' ∧ r = r' := by
  have h1 := (importLevel_iff s 0 n r).2 ⟨n, by omega, h⟩
  have h2 := (importLevel_iff s 0 n' r').2 ⟨n', by omega, h'⟩
  rw [h1] at h2
  cases h2
  exact ⟨rfl, rfl⟩

section

variable {Obj : Type}

theorem importName_iff (W : World Obj) (package name source : PyStr) (o : Obj) :
    importName W package name source = .ok o ↔ Provides W package source name o := by
  unfold importName Provides
  constructor
  · intro h
    split at h
    · cases h
    · rename_i level rest hl
      obtain ⟨n, hn, hdots⟩ := (importLevel_iff _ _ _ _).1 hl
      rw [Nat.zero_add] at hn
      subst hn
      split at h
      · cases h
      · rename_i abs hr
        refine ⟨level, rest, abs, hdots, (resolve_iff _ _ _ _).1 hr, ?_⟩
        split at h
        · cases h
        · rename_i m hm
          refine ⟨m, hm, ?_⟩
          split at h
          · rename_i o' ho
            cases h
            exact .inl ho
          · rename_i hnone
            split at h
            · rename_i hpk
              cases h
              refine .inr ⟨hnone, hpk.1, Option.isSome_iff_exists.1 (by simpa using hpk.2), by simp⟩
            · cases h
  · rintro ⟨level, rest, abs, hdots, habs, m, hm, h⟩
    rw [(importLevel_iff source 0 level rest).2 ⟨level, by omega, hdots⟩]
    simp only
    rw [(resolve_iff _ _ _ _).2 habs]
    simp only [hm]
    rcases h with h | ⟨h1, h2, ⟨s, h3⟩, rfl⟩
    · rw [h]
    · rw [h1]
      simp only
      rw [if_pos ⟨h2, by simp [h3]⟩]
      simp

/-! ## Attributes -/

namespace Call

theorem overlap_iff (a b : List PyStr) : overlap a b = true ↔ ∃ k, k ∈ a ∧ k ∈ b := by
  simp [overlap]

/-- **C85**: `lazy_import` refuses names that are declared twice, and only these. -/
theorem C85_conflict (c : Call Obj) : c.lazyImport = .ok () ↔ Declared c := by
  unfold lazyImport Declared
  constructor
  · intro h
    split at h
    · cases h
    split at h
    · cases h
    split at h
    · cases h
    rename_i h1 h2 h3
    rw [overlap_iff] at h1 h2 h3
    exact fun k => ⟨fun ⟨a, b⟩ => h1 ⟨k, a, b⟩, fun ⟨a, b⟩ => h2 ⟨k, a, b⟩, fun ⟨a, b⟩ => h3 ⟨k, a, b⟩⟩
  · intro h
    rw [if_neg (by rw [overlap_iff]; rintro ⟨k, a, b⟩; exact (h k).1 ⟨a, b⟩),
      if_neg (by rw [overlap_iff]; rintro ⟨k, a, b⟩; exact (h k).2.1 ⟨a, b⟩),
      if_neg (by rw [overlap_iff]; rintro ⟨k, a, b⟩; exact (h k).2.2 ⟨a, b⟩)]

theorem dictGet_none {V : Type} {d : List (PyStr × V)} {k : PyStr} : dictGet d k = none ↔ k ∉ d.map (·.1) := by
  unfold dictGet
  simp only [Option.map_eq_none_iff, List.find?_eq_none, List.mem_map, not_exists, not_and, beq_iff_eq]

theorem dictGet_mem {V : Type} {d : List (PyStr × V)} {k : PyStr} {v : V} (h : dictGet d k = some v) :
    (k, v) ∈ d := by
  unfold dictGet at h
  rw [Option.map_eq_some_iff] at h
  obtain ⟨⟨k', v'⟩, h1, rfl⟩ := h
  have := List.find?_some h1
  simp only [beq_iff_eq] at this
  subst this
  exact List.mem_of_find?_eq_some h1

theorem dictGet_iff {V : Type} {d : List (PyStr × V)} (hn : (d.map (·.1)).Nodup) (k : PyStr) (v : V) :
    dictGet d k = some v ↔ (k, v) ∈ d := by
  refine ⟨dictGet_mem, ?_⟩
  induction d with
  | nil => simp
  | cons p d ih =>
    intro h
    rw [List.map_cons, List.nodup_cons] at hn
    rcases List.mem_cons.1 h with rfl | h
    · simp [dictGet]
    · have hne : p.1 ≠ k := fun he => hn.1 (he ▸ List.mem_map.2 ⟨_, h, rfl⟩)
      have := ih hn.2 h
      unfold dictGet at this ⊢
      rw [List.find?_cons_of_neg (by simpa using hne)]
      exact this

/-- **C85**: the attributes of a module that calls `lazy_import`, whatever its variables are when the attribute is
accessed.  A variable hides an alias with the same name. -/
theorem C85_attributes (W : World Obj) (c : Call Obj) (hc : c.lazyImport = .ok ()) (ha : (c.aliases.map (·.1)).Nodup)
    (hd : (c.deprecated.map (·.1)).Nodup) (vars : List (PyStr × Obj)) (name : PyStr) (o : Obj) :
    (c.getattr W vars name).1 = .ok o ↔ dictGet vars name = some o ∨
      name ∉ vars.map (·.1) ∧ ∃ source, ((name, source) ∈ c.aliases ∨ (name, source) ∈ c.deprecated) ∧
        Provides W c.package source name o := by
  have hdecl := (C85_conflict c).1 hc name
  unfold getattr
  cases hv : dictGet vars name with
  | some o' =>
    have hm : name ∈ vars.map (·.1) := List.mem_map.2 ⟨_, dictGet_mem hv, rfl⟩
    simp [hm]
  | none =>
    have hm := dictGet_none.1 hv
    simp only [reduceCtorEq, false_or, hm, not_false_eq_true, true_and]
    unfold getattrHook
    cases h1 : dictGet c.aliases name with
    | some source =>
      simp only
      rw [importName_iff]
      have hs := (dictGet_iff ha _ _).1 h1
      refine ⟨fun h => ⟨source, .inl hs, h⟩, ?_⟩
      rintro ⟨source', h2 | h2, h3⟩
      · rw [(dictGet_iff ha _ _).2 h2] at h1
        cases h1
        exact h3
      · exact absurd ⟨List.mem_map.2 ⟨_, hs, rfl⟩, List.mem_map.2 ⟨_, h2, rfl⟩⟩ hdecl.2.2
    | none =>
      simp only
      have hna := dictGet_none.1 h1
      cases h2 : dictGet c.deprecated name with
      | some source =>
        simp only
        rw [importName_iff]
        have hs := (dictGet_iff hd _ _).1 h2
        refine ⟨fun h => ⟨source, .inr hs, h⟩, ?_⟩
        rintro ⟨source', h3 | h3, h4⟩
        · exact absurd (List.mem_map.2 ⟨_, h3, rfl⟩) hna
        · rw [(dictGet_iff hd _ _).2 h3] at h2
          cases h2
          exact h4
      | none =>
        have hnd := dictGet_none.1 h2
        simp only [reduceCtorEq, false_iff, not_exists, not_and]
        rintro source (h3 | h3)
        · exact absurd (List.mem_map.2 ⟨_, h3, rfl⟩) hna
        · exact absurd (List.mem_map.2 ⟨_, h3, rfl⟩) hnd

/-- **C85**: other attributes raise `AttributeError`, as they do without `lazy_import`. -/
theorem C85_missing (W : World Obj) (c : Call Obj) (vars : List (PyStr × Obj)) (name : PyStr)
    (hv : name ∉ vars.map (·.1)) (ha : name ∉ c.aliases.map (·.1)) (hd : name ∉ c.deprecated.map (·.1)) :
    c.getattr W vars name = (.error .attributeError, []) := by
  unfold getattr getattrHook
  rw [dictGet_none.2 hv, dictGet_none.2 ha, dictGet_none.2 hd]

/-- **C85**: accessing a deprecated alias issues one warning, which says its name; nothing else does. -/
theorem C85_warnings (W : World Obj) (c : Call Obj) (hc : c.lazyImport = .ok ()) (vars : List (PyStr × Obj))
    (name : PyStr) :
    (name ∉ vars.map (·.1) → name ∈ c.deprecated.map (·.1) →
      (c.getattr W vars name).2 = [c.name ++ p!"." ++ name ++ p!" is deprecated"]) ∧
    (name ∈ vars.map (·.1) ∨ name ∉ c.deprecated.map (·.1) → (c.getattr W vars name).2 = []) := by
  have hdecl := (C85_conflict c).1 hc name
  constructor
  · intro hv hd
    have ha : name ∉ c.aliases.map (·.1) := fun h => hdecl.2.2 ⟨h, hd⟩
    unfold getattr getattrHook
    rw [dictGet_none.2 hv, dictGet_none.2 ha]
    simp only
    cases h : dictGet c.deprecated name with
    | none => exact absurd hd (dictGet_none.1 h)
    | some source => rfl
  · intro h
    unfold getattr getattrHook
    cases hv : dictGet vars name with
    | some o => rfl
    | none =>
      simp only
      cases dictGet c.aliases name with
      | some s => rfl
      | none =>
        simp only
        have hd := h.resolve_left (dictGet_none.1 hv)
        rw [dictGet_none.2 hd]

/-! ## `dir` -/

/-- The order of strings is lexicographic. -/
inductive Spec.Before : PyStr → PyStr → Prop
  | nil (a : Nat) (s : PyStr) : Before [] (a :: s)
  | head {a b : Nat} (h : a < b) (s t : PyStr) : Before (a :: s) (b :: t)
  | tail (a : Nat) {s t : PyStr} (h : Before s t) : Before (a :: s) (a :: t)

theorem strLe_iff (a b : PyStr) : strLe a b = true ↔ a = b ∨ Spec.Before a b := by
  induction a generalizing b with
  | nil =>
    simp only [strLe, true_iff]
    cases b with
    | nil => exact .inl rfl
    | cons b t => exact .inr (.nil b t)
  | cons x a ih =>
    cases b with
    | nil => simp only [strLe, reduceCtorEq, Bool.false_eq_true, false_or, false_iff]; intro h; cases h
    | cons y b =>
      unfold strLe
      by_cases h1 : x < y
      · rw [if_pos h1]
        simp only [true_iff]
        exact .inr (.head h1 _ _)
      · rw [if_neg h1]
        by_cases h2 : y < x
        · rw [if_pos h2]
          simp only [Bool.false_eq_true, List.cons.injEq, false_iff]
          rintro (h | h)
          · omega
          · cases h with
            | head h => omega
            | tail _ h => omega
        · rw [if_neg h2, ih]
          have : x = y := by omega
          subst this
          simp only [List.cons.injEq, true_and]
          refine or_congr_right ⟨fun h => .tail _ h, ?_⟩
          intro h
          cases h with
          | head h => omega
          | tail _ h => exact h

theorem strLe_total (a b : PyStr) : strLe a b = false → Spec.Before b a := by
  induction a generalizing b with
  | nil => simp [strLe]
  | cons x a ih =>
    cases b with
    | nil => exact fun _ => .nil _ _
    | cons y b =>
      unfold strLe
      intro h
      split at h
      · cases h
      · split at h
        · rename_i h2
          exact .head h2 _ _
        · have : x = y := by omega
          subst this
          exact .tail _ (ih _ h)

theorem Spec.Before.trans {a b c : PyStr} (h1 : Before a b) (h2 : Before b c) : Before a c := by
  induction h1 generalizing c with
  | nil x s => cases h2 with
    | head h s t => exact .nil _ _
    | tail _ h => exact .nil _ _
  | head h s t => cases h2 with
    | head h' _ _ => exact .head (by omega) _ _
    | tail _ h' => exact .head h _ _
  | tail x h ih => cases h2 with
    | head h' _ _ => exact .head h' _ _
    | tail _ h' => exact .tail _ (ih h')

theorem mem_insertSorted (a b : PyStr) (l : List PyStr) : b ∈ insertSorted a l ↔ b = a ∨ b ∈ l := by
  induction l with
  | nil => simp [insertSorted]
  | cons c l ih =>
    unfold insertSorted
    split
    · simp
    · simp only [List.mem_cons, ih]
      constructor
      · rintro (h | h | h) <;> simp [h]
      · rintro (h | h | h) <;> simp [h]

theorem insertSorted_pairwise (a : PyStr) (l : List PyStr) (hl : l.Pairwise Spec.Before) (ha : a ∉ l) :
    (insertSorted a l).Pairwise Spec.Before := by
  induction l with
  | nil => simp [insertSorted]
  | cons c l ih =>
    rw [List.pairwise_cons] at hl
    rw [List.mem_cons, not_or] at ha
    unfold insertSorted
    split
    · rename_i h
      have hac := ((strLe_iff a c).1 h).resolve_left ha.1
      refine List.pairwise_cons.2 ⟨?_, List.pairwise_cons.2 hl⟩
      intro x hx
      rcases List.mem_cons.1 hx with rfl | hx
      · exact hac
      · exact hac.trans (hl.1 x hx)
    · rename_i h
      refine List.pairwise_cons.2 ⟨?_, ih hl.2 ha.2⟩
      intro x hx
      rcases (mem_insertSorted _ _ _).1 hx with rfl | hx
      · exact strLe_total _ _ (by simpa using h)
      · exact hl.1 x hx

theorem mem_sorted (l : List PyStr) (b : PyStr) : b ∈ sorted l ↔ b ∈ l := by
  induction l with
  | nil => rfl
  | cons a l ih =>
    show b ∈ insertSorted a (sorted l) ↔ _
    rw [mem_insertSorted, ih, List.mem_cons]

theorem sorted_pairwise (l : List PyStr) (hl : l.Nodup) : (sorted l).Pairwise Spec.Before := by
  induction l with
  | nil => exact .nil
  | cons a l ih =>
    rw [List.nodup_cons] at hl
    exact insertSorted_pairwise _ _ (ih hl.2) (fun h => hl.1 ((mem_sorted _ _).1 h))

theorem mem_setOf (l : List PyStr) (a : PyStr) : a ∈ setOf l ↔ a ∈ l := by
  induction l with
  | nil => rfl
  | cons b l ih =>
    unfold setOf
    split
    · rename_i h
      rw [List.contains_eq_mem, decide_eq_true_eq] at h
      rw [ih, List.mem_cons]
      refine ⟨.inr, ?_⟩
      rintro (rfl | h1)
      · exact ih.1 h
      · exact h1
    · rw [List.mem_cons, List.mem_cons, ih]

theorem setOf_nodup (l : List PyStr) : (setOf l).Nodup := by
  induction l with
  | nil => exact .nil
  | cons b l ih =>
    unfold setOf
    split
    · exact ih
    · rename_i h
      rw [List.contains_eq_mem, decide_eq_true_eq] at h
      exact List.nodup_cons.2 ⟨h, ih⟩

/-- **C85, partial**: `dir()` returns a sorted list without duplicates of the names declared before and by the call
to `lazy_import`.  All these names are attributes, if the modules that aliases designate provide them.  What is missing: names
defined later (`C85_dir_false`). -/
theorem C85_dir_partial (c : Call Obj) :
    c.dir.Pairwise Spec.Before ∧
    (∀ name, name ∈ c.dir ↔ name ∈ c.vars.map (·.1) ∨ name ∈ c.aliases.map (·.1) ∨ name ∈ c.deprecated.map (·.1)) := by
  refine ⟨sorted_pairwise _ (setOf_nodup _), ?_⟩
  intro name
  unfold dir
  rw [mem_sorted, mem_setOf, List.mem_append, List.mem_append, or_assoc]
  rfl

/-! ## Before Python 3.7 -/

theorem dictGet_store (d : List (PyStr × Obj)) (k : PyStr) (v : Obj) (k' : PyStr) :
    dictGet (store d k v) k' = if k' = k then some v else dictGet d k' := by
  induction d with
  | nil =>
    simp only [store, dictGet, List.find?_cons, List.find?_nil]
    by_cases h : k' = k
    · simp [h]
    · rw [if_neg h]
      have : (k == k') = false := by simpa using Ne.symm h
      rw [this]
  | cons p d ih =>
    obtain ⟨k1, v1⟩ := p
    simp only [store]
    by_cases h1 : k1 = k
    · subst h1
      rw [if_pos rfl]
      by_cases h : k' = k1
      · simp [dictGet, h]
      · rw [if_neg h]
        simp [dictGet, Ne.symm h]
    · rw [if_neg h1]
      by_cases h2 : k1 = k'
      · subst h2
        rw [if_neg h1]
        simp [dictGet]
      · have e1 : dictGet ((k1, v1) :: store d k v) k' = dictGet (store d k v) k' := by simp [dictGet, h2]
        have e2 : dictGet ((k1, v1) :: d) k' = dictGet d k' := by simp [dictGet, h2]
        rw [e1, e2, ih]

theorem eagerLoop_get (W : World Obj) (package : PyStr) {l : List (PyStr × PyStr)} (hn : (l.map (·.1)).Nodup)
    {vars vars' : List (PyStr × Obj)} (h : eagerLoop W package l vars = .ok vars') (name : PyStr) (o : Obj) :
    dictGet vars' name = some o ↔ (∃ source, (name, source) ∈ l ∧ Provides W package source name o) ∨
      name ∉ l.map (·.1) ∧ dictGet vars name = some o := by
  induction l generalizing vars with
  | nil => cases h; simp
  | cons p l ih =>
    obtain ⟨k, s⟩ := p
    unfold eagerLoop at h
    rw [List.map_cons, List.nodup_cons] at hn
    split at h
    · cases h
    · rename_i o1 ho
      rw [ih hn.2 h, dictGet_store]
      simp only [List.map_cons, List.mem_cons, Prod.mk.injEq, not_or]
      constructor
      · rintro (⟨source, h1, h2⟩ | ⟨h1, h2⟩)
        · exact .inl ⟨source, .inr h1, h2⟩
        · split at h2
          · rename_i he
            cases h2
            subst he
            exact .inl ⟨s, .inl ⟨rfl, rfl⟩, (importName_iff ..).1 ho⟩
          · rename_i he
            exact .inr ⟨⟨he, h1⟩, h2⟩
      · rintro (⟨source, ⟨rfl, rfl⟩ | h1, h2⟩ | ⟨⟨h0, h1⟩, h2⟩)
        · refine .inr ⟨hn.1, ?_⟩
          rw [(importName_iff ..).2 h2] at ho
          cases ho
          rw [if_pos rfl]
        · exact .inl ⟨source, h1, h2⟩
        · exact .inr ⟨h1, by rw [if_neg h0]; exact h2⟩

/-- **C85**: before Python 3.7, modules have the same attributes. -/
theorem C85_eager (W : World Obj) (c : Call Obj) (hc : c.lazyImport = .ok ()) (ha : (c.aliases.map (·.1)).Nodup)
    (hd : (c.deprecated.map (·.1)).Nodup) {vars : List (PyStr × Obj)} (h : c.eager W = .ok vars) (name : PyStr)
    (o : Obj) : dictGet vars name = some o ↔ (c.getattr W c.vars name).1 = .ok o := by
  have hdecl := (C85_conflict c).1 hc name
  rw [C85_attributes W c hc ha hd]
  unfold eager at h
  split at h
  · cases h
  · rename_i vars1 h1
    rw [eagerLoop_get W _ hd h, eagerLoop_get W _ ha h1]
    constructor
    · rintro (⟨s, h2, h3⟩ | ⟨h2, ⟨s, h3, h4⟩ | ⟨h3, h4⟩⟩)
      · exact .inr ⟨fun hv => hdecl.2.1 ⟨hv, List.mem_map.2 ⟨_, h2, rfl⟩⟩, s, .inr h2, h3⟩
      · exact .inr ⟨fun hv => hdecl.1 ⟨hv, List.mem_map.2 ⟨_, h3, rfl⟩⟩, s, .inl h3, h4⟩
      · exact .inl h4
    · rintro (h2 | ⟨h2, s, h3 | h3, h4⟩)
      · have hv : name ∈ c.vars.map (·.1) := List.mem_map.2 ⟨_, dictGet_mem h2, rfl⟩
        exact .inr ⟨fun hx => hdecl.2.1 ⟨hv, hx⟩, .inr ⟨fun hx => hdecl.1 ⟨hv, hx⟩, h2⟩⟩
      · exact .inr ⟨fun hx => hdecl.2.2 ⟨List.mem_map.2 ⟨_, h3, rfl⟩, hx⟩, .inl ⟨s, h3, h4⟩⟩
      · exact .inl ⟨s, h3, h4⟩

end Call

end

/-! ## The modules of /repo -/

namespace Repo

/-- The modules of /repo, and no others. -/
def world : World Obj where
  find name := (modules.find? fun m => m.1 == name).map fun m => { attrs := m.2.2, isPackage := m.2.1 }
  moduleObj name := (name, [])

/-- The submodules of `websockets` become variables of `websockets` when they're imported. -/
def submodules : List PyStr := modules.filterMap fun m =>
  if p!"websockets.".isPrefixOf m.1 ∧ (m.1.drop 11).contains 46 = false then some (m.1.drop 11) else none

/-- **C85**: the calls to `lazy_import` in /repo don't fail; variables defined later don't hide the names that they declare; all
these names are provided. -/
theorem C85_repo : ∀ c ∈ calls, c.1.lazyImport = .ok () ∧ (c.1.aliases.map (·.1)).Nodup ∧
    (c.1.deprecated.map (·.1)).Nodup ∧
    (∀ p ∈ c.1.aliases ++ c.1.deprecated, p.1 ∉ c.2.map (·.1) ∧ p.1 ∉ submodules ∧
      ∃ o, Spec.Provides world c.1.package p.2 p.1 o) := by
  have h : (calls.all fun c => decide (c.1.lazyImport = .ok ()) && decide (c.1.aliases.map (·.1)).Nodup &&
      decide (c.1.deprecated.map (·.1)).Nodup &&
      (c.1.aliases ++ c.1.deprecated).all fun p => !(c.2.map (·.1)).contains p.1 && !submodules.contains p.1 &&
        (importName world c.1.package p.1 p.2).toOption.isSome) = true := by decide +kernel
  rw [List.all_eq_true] at h
  intro c hc
  have h1 := h c hc
  simp only [Bool.and_eq_true, decide_eq_true_eq] at h1
  obtain ⟨⟨⟨h1, h2⟩, h3⟩, h4⟩ := h1
  refine ⟨h1, h2, h3, ?_⟩
  rw [List.all_eq_true] at h4
  intro p hp
  have h5 := h4 p hp
  simp only [Bool.and_eq_true, Bool.not_eq_true', List.contains_eq_mem, decide_eq_false_iff_not] at h5
  refine ⟨h5.1.1, h5.1.2, ?_⟩
  cases hi : importName world c.1.package p.1 p.2 with
  | error e => rw [hi] at h5; simp [Except.toOption] at h5
  | ok o => exact ⟨o, (importName_iff ..).1 hi⟩

/-- **C85**: the names in `websockets.__all__` are attributes of `websockets`, which aren't deprecated.  They're the
objects with this name in a module that defines it. -/
theorem C85_all : ∀ name ∈ all, ∃ m b names, (m, b, names) ∈ modules ∧ (name, m, name) ∈ names ∧
    call_websockets.getattr world call_websockets.vars name = (.ok (m, name), []) := by
  have h : (all.all fun name => modules.any fun m => m.2.2.any (fun p => p == (name, m.1, name)) &&
      decide (call_websockets.getattr world call_websockets.vars name = (.ok (m.1, name), []))) = true := by
    decide +kernel
  simp only [List.all_eq_true, List.any_eq_true, Bool.and_eq_true, decide_eq_true_eq, beq_iff_eq] at h
  intro name hn
  obtain ⟨⟨m, b, names⟩, h1, ⟨p, h2, rfl⟩, h3⟩ := h name hn
  exact ⟨m, b, names, h1, h2, h3⟩

/-- **C85 is false** for `dir()`: `websockets.client` calls `lazy_import` before it defines `ClientConnection`, so that
`dir(websockets.client)` doesn't contain it. -/
theorem C85_dir_false : ¬∀ c ∈ calls, ∀ name o, (c.1.getattr world (c.1.vars ++ c.2) name).1 = .ok o → name ∈ c.1.dir := by
  intro h
  have h1 := h (call_websockets_client, names_websockets_client) (by simp [calls]) p!"ClientConnection"
    (p!"websockets.client", p!"ClientConnection") (by decide +kernel)
  revert h1
  decide +kernel

-- Some attributes of `websockets`: an alias, a submodule of `websockets.legacy`, a deprecated alias, a variable, and a
-- name that doesn't exist.
example : call_websockets.getattr world call_websockets.vars p!"serve" =
    (.ok (p!"websockets.legacy.server", p!"serve"), []) := by decide +kernel
example : call_websockets.getattr world call_websockets.vars p!"auth" =
    (.ok (p!"websockets.legacy.auth", []), []) := by decide +kernel
example : call_websockets.getattr world call_websockets.vars p!"framing" =
    (.ok (p!"websockets.legacy.framing", []), [p!"websockets.framing is deprecated"]) := by decide +kernel
example : call_websockets.getattr world call_websockets.vars p!"__version__" =
    (.ok (p!"websockets.version", p!"version"), []) := by decide +kernel
example : call_websockets.getattr world call_websockets.vars p!"Serve" = (.error .attributeError, []) := by
  decide +kernel

-- Relative imports
example : resolve p!"a.b.c" p!"d" 1 = .ok p!"a.b.c.d" ∧ resolve p!"a.b.c" p!"d" 3 = .ok p!"a.d" ∧
    resolve p!"a.b.c" p!"d" 4 = .error .importError ∧ importLevel p!"..x.y" 0 = .ok (2, p!"x.y") ∧
    importLevel p!".." 0 = .error .assertionError := by decide +kernel

-- A name that is declared twice
example : ({ call_websockets with aliases := [(p!"__version__", p!".version")] } : Call Obj).lazyImport =
    .error .assertionError := by decide +kernel

-- Before Python 3.7
example : (call_websockets_http.eager world).toOption.map (fun vars => dictGet vars p!"read_request") =
    some (some (p!"websockets.legacy.http", p!"read_request")) := by decide +kernel

example : call_websockets_http.dir.drop 10 = [p!"ipaddress", p!"lazy_import", p!"read_request", p!"read_response", p!"sys",
    p!"websockets_version"] := by decide +kernel

end Repo

end WS.Imports
