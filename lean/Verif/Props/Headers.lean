import Verif.Model.Headers
import Verif.Spec.Headers

/-!
# Properties of datastructures.py: C31

`low` is `str.lower`; the theorems hold for any function in its place.
-/

namespace WS

open Spec

/-- Execute an operation; a `KeyError` raised by `del` leaves the object as it is. -/
def Spec.HOp.run (low : PyStr → PyStr) (h : Headers) : HOp → Headers
  | .set n v => h.set n v low
  | .del n => match h.del n low with
    | .ok h => h
    | .error _ => h
  | .clear => h.clear

theorem mem_firsts {x : PyStr} {xs : List PyStr} : x ∈ firsts xs ↔ x ∈ xs := by
  induction xs with
  | nil => simp [firsts]
  | cons y ys ih =>
    simp only [firsts, List.mem_cons, List.mem_filter, ih, decide_eq_true_eq]
    by_cases h : x = y <;> simp [h]

theorem firsts_snoc (xs : List PyStr) (x : PyStr) :
    firsts (xs ++ [x]) = if x ∈ xs then firsts xs else firsts xs ++ [x] := by
  induction xs with
  | nil => simp [firsts]
  | cons y ys ih =>
    simp only [List.cons_append, firsts, ih, List.mem_cons]
    by_cases h1 : x ∈ ys
    · simp [h1]
    · by_cases h2 : x = y
      · subst h2
        simp [h1, List.filter_append]
      · simp [h1, h2, List.filter_append]

theorem firsts_filter (xs : List PyStr) (k : PyStr) :
    firsts (xs.filter fun y => y ≠ k) = (firsts xs).filter fun y => y ≠ k := by
  induction xs with
  | nil => rfl
  | cons y ys ih =>
    by_cases h : y = k
    · subst h
      simp only [List.filter_cons, ne_eq, not_true_eq_false, decide_false, Bool.false_eq_true,
        if_false, firsts] at ih ⊢
      rw [ih, List.filter_filter]
      simp
    · simp only [List.filter_cons, ne_eq, h, not_false_eq_true, decide_true, if_true, firsts]
        at ih ⊢
      rw [ih, List.filter_filter, List.filter_filter]
      congr 1
      apply List.filter_congr
      intro z _
      exact Bool.and_comm _ _

theorem firsts_nodup (xs : List PyStr) : (firsts xs).Nodup := by
  induction xs with
  | nil => simp [firsts]
  | cons y ys ih =>
    simp only [firsts, List.nodup_cons, List.mem_filter, decide_eq_true_eq, ne_eq,
      not_true_eq_false, and_false, not_false_eq_true, true_and]
    exact ih.filter _

/-- The values stored under a lowered name. -/
def groupOf (low : PyStr → PyStr) (l : List (PyStr × PyStr)) (k : PyStr) : List PyStr :=
  (l.filter fun p => low p.1 = k).map (·.2)

/-- The dictionary that goes with a list of pairs. -/
def canonDict (low : PyStr → PyStr) (l : List (PyStr × PyStr)) : List (PyStr × List PyStr) :=
  (firsts (l.map fun p => low p.1)).map fun k => (k, groupOf low l k)

theorem dictAppend_map (k v : PyStr) (ks : List PyStr) (f : PyStr → List PyStr) (hn : ks.Nodup) :
    dictAppend k v (ks.map fun x => (x, f x)) =
      if k ∈ ks then ks.map fun x => (x, if x = k then f x ++ [v] else f x)
      else ks.map (fun x => (x, f x)) ++ [(k, [v])] := by
  induction ks with
  | nil => simp [dictAppend]
  | cons y ys ih =>
    simp only [List.nodup_cons] at hn
    simp only [List.map_cons, dictAppend, List.mem_cons]
    by_cases h : y = k
    · subst h
      simp only [if_true, true_or, List.cons.injEq, true_and]
      apply List.map_congr_left
      intro z hz
      have : z ≠ y := fun e => hn.1 (e ▸ hz)
      simp [this]
    · have h' : ¬ k = y := fun e => h e.symm
      simp only [h, h', if_false, false_or, ih hn.2]
      split <;> simp

theorem canonDict_set (low : PyStr → PyStr) (l : List (PyStr × PyStr)) (n v : PyStr) :
    dictAppend (low n) v (canonDict low l) = canonDict low (l ++ [(n, v)]) := by
  unfold canonDict
  rw [dictAppend_map _ _ _ _ (firsts_nodup _), List.map_append, List.map_singleton, firsts_snoc]
  simp only [mem_firsts]
  by_cases h : low n ∈ l.map fun p => low p.1
  · rw [if_pos h, if_pos h]
    apply List.map_congr_left
    intro k _
    by_cases hk : k = low n
    · subst hk; simp [groupOf]
    · have : ¬ low n = k := fun e => hk e.symm
      simp [groupOf, hk, this]
  · rw [if_neg h, if_neg h, List.map_append]
    congr 1
    · apply List.map_congr_left
      intro k hk
      have : ¬ low n = k := fun e => h (e ▸ mem_firsts.1 hk)
      simp [groupOf, this]
    · have : l.filter (fun p => decide (low p.1 = low n)) = [] := by
        simp only [List.filter_eq_nil_iff, decide_eq_true_eq]
        intro p hp e
        exact h (List.mem_map.2 ⟨p, hp, e⟩)
      simp [groupOf, this]

theorem canonDict_del (low : PyStr → PyStr) (l : List (PyStr × PyStr)) (k : PyStr) :
    (canonDict low l).filter (fun p => p.1 ≠ k) =
      canonDict low (l.filter fun p => low p.1 ≠ k) := by
  unfold canonDict
  rw [List.filter_map]
  have : (l.filter fun p => low p.1 ≠ k).map (fun p => low p.1) =
      (l.map fun p => low p.1).filter fun y => y ≠ k := by
    rw [List.filter_map]; rfl
  rw [this, firsts_filter]
  apply List.map_congr_left
  intro x hx
  have hx : x ≠ k := by
    have := (List.mem_filter.1 hx).2
    simpa using this
  simp only [groupOf, List.filter_filter, Prod.mk.injEq, true_and]
  congr 1
  apply List.filter_congr
  intro p _
  by_cases e : low p.1 = x
  · subst e; simp [hx]
  · simp [e]

theorem dictGet_canon (low : PyStr → PyStr) (l : List (PyStr × PyStr)) (k : PyStr) :
    dictGet (canonDict low l) k = if k ∈ l.map (fun p => low p.1) then some (groupOf low l k)
      else none := by
  unfold dictGet canonDict
  have key : ∀ ks : List PyStr, ((ks.map fun k => (k, groupOf low l k)).find?
      fun p => p.1 == k).map (·.2) = if k ∈ ks then some (groupOf low l k) else none := by
    intro ks
    induction ks with
    | nil => simp
    | cons y ys ih =>
      simp only [List.map_cons, List.find?_cons, List.mem_cons]
      by_cases h : y = k
      · subst h; simp
      · have h' : ¬ k = y := fun e => h e.symm
        have hb : (y == k) = false := by simpa using h
        simp only [hb, h', false_or]
        exact ih
  rw [key]
  simp only [mem_firsts]

/-- The dictionary and the list of a `Headers` object agree. -/
def Headers.Ok (low : PyStr → PyStr) (h : Headers) : Prop := h.dict = canonDict low h.list

theorem Headers.ok_empty (low : PyStr → PyStr) : Headers.Ok low {} := rfl

theorem Headers.Ok.set {low : PyStr → PyStr} {h : Headers} (hk : h.Ok low) (n v : PyStr) :
    (h.set n v low).Ok low := by
  unfold Headers.Ok Headers.set at *
  simp only
  rw [hk, canonDict_set]

theorem valuesOf_eq (low : PyStr → PyStr) (l : List (PyStr × PyStr)) (n : PyStr) :
    valuesOf low l n = groupOf low l (low n) := rfl

theorem groupOf_ne_nil {low : PyStr → PyStr} {l : List (PyStr × PyStr)} {k : PyStr} :
    groupOf low l k ≠ [] ↔ k ∈ l.map fun p => low p.1 := by
  simp only [groupOf, ne_eq, List.map_eq_nil_iff, List.filter_eq_nil_iff, decide_eq_true_eq,
    List.mem_map, Prod.exists]
  constructor
  · intro h
    apply Classical.byContradiction
    intro hn
    exact h fun p hp e => hn ⟨p.1, p.2, hp, e⟩
  · rintro ⟨a, b, h1, h2⟩ h
    exact h (a, b) h1 h2

theorem Headers.Ok.get_values {low : PyStr → PyStr} {h : Headers} (hk : h.Ok low) (n : PyStr) :
    dictGet h.dict (low n) = if valuesOf low h.list n = [] then none
      else some (valuesOf low h.list n) := by
  rw [hk, dictGet_canon, valuesOf_eq]
  by_cases h : groupOf low (Headers.list ‹_›) (low n) = []
  · rw [if_pos h, if_neg (fun e => groupOf_ne_nil.2 e h)]
  · rw [if_neg h, if_pos (groupOf_ne_nil.1 h)]

theorem Headers.Ok.del {low : PyStr → PyStr} {h : Headers} (hk : h.Ok low) (n : PyStr) :
    h.del n low = if valuesOf low h.list n = [] then .error .keyError else
      .ok ⟨canonDict low (h.list.filter fun p => low p.1 ≠ low n),
        h.list.filter fun p => low p.1 ≠ low n⟩ := by
  unfold Headers.del
  rw [hk.get_values]
  by_cases e : valuesOf low h.list n = []
  · simp [e]
  · rw [if_neg e, if_neg e]
    simp only
    rw [hk, canonDict_del]

theorem valuesOf_nil_filter {low : PyStr → PyStr} {l : List (PyStr × PyStr)} {n : PyStr}
    (h : valuesOf low l n = []) : (l.filter fun p => low p.1 ≠ low n) = l := by
  rw [List.filter_eq_self]
  intro p hp
  simp only [valuesOf, List.map_eq_nil_iff, List.filter_eq_nil_iff, decide_eq_true_eq] at h
  simpa using h p hp

theorem Spec.HOp.run_ok {low : PyStr → PyStr} {h : Headers} (hk : h.Ok low) (op : HOp) :
    (op.run low h).Ok low ∧ (op.run low h).list = op.spec low h.list := by
  cases op with
  | set n v => exact ⟨hk.set n v, rfl⟩
  | clear => exact ⟨Headers.ok_empty low, rfl⟩
  | del n =>
    simp only [HOp.run, HOp.spec, hk.del n]
    by_cases e : valuesOf low h.list n = []
    · simp only [e, if_true]
      exact ⟨hk, (valuesOf_nil_filter e).symm⟩
    · simp only [e, if_false, and_true]
      rfl

/-- **C31.** After any sequence of operations on a new `Headers` object, its raw items are the
pairs that were added and not removed by a later `del` or `clear`, in order. -/
theorem C31_raw_items (low : PyStr → PyStr) (ops : List HOp) :
    (ops.foldl (HOp.run low) ({} : Headers)).rawItems = ops.foldl (HOp.spec low) [] := by
  have : ∀ h : Headers, h.Ok low →
      (ops.foldl (HOp.run low) h).list = ops.foldl (HOp.spec low) h.list := by
    induction ops with
    | nil => intro h _; rfl
    | cons op ops ih =>
      intro h hk
      obtain ⟨h1, h2⟩ := HOp.run_ok hk op
      simp only [List.foldl_cons]
      rw [ih _ h1, h2]
  exact this {} (Headers.ok_empty low)

theorem Spec.HOp.exec_ok (low : PyStr → PyStr) (ops : List HOp) :
    (ops.foldl (HOp.run low) ({} : Headers)).Ok low := by
  have : ∀ h : Headers, h.Ok low → (ops.foldl (HOp.run low) h).Ok low := by
    induction ops with
    | nil => intro h hk; exact hk
    | cons op ops ih => intro h hk; exact ih _ (HOp.run_ok hk op).1
  exact this {} (Headers.ok_empty low)

theorem Headers.Ok.lookup {low : PyStr → PyStr} {h : Headers} (hk : h.Ok low) (n : PyStr) :
    h.getAll n low = valuesOf low h.list n ∧
      (h.contains n low = true ↔ valuesOf low h.list n ≠ []) ∧
      h.get n low = (match valuesOf low h.list n with
        | [] => .error .keyError
        | [v] => .ok v
        | _ => .error .multipleValuesError) := by
  unfold Headers.getAll Headers.contains Headers.get
  rw [hk.get_values]
  cases e : valuesOf low h.list n with
  | nil => simp
  | cons a b =>
    cases b <;> simp

/-- **C31.** After any sequence of operations on a new `Headers` object: `get_all` returns the
values under the equivalent names in the order of their addition; a name is in the object exactly
if it has a value; iterating over the object gives the distinct lowered names; looking up a name
returns its value if there is exactly one, raises `KeyError` if there is none and
`MultipleValuesError` if there are several; `get` returns `None` instead of raising `KeyError`;
`del` raises `KeyError` exactly if there is no value. -/
theorem C31_lookups (low : PyStr → PyStr) (ops : List HOp) (n : PyStr) :
    let h := ops.foldl (HOp.run low) ({} : Headers)
    let l := ops.foldl (HOp.spec low) []
    h.getAll n low = valuesOf low l n ∧
    (h.contains n low = true ↔ ∃ p ∈ l, low p.1 = low n) ∧
    h.keys = firsts (l.map fun p => low p.1) ∧ h.len = h.keys.length ∧
    (∀ v, h.get n low = .ok v ↔ valuesOf low l n = [v]) ∧
    (h.get n low = .error .keyError ↔ valuesOf low l n = []) ∧
    (h.get n low = .error .multipleValuesError ↔ 2 ≤ (valuesOf low l n).length) ∧
    (h.get? n low = .ok none ↔ valuesOf low l n = []) ∧
    (∀ v, h.get? n low = .ok (some v) ↔ valuesOf low l n = [v]) ∧
    (h.del n low = .error .keyError ↔ valuesOf low l n = []) := by
  intro h l
  have hk : h.Ok low := HOp.exec_ok low ops
  have hl : h.list = l := C31_raw_items low ops
  obtain ⟨h1, h2, h3⟩ := hk.lookup n
  have h4 := hk.del n
  rw [hl] at h1 h2 h3 h4
  have hkeys : h.keys = firsts (l.map fun p => low p.1) := by
    unfold Headers.keys
    rw [hk, hl]
    simp only [canonDict, List.map_map]
    exact List.map_id _
  refine ⟨h1, ?_, hkeys, by simp [Headers.len, Headers.keys], ?_⟩
  · rw [h2, valuesOf_eq, groupOf_ne_nil]
    simp only [List.mem_map]
  · unfold Headers.get?
    rw [h3, h4]
    cases valuesOf low l n with
    | nil => simp
    | cons a b => cases b <;> simp

/-- **C31.** Two `Headers` objects compare equal exactly if they hold the same pairs in the same
order. -/
theorem C31_eq (low : PyStr → PyStr) (ops ops' : List HOp) :
    (ops.foldl (HOp.run low) ({} : Headers)).eq (ops'.foldl (HOp.run low) ({} : Headers)) = true ↔
      ops.foldl (HOp.spec low) [] = ops'.foldl (HOp.spec low) [] := by
  have h1 := C31_raw_items low ops
  have h2 := C31_raw_items low ops'
  unfold Headers.rawItems at h1 h2
  simp [Headers.eq, h1, h2]

-- A name added twice with different cases, one deleted.
example : let h := [HOp.set p!"Host" p!"a", .set p!"Via" p!"1", .set p!"via" p!"2", .del p!"HOST",
    .set p!"Host" p!"b"].foldl (HOp.run pyLower) ({} : Headers)
    h.getAll p!"VIA" = [p!"1", p!"2"] ∧ h.get p!"host" = .ok p!"b" ∧
    h.get p!"Via" = .error .multipleValuesError ∧ h.keys = [p!"via", p!"host"] := ⟨rfl, rfl, rfl, rfl⟩

theorem Headers.ofList_ok (l : List (PyStr × PyStr)) :
    (Headers.ofList l).Ok pyLower ∧ (Headers.ofList l).list = l := by
  have : ∀ (l : List (PyStr × PyStr)) (h : Headers), h.Ok pyLower →
      (l.foldl (fun h p => h.set p.1 p.2) h).Ok pyLower ∧
      (l.foldl (fun h p => h.set p.1 p.2) h).list = h.list ++ l := by
    intro l
    induction l with
    | nil => intro h hk; exact ⟨hk, by simp⟩
    | cons p l ih =>
      intro h hk
      obtain ⟨h1, h2⟩ := ih (h.set p.1 p.2) (hk.set p.1 p.2)
      simp only [List.foldl_cons]
      exact ⟨h1, by rw [h2]; simp [Headers.set]⟩
  have := this l {} (Headers.ok_empty _)
  exact ⟨this.1, this.2.trans (List.nil_append l)⟩

end WS
