import Verif.Model.HeadersHeap
import Verif.Props.Headers

/-!
# Properties of datastructures.py: C32
-/

namespace WS

open Spec

/-- Execute an operation on an object. -/
def Spec.HOp.runHeap (low : PyStr → PyStr) (s : HHeap × HObj) : HOp → HHeap × HObj
  | .set n v => s.2.set low s.1 n v
  | .del n => match s.2.del low n with
    | .ok x => (s.1, x)
    | .error _ => s
  | .clear => (s.1, s.2.clear)

theorem HHeap.get_modify (H : HHeap) (a b : Nat) (f : List PyStr → List PyStr) (h : a < H.length) :
    HHeap.get (H.modify a f) b = if a = b then f (H.get b) else H.get b := by
  unfold HHeap.get
  rw [List.getElem?_modify]
  by_cases e : a = b
  · subst e
    simp [List.getElem?_eq_getElem h]
  · simp [e]

theorem HHeap.get_append (H : HHeap) (v : List PyStr) (b : Nat) (h : b < H.length) :
    HHeap.get (H ++ [v]) b = H.get b := by
  unfold HHeap.get
  rw [List.getElem?_append_left h]

theorem HHeap.get_new (H : HHeap) (v : List PyStr) : HHeap.get (H ++ [v]) H.length = v := by
  simp [HHeap.get]

theorem dictGet_mem {V : Type} {d : List (PyStr × V)} {k : PyStr} {v : V}
    (h : dictGet d k = some v) : (k, v) ∈ d := by
  unfold dictGet at h
  cases hf : d.find? (fun p => p.1 == k) with
  | none => rw [hf] at h; cases h
  | some p =>
    rw [hf] at h
    simp only [Option.map_some, Option.some.injEq] at h
    have h1 := List.find?_some hf
    have h2 := List.mem_of_find?_eq_some hf
    simp only [beq_iff_eq] at h1
    subst h1 h
    exact h2

theorem dictGet_append {V : Type} (d : List (PyStr × V)) (k k' : PyStr) (v : V) :
    dictGet (d ++ [(k', v)]) k = match dictGet d k with
      | some x => some x
      | none => if k' = k then some v else none := by
  unfold dictGet
  rw [List.find?_append]
  cases d.find? (fun p => p.1 == k) with
  | some x => rfl
  | none => by_cases h : k' = k <;> simp [h]

theorem dictGet_filter {V : Type} (d : List (PyStr × V)) (k k' : PyStr) :
    dictGet (d.filter fun p => p.1 ≠ k') k = if k = k' then none else dictGet d k := by
  unfold dictGet
  rw [List.find?_filter]
  by_cases h : k = k'
  · subst h
    rw [if_pos rfl]
    have : d.find? (fun a => (decide (a.1 ≠ k)) && (a.1 == k)) = none := by
      rw [List.find?_eq_none]; intro x _; by_cases e : x.1 = k <;> simp [e]
    simp [this]
  · rw [if_neg h]
    congr 1
    congr 1
    funext a
    by_cases e : a.1 = k
    · simp [e, h]
    · simp [e]

/-- The lists of values of an object exist and are different for different names. -/
structure HObj.Sane (H : HHeap) (x : HObj) : Prop where
  lt : ∀ k a, (k, a) ∈ x.dict → a < H.length
  inj : ∀ k k' a, (k, a) ∈ x.dict → (k', a) ∈ x.dict → k = k'

theorem HObj.set_length (low : PyStr → PyStr) (H : HHeap) (x : HObj) (n v : PyStr) :
    H.length ≤ (x.set low H n v).1.length := by
  unfold HObj.set
  split <;> simp

theorem HObj.Sane.runHeap {low : PyStr → PyStr} {s : HHeap × HObj} (h : s.2.Sane s.1) (op : HOp) :
    (op.runHeap low s).2.Sane (op.runHeap low s).1 ∧ s.1.length ≤ (op.runHeap low s).1.length := by
  obtain ⟨H, x⟩ := s
  cases op with
  | set n v =>
    simp only [HOp.runHeap, HObj.set]
    split
    · refine ⟨⟨fun k a hk => ?_, fun k k' a h1 h2 => h.inj k k' a h1 h2⟩, by simp⟩
      simp only [List.length_modify]
      exact h.lt k a hk
    · refine ⟨⟨fun k a hk => ?_, fun k k' a h1 h2 => ?_⟩, by simp⟩
      · simp only [List.mem_append, List.mem_singleton, Prod.mk.injEq, List.length_append,
          List.length_singleton] at hk ⊢
        rcases hk with hk | ⟨_, rfl⟩
        · have := h.lt k a hk; simp only at this; omega
        · omega
      · simp only [List.mem_append, List.mem_singleton, Prod.mk.injEq] at h1 h2
        rcases h1 with h1 | ⟨rfl, rfl⟩ <;> rcases h2 with h2 | ⟨rfl, h2⟩
        · exact h.inj k k' a h1 h2
        · have := h.lt _ _ h1; simp only at this; omega
        · have := h.lt _ _ h2; simp only at this; omega
        · rfl
  | clear => exact ⟨⟨fun k a h => (by cases h), fun k k' a h => (by cases h)⟩, Nat.le_refl _⟩
  | del n =>
    simp only [HOp.runHeap, HObj.del]
    cases dictGet x.dict (low n) with
    | none => exact ⟨h, Nat.le_refl _⟩
    | some _ =>
      refine ⟨⟨fun k a hk => h.lt k a ?_, fun k k' a h1 h2 => h.inj k k' a ?_ ?_⟩, Nat.le_refl _⟩
      · exact (List.mem_filter.1 hk).1
      · exact (List.mem_filter.1 h1).1
      · exact (List.mem_filter.1 h2).1

theorem HObj.Sane.exec {low : PyStr → PyStr} {s : HHeap × HObj} (h : s.2.Sane s.1)
    (ops : List HOp) : (ops.foldl (HOp.runHeap low) s).2.Sane (ops.foldl (HOp.runHeap low) s).1 ∧
      s.1.length ≤ (ops.foldl (HOp.runHeap low) s).1.length := by
  induction ops generalizing s with
  | nil => exact ⟨h, Nat.le_refl _⟩
  | cons op ops ih =>
    obtain ⟨h1, h2⟩ := h.runHeap (low := low) op
    obtain ⟨h3, h4⟩ := ih h1
    exact ⟨h3, Nat.le_trans h2 h4⟩

theorem HObj.Sane.empty (H : HHeap) : HObj.Sane H {} :=
  ⟨fun k a h => (by cases h), fun k k' a h => (by cases h)⟩

/-- The values that reach the lists of values shared with a copy: those set under an equivalent
name until the name is deleted. -/
def Spec.leaked (low : PyStr → PyStr) (n : PyStr) : List HOp → List PyStr
  | [] => []
  | .set m v :: ops => if low m = low n then v :: leaked low n ops else leaked low n ops
  | .del m :: ops => if low m = low n then [] else leaked low n ops
  | .clear :: _ => []

/-- Operations on `x` that don't reach list `a`, because no name refers to it. -/
theorem exec_apart {low : PyStr → PyStr} (a : Nat) (ops : List HOp) {s : HHeap × HObj}
    (ha : a < s.1.length) (hn : ∀ k, (k, a) ∉ s.2.dict) (hs : s.2.Sane s.1) :
    (ops.foldl (HOp.runHeap low) s).1.get a = s.1.get a := by
  induction ops generalizing s with
  | nil => rfl
  | cons op ops ih =>
    simp only [List.foldl_cons]
    obtain ⟨h1, h2⟩ := hs.runHeap (low := low) op
    have key : (op.runHeap low s).1.get a = s.1.get a ∧
        ∀ k, (k, a) ∉ (op.runHeap low s).2.dict := by
      obtain ⟨H, x⟩ := s
      cases op with
      | set m v =>
        simp only [HOp.runHeap, HObj.set]
        cases e : dictGet x.dict (low m) with
        | some b =>
          simp only
          have hb := dictGet_mem e
          have hne : b ≠ a := fun e => hn (low m) (e ▸ hb)
          rw [HHeap.get_modify _ _ _ _ (hs.lt _ _ hb), if_neg hne]
          exact ⟨rfl, hn⟩
        | none =>
          simp only
          refine ⟨HHeap.get_append _ _ _ ha, ?_⟩
          intro k hk
          simp only [List.mem_append, List.mem_singleton, Prod.mk.injEq] at hk
          rcases hk with hk | ⟨_, hk⟩
          · exact hn k hk
          · simp only at ha; omega
      | clear => exact ⟨rfl, fun k h => by cases h⟩
      | del m =>
        simp only [HOp.runHeap, HObj.del]
        cases dictGet x.dict (low m) with
        | none => exact ⟨rfl, hn⟩
        | some _ => exact ⟨rfl, fun k hk => hn k (List.mem_filter.1 hk).1⟩
    rw [ih (by omega) key.2 h1, key.1]

theorem mem_dict_unique {low : PyStr → PyStr} {n : PyStr} {a : Nat} {H : HHeap} {x : HObj}
    (hs : x.Sane H) (h : dictGet x.dict (low n) = some a) {k : PyStr} (hk : (k, a) ∈ x.dict) :
    k = low n := hs.inj _ _ _ hk (dictGet_mem h)

/-- Operations on `x` while its name `n` refers to list `a`. -/
theorem exec_shared {low : PyStr → PyStr} (n : PyStr) (a : Nat) (ops : List HOp) {s : HHeap × HObj}
    (h : dictGet s.2.dict (low n) = some a) (hs : s.2.Sane s.1) :
    (ops.foldl (HOp.runHeap low) s).1.get a = s.1.get a ++ leaked low n ops := by
  induction ops generalizing s with
  | nil => simp [leaked]
  | cons op ops ih =>
    simp only [List.foldl_cons]
    obtain ⟨h1, h2⟩ := hs.runHeap (low := low) op
    have ha := hs.lt _ _ (dictGet_mem h)
    cases op with
    | set m v =>
      by_cases e : low m = low n
      · have : (HOp.set m v).runHeap low s =
            (s.1.modify a (· ++ [v]), ⟨s.2.dict, s.2.list ++ [(m, v)]⟩) := by
          simp only [HOp.runHeap, HObj.set, e, h]
        rw [this] at h1 ⊢
        rw [ih (s := (s.1.modify a (· ++ [v]), ⟨s.2.dict, s.2.list ++ [(m, v)]⟩)) h h1,
          HHeap.get_modify _ _ _ _ ha, if_pos rfl]
        simp [leaked, e]
      · cases hm : dictGet s.2.dict (low m) with
        | some b =>
          have hbm := dictGet_mem hm
          have hne : b ≠ a := by
            rintro rfl
            exact e (mem_dict_unique hs h hbm)
          have : (HOp.set m v).runHeap low s =
              (s.1.modify b (· ++ [v]), ⟨s.2.dict, s.2.list ++ [(m, v)]⟩) := by
            simp only [HOp.runHeap, HObj.set, hm]
          rw [this] at h1 ⊢
          rw [ih (s := (s.1.modify b (· ++ [v]), ⟨s.2.dict, s.2.list ++ [(m, v)]⟩)) h h1,
            HHeap.get_modify _ _ _ _ (hs.lt _ _ hbm), if_neg hne]
          simp [leaked, e]
        | none =>
          have : (HOp.set m v).runHeap low s =
              (s.1 ++ [[v]], ⟨s.2.dict ++ [(low m, s.1.length)], s.2.list ++ [(m, v)]⟩) := by
            simp only [HOp.runHeap, HObj.set, hm]
          rw [this] at h1 ⊢
          rw [ih (by rw [dictGet_append, h]) h1, HHeap.get_append _ _ _ ha]
          simp [leaked, e]
    | clear =>
      rw [exec_apart a ops (by simpa [HOp.runHeap] using ha)
        (by intro k hk; cases hk) h1]
      simp [leaked, HOp.runHeap]
    | del m =>
      by_cases e : low m = low n
      · have : (HOp.del m).runHeap low s = (s.1,
            ⟨s.2.dict.filter fun p => p.1 ≠ low n, s.2.list.filter fun p => low p.1 ≠ low n⟩) := by
          simp only [HOp.runHeap, HObj.del, e, h]
        rw [this] at h1 ⊢
        rw [exec_apart (s := (s.1, ⟨s.2.dict.filter fun p => p.1 ≠ low n,
          s.2.list.filter fun p => low p.1 ≠ low n⟩)) a ops ha ?_ h1]
        · simp [leaked, e]
        · intro k hk
          have := List.mem_filter.1 hk
          have hk2 := mem_dict_unique hs h this.1
          simp [hk2] at this
      · cases hm : dictGet s.2.dict (low m) with
        | none =>
          have : (HOp.del m).runHeap low s = s := by simp only [HOp.runHeap, HObj.del, hm]
          rw [this, ih h hs]
          simp [leaked, e]
        | some b =>
          have : (HOp.del m).runHeap low s = (s.1,
              ⟨s.2.dict.filter fun p => p.1 ≠ low m, s.2.list.filter fun p => low p.1 ≠ low m⟩) := by
            simp only [HOp.runHeap, HObj.del, hm]
          rw [this] at h1 ⊢
          rw [ih ?_ h1]
          · simp [leaked, e]
          · simp only
            rw [dictGet_filter, if_neg (fun h => e h.symm), h]

/-- **C32, partial.** What changes through a copy, exactly.  Build a `Headers` object with any
operations, copy it, apply any operations to one of the two: the pairs of the other (hence its
serialization and comparisons), its keys and its length don't change, because they are attributes
of that object alone; the values that `get_all` returns for the other are followed by the values
that were set under an equivalent name, if the name was in the object when it was copied and until
the name was deleted from the object that changed.

(The full statement of C32, that nothing ever changes, is false: see below.  In the model the
object and its copy have equal attributes, so that this theorem is about changes to either.) -/
theorem C32_leak_partial (low : PyStr → PyStr) (H : HHeap) (build ops : List HOp) (n : PyStr) :
    let s := build.foldl (HOp.runHeap low) (H, {})
    let s' := ops.foldl (HOp.runHeap low) (s.1, s.2.copy)
    s.2.getAll low s'.1 n = s.2.getAll low s.1 n ++
      (if (dictGet s.2.dict (low n)).isSome then leaked low n ops else []) := by
  intro s s'
  have hs : s.2.Sane s.1 := ((HObj.Sane.empty H).exec (s := (H, {})) build).1
  unfold HObj.getAll
  cases h : dictGet s.2.dict (low n) with
  | none => simp
  | some a =>
    simp only [Option.isSome_some, if_true]
    exact exec_shared (s := (s.1, s.2.copy)) n a ops h hs

/-- **C32, partial.** If the other object is only given values under names that weren't in it
when it was copied, or had been deleted from it before, then no lookup in the object changes. -/
theorem C32_independent_partial (low : PyStr → PyStr) (H : HHeap) (build ops : List HOp)
    (hops : ∀ n v, HOp.set n v ∈ ops →
      (dictGet (build.foldl (HOp.runHeap low) (H, {})).2.dict (low n)).isSome = false) (n : PyStr) :
    let s := build.foldl (HOp.runHeap low) (H, {})
    let s' := ops.foldl (HOp.runHeap low) (s.1, s.2.copy)
    s.2.getAll low s'.1 n = s.2.getAll low s.1 n ∧ s.2.get low s'.1 n = s.2.get low s.1 n := by
  intro s s'
  have hs : s.2.Sane s.1 := ((HObj.Sane.empty H).exec (s := (H, {})) build).1
  have hl : ∀ ops : List HOp, (∀ v m, HOp.set m v ∈ ops → low m ≠ low n) → leaked low n ops = [] := by
    intro ops
    induction ops with
    | nil => intro _; rfl
    | cons op ops ih =>
      intro h
      cases op with
      | set m v =>
        simp only [leaked, h v m (by simp), if_false]
        exact ih fun v m hm => h v m (by simp [hm])
      | del m =>
        simp only [leaked]
        split
        · rfl
        · exact ih fun v m hm => h v m (by simp [hm])
      | clear => rfl
  have key : ∀ a, dictGet s.2.dict (low n) = some a → s'.1.get a = s.1.get a := by
    intro a h
    have := exec_shared (s := (s.1, s.2.copy)) n a ops h hs
    rw [hl] at this
    · simpa using this
    · intro v m hm e
      have h1 := hops m v hm
      rw [e] at h1
      change (dictGet s.2.dict (low n)).isSome = false at h1
      rw [h] at h1
      cases h1
  unfold HObj.getAll HObj.get
  cases h : dictGet s.2.dict (low n) with
  | none => exact ⟨rfl, rfl⟩
  | some a => simp only [key a h, and_self]

/-- **C32 is false.** Setting a header in the copy of a `Headers` object can change the result of
looking it up in the original, even though the original still lists a single pair. -/
theorem C32_copy_false : ∃ (build ops : List HOp) (n : PyStr),
    let s := build.foldl (HOp.runHeap pyLower) ([], {})
    let s' := ops.foldl (HOp.runHeap pyLower) (s.1, s.2.copy)
    s.2.getAll pyLower s.1 n = [p!"1"] ∧ s.2.getAll pyLower s'.1 n = [p!"1", p!"2"] ∧
    s.2.get pyLower s.1 n = .ok p!"1" ∧ s.2.get pyLower s'.1 n = .error .multipleValuesError ∧
    s.2.list = [(p!"A", p!"1")] :=
  ⟨[.set p!"A" p!"1"], [.set p!"a" p!"2"], p!"A", rfl, rfl, rfl, rfl, rfl⟩

-- The hypothesis of `C32_independent_partial` is met when the copy gets another header.
example : ∀ n v, HOp.set n v ∈ [HOp.set p!"Via" p!"2", .del p!"A"] →
    (dictGet ([HOp.set p!"A" p!"1"].foldl (HOp.runHeap pyLower) ([], {})).2.dict
      (pyLower n)).isSome = false := by
  intro n v h
  simp only [List.mem_cons, List.not_mem_nil, or_false, HOp.set.injEq, reduceCtorEq] at h
  obtain ⟨rfl, rfl⟩ := h
  rfl

/-- A `Headers` object that isn't shared with a copy has the value described by
`Verif.Model.Headers`: the model with lists in a heap refines the one with values. -/
theorem Headers.deref_exec (low : PyStr → PyStr) (ops : List HOp) :
    let s := ops.foldl (HOp.runHeap low) ([], {})
    s.2.deref s.1 = ops.foldl (HOp.run low) {} := by
  have getd : ∀ (H : HHeap) (d : List (PyStr × Nat)) k,
      dictGet (d.map fun p => (p.1, H.get p.2)) k = (dictGet d k).map H.get := by
    intro H d k
    unfold dictGet
    induction d with
    | nil => rfl
    | cons p d ih =>
      simp only [List.map_cons, List.find?_cons]
      cases p.1 == k with
      | true => rfl
      | false => exact ih
  have app : ∀ (H : HHeap) (d : List (PyStr × Nat)) k v a,
      (∀ k a, (k, a) ∈ d → a < H.length) → (∀ k k' a, (k, a) ∈ d → (k', a) ∈ d → k = k') →
      d.Pairwise (fun p q => p.1 ≠ q.1) → dictGet d k = some a →
      dictAppend k v (d.map fun p => (p.1, H.get p.2)) =
        d.map fun p => (p.1, HHeap.get (H.modify a (· ++ [v])) p.2) := by
    intro H d k v a hlt hinj hpw h
    induction d with
    | nil => cases h
    | cons p d ih =>
      have ha := hlt _ _ (dictGet_mem h)
      simp only [List.map_cons, dictAppend]
      by_cases e : p.1 = k
      · rw [if_pos e]
        have hp : p.2 = a := by
          unfold dictGet at h
          simpa [e] using h
        rw [HHeap.get_modify _ _ _ _ ha, if_pos hp.symm]
        simp only [List.cons.injEq, Prod.mk.injEq, true_and]
        apply List.map_congr_left
        intro q hq
        rw [HHeap.get_modify _ _ _ _ ha, if_neg]
        intro ea
        have := hinj p.1 q.1 a (by simp [← hp]) (by simp [ea, hq])
        exact (List.rel_of_pairwise_cons hpw hq) this
      · rw [if_neg e]
        have h' : dictGet d k = some a := by
          unfold dictGet at h ⊢
          simpa [e] using h
        rw [ih (fun k a hk => hlt k a (by simp [hk])) (fun k k' a h1 h2 => hinj k k' a (by simp [h1])
          (by simp [h2])) (List.Pairwise.of_cons hpw) h']
        rw [HHeap.get_modify _ _ _ _ ha, if_neg]
        intro ea
        have := hinj p.1 k a (by simp [ea]) (dictGet_mem h)
        exact e this
  have appn : ∀ (H : HHeap) (d : List (PyStr × Nat)) k v, dictGet d k = none →
      dictAppend k v (d.map fun p => (p.1, H.get p.2)) =
        (d.map fun p => (p.1, H.get p.2)) ++ [(k, [v])] := by
    intro H d k v h
    induction d with
    | nil => rfl
    | cons p d ih =>
      unfold dictGet at h ih
      by_cases e : p.1 = k
      · simp [e] at h
      · simp only [List.map_cons, dictAppend, if_neg e, List.cons_append, List.cons.injEq, true_and]
        apply ih
        simpa [e] using h
  have main : ∀ (s : HHeap × HObj) (h : Headers), s.2.Sane s.1 →
      s.2.dict.Pairwise (fun p q => p.1 ≠ q.1) → s.2.deref s.1 = h →
      (ops.foldl (HOp.runHeap low) s).2.deref (ops.foldl (HOp.runHeap low) s).1 =
        ops.foldl (HOp.run low) h := by
    induction ops with
    | nil => intro s h _ _ e; exact e
    | cons op ops ih =>
      intro s h hs hpw e
      subst e
      simp only [List.foldl_cons]
      obtain ⟨H, x⟩ := s
      refine ih _ _ (hs.runHeap op).1 ?_ ?_
      · cases op with
        | set m v =>
          simp only [HOp.runHeap, HObj.set]
          cases hm : dictGet x.dict (low m) with
          | some a => exact hpw
          | none =>
            simp only
            rw [List.pairwise_append]
            refine ⟨hpw, List.pairwise_singleton _ _, ?_⟩
            intro p hp q hq
            simp only [List.mem_singleton] at hq
            subst hq
            intro e
            unfold dictGet at hm
            simp only [Option.map_eq_none_iff, List.find?_eq_none, beq_iff_eq] at hm
            exact hm p hp e
        | clear => exact List.Pairwise.nil
        | del m =>
          simp only [HOp.runHeap, HObj.del]
          cases dictGet x.dict (low m) with
          | none => exact hpw
          | some _ => exact hpw.filter _
      · cases op with
        | set m v =>
          simp only [HOp.runHeap, HOp.run, HObj.set, Headers.set, HObj.deref]
          cases hm : dictGet x.dict (low m) with
          | some a =>
            simp only
            rw [app H x.dict (low m) v a hs.lt hs.inj hpw hm]
          | none =>
            simp only
            rw [appn H x.dict (low m) v hm, List.map_append]
            simp only [List.map_singleton, HHeap.get_new, Headers.mk.injEq, and_true]
            congr 1
            apply List.map_congr_left
            intro p hp
            rw [HHeap.get_append _ _ _ (hs.lt p.1 p.2 hp)]
        | clear => rfl
        | del m =>
          simp only [HOp.runHeap, HOp.run, HObj.del, Headers.del, HObj.deref, getd]
          cases dictGet x.dict (low m) with
          | none => rfl
          | some _ =>
            simp only [Option.map_some, Headers.mk.injEq, and_true]
            rw [List.filter_map]
            rfl
  exact main ([], {}) {} (HObj.Sane.empty []) List.Pairwise.nil rfl

end WS
