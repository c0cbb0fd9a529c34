import Verif.Model.FormatClose
import Verif.Props.LegacyPings
import Verif.Props.Uri

/-!
# C91: what `ConnectionClosed` displays
-/

namespace WS

/-- The name of a close code: RFC 6455, 7.4.1, and the registry of IANA.  1004 is reserved, and
names nothing. -/
def Spec.Named (code : Int) : Prop :=
  (1000 ≤ code ∧ code ≤ 1015 ∧ code ≠ 1004) ∨ (3000 ≤ code ∧ code ≤ 4999)

theorem explain_known {code : Int} : explainClose code = p!"unknown" ↔ ¬ Spec.Named code := by
  unfold explainClose Spec.Named
  split
  · rename_i h
    exact ⟨fun e => absurd e (by decide), fun e => absurd (.inr ⟨h.1, by omega⟩) e⟩
  · split
    · rename_i h
      exact ⟨fun e => absurd e (by decide), fun e => absurd (.inr ⟨by omega, by omega⟩) e⟩
    · by_cases hr : 1000 ≤ code ∧ code ≤ 1015
      · have hc : code = 1000 ∨ code = 1001 ∨ code = 1002 ∨ code = 1003 ∨ code = 1004 ∨ code = 1005 ∨
            code = 1006 ∨ code = 1007 ∨ code = 1008 ∨ code = 1009 ∨ code = 1010 ∨ code = 1011 ∨
            code = 1012 ∨ code = 1013 ∨ code = 1014 ∨ code = 1015 := by omega
        rcases hc with rfl | rfl | rfl | rfl | rfl | rfl | rfl | rfl | rfl | rfl | rfl | rfl | rfl | rfl |
          rfl | rfl <;> decide
      · have : closeCodes.lookup code = none := by
          rw [List.lookup_eq_none_iff]
          intro p hp
          simp only [closeCodes, List.mem_cons, List.not_mem_nil, or_false] at hp
          refine bne_iff_ne.2 ?_
          rcases hp with rfl | rfl | rfl | rfl | rfl | rfl | rfl | rfl | rfl | rfl | rfl | rfl | rfl | rfl |
            rfl <;> omega
        rw [this]
        simp only [Option.getD_none, true_iff]
        omega

theorem decStr_inj {m n : Nat} (h : decStr m = decStr n) : m = n := by
  have h1 := (Uri.decStr_spec m).2.2
  have h2 := (Uri.decStr_spec n).2.2
  rw [h] at h1
  exact h1.symm.trans h2

theorem intStr_inj {i j : Int} (h : intStr i = intStr j) : i = j := by
  have hd : ∀ n m, decStr n ≠ 45 :: decStr m := by
    intro n m e
    have := (Uri.decStr_spec n).2.1 45 (by rw [e]; exact List.mem_cons_self)
    omega
  match i, j, h with
  | .ofNat m, .ofNat n, h => exact congrArg _ (decStr_inj h)
  | .ofNat m, .negSucc n, h => exact absurd h (hd _ _)
  | .negSucc m, .ofNat n, h => exact absurd h.symm (hd _ _)
  | .negSucc m, .negSucc n, h =>
    have := decStr_inj (List.cons.inj h).2
    exact congrArg _ (Nat.succ.inj this)

theorem intStr_noSpace (i : Int) : 32 ∉ intStr i := by
  intro h
  cases i with
  | ofNat n =>
    have := (Uri.decStr_spec n).2.1 32 h
    omega
  | negSucc n =>
    rcases List.mem_cons.1 h with h | h
    · cases h
    · have := (Uri.decStr_spec (n + 1)).2.1 32 h
      omega

theorem split_space {a b a' b' : PyStr} (ha : 32 ∉ a) (ha' : 32 ∉ a')
    (h : a ++ 32 :: b = a' ++ 32 :: b') : a = a' ∧ b = b' := by
  induction a generalizing a' with
  | nil =>
    cases a' with
    | nil => exact ⟨rfl, (List.cons.inj h).2⟩
    | cons x xs =>
      have := (List.cons.inj h).1
      exact absurd (by rw [← this]; exact List.mem_cons_self) ha'
  | cons x xs ih =>
    cases a' with
    | nil =>
      have := (List.cons.inj h).1
      exact absurd (by rw [this]; exact List.mem_cons_self) ha
    | cons y ys =>
      obtain ⟨h1, h2⟩ := List.cons.inj h
      obtain ⟨h3, h4⟩ := ih (fun h => ha (List.mem_cons_of_mem _ h))
        (fun h => ha' (List.mem_cons_of_mem _ h)) h2
      exact ⟨by rw [h1, h3], h4⟩

/-- Two closures that differ by the code or by the reason are displayed differently. -/
theorem C91_injective {code code' : Int} {reason reason' : PyStr}
    (h : formatClose code reason = formatClose code' reason') : code = code' ∧ reason = reason' := by
  unfold formatClose at h
  simp only [List.append_assoc] at h
  have h := List.append_cancel_left h
  have hs : ∀ (a b : PyStr), a ++ (p!" (" ++ b) = a ++ 32 :: (p!"(" ++ b) := fun _ _ => rfl
  rw [hs, hs] at h
  obtain ⟨h1, h2⟩ := split_space (intStr_noSpace _) (intStr_noSpace _) h
  have hc := intStr_inj h1
  subst hc
  refine ⟨rfl, ?_⟩
  have h := List.append_cancel_left (List.append_cancel_left (List.append_cancel_left h2))
  by_cases hr : reason = [] <;> by_cases hr' : reason' = []
  · rw [hr, hr']
  · rw [if_neg (by simpa using hr), if_pos hr'] at h
    cases h
  · rw [if_pos hr, if_neg (by simpa using hr')] at h
    cases h
  · rw [if_pos hr, if_pos hr'] at h
    exact List.append_cancel_left h

/-- What is displayed: the code in decimal, a description, and the reason if there's one. -/
theorem C91_format (code : Int) (reason : PyStr) : ∃ explanation,
    formatClose code reason = p!"code = " ++ intStr code ++ p!" (" ++ explanation ++ p!"), " ++
      (if reason = [] then p!"no reason" else p!"reason = " ++ reason) ∧
    explanation ≠ [] ∧ (∀ c ∈ explanation, c ≠ 40 ∧ c ≠ 41 ∧ 32 ≤ c ∧ c < 127) ∧
    (explanation = p!"unknown" ↔ ¬ Spec.Named code) := by
  have hx : explainClose code ≠ [] ∧ ∀ c ∈ explainClose code, c ≠ 40 ∧ c ≠ 41 ∧ 32 ≤ c ∧ c < 127 := by
    unfold explainClose
    split
    · decide
    · split
      · decide
      · cases h : closeCodes.lookup code with
        | none => decide
        | some s =>
          have hm : s ∈ closeCodes.map (·.2) := by
            obtain ⟨l1, l2, e, -⟩ := List.lookup_eq_some_iff.1 h
            rw [e]; simp
          have : ∀ s ∈ closeCodes.map (·.2), s ≠ [] ∧ ∀ c ∈ s, c ≠ 40 ∧ c ≠ 41 ∧ 32 ≤ c ∧ c < 127 := by
            decide +kernel
          exact this s hm
  refine ⟨explainClose code, ?_, hx.1, hx.2, explain_known⟩
  unfold formatClose
  by_cases hr : reason = [] <;> simp [hr]

/-- Codes with different names, except in the ranges for libraries and for private use, have
different descriptions. -/
theorem C91_names {code code' : Int} (h : Spec.Named code) (h' : Spec.Named code')
    (hlt : code < 3000) (e : explainClose code = explainClose code') : code = code' := by
  have hc : ∀ c : Int, 1000 ≤ c → c ≤ 1015 → c = 1000 ∨ c = 1001 ∨ c = 1002 ∨ c = 1003 ∨ c = 1004 ∨
      c = 1005 ∨ c = 1006 ∨ c = 1007 ∨ c = 1008 ∨ c = 1009 ∨ c = 1010 ∨ c = 1011 ∨ c = 1012 ∨
      c = 1013 ∨ c = 1014 ∨ c = 1015 := by omega
  have hl : ∀ c : Int, 3000 ≤ c → c ≤ 4999 →
      explainClose c = p!"registered" ∨ explainClose c = p!"private use" := by
    intro c h1 h2
    unfold explainClose
    split
    · exact .inl rfl
    · rw [if_pos (by omega)]; exact .inr rfl
  have hu : ∀ s ∈ closeCodes.map (·.2), s ≠ p!"registered" ∧ s ≠ p!"private use" := by decide +kernel
  unfold Spec.Named at h h'
  have h1 : 1000 ≤ code ∧ code ≤ 1015 ∧ code ≠ 1004 := by omega
  rcases h' with h2 | h2
  · have key : ∀ a ∈ [1000, 1001, 1002, 1003, 1005, 1006, 1007, 1008, 1009, 1010, 1011, 1012, 1013, 1014, (1015 : Int)],
        ∀ b ∈ [1000, 1001, 1002, 1003, 1005, 1006, 1007, 1008, 1009, 1010, 1011, 1012, 1013, 1014, (1015 : Int)],
        explainClose a = explainClose b → a = b := by decide +kernel
    refine key code ?_ code' ?_ e
    · have := hc code h1.1 h1.2.1
      simp only [List.mem_cons, List.not_mem_nil, or_false]
      omega
    · have := hc code' h2.1 h2.2.1
      simp only [List.mem_cons, List.not_mem_nil, or_false]
      omega
  · exfalso
    have key : ∀ a ∈ [1000, 1001, 1002, 1003, 1005, 1006, 1007, 1008, 1009, 1010, 1011, 1012, 1013, 1014, (1015 : Int)],
        explainClose a ≠ p!"registered" ∧ explainClose a ≠ p!"private use" := by decide +kernel
    have hm := key code (by
      have := hc code h1.1 h1.2.1
      simp only [List.mem_cons, List.not_mem_nil, or_false]
      omega)
    rw [e] at hm
    rcases hl code' h2.1 h2.2 with h3 | h3
    · exact hm.1 h3
    · exact hm.2 h3

/-- The codes that a close frame may contain, and those that stand for a missing code or frame, have
a name. -/
theorem C91_parsed {data : Bytes} {code : Int} {reason : PyStr} (h : parseClose data = .ok (code, reason)) :
    Spec.Named code := by
  have hok : ∀ c : Int, closeCodeOk c = true → Spec.Named c := by
    intro c hc
    simp only [closeCodeOk, List.contains_eq_mem, List.mem_cons, List.not_mem_nil, or_false,
      Bool.or_eq_true, decide_eq_true_eq, Bool.and_eq_true] at hc
    unfold Spec.Named
    omega
  unfold parseClose at h
  split at h
  · simp only [checkClose] at h
    split at h
    · cases h
    · rename_i h2
      split at h2
      · cases h2
      · rename_i h3
        simp only [Bool.not_eq_true', Bool.not_eq_false] at h3
        split at h
        · cases h
        · cases h
          exact hok _ h3
  · cases h
    exact .inl (by omega)
  · cases h

end WS

namespace WS.LegacyConn

/-- The constructors of `ConnectionClosedOK` and `ConnectionClosedError` accept the same codes as
RFC 6455 calls normal closures, and the other ones. -/
theorem C91_assertions (code : Int) : (closedOKOk code = true ↔ code = 1000 ∨ code = 1001) ∧
    (closedErrorOk code = true ↔ ¬ (code = 1000 ∨ code = 1001)) := by
  simp [closedOKOk, closedErrorOk]

/-- What is displayed when a connection is closed: a code that has a name.  The assertions in the
constructors of `ConnectionClosedOK` and `ConnectionClosedError` hold. -/
theorem C91_displayed {as : List Act} {s : Conn} {os : List Obs} (h : Conn.exec {} as = some (s, os))
    (hc : s.state = .closed) : ∃ ok code reason, s.closedExc = some (ok, code, reason) ∧
      (if ok then closedOKOk code else closedErrorOk code) = true ∧ Spec.Named code := by
  obtain ⟨ok, code, reason, h1, h2, h3⟩ := C59_exception h hc
  refine ⟨ok, code, reason, h1, ?_, ?_⟩
  · cases ok with
    | true => simpa [closedOKOk] using h2.1 rfl
    | false =>
      have : ¬ (code = 1000 ∨ code = 1001) := fun e => absurd (h2.2 e) (by decide)
      simp only [not_or] at this
      simp [closedErrorOk, this]
  · cases hr : Spec.closeReceived as with
    | none =>
      rw [hr] at h3
      simp only [Option.getD_none, Prod.mk.injEq] at h3
      rw [h3.1]
      exact .inl (by decide)
    | some info =>
      rw [hr] at h3
      simp only [Option.getD_some] at h3
      subst h3
      have hm := List.mem_of_getLast? hr
      obtain ⟨a, ha, he⟩ := List.mem_filterMap.1 hm
      cases a with
      | recvClose data =>
        simp only at he
        cases hp : parseClose data with
        | error e => rw [hp] at he; cases he
        | ok v => rw [hp] at he; cases he; exact C91_parsed hp
      | _ => cases he

example : formatClose 1001 p!"bye" = p!"code = 1001 (going away), reason = bye" := by decide +kernel

example : formatClose 1006 [] =
    p!"code = 1006 (connection closed abnormally [internal]), no reason" := by decide +kernel

example : formatClose 4321 [] = p!"code = 4321 (private use), no reason" := by decide +kernel

example : formatClose (-5) [] = p!"code = -5 (unknown), no reason" := by decide +kernel

end WS.LegacyConn
