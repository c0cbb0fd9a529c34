import Verif.Spec.Pmd
import Verif.Lemmas.ConnOut

/-! # Lemmas about permessage-deflate -/

namespace WS

open Spec

variable {Z : Zlib}

/-! ## Parameters -/

theorem windowBits_iff {v : PyStr} {n : Nat} : windowBits (some v) = some n ↔ WindowIs v n := by
  have e8 : decStr 8 = p!"8" := by unfold decStr; rfl
  have two : ∀ d, 10 ≤ d → d < 20 → decStr d = [49, 48 + d % 10] := by
    intro d h1 h2
    unfold decStr
    rw [if_neg (by omega)]
    have : d / 10 = 1 := by omega
    rw [this]
    unfold decStr
    rfl
  have e9 : decStr 9 = p!"9" := by unfold decStr; rfl
  have e10 := two 10 (by omega) (by omega)
  have e11 := two 11 (by omega) (by omega)
  have e12 := two 12 (by omega) (by omega)
  have e13 := two 13 (by omega) (by omega)
  have e14 := two 14 (by omega) (by omega)
  have e15 := two 15 (by omega) (by omega)
  unfold windowBits WindowIs
  simp only [List.find?, e8, e9, e10, e11, e12, e13, e14, e15]
  constructor
  · intro h
    repeat' split at h
    all_goals first
      | (cases h; rename_i hb; have := eq_of_beq hb; subst this; decide)
      | cases h
  · intro h
    simp only [List.mem_cons, Prod.mk.injEq, List.not_mem_nil, or_false] at h
    rcases h with ⟨rfl, rfl⟩ | ⟨rfl, rfl⟩ | ⟨rfl, rfl⟩ | ⟨rfl, rfl⟩ | ⟨rfl, rfl⟩ | ⟨rfl, rfl⟩ |
      ⟨rfl, rfl⟩ | ⟨rfl, rfl⟩ <;> decide

theorem Spec.WindowIs.unique {v : PyStr} {n m : Nat} (h1 : WindowIs v n) (h2 : WindowIs v m) : n = m := by
  rw [← windowBits_iff] at h1 h2
  rw [h1] at h2
  cases h2
  rfl

theorem windowIs_iff (v : PyStr) : (∃ n, WindowIs v n) ↔ v ∈ windowValues := by
  unfold WindowIs windowValues
  simp only [List.mem_cons, Prod.mk.injEq, List.not_mem_nil, or_false]
  constructor
  · rintro ⟨n, h⟩
    rcases h with ⟨h, _⟩ | ⟨h, _⟩ | ⟨h, _⟩ | ⟨h, _⟩ | ⟨h, _⟩ | ⟨h, _⟩ | ⟨h, _⟩ | ⟨h, _⟩ <;> simp [h]
  · intro h
    rcases h with h | h | h | h | h | h | h | h
    · exact ⟨8, by simp [h]⟩
    · exact ⟨9, by simp [h]⟩
    · exact ⟨10, by simp [h]⟩
    · exact ⟨11, by simp [h]⟩
    · exact ⟨12, by simp [h]⟩
    · exact ⟨13, by simp [h]⟩
    · exact ⟨14, by simp [h]⟩
    · exact ⟨15, by simp [h]⟩

theorem windowBits_none {v : PyStr} : windowBits (some v) = none ↔ v ∉ windowValues := by
  rw [← windowIs_iff]
  cases h : windowBits (some v) with
  | none =>
    simp only [true_iff]
    rintro ⟨n, hn⟩
    rw [windowBits_iff.2 hn] at h
    cases h
  | some n => simp only [reduceCtorEq, false_iff, Classical.not_not]; exact ⟨n, windowBits_iff.1 h⟩

theorem Spec.WindowIs.range {v : PyStr} {n : Nat} (h : WindowIs v n) : 8 ≤ n ∧ n ≤ 15 := by
  unfold WindowIs at h
  simp only [List.mem_cons, Prod.mk.injEq, List.not_mem_nil, or_false] at h
  omega

theorem windowIs_decStr {n : Nat} (h : 8 ≤ n ∧ n ≤ 15) : WindowIs (decStr n) n := by
  rw [← windowBits_iff]
  have : n = 8 ∨ n = 9 ∨ n = 10 ∨ n = 11 ∨ n = 12 ∨ n = 13 ∨ n = 14 ∨ n = 15 := by omega
  unfold windowBits
  rcases this with rfl | rfl | rfl | rfl | rfl | rfl | rfl | rfl <;> decide +kernel

/-- Is the variable for this name still unset? -/
def PmdParams.Unset (p : PmdParams) (name : PyStr) : Prop :=
  (name = p!"server_no_context_takeover" → p.serverNct = false) ∧
  (name = p!"client_no_context_takeover" → p.clientNct = false) ∧
  (name = p!"server_max_window_bits" → p.serverBits = none) ∧
  (name = p!"client_max_window_bits" → p.clientBits = none)

/-- The value of a variable after reading a parameter. -/
structure Reads (p : PmdParams) (a : ExtParam) (p' : PmdParams) : Prop where
  serverNct : p'.serverNct = true ↔ p.serverNct = true ∨ a = (p!"server_no_context_takeover", none)
  clientNct : p'.clientNct = true ↔ p.clientNct = true ∨ a = (p!"client_no_context_takeover", none)
  serverBits : ∀ n, p'.serverBits = some n ↔ p.serverBits = some n ∨
    ∃ v, WindowIs v n ∧ a = (p!"server_max_window_bits", some v)
  clientBits : ∀ n, p'.clientBits = some (.val n) ↔ p.clientBits = some (.val n) ∨
    ∃ v, WindowIs v n ∧ a = (p!"client_max_window_bits", some v)
  clientAny : p'.clientBits = some .any ↔ p.clientBits = some .any ∨
    a = (p!"client_max_window_bits", none)
  unset : ∀ name, p'.Unset name ↔ p.Unset name ∧ name ≠ a.1

theorem extract1_spec (request : Bool) (p : PmdParams) (name : PyStr) (value : Option PyStr) :
    (∃ p', p.extract1 request name value = .ok p' ∧ ParamOk request (name, value) ∧ p.Unset name ∧
      Reads p (name, value) p') ∨
    (∃ m, p.extract1 request name value = .error (.negotiationError m) ∧
      ¬ (ParamOk request (name, value) ∧ p.Unset name)) := by
  unfold PmdParams.extract1
  by_cases h1 : name = p!"server_no_context_takeover"
  · subst h1
    rw [if_pos rfl]
    cases hs : p.serverNct with
    | true => exact .inr ⟨_, rfl, fun h => by have := h.2.1 rfl; rw [hs] at this; cases this⟩
    | false =>
      cases value with
      | some v => exact .inr ⟨_, rfl, fun h => by cases h.1⟩
      | none =>
        refine .inl ⟨_, rfl, .serverNct, ⟨fun _ => hs, by simp, by simp, by simp⟩, ?_⟩
        constructor <;> simp [hs, PmdParams.Unset]
        intro n
        by_cases hn : n = p!"server_no_context_takeover" <;> simp [hn]
  · rw [if_neg h1]
    by_cases h2 : name = p!"client_no_context_takeover"
    · subst h2
      rw [if_pos rfl]
      cases hs : p.clientNct with
      | true => exact .inr ⟨_, rfl, fun h => by have := h.2.2.1 rfl; rw [hs] at this; cases this⟩
      | false =>
        cases value with
        | some v => exact .inr ⟨_, rfl, fun h => by cases h.1⟩
        | none =>
          refine .inl ⟨_, rfl, .clientNct, ⟨by simp, fun _ => hs, by simp, by simp⟩, ?_⟩
          constructor <;> simp [hs, PmdParams.Unset]
          intro n
          by_cases hn : n = p!"client_no_context_takeover" <;> simp [hn]
    · rw [if_neg h2]
      by_cases h3 : name = p!"server_max_window_bits"
      · subst h3
        rw [if_pos rfl]
        by_cases hs : p.serverBits = none
        · rw [if_neg (by simpa using hs)]
          cases value with
          | none => exact .inr ⟨_, rfl, fun h => by cases h.1⟩
          | some v =>
            cases hw : windowBits (some v) with
            | none => exact .inr ⟨_, rfl, fun h => by
                cases h.1 with
                | serverBits h => exact windowBits_none.1 hw h⟩
            | some n =>
              have hn := windowBits_iff.1 hw
              refine .inl ⟨_, rfl, .serverBits ((windowIs_iff v).1 ⟨n, hn⟩),
                ⟨by simp, by simp, fun _ => hs, by simp⟩, ?_⟩
              constructor <;> simp [hs, PmdParams.Unset]
              · intro m
                constructor
                · rintro rfl; exact hn
                · intro h; exact hn.unique h
              · intro n
                by_cases hn : n = p!"server_max_window_bits" <;> simp [hn]
        · rw [if_pos hs]
          exact .inr ⟨_, rfl, fun h => hs (h.2.2.2.1 rfl)⟩
      · rw [if_neg h3]
        by_cases h4 : name = p!"client_max_window_bits"
        · subst h4
          rw [if_pos rfl]
          by_cases hs : p.clientBits = none
          · rw [if_neg (by simpa using hs)]
            cases value with
            | none =>
              cases request with
              | true =>
                refine .inl ⟨_, rfl, .clientAny rfl, ⟨by simp, by simp, by simp, fun _ => hs⟩, ?_⟩
                constructor <;> simp [hs, PmdParams.Unset]
                intro n
                by_cases hn : n = p!"client_max_window_bits" <;> simp [hn]
              | false => exact .inr ⟨_, rfl, fun h => by cases h.1 with | clientAny h => cases h⟩
            | some v =>
              have hb : (request && (some v : Option PyStr) == none) = false := by simp
              rw [hb]
              cases hw : windowBits (some v) with
              | none => exact .inr ⟨_, rfl, fun h => by
                  cases h.1 with
                  | clientBits h => exact windowBits_none.1 hw h⟩
              | some n =>
                have hn := windowBits_iff.1 hw
                refine .inl ⟨_, rfl, .clientBits ((windowIs_iff v).1 ⟨n, hn⟩),
                  ⟨by simp, by simp, by simp, fun _ => hs⟩, ?_⟩
                constructor <;> simp [hs, PmdParams.Unset]
                · intro m
                  constructor
                  · rintro rfl; exact hn
                  · intro h; exact hn.unique h
                · intro n
                  by_cases hn : n = p!"client_max_window_bits" <;> simp [hn]
          · rw [if_pos hs]
            exact .inr ⟨_, rfl, fun h => hs (h.2.2.2.2 rfl)⟩
        · rw [if_neg h4]
          exact .inr ⟨_, rfl, fun h => by cases h.1 <;> contradiction⟩

/-- The value of the variables after reading a list of parameters. -/
structure ReadsAll (p : PmdParams) (as : List ExtParam) (p' : PmdParams) : Prop where
  serverNct : p'.serverNct = true ↔ p.serverNct = true ∨ (p!"server_no_context_takeover", none) ∈ as
  clientNct : p'.clientNct = true ↔ p.clientNct = true ∨ (p!"client_no_context_takeover", none) ∈ as
  serverBits : ∀ n, p'.serverBits = some n ↔ p.serverBits = some n ∨
    ∃ v, WindowIs v n ∧ (p!"server_max_window_bits", some v) ∈ as
  clientBits : ∀ n, p'.clientBits = some (.val n) ↔ p.clientBits = some (.val n) ∨
    ∃ v, WindowIs v n ∧ (p!"client_max_window_bits", some v) ∈ as
  clientAny : p'.clientBits = some .any ↔ p.clientBits = some .any ∨
    (p!"client_max_window_bits", none) ∈ as

theorem extract_spec (request : Bool) (p : PmdParams) (params : List ExtParam) :
    (∃ p', p.extract request params = .ok p' ∧
      (∀ a ∈ params, ParamOk request a ∧ p.Unset a.1) ∧ (params.map (·.1)).Nodup ∧
      ReadsAll p params p') ∨
    (∃ m, p.extract request params = .error (.negotiationError m) ∧
      ¬ ((∀ a ∈ params, ParamOk request a ∧ p.Unset a.1) ∧ (params.map (·.1)).Nodup)) := by
  induction params generalizing p with
  | nil =>
    refine .inl ⟨p, rfl, by simp, by simp, ?_⟩
    constructor <;> simp
  | cons a params ih =>
    obtain ⟨name, value⟩ := a
    simp only [PmdParams.extract]
    rcases extract1_spec request p name value with ⟨p1, h1, h2, h3, h4⟩ | ⟨m, h1, h2⟩
    · rw [h1]
      simp only
      have hall : ((∀ a ∈ params, ParamOk request a ∧ p1.Unset a.1) ∧ (params.map (·.1)).Nodup) ↔
          ((∀ a ∈ (name, value) :: params, ParamOk request a ∧ p.Unset a.1) ∧
            (((name, value) :: params).map (·.1)).Nodup) := by
        simp only [List.map_cons, List.nodup_cons, List.mem_map, not_exists, not_and]
        constructor
        · rintro ⟨g1, g2⟩
          refine ⟨?_, ?_, g2⟩
          · intro a ha
            rcases List.mem_cons.1 ha with rfl | ha
            · exact ⟨h2, h3⟩
            · exact ⟨(g1 a ha).1, ((h4.unset _).1 (g1 a ha).2).1⟩
          · intro a ha e
            exact ((h4.unset _).1 (g1 a ha).2).2 e
        · rintro ⟨g1, g2, g3⟩
          refine ⟨fun a ha => ?_, g3⟩
          have := g1 a (by simp [ha])
          exact ⟨this.1, (h4.unset _).2 ⟨this.2, fun e => g2 a ha e⟩⟩
      rcases ih p1 with ⟨p', e1, e2, e3, e4⟩ | ⟨m, e1, e2⟩
      · obtain ⟨f1, f2⟩ := hall.1 ⟨e2, e3⟩
        refine .inl ⟨p', e1, f1, f2, ?_⟩
        constructor
        · rw [e4.serverNct, h4.serverNct, or_assoc, List.mem_cons]
          simp only [eq_comm]
        · rw [e4.clientNct, h4.clientNct, or_assoc, List.mem_cons]
          simp only [eq_comm]
        · intro n
          rw [e4.serverBits, h4.serverBits, or_assoc]
          simp only [List.mem_cons, and_or_left, exists_or, eq_comm]
        · intro n
          rw [e4.clientBits, h4.clientBits, or_assoc]
          simp only [List.mem_cons, and_or_left, exists_or, eq_comm]
        · rw [e4.clientAny, h4.clientAny, or_assoc, List.mem_cons]
          simp only [eq_comm]
      · exact .inr ⟨m, e1, fun h => e2 (hall.2 h)⟩
    · rw [h1]
      exact .inr ⟨m, rfl, fun h => h2 (h.1 _ (by simp))⟩

theorem PmdParams.unset_empty (name : PyStr) : ({} : PmdParams).Unset name := by
  simp [PmdParams.Unset]

/-- `_extract_parameters` accepts exactly valid parameters, and returns what they say. -/
theorem extract_iff (request : Bool) (params : List ExtParam) :
    (∃ p, PmdParams.extract request {} params = .ok p ∧ ValidParams request params ∧
      Means params p) ∨
    (∃ m, PmdParams.extract request {} params = .error (.negotiationError m) ∧
      ¬ ValidParams request params) := by
  rcases extract_spec request {} params with ⟨p, h1, h2, h3, h4⟩ | ⟨m, h1, h2⟩
  · refine .inl ⟨p, h1, ⟨fun a ha => (h2 a ha).1, h3⟩, ?_⟩
    constructor
    · simpa using h4.serverNct
    · simpa using h4.clientNct
    · simpa using h4.serverBits
    · simpa using h4.clientBits
    · simpa using h4.clientAny
  · exact .inr ⟨m, h1, fun h => h2 ⟨fun a ha => ⟨h.1 a ha, PmdParams.unset_empty _⟩, h.2⟩⟩

theorem Spec.Means.unique {params : List ExtParam} {p q : PmdParams} (h1 : Means params p)
    (h2 : Means params q) : p = q := by
  have b : ∀ x y : Bool, (x = true ↔ y = true) → x = y := by decide
  have e1 := b _ _ (h1.serverNct.trans h2.serverNct.symm)
  have e2 := b _ _ (h1.clientNct.trans h2.clientNct.symm)
  have e3 : p.serverBits = q.serverBits :=
    Option.ext fun n => (h1.serverBits n).trans (h2.serverBits n).symm
  have e4 : p.clientBits = q.clientBits := by
    apply Option.ext
    intro n
    cases n with
    | any => exact h1.clientAny.trans h2.clientAny.symm
    | val n => exact (h1.clientBits n).trans (h2.clientBits n).symm
  cases p; cases q; simp_all

/-- The values of parameters that factories accept. -/
structure PmdParams.Valid (p : PmdParams) : Prop where
  server : ∀ n, p.serverBits = some n → 8 ≤ n ∧ n ≤ 15
  client : ∀ n, p.clientBits = some (.val n) → 8 ≤ n ∧ n ≤ 15

/-- Reading the parameters that have been built. -/
theorem extract_build {p : PmdParams} (hp : p.Valid) (request : Bool)
    (hr : p.clientBits = some .any → request = true) :
    PmdParams.extract request {} p.build = .ok p := by
  obtain ⟨a, b, c, d⟩ := p
  have hc : ∀ n, c = some n → n ≠ 0 ∧ windowBits (some (decStr n)) = some n := by
    intro n hn
    have := hp.server n hn
    exact ⟨by omega, windowBits_iff.2 (windowIs_decStr this)⟩
  have hd : ∀ n, d = some (.val n) → n ≠ 0 ∧ windowBits (some (decStr n)) = some n := by
    intro n hn
    have := hp.client n hn
    exact ⟨by omega, windowBits_iff.2 (windowIs_decStr this)⟩
  rcases c with _ | c <;> rcases d with _ | (_ | d) <;> cases a <;> cases b <;>
    simp_all [PmdParams.build, PmdParams.extract, PmdParams.extract1]

end WS
