import Verif.Model.HeaderParse
import Verif.Spec.HeaderGrammar
import Verif.Lemmas.Http

/-!
# Lemmas about the parsing of header values
-/

namespace WS

open Spec

theorem isOws_iff (c : Nat) : isOws c = true ↔ c = 32 ∨ c = 9 := by simp [isOws]

theorem ows_iff (s : PyStr) : Ows s ↔ ∀ c ∈ s, isOws c = true := by
  simp only [Ows, isOws_iff]

theorem parseOws_split (r : PyStr) : ∃ o, r = o ++ parseOws r ∧ Ows o ∧
    ∀ c, (parseOws r).head? = some c → isOws c = false := by
  obtain ⟨a, h1, h2, h3⟩ := dropWhile_split isOws r
  exact ⟨a, h1, (ows_iff a).2 h2, h3⟩

theorem parseOws_eq {o r : PyStr} (ho : Ows o) (hr : ∀ c, r.head? = some c → isOws c = false) :
    parseOws (o ++ r) = r := dropWhile_eq ((ows_iff o).1 ho) hr

theorem parseOws_append {o : PyStr} (ho : Ows o) (r : PyStr) : parseOws (o ++ r) = parseOws r := by
  obtain ⟨a, h1, h2, h3⟩ := parseOws_split r
  have : parseOws ((o ++ a) ++ parseOws r) = parseOws r :=
    parseOws_eq (fun c hc => (List.mem_append.1 hc).elim (ho c) (h2 c)) h3
  rw [List.append_assoc, ← h1] at this
  exact this

theorem parseOws_length (r : PyStr) : (parseOws r).length ≤ r.length := by
  obtain ⟨o, h, _⟩ := parseOws_split r
  have := congrArg List.length h
  simp only [List.length_append] at this
  omega

theorem parseOws_idem (r : PyStr) : parseOws (parseOws r) = parseOws r := by
  obtain ⟨_, _, _, h3⟩ := parseOws_split r
  exact parseOws_eq (o := []) (by intro c hc; cases hc) h3

theorem span_eq {α : Type} {p : α → Bool} {a b : List α} (ha : ∀ x ∈ a, p x = true)
    (hb : ∀ x, b.head? = some x → p x = false) :
    (a ++ b).takeWhile p = a ∧ (a ++ b).dropWhile p = b := by
  refine ⟨?_, dropWhile_eq ha hb⟩
  induction a with
  | nil =>
    cases b with
    | nil => rfl
    | cons x xs => simp [List.takeWhile, hb x rfl]
  | cons x xs ih =>
    simp only [List.cons_append, List.takeWhile, ha x (by simp)]
    rw [ih fun y hy => ha y (by simp [hy])]

theorem takeWhile_all {α : Type} (p : α → Bool) (l : List α) : ∀ x ∈ l.takeWhile p, p x = true := by
  induction l with
  | nil => simp
  | cons x xs ih =>
    intro y hy
    cases h : p x with
    | false => simp [List.takeWhile, h] at hy
    | true =>
      simp only [List.takeWhile, h, List.mem_cons] at hy
      rcases hy with rfl | hy
      · exact h
      · exact ih y hy

theorem dropWhile_head {α : Type} (p : α → Bool) (l : List α) :
    ∀ x, (l.dropWhile p).head? = some x → p x = false := by
  obtain ⟨_, _, _, h⟩ := dropWhile_split p l
  exact h

/-- The rest after an item ends the item. -/
def Stops (r : PyStr) : Prop := parseOws r = [] ∨ (parseOws r).head? = some 44

theorem Stops.head {r : PyStr} (h : Stops r) : ∀ c, r.head? = some c → isOws c = true ∨ c = 44 := by
  intro c hc
  cases r with
  | nil => cases hc
  | cons d r =>
    simp only [List.head?_cons, Option.some.injEq] at hc
    subst hc
    cases e : isOws d with
    | true => exact .inl rfl
    | false =>
      right
      have : parseOws (d :: r) = d :: r := by simp [parseOws, List.dropWhile, e]
      rcases h with h | h <;> rw [this] at h
      · cases h
      · simpa using h

theorem tokenChar_not_stop {c : Nat} (h : isOws c = true ∨ c = 44) : isTokenChar c = false := by
  cases e : isTokenChar c with
  | false => rfl
  | true =>
    have := ((isTokenChar_iff c).1 e).ascii
    rcases h with h | h
    · have := (isOws_iff c).1 h; omega
    · omega

theorem Stops.token {r : PyStr} (h : Stops r) : ∀ c, r.head? = some c → isTokenChar c = false :=
  fun c hc => tokenChar_not_stop (h.head c hc)

theorem parseToken_ok {hd r name t r' : PyStr} (h : parseToken hd r name = .ok (t, r')) :
    r = t ++ r' ∧ Tok t ∧ ∀ c, r'.head? = some c → isTokenChar c = false := by
  unfold parseToken at h
  split at h
  · cases h
  · rename_i hne
    simp only [Except.ok.injEq, Prod.mk.injEq] at h
    obtain ⟨rfl, rfl⟩ := h
    refine ⟨(List.takeWhile_append_dropWhile).symm, ⟨hne, ?_⟩, dropWhile_head _ _⟩
    intro c hc
    exact (isTokenChar_iff c).1 (takeWhile_all _ _ c hc)

theorem parseToken_eq {t r : PyStr} (hd name : PyStr) (ht : Tok t)
    (hr : ∀ c, r.head? = some c → isTokenChar c = false) :
    parseToken hd (t ++ r) name = .ok (t, r) := by
  obtain ⟨h1, h2⟩ := span_eq (p := isTokenChar) (a := t) (b := r)
    (fun c hc => (isTokenChar_iff c).2 (ht.2 c hc)) hr
  unfold parseToken
  rw [h1, h2]
  split
  · exact absurd rfl ht.1
  · rfl

/-- The only error that a parser of headers raises. -/
def FmtOnly (hd name : PyStr) (e : Exc) : Prop :=
  ∃ msg pos, e = .invalidHeaderFormat name msg hd pos ∧ ∀ c ∈ msg, c < 128

theorem parseToken_error {hd r name : PyStr} {e : Exc} (h : parseToken hd r name = .error e) :
    FmtOnly hd name e := by
  unfold parseToken fmtError at h
  split at h
  · cases h; exact ⟨_, _, rfl, by decide⟩
  · cases h

/-- A parser recognizes items. -/
structure Recognizes {α : Type} (p : HeaderParser α) (Item : PyStr → α → Prop) : Prop where
  sound : ∀ {hd r name a r'}, p hd r name = .ok (a, r') →
    ∃ x o, r = x ++ o ++ r' ∧ Ows o ∧ Item x a
  complete : ∀ {x a r} (hd name : PyStr), Item x a → Stops r →
    ∃ o r', p hd (x ++ r) name = .ok (a, r') ∧ r = o ++ r' ∧ Ows o
  error : ∀ {hd r name e}, p hd r name = .error e → FmtOnly hd name e
  ne : ∀ {x a}, Item x a → x ≠ []
  head : ∀ {x a}, Item x a → ∀ c, x.head? = some c → isOws c = false ∧ c ≠ 44

theorem Spec.Tok.head {t : PyStr} (h : Tok t) : ∀ c, t.head? = some c → isOws c = false ∧ c ≠ 44 := by
  intro c hc
  have := (h.2 c (List.mem_of_mem_head? hc)).ascii
  refine ⟨?_, by omega⟩
  cases e : isOws c with
  | false => rfl
  | true => have := (isOws_iff c).1 e; omega

theorem recognizes_token : Recognizes parseToken TokItem where
  sound h := by
    obtain ⟨h1, h2, _⟩ := parseToken_ok h
    exact ⟨_, [], by simpa using h1, (by intro c hc; cases hc), rfl, h2⟩
  complete hd name h hs := by
    obtain ⟨rfl, ht⟩ := h
    exact ⟨[], _, parseToken_eq hd name ht hs.token, rfl, by intro c hc; cases hc⟩
  error := parseToken_error
  ne h := by obtain ⟨rfl, ht⟩ := h; exact ht.1
  head h := by obtain ⟨rfl, ht⟩ := h; exact ht.head

theorem recognizes_protocol : Recognizes parseUpgradeProtocol ProtocolItem where
  sound {hd r name a r'} h := by
    have hnil : Ows [] := by intro c hc; cases hc
    unfold parseUpgradeProtocol at h
    split at h
    · cases h
    · rename_i hne
      have ht : Tok (r.takeWhile isTokenChar) :=
        ⟨hne, fun c hc => (isTokenChar_iff c).1 (takeWhile_all _ _ c hc)⟩
      have hr : r = r.takeWhile isTokenChar ++ r.dropWhile isTokenChar :=
        (List.takeWhile_append_dropWhile).symm
      split at h
      · rename_i tail htail
        rw [htail] at hr
        split at h
        · simp only [Except.ok.injEq, Prod.mk.injEq] at h
          obtain ⟨rfl, rfl⟩ := h
          exact ⟨_, [], by simpa using hr, hnil, rfl, .inl ht⟩
        · rename_i hne2
          simp only [Except.ok.injEq, Prod.mk.injEq] at h
          obtain ⟨rfl, rfl⟩ := h
          refine ⟨_, [], ?_, hnil, rfl, .inr ⟨_, tail.takeWhile isTokenChar, ht, ⟨hne2, fun c hc =>
            (isTokenChar_iff c).1 (takeWhile_all _ _ c hc)⟩, rfl⟩⟩
          rw [List.append_nil, List.append_assoc, List.takeWhile_append_dropWhile]
          rw [List.append_assoc]
          exact hr
      · simp only [Except.ok.injEq, Prod.mk.injEq] at h
        obtain ⟨rfl, rfl⟩ := h
        exact ⟨_, [], by simpa using hr, hnil, rfl, .inl ht⟩
  complete {x a r} hd name h hs := by
    have hnil : Ows [] := by intro c hc; cases hc
    obtain ⟨rfl, ht | ⟨n, v, hn, hv, rfl⟩⟩ := h
    · refine ⟨[], r, ?_, rfl, hnil⟩
      obtain ⟨h1, h2⟩ := span_eq (p := isTokenChar) (a := x) (b := r)
        (fun c hc => (isTokenChar_iff c).2 (ht.2 c hc)) hs.token
      unfold parseUpgradeProtocol
      rw [h1, h2]
      split
      · exact absurd rfl ht.1
      · split
        · have := hs.head 47 rfl
          exact absurd this (by decide)
        · rfl
    · refine ⟨[], r, ?_, rfl, hnil⟩
      obtain ⟨h1, h2⟩ := span_eq (p := isTokenChar) (a := n) (b := 47 :: (v ++ r))
        (fun c hc => (isTokenChar_iff c).2 (hn.2 c hc)) (by intro c hc; simp at hc; subst hc; decide)
      obtain ⟨h3, h4⟩ := span_eq (p := isTokenChar) (a := v) (b := r)
        (fun c hc => (isTokenChar_iff c).2 (hv.2 c hc)) hs.token
      unfold parseUpgradeProtocol
      have e : n ++ p!"/" ++ v ++ r = n ++ 47 :: (v ++ r) := by simp
      rw [e, h1, h2]
      simp only [h3, h4]
      split
      · exact absurd rfl hn.1
      · split
        · exact absurd rfl hv.1
        · rfl
  error {hd r name e} h := by
    unfold parseUpgradeProtocol fmtError at h
    split at h
    · cases h; exact ⟨_, _, rfl, by decide⟩
    · split at h
      · split at h <;> cases h
      · cases h
  ne h := by
    obtain ⟨rfl, ht | ⟨n, v, hn, hv, rfl⟩⟩ := h
    · exact ht.1
    · simp
  head {x a} h := by
    obtain ⟨rfl, ht | ⟨n, v, hn, hv, rfl⟩⟩ := h
    · exact ht.head
    · intro c hc
      apply hn.head
      obtain ⟨d, n, rfl⟩ : ∃ d n', n = d :: n' := by
        cases n with
        | nil => exact absurd rfl hn.1
        | cons d n => exact ⟨d, n, rfl⟩
      simpa using hc

/-! ## Lists -/

theorem gap_dropWhile_split (n : Nat) (r : PyStr) (h : r.length ≤ n) :
    ∃ g, r = g ++ skipCommas n r ∧ Gap g ∧ (g = [] ∨ g.head? = some 44) ∧
      (skipCommas n r).head? ≠ some 44 := by
  induction n generalizing r with
  | zero =>
    have : r = [] := List.length_eq_zero_iff.1 (by omega)
    subst this
    exact ⟨[], rfl, (by intro c hc; cases hc), .inl rfl, by simp [skipCommas]⟩
  | succ n ih =>
    by_cases hh : r.head? = some 44
    · obtain ⟨rest, rfl⟩ : ∃ rest, r = 44 :: rest := by
        cases r with
        | nil => cases hh
        | cons d r => simp only [List.head?_cons, Option.some.injEq] at hh; exact ⟨r, by rw [hh]⟩
      simp only [skipCommas]
      simp only [List.length_cons] at h
      have := parseOws_length rest
      obtain ⟨o, h1, h2, _⟩ := parseOws_split rest
      obtain ⟨g, h3, h4, _, h5⟩ := ih (parseOws rest) (by omega)
      refine ⟨44 :: (o ++ g), ?_, ?_, .inr rfl, h5⟩
      · rw [List.cons_append, List.append_assoc, ← h3, ← h1]
      · intro c hc
        simp only [List.mem_cons, List.mem_append] at hc
        rcases hc with rfl | hc | hc
        · omega
        · have := h2 c hc; omega
        · exact h4 c hc
    · have e : skipCommas (n + 1) r = r := by
        unfold skipCommas
        split
        · exact absurd rfl hh
        · rfl
      rw [e]
      exact ⟨[], rfl, (by intro c hc; cases hc), .inl rfl, hh⟩

theorem skipCommas_eq {g r : PyStr} (n : Nat) (hn : g.length ≤ n) (hg : Gap g)
    (h0 : g = [] ∨ g.head? = some 44)
    (hr : ∀ c, r.head? = some c → isOws c = false ∧ c ≠ 44) : skipCommas n (g ++ r) = r := by
  induction n generalizing g with
  | zero =>
    have : g = [] := List.length_eq_zero_iff.1 (by omega)
    subst this
    simp [skipCommas]
  | succ n ih =>
    cases g with
    | nil =>
      unfold skipCommas
      split
      · rename_i rest heq
        have := (hr 44 (by rw [← List.nil_append r, heq]; rfl)).2
        omega
      · rfl
    | cons c g =>
      simp only [List.head?_cons, Option.some.injEq, reduceCtorEq, false_or] at h0
      subst h0
      simp only [List.cons_append, skipCommas]
      obtain ⟨o, h1, h2, h3⟩ := parseOws_split g
      have e : parseOws (g ++ r) = parseOws g ++ r := by
        conv => lhs; rw [h1, List.append_assoc]
        apply parseOws_eq h2
        intro c hc
        cases hp : parseOws g with
        | nil => rw [hp] at hc; exact (hr c hc).1
        | cons d p => rw [hp] at hc; exact h3 c (by rw [hp]; exact hc)
      rw [e]
      have hle := parseOws_length g
      simp only [List.length_cons] at hn
      have hmem : ∀ c ∈ parseOws g, c ∈ g := by
        intro c hc; rw [h1]; simp [hc]
      refine ih (by omega) (fun c hc => hg c (by simp [hmem c hc])) ?_
      cases hp : parseOws g with
      | nil => exact .inl rfl
      | cons d p =>
        right
        simp only [List.head?_cons, Option.some.injEq]
        have h4 := h3 d (by rw [hp]; rfl)
        have h5 := hg d (by simp [hmem d (by rw [hp]; simp)])
        have : ¬ (d = 32 ∨ d = 9) := by
          intro hh; rw [(isOws_iff d).2 hh] at h4; cases h4
        omega

/-- A gap that contains a comma, after whitespace. -/
theorem gap_parseOws {g r : PyStr} (hg : Gap g) (hr : ∀ c, r.head? = some c → isOws c = false) :
    ∃ g', parseOws (g ++ r) = g' ++ r ∧ Gap g' ∧ (g' = [] ∨ g'.head? = some 44) ∧
      (44 ∈ g → g' ≠ []) ∧ g'.length ≤ g.length := by
  obtain ⟨o, h1, h2, h3⟩ := parseOws_split g
  have hmem : ∀ c ∈ parseOws g, c ∈ g := by
    intro c hc; rw [h1]; simp [hc]
  refine ⟨parseOws g, ?_, fun c hc => hg c (hmem c hc), ?_, ?_, parseOws_length g⟩
  · conv => lhs; rw [h1, List.append_assoc]
    apply parseOws_eq h2
    intro c hc
    cases hp : parseOws g with
    | nil => rw [hp] at hc; exact hr c hc
    | cons d p => rw [hp] at hc; exact h3 c (by rw [hp]; exact hc)
  · cases hp : parseOws g with
    | nil => exact .inl rfl
    | cons d p =>
      right
      have h4 := h3 d (by rw [hp]; rfl)
      have h5 := hg d (hmem d (by rw [hp]; simp))
      have : ¬ (d = 32 ∨ d = 9) := by
        intro hh; rw [(isOws_iff d).2 hh] at h4; cases h4
      simp only [List.head?_cons, Option.some.injEq]
      omega
  · intro hc he
    rw [he, List.append_nil] at h1
    rw [h1] at hc
    have := h2 44 hc
    omega

theorem Spec.Elements.first {α : Type} {p : HeaderParser α} {Item : PyStr → α → Prop}
    (hp : Recognizes p Item) {r : PyStr} {as : List α} (h : Elements Item r as) :
    r ≠ [] ∧ ∀ c, r.head? = some c → isOws c = false ∧ c ≠ 44 := by
  have key : ∀ x a t, Item x a → x ++ t ≠ [] ∧
      ∀ c, (x ++ t).head? = some c → isOws c = false ∧ c ≠ 44 := by
    intro x a t hi
    have := hp.ne hi
    cases hx : x with
    | nil => exact absurd hx this
    | cons d y =>
      refine ⟨by simp, fun c hc => hp.head hi c ?_⟩
      rw [hx]; exact hc
  cases h with
  | last hi _ => exact key _ _ _ hi
  | cons hi _ _ _ => rw [List.append_assoc]; exact key _ _ _ hi

theorem parseListLoop_sound {α : Type} {p : HeaderParser α} {Item : PyStr → α → Prop}
    (hp : Recognizes p Item) {hd name : PyStr} {n : Nat} {r : PyStr} {as : List α}
    (h : parseListLoop p hd name n r = .ok as) : Elements Item r as := by
  induction n generalizing r as with
  | zero => cases h
  | succ n ih =>
    unfold parseListLoop at h
    split at h
    · cases h
    · rename_i a r1 h1
      obtain ⟨x, o, rfl, ho, hi⟩ := hp.sound h1
      obtain ⟨o2, e2, ho2, _⟩ := parseOws_split r1
      simp only at h
      split at h
      · rename_i heq
        simp only [Except.ok.injEq] at h
        subst h
        rw [heq, List.append_nil] at e2
        subst e2
        rw [List.append_assoc]
        refine .last hi ?_
        intro c hc
        rcases List.mem_append.1 hc with hc | hc
        · have := ho c hc; omega
        · have := ho2 c hc; omega
      · rename_i tail heq
        obtain ⟨o3, e3, ho3, _⟩ := parseOws_split tail
        obtain ⟨g, e4, hg, _, _⟩ := gap_dropWhile_split (parseOws tail).length (parseOws tail) (Nat.le_refl _)
        generalize hrest : skipCommas (parseOws tail).length (parseOws tail) = rest at *
        have hsep : Gap (o ++ (o2 ++ 44 :: (o3 ++ g))) := by
          intro c hc
          simp only [List.mem_append, List.mem_cons] at hc
          rcases hc with hc | hc | rfl | hc | hc
          · have := ho c hc; omega
          · have := ho2 c hc; omega
          · omega
          · have := ho3 c hc; omega
          · exact hg c hc
        have hr1 : o ++ r1 = (o ++ (o2 ++ 44 :: (o3 ++ g))) ++ rest := by
          rw [e2, heq, e3, e4]
          simp
        split at h
        · rename_i hnil
          simp only [Except.ok.injEq] at h
          subst h hnil
          rw [List.append_assoc, hr1, List.append_nil]
          exact .last hi hsep
        · split at h
          · rename_i as' h2
            simp only [Except.ok.injEq] at h
            subst h
            rw [List.append_assoc, hr1, ← List.append_assoc]
            exact .cons hi hsep (by simp) (ih h2)
          · cases h
      · cases h

theorem parseListLoop_complete {α : Type} {p : HeaderParser α} {Item : PyStr → α → Prop}
    (hp : Recognizes p Item) (hd name : PyStr) {r : PyStr} {as : List α} (h : Elements Item r as) :
    ∀ n, r.length < n → parseListLoop p hd name n r = .ok as := by
  induction h with
  | @last x a trail hi hg =>
    intro n hn
    cases n with
    | zero => omega
    | succ n =>
      obtain ⟨g', e1, hg', h0, _, hle⟩ := gap_parseOws (r := []) hg (by simp)
      simp only [List.append_nil] at e1
      have hstop : Stops trail := by
        unfold Stops; rw [e1]; exact h0
      obtain ⟨o, r', h1, h2, h3⟩ := hp.complete hd name hi hstop
      unfold parseListLoop
      rw [h1]
      have e2 : parseOws r' = g' := by rw [← e1, h2, parseOws_append h3]
      simp only [e2]
      cases g' with
      | nil => rfl
      | cons c g2 =>
        simp only [List.head?_cons, Option.some.injEq, reduceCtorEq, false_or] at h0
        subst h0
        have hg2 : Gap g2 := fun c hc => hg' c (by simp [hc])
        obtain ⟨g3, e3, hg3, h03, _, hle3⟩ := gap_parseOws (r := []) hg2 (by simp)
        simp only [List.append_nil] at e3
        simp only [e3]
        have := skipCommas_eq (g := g3) (r := []) g3.length (Nat.le_refl _) hg3 h03 (by simp)
        rw [List.append_nil] at this
        rw [this, if_pos rfl]
  | @cons x a sep rest as hi hg hc hrest ih =>
    intro n hn
    cases n with
    | zero => omega
    | succ n =>
      obtain ⟨hne, hfirst⟩ := hrest.first hp
      obtain ⟨g', e1, hg', h0, hcomma, hle⟩ := gap_parseOws (r := rest) hg (fun c hc => (hfirst c hc).1)
      have hgne := hcomma hc
      obtain ⟨c, g2, rfl⟩ : ∃ c g2, g' = c :: g2 := by
        cases g' with
        | nil => exact absurd rfl hgne
        | cons c g2 => exact ⟨c, g2, rfl⟩
      simp only [List.head?_cons, Option.some.injEq, reduceCtorEq, false_or] at h0
      subst h0
      have hstop : Stops (sep ++ rest) := by
        unfold Stops; rw [e1]; exact .inr rfl
      obtain ⟨o, r', h1, h2, h3⟩ := hp.complete hd name hi hstop
      unfold parseListLoop
      rw [List.append_assoc, h1]
      have e2 : parseOws r' = 44 :: g2 ++ rest := by rw [← e1, h2, parseOws_append h3]
      simp only [e2, List.cons_append]
      have hg2 : Gap g2 := fun c hc => hg' c (by simp [hc])
      obtain ⟨g3, e3, hg3, h03, _, hle3⟩ := gap_parseOws (r := rest) hg2 (fun c hc => (hfirst c hc).1)
      simp only [e3]
      rw [skipCommas_eq _ (by simp) hg3 h03 hfirst, if_neg hne]
      simp only [List.length_append] at hn
      have hx : 0 < x.length := List.length_pos_iff.2 (hp.ne hi)
      have hsl : 0 < sep.length := List.length_pos_iff.2 (by rintro rfl; cases hc)
      rw [ih n (by omega)]

theorem parseListLoop_error {α : Type} {p : HeaderParser α} {Item : PyStr → α → Prop}
    (hp : Recognizes p Item) {hd name : PyStr} {n : Nat} {r : PyStr} {e : Exc}
    (hn : r.length < n) (h : parseListLoop p hd name n r = .error e) : FmtOnly hd name e := by
  induction n generalizing r with
  | zero => omega
  | succ n ih =>
    unfold parseListLoop at h
    split at h
    · rename_i e' h1
      cases h
      exact hp.error h1
    · rename_i a r1 h1
      obtain ⟨x, o, rfl, ho, hi⟩ := hp.sound h1
      obtain ⟨o2, e2, ho2, _⟩ := parseOws_split r1
      simp only at h
      split at h
      · cases h
      · rename_i tail heq
        obtain ⟨o3, e3, ho3, _⟩ := parseOws_split tail
        obtain ⟨g, e4, hg, _, _⟩ := gap_dropWhile_split (parseOws tail).length (parseOws tail) (Nat.le_refl _)
        generalize hrest : skipCommas (parseOws tail).length (parseOws tail) = rest at *
        split at h
        · cases h
        · split at h
          · cases h
          · rename_i e' h2
            cases h
            refine ih ?_ h2
            have hx : 0 < x.length := List.length_pos_iff.2 (hp.ne hi)
            have l1 := congrArg List.length e2
            have l3 := congrArg List.length e3
            have l4 := congrArg List.length e4
            rw [heq] at l1
            simp only [List.length_append, List.length_cons] at *
            omega
      · unfold fmtError at h; cases h; exact ⟨_, _, rfl, by decide⟩

theorem parseList_iff {α : Type} {p : HeaderParser α} {Item : PyStr → α → Prop}
    (hp : Recognizes p Item) (hd name : PyStr) (as : List α) :
    parseList p hd name = .ok as ↔ ListOf Item hd as := by
  unfold parseList
  constructor
  · intro h
    obtain ⟨g, e, hg, h0, _⟩ := gap_dropWhile_split hd.length hd (Nat.le_refl _)
    exact ⟨g, _, e, hg, h0, parseListLoop_sound hp h⟩
  · rintro ⟨lead, rest, rfl, hg, h0, hel⟩
    have : skipCommas (lead ++ rest).length (lead ++ rest) = rest :=
      skipCommas_eq _ (by simp) hg h0 (hel.first hp).2
    simp only [this]
    exact parseListLoop_complete hp _ _ hel _ (by omega)

theorem parseList_error {α : Type} {p : HeaderParser α} {Item : PyStr → α → Prop}
    (hp : Recognizes p Item) {hd name : PyStr} {e : Exc}
    (h : parseList p hd name = .error e) : FmtOnly hd name e :=
  parseListLoop_error hp (Nat.lt_succ_self _) h

/-! ## Quoted strings -/

theorem isQuotable_iff (c : Nat) :
    isQuotable c = true ↔ c = 9 ∨ (0x20 ≤ c ∧ c ≤ 0x7E) ∨ (0x80 ≤ c ∧ c ≤ 0xFF) := by
  simp [isQuotable, or_assoc]

theorem isQdText_iff (c : Nat) :
    isQdText c = true ↔ (c = 9 ∨ (0x20 ≤ c ∧ c ≤ 0x7E)) ∧ c ≠ 0x22 ∧ c ≠ 0x5C := by
  simp only [isQdText, Bool.or_eq_true, beq_iff_eq, Bool.and_eq_true, decide_eq_true_eq]
  omega

theorem scanQuoted_sound (r : PyStr) : ∀ {t r'}, scanQuoted r = some (t, r') →
    r = t ++ 34 :: r' ∧ QuotedText t (unquote t) := by
  induction r using scanQuoted.induct with
  | case1 => intro t r' h; cases h
  | case2 rest =>
    intro t r' h
    simp only [scanQuoted, Option.some.injEq, Prod.mk.injEq] at h
    obtain ⟨rfl, rfl⟩ := h
    exact ⟨rfl, .nil⟩
  | case3 c rest hc t' r'' hs ih =>
    intro t r' h
    rw [scanQuoted, if_pos hc, hs] at h
    simp only [Option.some.injEq, Prod.mk.injEq] at h
    obtain ⟨rfl, rfl⟩ := h
    obtain ⟨h1, h2⟩ := ih hs
    refine ⟨by rw [h1]; rfl, ?_⟩
    rw [unquote, if_pos hc]
    exact .pair ((isQuotable_iff c).1 hc) h2
  | case4 c rest hc hs ih =>
    intro t r' h
    rw [scanQuoted, if_pos hc, hs] at h
    cases h
  | case5 c rest hc =>
    intro t r' h
    rw [scanQuoted, if_neg hc] at h
    cases h
  | case6 c rest h1 h2 hc t' r'' hs ih =>
    intro t r' h
    rw [scanQuoted, if_pos hc, hs] at h
    · simp only [Option.some.injEq, Prod.mk.injEq] at h
      obtain ⟨rfl, rfl⟩ := h
      obtain ⟨h1', h2'⟩ := ih hs
      obtain ⟨q1, q2, q3⟩ := (isQdText_iff c).1 hc
      refine ⟨by rw [h1']; rfl, ?_⟩
      have : unquote (c :: t') = c :: unquote t' := by
        cases t' with
        | nil => simp [unquote]
        | cons d t' =>
          rw [unquote]
          rintro c' r' rfl
          exact absurd rfl q3
      rw [this]
      exact .text q1 q2 q3 h2'
    · exact h1
    · exact h2
  | case7 c rest h1 h2 hc hs ih =>
    intro t r' h
    rw [scanQuoted, if_pos hc, hs] at h
    · cases h
    · exact h1
    · exact h2
  | case8 c rest h1 h2 hc =>
    intro t r' h
    rw [scanQuoted, if_neg hc] at h
    · cases h
    · exact h1
    · exact h2

theorem scanQuoted_complete {t v : PyStr} (h : QuotedText t v) (r : PyStr) :
    scanQuoted (t ++ 34 :: r) = some (t, r) ∧ unquote t = v := by
  induction h with
  | nil => exact ⟨rfl, rfl⟩
  | @text c s v h1 h2 h3 _ ih =>
    obtain ⟨i1, i2⟩ := ih
    constructor
    · rw [List.cons_append, scanQuoted, if_pos ((isQdText_iff c).2 ⟨h1, h2, h3⟩), i1]
      · rintro rfl; exact h2 rfl
      · rintro c' r' rfl; exact fun _ => h3 rfl
    · subst i2
      cases s with
      | nil => simp [unquote]
      | cons d t' =>
        rw [unquote]
        rintro c' r' rfl
        exact absurd rfl h3
  | @pair c s v h1 _ ih =>
    obtain ⟨i1, i2⟩ := ih
    constructor
    · rw [List.cons_append, List.cons_append, scanQuoted, if_pos ((isQuotable_iff c).2 h1), i1]
    · rw [unquote, if_pos ((isQuotable_iff c).2 h1), i2]

theorem parseQuotedString_iff {hd r name v r' : PyStr} :
    parseQuotedString hd r name = .ok (v, r') ↔
      ∃ t, r = p!"\"" ++ t ++ p!"\"" ++ r' ∧ QuotedText t v := by
  constructor
  · intro h
    unfold parseQuotedString fmtError at h
    split at h
    · rename_i tail
      split at h
      · rename_i t after hs
        simp only [Except.ok.injEq, Prod.mk.injEq] at h
        obtain ⟨rfl, rfl⟩ := h
        obtain ⟨h1, h2⟩ := scanQuoted_sound _ hs
        exact ⟨t, by rw [h1]; simp, h2⟩
      · cases h
    · cases h
  · rintro ⟨t, rfl, h⟩
    obtain ⟨h1, h2⟩ := scanQuoted_complete h r'
    simp only [List.cons_append, List.nil_append, List.append_assoc, parseQuotedString, h1, h2]

theorem parseQuotedString_error {hd r name : PyStr} {e : Exc}
    (h : parseQuotedString hd r name = .error e) : FmtOnly hd name e := by
  unfold parseQuotedString fmtError at h
  split at h
  · split at h
    · cases h
    · cases h; exact ⟨_, _, rfl, by decide⟩
  · cases h; exact ⟨_, _, rfl, by decide⟩

end WS
