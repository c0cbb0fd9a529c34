import Verif.Lemmas.HeaderParse

/-!
# Lemmas about the parsing of `Sec-WebSocket-Extensions`
-/

namespace WS

open Spec

theorem Spec.Ows.nil : Ows [] := by intro c hc; cases hc

theorem Spec.Ows.append {a b : PyStr} (ha : Ows a) (hb : Ows b) : Ows (a ++ b) :=
  fun c hc => (List.mem_append.1 hc).elim (ha c) (hb c)

/-- The rest after a parameter ends the parameter. -/
def StopsP (r : PyStr) : Prop :=
  parseOws r = [] ∨ (parseOws r).head? = some 44 ∨ (parseOws r).head? = some 59

theorem StopsP.token {r : PyStr} (h : StopsP r) : ∀ c, r.head? = some c → isTokenChar c = false := by
  intro c hc
  cases r with
  | nil => cases hc
  | cons d r =>
    simp only [List.head?_cons, Option.some.injEq] at hc
    subst hc
    cases e : isOws d with
    | true => exact tokenChar_not_stop (.inl e)
    | false =>
      have : parseOws (d :: r) = d :: r := by simp [parseOws, List.dropWhile, e]
      rcases h with h | h | h <;> rw [this] at h
      · cases h
      · exact tokenChar_not_stop (.inr (by simpa using h))
      · have : d = 59 := by simpa using h
        subst this; decide

theorem ows_token {o r : PyStr} (ho : Ows o) (hr : ∀ c, r.head? = some c → isTokenChar c = false) :
    ∀ c, (o ++ r).head? = some c → isTokenChar c = false := by
  intro c hc
  cases o with
  | nil => exact hr c hc
  | cons d o =>
    simp only [List.cons_append, List.head?_cons, Option.some.injEq] at hc
    subst hc
    exact tokenChar_not_stop (.inl ((isOws_iff d).2 (ho d (by simp))))

theorem Spec.Tok.all {v : PyStr} (h : Tok v) : ¬ (v = [] ∨ ¬ v.all isTokenChar = true) := by
  rintro (h1 | h1)
  · exact h.1 h1
  · apply h1
    rw [List.all_eq_true]
    intro c hc
    exact (isTokenChar_iff c).2 (h.2 c hc)

theorem parseParam_sound {hd r name r' : PyStr} {p : ExtParam}
    (h : parseExtensionItemParam hd r name = .ok (p, r')) :
    ∃ x o, r = x ++ o ++ r' ∧ Ows o ∧ ParamItem x p ∧ parseOws r' = r' := by
  unfold parseExtensionItemParam at h
  split at h
  · cases h
  · rename_i n r1 h1
    obtain ⟨rfl, hn, _⟩ := parseToken_ok h1
    obtain ⟨o1, e1, ho1, _⟩ := parseOws_split r1
    simp only at h
    split at h
    · rename_i tail heq
      obtain ⟨o2, e2, ho2, _⟩ := parseOws_split tail
      split at h
      · split at h
        · cases h
        · rename_i v after h2
          obtain ⟨t, e3, hq⟩ := parseQuotedString_iff.1 h2
          obtain ⟨o3, e4, ho3, _⟩ := parseOws_split after
          split at h
          · unfold fmtError at h; cases h
          · rename_i hv
            simp only [Except.ok.injEq, Prod.mk.injEq] at h
            obtain ⟨rfl, rfl⟩ := h
            have hv' : Tok v := by
              refine ⟨fun e => hv (.inl e), fun c hc => ?_⟩
              have : v.all isTokenChar = true := by
                apply Classical.byContradiction
                intro hh; exact hv (.inr hh)
              exact (isTokenChar_iff c).1 (List.all_eq_true.1 this c hc)
            refine ⟨_, o3, ?_, ho3, .quoted hn ho1 ho2 hq hv', parseOws_idem _⟩
            rw [e1, heq, e2, e3]
            conv => lhs; rw [e4]
            simp
      · split at h
        · cases h
        · rename_i v after h2
          obtain ⟨e3, hv, _⟩ := parseToken_ok h2
          obtain ⟨o3, e4, ho3, _⟩ := parseOws_split after
          simp only [Except.ok.injEq, Prod.mk.injEq] at h
          obtain ⟨rfl, rfl⟩ := h
          refine ⟨_, o3, ?_, ho3, .token hn ho1 ho2 hv, parseOws_idem _⟩
          rw [e1, heq, e2, e3]
          conv => lhs; rw [e4]
          simp
    · simp only [Except.ok.injEq, Prod.mk.injEq] at h
      obtain ⟨rfl, rfl⟩ := h
      exact ⟨n, o1, by rw [List.append_assoc, ← e1], ho1, .flag hn, parseOws_idem _⟩

theorem parseParam_error {hd r name : PyStr} {e : Exc}
    (h : parseExtensionItemParam hd r name = .error e) : FmtOnly hd name e := by
  unfold parseExtensionItemParam at h
  split at h
  · rename_i h1; cases h; exact parseToken_error h1
  · simp only at h
    split at h
    · split at h
      · split at h
        · rename_i h1; cases h; exact parseQuotedString_error h1
        · split at h
          · unfold fmtError at h; cases h; exact ⟨_, _, rfl, by decide⟩
          · cases h
      · split at h
        · rename_i h1; cases h; exact parseToken_error h1
        · cases h
    · cases h

theorem parseParam_complete {x : PyStr} {p : ExtParam} (h : ParamItem x p) (hd name : PyStr) {r : PyStr}
    (hr : StopsP r) : parseExtensionItemParam hd (x ++ r) name = .ok (p, parseOws r) := by
  cases h with
  | @flag n hn =>
    unfold parseExtensionItemParam
    rw [parseToken_eq hd name hn hr.token]
    simp only
    split
    · rename_i tail heq
      unfold StopsP at hr
      rw [heq] at hr
      simp at hr
    · rfl
  | @token n o1 o2 v hn ho1 ho2 hv =>
    unfold parseExtensionItemParam
    have hv0 : ∀ c, (v ++ r).head? = some c → isOws c = false ∧ c ≠ 34 := by
      intro c hc
      have hv1 := hv.1
      cases v with
      | nil => exact absurd rfl hv1
      | cons d v =>
        simp only [List.cons_append, List.head?_cons, Option.some.injEq] at hc
        subst hc
        have := (hv.2 d (by simp)).ascii
        exact ⟨(hv.head d rfl).1, by omega⟩
    have e1 : n ++ o1 ++ p!"=" ++ o2 ++ v ++ r = n ++ (o1 ++ (p!"=" ++ (o2 ++ (v ++ r)))) := by simp
    rw [e1, parseToken_eq hd name hn
      (ows_token ho1 (by intro c hc; simp at hc; subst hc; decide))]
    simp only
    rw [parseOws_eq ho1 (by intro c hc; simp at hc; subst hc; decide)]
    simp only [List.cons_append, List.nil_append]
    rw [parseOws_eq ho2 (fun c hc => (hv0 c hc).1)]
    rw [if_neg (by
      intro hc
      exact (hv0 34 hc).2 rfl)]
    rw [parseToken_eq hd name hv hr.token]
  | @quoted n o1 o2 q v hn ho1 ho2 hq hv =>
    unfold parseExtensionItemParam
    have e1 : n ++ o1 ++ p!"=" ++ o2 ++ p!"\"" ++ q ++ p!"\"" ++ r =
        n ++ (o1 ++ (p!"=" ++ (o2 ++ (p!"\"" ++ q ++ p!"\"" ++ r)))) := by simp
    rw [e1, parseToken_eq hd name hn
      (ows_token ho1 (by intro c hc; simp at hc; subst hc; decide))]
    simp only
    rw [parseOws_eq ho1 (by intro c hc; simp at hc; subst hc; decide)]
    simp only [List.cons_append, List.nil_append]
    rw [parseOws_eq ho2 (by intro c hc; simp at hc; subst hc; decide)]
    rw [if_pos (by simp [peekAhead])]
    have := (parseQuotedString_iff (hd := hd) (name := name) (r' := r)).2 ⟨q, rfl, hq⟩
    simp only [List.cons_append, List.nil_append] at this
    rw [this]
    simp only
    rw [if_neg hv.all]

theorem Spec.ParamItems.ows {s : PyStr} {ps : List ExtParam} (h : ParamItems s ps) (hne : ps ≠ [])
    {o : PyStr} (ho : Ows o) : ParamItems (o ++ s) ps := by
  cases h with
  | nil => exact absurd rfl hne
  | @cons o1 o2 x p rest ps h1 h2 h3 h4 =>
    have := ParamItems.cons (ho.append h1) h2 h3 h4
    simpa using this

theorem parseParams_sound {hd name : PyStr} {n : Nat} {r : PyStr} {ps : List ExtParam} {r' : PyStr}
    (h : parseExtensionParams hd name n r = .ok (ps, r')) :
    ∃ s o, r = s ++ o ++ r' ∧ Ows o ∧ ParamItems s ps := by
  induction n generalizing r ps with
  | zero => cases h
  | succ n ih =>
    unfold parseExtensionParams at h
    split at h
    · rename_i heq; cases heq
    · rename_i n' tail heq
      have heq : n = n' := by omega
      subst heq
      obtain ⟨o2, e2, ho2, _⟩ := parseOws_split tail
      split at h
      · cases h
      · rename_i p r1 h1
        obtain ⟨x, o, e3, ho, hx, _⟩ := parseParam_sound h1
        split at h
        · cases h
        · rename_i ps' r2 h2
          simp only [Except.ok.injEq, Prod.mk.injEq] at h
          obtain ⟨rfl, rfl⟩ := h
          obtain ⟨s, o', rfl, ho', hs⟩ := ih h2
          cases ps' with
          | nil =>
            cases hs with
            | nil =>
              refine ⟨_, o ++ o', ?_, ho.append ho', .cons .nil ho2 hx .nil⟩
              rw [e2, e3]; simp
          | cons p' ps'' =>
            refine ⟨_, o', ?_, ho', .cons .nil ho2 hx (hs.ows (by simp) ho)⟩
            rw [e2, e3]; simp
    · simp only [Except.ok.injEq, Prod.mk.injEq] at h
      obtain ⟨rfl, rfl⟩ := h
      exact ⟨[], [], rfl, .nil, .nil⟩

theorem parseParams_error {hd name : PyStr} {n : Nat} {r : PyStr} {e : Exc} (hn : r.length < n)
    (h : parseExtensionParams hd name n r = .error e) : FmtOnly hd name e := by
  induction n generalizing r with
  | zero => omega
  | succ n ih =>
    unfold parseExtensionParams at h
    split at h
    · rename_i heq; cases heq
    · rename_i n' tail heq
      have heq : n = n' := by omega
      subst heq
      obtain ⟨o2, e2, ho2, _⟩ := parseOws_split tail
      split at h
      · rename_i h1; cases h; exact parseParam_error h1
      · rename_i p r1 h1
        obtain ⟨x, o, e3, ho, hx, _⟩ := parseParam_sound h1
        split at h
        · rename_i e' h2
          cases h
          refine ih ?_ h2
          have l2 := congrArg List.length e2
          have l3 := congrArg List.length e3
          simp only [List.length_append, List.length_cons] at *
          omega
        · cases h
    · cases h

theorem parseParams_complete {s : PyStr} {ps : List ExtParam} (h : ParamItems s ps) (hd name : PyStr)
    {r : PyStr} (hr : Stops r) : ∀ n, (s ++ r).length < n →
      parseExtensionParams hd name n (parseOws (s ++ r)) = .ok (ps, parseOws r) ∧ StopsP (s ++ r) := by
  induction h with
  | nil =>
    intro n hn
    refine ⟨?_, ?_⟩
    · cases n with
      | zero => omega
      | succ n =>
        rw [List.nil_append]
        unfold parseExtensionParams
        split
        · rename_i heq; cases heq
        · rename_i n' tail _ heq
          unfold Stops at hr
          rw [heq] at hr
          simp at hr
        · rfl
    · rw [List.nil_append]
      rcases hr with h | h
      · exact .inl h
      · exact .inr (.inl h)
  | @cons o1 o2 x p rest ps ho1 ho2 hx hrest ih =>
    intro n hn
    have hx0 : ∀ c, (x ++ (rest ++ r)).head? = some c → isOws c = false := by
      have key : ∀ n t, Tok n → ∀ c, (n ++ t).head? = some c → isOws c = false := by
        intro n t hn c hc
        have hn1 := hn.1
        cases n with
        | nil => exact absurd rfl hn1
        | cons d n => exact (hn.head c hc).1
      cases hx with
      | flag h => exact key _ _ h
      | token h _ _ _ => simp only [List.append_assoc]; exact key _ _ h
      | quoted h _ _ _ _ => simp only [List.append_assoc]; exact key _ _ h
    have hsemi : ∀ c, (p!";" ++ (o2 ++ (x ++ (rest ++ r)))).head? = some c → isOws c = false := by
      intro c hc; simp at hc; subst hc; decide
    have e1 : o1 ++ p!";" ++ o2 ++ x ++ rest ++ r = o1 ++ (p!";" ++ (o2 ++ (x ++ (rest ++ r)))) := by simp
    rw [e1, StopsP, parseOws_eq ho1 hsemi]
    refine ⟨?_, .inr (.inr rfl)⟩
    cases n with
    | zero => omega
    | succ n =>
      simp only [List.cons_append, List.nil_append, parseExtensionParams]
      rw [parseOws_eq ho2 hx0]
      simp only [List.length_append, List.length_cons, List.length_nil] at hn
      obtain ⟨i1, i2⟩ := ih n (by simp only [List.length_append]; omega)
      rw [parseParam_complete hx hd name i2]
      simp only [i1]

theorem recognizes_ext : Recognizes parseExtensionItem ExtItem where
  sound {hd r name a r'} h := by
    unfold parseExtensionItem at h
    split at h
    · cases h
    · rename_i n r1 h1
      obtain ⟨rfl, hn, _⟩ := parseToken_ok h1
      obtain ⟨o1, e1, ho1, _⟩ := parseOws_split r1
      simp only at h
      split at h
      · cases h
      · rename_i ps r2 h2
        simp only [Except.ok.injEq, Prod.mk.injEq] at h
        obtain ⟨rfl, rfl⟩ := h
        obtain ⟨s, o, e2, ho, hs⟩ := parseParams_sound h2
        cases ps with
        | nil =>
          cases hs with
          | nil =>
            refine ⟨n, o1 ++ o, ?_, ho1.append ho, [], by simp, hn, .nil⟩
            rw [e1, e2]; simp
        | cons p ps =>
          refine ⟨n ++ (o1 ++ s), o, ?_, ho, _, rfl, hn, hs.ows (by simp) ho1⟩
          rw [e1, e2]; simp
  complete {x a r} hd name h hr := by
    obtain ⟨s, rfl, hn, hs⟩ := h
    obtain ⟨o, e, ho, _⟩ := parseOws_split r
    refine ⟨o, parseOws r, ?_, e, ho⟩
    obtain ⟨h1, h2⟩ := parseParams_complete hs hd name hr ((s ++ r).length + 1) (by omega)
    unfold parseExtensionItem
    rw [List.append_assoc, parseToken_eq hd name hn h2.token]
    simp only
    have fuel : ∀ n m (r : PyStr) res, r.length < n → n ≤ m →
        parseExtensionParams hd name m r = .ok res → parseExtensionParams hd name n r = .ok res := by
      intro n
      induction n with
      | zero => intro m r res h; omega
      | succ n ih =>
        intro m r res hl hm h
        cases m with
        | zero => omega
        | succ m =>
          by_cases hh : ∃ tail, r = 59 :: tail
          · obtain ⟨tail, rfl⟩ := hh
            simp only [parseExtensionParams] at h ⊢
            split at h
            · cases h
            · rename_i p r1 h1
              split at h
              · cases h
              · rename_i ps r2 h2
                simp only [Except.ok.injEq] at h
                subst h
                obtain ⟨x, o, e3, _, _, _⟩ := parseParam_sound h1
                have l1 := parseOws_length tail
                have l3 := congrArg List.length e3
                simp only [List.length_append, List.length_cons] at *
                rw [ih m r1 _ (by omega) (by omega) h2]
          · have e : ∀ k, parseExtensionParams hd name (k + 1) r = .ok ([], r) := by
              intro k
              unfold parseExtensionParams
              split
              · rename_i heq; cases heq
              · rename_i tail _; exact absurd ⟨tail, rfl⟩ hh
              · rfl
            rw [e] at h ⊢
            exact h
    rw [fuel _ _ _ _ (by omega) (by have := parseOws_length (s ++ r); omega) h1]
  error {hd r name e} h := by
    unfold parseExtensionItem at h
    split at h
    · rename_i h1; cases h; exact parseToken_error h1
    · simp only at h
      split at h
      · rename_i h1; cases h; exact parseParams_error (by omega) h1
      · cases h
  ne {x a} h := by
    obtain ⟨s, rfl, hn, hs⟩ := h
    intro e
    exact hn.1 (List.append_eq_nil_iff.1 e).1
  head {x a} h := by
    obtain ⟨s, rfl, hn, hs⟩ := h
    intro c hc
    apply hn.head
    have hn1 := hn.1
    cases hn : a.1 with
    | nil => exact absurd hn hn1
    | cons d n => rw [hn] at hc; exact hc

end WS
