import Verif.Model.Handshake
import Verif.Spec.Handshake
import Verif.Props.HeaderParse
import Verif.Props.Headers

/-!
# Lemmas about the opening handshake
-/

namespace WS

open Spec

theorem pyLower_eq (s : PyStr) : pyLower s = lower s := rfl

theorem values_eq (hs : List (PyStr × PyStr)) (name : PyStr) :
    valuesOf pyLower hs name = values hs name := rfl

/-! ## Text that can be encoded -/

theorem utf8EncodeCp_scalar {c : Nat} (h : IsScalar c) : ∃ e, utf8EncodeCp c = some e := by
  have hv : c.isValidChar := by
    rcases h with h | h
    · exact .inl h
    · exact .inr ⟨by omega, h.2⟩
  have : (Char.ofNat c).toNat = c := by
    rw [Char.ofNat, dif_pos hv]
    simp [Char.toNat, Char.ofNatAux]
  exact ⟨_, this ▸ utf8EncodeCp_char (Char.ofNat c)⟩

theorem utf8Encode_encodable {s : PyStr} (h : Encodable s) : ∃ b, utf8Encode s = .ok b := by
  induction s with
  | nil => exact ⟨[], rfl⟩
  | cons c s ih =>
    obtain ⟨e, he⟩ := utf8EncodeCp_scalar (h c (by simp))
    obtain ⟨b, hb⟩ := ih fun d hd => h d (by simp [hd])
    exact ⟨e ++ b, utf8Encode_cons_ok.2 ⟨e, b, he, hb, rfl⟩⟩

theorem encodable_of_utf8Encode {s : PyStr} {b : Bytes} (h : utf8Encode s = .ok b) :
    Encodable s := by
  induction s generalizing b with
  | nil => intro c hc; cases hc
  | cons c s ih =>
    obtain ⟨e, bs, he, hbs, rfl⟩ := utf8Encode_cons_ok.1 h
    obtain ⟨ch, rfl⟩ := utf8EncodeCp_isSome he
    intro d hd
    rcases List.mem_cons.1 hd with rfl | hd
    · have := ch.valid
      have : ch.toNat.isValidChar := this
      rcases this with h | h
      · exact .inl h
      · exact .inr ⟨by omega, h.2⟩
    · exact ih hbs d hd

theorem utf8Encode_ascii {s : PyStr} (h : ∀ c ∈ s, c < 128) :
    utf8Encode s = .ok (s.map UInt8.ofNat) := by
  induction s with
  | nil => rfl
  | cons c s ih =>
    refine utf8Encode_cons_ok.2 ⟨[UInt8.ofNat c], _, ?_, ih fun d hd => h d (by simp [hd]), by simp⟩
    have := h c (by simp)
    unfold utf8EncodeCp
    rw [if_pos (by omega)]

theorem Spec.Encodable.append {a b : PyStr} (ha : Encodable a) (hb : Encodable b) :
    Encodable (a ++ b) := by
  intro c hc
  rcases List.mem_append.1 hc with h | h
  · exact ha c h
  · exact hb c h

theorem encodable_ascii {s : PyStr} (h : ∀ c ∈ s, c < 128) : Encodable s :=
  fun c hc => .inl (by have := h c hc; omega)

theorem decStr_ascii (n : Nat) : ∀ c ∈ decStr n, c < 128 := by
  induction n using decStr.induct with
  | case1 n h =>
    intro c hc
    rw [decStr, if_pos h] at hc
    simp at hc
    omega
  | case2 n h ih =>
    intro c hc
    rw [decStr, if_neg h] at hc
    rcases List.mem_append.1 hc with hc | hc
    · exact ih c hc
    · simp at hc; omega

theorem Spec.Tok.ascii {t : PyStr} (h : Tok t) : ∀ c ∈ t, c < 128 := by
  intro c hc
  have := (h.2 c hc).ascii
  omega

theorem encodable_strJoin {sep : PyStr} (hs : Encodable sep) {l : List PyStr}
    (h : ∀ x ∈ l, Encodable x) : Encodable (strJoin sep l) := by
  induction l with
  | nil => intro c hc; cases hc
  | cons x xs ih =>
    cases xs with
    | nil => exact h x (by simp)
    | cons y ys =>
      rw [strJoin]
      exact ((h x (by simp)).append hs).append (ih fun z hz => h z (by simp [hz]))

theorem encodable_headerMessage {name : PyStr} {value : Option PyStr} (hn : Encodable name)
    (hv : ∀ v, value = some v → Encodable v) : Encodable (headerMessage name value) := by
  unfold headerMessage
  split
  · exact ((encodable_ascii (by decide)).append hn).append (encodable_ascii (by decide))
  · exact ((encodable_ascii (by decide)).append hn).append (encodable_ascii (by decide))
  · exact (((encodable_ascii (by decide)).append hn).append (encodable_ascii (by decide))).append
      (hv _ rfl)

/-! ## Lists in several headers -/

theorem Spec.AllLists.unique {α : Type} {Item : PyStr → α → Prop}
    {parse : PyStr → Except Exc (List α)} {name : PyStr} (hp : ParsesLists parse name Item)
    {vs : List PyStr} {as as' : List α} (h : AllLists Item vs as) (h' : AllLists Item vs as') :
    as = as' := by
  induction h generalizing as' with
  | nil => cases h'; rfl
  | @cons v l vs as hl _ ih =>
    cases h' with
    | @cons _ l' _ as'' hl' h'' =>
      rw [ih h'']
      rcases hp v with ⟨x, _, _, _, hu⟩ | ⟨hn, _⟩
      · rw [hu _ hl, hu _ hl']
      · exact absurd hl (hn l)

theorem parseAll_spec {α : Type} {Item : PyStr → α → Prop}
    {parse : PyStr → Except Exc (List α)} {name : PyStr} (hp : ParsesLists parse name Item)
    (vs : List PyStr) :
    (∃ as, parseAll parse vs = .ok as ∧ AllLists Item vs as ∧ (vs ≠ [] → as ≠ [])) ∨
    ((∀ as, ¬ AllLists Item vs as) ∧ ∃ v ∈ vs, ∃ error pos,
      parseAll parse vs = .error (.invalidHeaderFormat name error v pos) ∧ ∀ c ∈ error, c < 128) := by
  induction vs with
  | nil => exact .inl ⟨[], rfl, .nil, by simp⟩
  | cons v vs ih =>
    rcases hp v with ⟨l, hne, h1, h2, _⟩ | ⟨hn, er, pos, he, ha⟩
    · rcases ih with ⟨as, h3, h4, _⟩ | ⟨hn, w, hw, er, pos, he, ha⟩
      · exact .inl ⟨l ++ as, by simp [parseAll, h1, h3], .cons h2 h4, by simp [hne]⟩
      · refine .inr ⟨?_, w, by simp [hw], er, pos, by simp [parseAll, h1, he], ha⟩
        intro as h
        cases h with
        | cons _ h => exact hn _ h
    · refine .inr ⟨?_, v, by simp, er, pos, by simp [parseAll, he], ha⟩
      intro as h
      cases h with
      | cons h _ => exact hn _ h

theorem Spec.Elements.items {α : Type} {Item : PyStr → α → Prop} {s : PyStr} {as : List α}
    (h : Elements Item s as) : ∀ a ∈ as, ∃ x, Item x a := by
  induction h with
  | last h _ => intro a ha; simp at ha; exact ⟨_, ha ▸ h⟩
  | cons h _ _ _ ih =>
    intro b hb
    rcases List.mem_cons.1 hb with rfl | hb
    · exact ⟨_, h⟩
    · exact ih b hb

theorem Spec.AllLists.items {α : Type} {Item : PyStr → α → Prop} {vs : List PyStr} {as : List α}
    (h : AllLists Item vs as) : ∀ a ∈ as, ∃ x, Item x a := by
  induction h with
  | nil => intro a ha; cases ha
  | cons h _ ih =>
    obtain ⟨_, _, _, _, _, he⟩ := h
    intro a ha
    rcases List.mem_append.1 ha with ha | ha
    · exact he.items a ha
    · exact ih a ha

/-! ## The key -/

theorem b64Val_isSome_iff (c : Nat) : (b64Val c).isSome = true ↔ c ∈ b64Alphabet := by
  constructor
  · intro h
    have hc : c < 128 := by
      unfold b64Val at h
      grind
    have : ∀ n : Fin 128, (b64Val n).isSome = true → n.val ∈ b64Alphabet := by decide +kernel
    exact this ⟨c, hc⟩ h
  · have : ∀ c ∈ b64Alphabet, (b64Val c).isSome = true := by decide +kernel
    exact this c

theorem b64Val_ne {c : Nat} (h : (b64Val c).isSome = true) : c ≠ 61 := by
  rintro rfl
  exact absurd h (by decide)

/-- Decoding characters of the alphabet followed by padding. -/
theorem a2b_chars (n : Nat) : ∀ (cs pads : PyStr), cs.length ≤ n →
    (∀ c ∈ cs, (b64Val c).isSome = true) → (pads = [] ∨ pads = [61] ∨ pads = [61, 61]) →
    (∀ raw left pd, a2bLoop 0 left pd (cs ++ pads) = .ok raw →
      (cs.length % 4 = 0 ∧ raw.length = cs.length / 4 * 3) ∨
      (cs.length % 4 = 2 ∧ pads = [61, 61] ∧ raw.length = cs.length / 4 * 3 + 1) ∨
      (cs.length % 4 = 3 ∧ raw.length = cs.length / 4 * 3 + 2)) ∧
    (cs.length % 4 = 2 → pads = [61, 61] → ∀ left pd, ∃ raw,
      a2bLoop 0 left pd (cs ++ pads) = .ok raw ∧ raw.length = cs.length / 4 * 3 + 1) := by
  induction n with
  | zero =>
    intro cs pads hn _ hp
    have : cs = [] := List.length_eq_zero_iff.1 (by omega)
    subst this
    refine ⟨?_, by simp⟩
    intro raw left pd h
    rcases hp with rfl | rfl | rfl <;> simp [a2bLoop] at h <;> simp [h]
  | succ n ih =>
    intro cs pads hn hcs hp
    match cs, hn, hcs with
    | [], _, _ =>
      refine ⟨?_, by simp⟩
      intro raw left pd h
      rcases hp with rfl | rfl | rfl <;> simp [a2bLoop] at h <;> simp [h]
    | [a], _, hcs =>
      have ha := hcs a (by simp)
      have na := b64Val_ne ha
      obtain ⟨va, ea⟩ := Option.isSome_iff_exists.1 ha
      refine ⟨?_, by simp⟩
      intro raw left pd h
      rcases hp with rfl | rfl | rfl <;> simp [a2bLoop, na, ea] at h
    | [a, b], _, hcs =>
      have ha := hcs a (by simp)
      have hb := hcs b (by simp)
      have na := b64Val_ne ha
      have nb := b64Val_ne hb
      obtain ⟨va, ea⟩ := Option.isSome_iff_exists.1 ha
      obtain ⟨vb, eb⟩ := Option.isSome_iff_exists.1 hb
      refine ⟨?_, ?_⟩
      · intro raw left pd h
        rcases hp with rfl | rfl | rfl <;> simp [a2bLoop, na, ea, nb, eb] at h <;> simp [← h]
      · rintro _ rfl left pd
        simp [a2bLoop, na, ea, nb, eb]
    | [a, b, c], _, hcs =>
      have ha := hcs a (by simp)
      have hb := hcs b (by simp)
      have hc := hcs c (by simp)
      have na := b64Val_ne ha
      have nb := b64Val_ne hb
      have nc := b64Val_ne hc
      obtain ⟨va, ea⟩ := Option.isSome_iff_exists.1 ha
      obtain ⟨vb, eb⟩ := Option.isSome_iff_exists.1 hb
      obtain ⟨vc, ec⟩ := Option.isSome_iff_exists.1 hc
      refine ⟨?_, by simp⟩
      intro raw left pd h
      rcases hp with rfl | rfl | rfl <;> simp [a2bLoop, na, ea, nb, eb, nc, ec] at h <;> simp [← h]
    | a :: b :: c :: d :: cs, hn, hcs =>
      have ha := hcs a (by simp)
      have hb := hcs b (by simp)
      have hc := hcs c (by simp)
      have hd := hcs d (by simp)
      have na := b64Val_ne ha
      have nb := b64Val_ne hb
      have nc := b64Val_ne hc
      have nd := b64Val_ne hd
      obtain ⟨va, ea⟩ := Option.isSome_iff_exists.1 ha
      obtain ⟨vb, eb⟩ := Option.isSome_iff_exists.1 hb
      obtain ⟨vc, ec⟩ := Option.isSome_iff_exists.1 hc
      obtain ⟨vd, ed⟩ := Option.isSome_iff_exists.1 hd
      obtain ⟨ih1, ih2⟩ := ih cs pads (by simp at hn; omega)
        (fun x hx => hcs x (by simp [hx])) hp
      have e1 : (a :: b :: c :: d :: cs).length % 4 = cs.length % 4 := by
        simp only [List.length_cons]; omega
      have e2 : (a :: b :: c :: d :: cs).length / 4 = cs.length / 4 + 1 := by
        simp only [List.length_cons]; omega
      rw [e1, e2]
      refine ⟨?_, ?_⟩
      · intro raw left pd h
        simp only [List.cons_append, a2bLoop, na, nb, nc, nd, ea, eb, ec, ed, if_false] at h
        cases hr : a2bLoop 0 0 0 (cs ++ pads) with
        | error e => rw [hr] at h; cases h
        | ok out =>
          rw [hr] at h
          simp only [Except.ok.injEq] at h
          have := ih1 out 0 0 hr
          subst h
          simp only [List.length_cons]
          rcases this with h | ⟨h1, h2, h3⟩ | h
          · exact .inl (by omega)
          · exact .inr (.inl ⟨h1, h2, by omega⟩)
          · exact .inr (.inr (by omega))
      · intro h4 hpp left pd
        obtain ⟨out, ho, hl⟩ := ih2 h4 hpp 0 0
        refine ⟨_, by
          simp only [List.cons_append, a2bLoop, na, nb, nc, nd, ea, eb, ec, ed, if_false, ho]; rfl, ?_⟩
        simp only [List.length_cons]
        omega

theorem b64Valid_iff (s : PyStr) : b64Valid s = true ↔
    ∃ cs pads, s = cs ++ pads ∧ (∀ c ∈ cs, (b64Val c).isSome = true) ∧
      (pads = [] ∨ pads = [61] ∨ pads = [61, 61]) := by
  constructor
  · intro h
    refine ⟨s.takeWhile fun c => (b64Val c).isSome, s.dropWhile fun c => (b64Val c).isSome,
      List.takeWhile_append_dropWhile.symm, takeWhile_all _ s, ?_⟩
    simpa [b64Valid, or_assoc] using h
  · rintro ⟨cs, pads, rfl, h1, h2⟩
    have : (cs ++ pads).dropWhile (fun c => (b64Val c).isSome) = pads := by
      apply (span_eq h1 _).2
      intro x hx
      rcases h2 with rfl | rfl | rfl <;> simp at hx <;> subst hx <;> exact b64Val_61
    unfold b64Valid
    rw [this]
    rcases h2 with rfl | rfl | rfl <;> simp

theorem validKey_iff (key : PyStr) :
    (∃ raw, b64decodeValid key = .ok raw ∧ raw.length = 16) ↔ ValidKey key := by
  constructor
  · rintro ⟨raw, h, hl⟩
    unfold b64decodeValid at h
    split at h
    · rename_i hv
      obtain ⟨cs, pads, rfl, h1, h2⟩ := (b64Valid_iff key).1 hv
      rcases (a2b_chars cs.length cs pads (Nat.le_refl _) h1 h2).1 raw 0 0 h with h | h | h
      · omega
      · obtain ⟨_, rfl, _⟩ := h
        exact ⟨cs, by omega, fun c hc => (b64Val_isSome_iff c).1 (h1 c hc), rfl⟩
      · omega
    · cases h
  · rintro ⟨cs, hl, h1, rfl⟩
    have h1' : ∀ c ∈ cs, (b64Val c).isSome = true := fun c hc => (b64Val_isSome_iff c).2 (h1 c hc)
    have hv := (b64Valid_iff (cs ++ p!"==")).2 ⟨cs, _, rfl, h1', .inr (.inr rfl)⟩
    obtain ⟨raw, hr, hrl⟩ := (a2b_chars cs.length cs p!"==" (Nat.le_refl _) h1' (.inr (.inr rfl))).2
      (by omega) rfl 0 0
    exact ⟨raw, by rw [b64decodeValid, if_pos hv]; exact hr, by omega⟩

theorem b64decodeValid_error {s : PyStr} {e : Exc} (h : b64decodeValid s = .error e) :
    e = .binasciiError := by
  unfold b64decodeValid at h
  split at h
  · exact a2bLoop_error h
  · cases h; rfl

theorem Spec.ValidKey.ascii {key : PyStr} (h : ValidKey key) : ∀ c ∈ key, c < 128 := by
  obtain ⟨cs, _, h1, rfl⟩ := h
  intro c hc
  rcases List.mem_append.1 hc with hc | hc
  · have : ∀ c ∈ b64Alphabet, c < 128 := by decide +kernel
    exact this c (h1 c hc)
  · have : ∀ c ∈ p!"==", c < 128 := by decide
    exact this c hc

/-- Bytes of a text that are all below 128 come from ASCII characters. -/
theorem utf8Encode_low {s : PyStr} {b : Bytes} (h : utf8Encode s = .ok b)
    (hb : ∀ x ∈ b, x.toNat < 128) : b.map UInt8.toNat = s := by
  induction s generalizing b with
  | nil => cases h; rfl
  | cons c s ih =>
    obtain ⟨e, bs, he, hbs, rfl⟩ := utf8Encode_cons_ok.1 h
    rw [List.map_append, ih hbs fun x hx => hb x (by simp [hx])]
    have hb' : ∀ x ∈ e, x.toNat < 128 := fun x hx => hb x (by simp [hx])
    have : e.map UInt8.toNat = [c] := by
      unfold utf8EncodeCp at he
      by_cases hc : c < 0x80
      · rw [if_pos hc] at he
        cases he
        simp
        omega
      · exfalso
        have key : ∀ n, 128 ≤ n → n < 256 → UInt8.ofNat n ∈ e → False := by
          intro n h1 h2 hm
          have := hb' _ hm
          rw [u8_ofNat_toNat h2] at this
          omega
        rw [if_neg hc] at he
        by_cases c2 : c < 0x800
        · rw [if_pos c2] at he
          cases he
          exact key (0xC0 + c / 64) (by omega) (by omega) (List.mem_cons_self ..)
        rw [if_neg c2] at he
        by_cases c3 : c < 0x10000
        · rw [if_pos c3] at he
          by_cases c4 : 0xD800 ≤ c ∧ c < 0xE000
          · rw [if_pos c4] at he; cases he
          rw [if_neg c4] at he
          cases he
          exact key (0xE0 + c / 4096) (by omega) (by omega) (List.mem_cons_self ..)
        rw [if_neg c3] at he
        by_cases c5 : c < 0x110000
        · rw [if_pos c5] at he
          cases he
          exact key (0xF0 + c / 262144) (by omega) (by omega) (List.mem_cons_self ..)
        rw [if_neg c5] at he
        cases he
    rw [this]
    rfl

end WS
