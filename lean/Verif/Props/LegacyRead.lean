import Verif.Model.LegacyRead
import Verif.Lemmas.Utf8

/-!
# Fragmented messages: C08
-/

namespace WS

open Spec

/-! ## Decoding piece by piece -/

theorem utf8First_append {a b : Bytes} {x : Except Utf8Err (Nat × Nat)} (h : utf8First a = x)
    (hx : x ≠ .error .unexpectedEnd) : utf8First (a ++ b) = x := by
  subst h
  rcases a with _ | ⟨b0, _ | ⟨b1, _ | ⟨b2, _ | ⟨b3, rest⟩⟩⟩⟩
  · exact absurd rfl hx
  all_goals
    simp only [utf8First, List.cons_append, List.nil_append] at hx ⊢
    try grind

/-- Scanning more input starts with the same characters. -/
theorem utf8Scan_append {fuel fuel' : Nat} {a b : Bytes} {s : PyStr} {pos : Nat}
    {err : Option Utf8Err} (h : utf8Scan fuel a = (s, pos, err)) (hf : a.length ≤ fuel)
    (hf' : (a ++ b).length ≤ fuel') :
    ∃ fuel'', (a.drop pos ++ b).length ≤ fuel'' ∧ pos ≤ a.length ∧
      utf8Scan fuel' (a ++ b) =
        (s ++ (utf8Scan fuel'' (a.drop pos ++ b)).1, pos + (utf8Scan fuel'' (a.drop pos ++ b)).2.1,
          (utf8Scan fuel'' (a.drop pos ++ b)).2.2) := by
  induction fuel generalizing a s pos err fuel' with
  | zero =>
    simp only [utf8Scan] at h
    cases h
    exact ⟨fuel', by simpa using hf', by omega, by simp⟩
  | succ fuel ih =>
    cases a with
    | nil =>
      simp only [utf8Scan] at h
      cases h
      exact ⟨fuel', by simpa using hf', by simp, by simp⟩
    | cons x xs =>
      simp only [utf8Scan] at h
      cases h1 : utf8First (x :: xs) with
      | error e =>
        simp only [h1] at h
        cases h
        exact ⟨fuel', by simpa using hf', by simp, by simp⟩
      | ok cn =>
        obtain ⟨c, n⟩ := cn
        simp only [h1] at h
        obtain ⟨enc, rest, hbs, henc, hn⟩ := utf8First_ok h1
        have hpos : 0 < enc.length := List.length_pos_iff.2 (utf8EncodeCp_ne_nil henc).1
        have hlen := congrArg List.length hbs
        simp only [List.length_cons, List.length_append] at hlen hf hf'
        have hdrop : (x :: xs).drop n = rest := by rw [hbs, ← hn]; simp
        rw [hdrop] at h
        cases hr : utf8Scan fuel rest with
        | mk s' r =>
          obtain ⟨pos', err'⟩ := r
          rw [hr] at h
          cases h
          cases fuel' with
          | zero => omega
          | succ fuel' =>
            obtain ⟨f2, g1, g2, g3⟩ := ih (fuel' := fuel') hr (by omega) (by
              rw [List.length_append]; omega)
            have e1 : (x :: xs).drop (n + pos') = rest.drop pos' := by
              rw [← List.drop_drop, hdrop]
            rw [e1]
            refine ⟨f2, g1, ?_, ?_⟩
            · simp only [List.length_cons]; omega
            · have h2 := utf8First_append (b := b) h1 (by simp)
              simp only [List.cons_append] at h2 ⊢
              simp only [utf8Scan, h2]
              have e2 : (x :: (xs ++ b)).drop n = rest ++ b := by
                rw [← List.cons_append, hbs, ← hn]; simp
              rw [e2, g3]
              simp only [List.cons_append, Nat.add_assoc]

theorem utf8Decode_ok_iff_scan {b : Bytes} {s : PyStr} {fuel : Nat} (hf : b.length ≤ fuel) :
    utf8Decode b = .ok s ↔ (utf8Scan fuel b).1 = s ∧ (utf8Scan fuel b).2.2 = none := by
  rw [utf8Decode_iff_encode]
  constructor
  · intro h
    rw [utf8Scan_complete h _ hf]
    exact ⟨rfl, rfl⟩
  · rintro ⟨h1, h2⟩
    cases hr : utf8Scan fuel b with
    | mk s' r =>
      obtain ⟨pos, err⟩ := r
      rw [hr] at h1 h2
      simp only at h1 h2
      subst h1 h2
      obtain ⟨b1, b2, e1, e2, e3, e4, e5⟩ := utf8Scan_sound hr hf
      rw [e1, e4 rfl, List.append_nil, e2]

/-- A piece that isn't the last one. -/
theorem utf8IncDecode_more (p d more : Bytes) :
    (∀ s p', utf8IncDecode p d false = .ok (s, p') →
      ∀ t, utf8Decode (p ++ d ++ more) = .ok t ↔ ∃ t', t = s ++ t' ∧ utf8Decode (p' ++ more) = .ok t') ∧
    (∀ e, utf8IncDecode p d false = .error e →
      (∃ r pos, e = .unicodeDecodeError r pos) ∧ ∀ t, utf8Decode (p ++ d ++ more) ≠ .ok t) := by
  unfold utf8IncDecode
  simp only
  cases hr : utf8Scan (p ++ d).length (p ++ d) with
  | mk s r =>
    obtain ⟨pos, err⟩ := r
    obtain ⟨f2, g1, g2, g3⟩ := utf8Scan_append (b := more) hr (Nat.le_refl _) (Nat.le_refl _)
    have hok : ∀ t, utf8Decode (p ++ d ++ more) = .ok t ↔
        ∃ t', t = s ++ t' ∧ utf8Decode ((p ++ d).drop pos ++ more) = .ok t' := by
      intro t
      rw [utf8Decode_ok_iff_scan (Nat.le_refl _), g3]
      constructor
      · rintro ⟨h1, h2⟩
        exact ⟨_, h1.symm, (utf8Decode_ok_iff_scan g1).2 ⟨rfl, h2⟩⟩
      · rintro ⟨t', h1, h2⟩
        obtain ⟨h3, h4⟩ := (utf8Decode_ok_iff_scan g1).1 h2
        exact ⟨by rw [h3, h1], h4⟩
    have hbad : ∀ e, err = some e → e ≠ .unexpectedEnd → ∀ t, utf8Decode (p ++ d ++ more) ≠ .ok t := by
      intro e he hne t ht
      obtain ⟨b1, b2, e1, e2, e3, e4, e5⟩ := utf8Scan_sound hr (Nat.le_refl _)
      obtain ⟨h6, h7⟩ := e5 e he
      obtain ⟨t', _, ht'⟩ := (hok t).1 ht
      have hd : (p ++ d).drop pos = b2 := by rw [e1, ← e3]; simp
      rw [hd, utf8Decode_iff_encode] at ht'
      have h8 := utf8First_append (b := more) h7 (by simp [hne])
      cases t' with
      | nil =>
        simp only [utf8Encode, Except.ok.injEq] at ht'
        have := List.append_eq_nil_iff.1 ht'.symm
        exact h6 this.1
      | cons c t' =>
        obtain ⟨enc, bs, k1, k2, k3⟩ := utf8Encode_cons_ok.1 ht'
        rw [k3, utf8First_encode k1] at h8
        cases h8
    constructor
    · intro s' p' h
      split at h
      · rename_i heq; cases heq; cases h; exact hok
      · rename_i heq; cases heq; simp only [Bool.false_eq_true, if_false] at h; cases h; exact hok
      · cases h
    · intro e h
      split at h
      · cases h
      · simp at h
      · rename_i s' pos' e' hne heq
        cases heq
        cases h
        exact ⟨⟨_, _, rfl⟩, hbad e' rfl (fun h => hne (by rw [h]))⟩

/-- The last piece. -/
theorem utf8IncDecode_last (p d : Bytes) :
    (∀ s p', utf8IncDecode p d true = .ok (s, p') → utf8Decode (p ++ d) = .ok s) ∧
    (∀ e, utf8IncDecode p d true = .error e → utf8Decode (p ++ d) = .error e ∧
      ∃ r pos, e = .unicodeDecodeError r pos) := by
  unfold utf8IncDecode utf8Decode
  simp only
  cases hr : utf8Scan (p ++ d).length (p ++ d) with
  | mk s r =>
    obtain ⟨pos, err⟩ := r
    rcases err with _ | _ | _ | _ <;> simp <;> grind

/-! ## Fragmented messages -/

/-- The frames of a message, fragmented in any way (RFC 6455, section 5.4): one frame if there's
only one payload. -/
def Spec.fragment (op : Opcode) : List Bytes → List Frame
  | [] => []
  | [d] => [{ fin := true, opcode := op, data := d }]
  | d :: ds => { fin := false, opcode := op, data := d } :: fragment .cont ds

theorem MsgReader.loop_text (r : MsgReader) (ht : r.text = true) (ds : List Bytes) (hne : ds ≠ []) :
    (∀ s, r.loop ((fragment .cont ds).map some) = some (.ok s) ↔
      ∃ t, s = .text (r.str ++ t) ∧ utf8Decode (r.pending ++ ds.flatten) = .ok t) ∧
    ((∀ t, utf8Decode (r.pending ++ ds.flatten) ≠ .ok t) →
      ∃ e pos, r.loop ((fragment .cont ds).map some) = some (.error (.unicodeDecodeError e pos))) := by
  induction ds generalizing r with
  | nil => exact absurd rfl hne
  | cons d ds ih =>
    cases ds with
    | nil =>
      obtain ⟨l1, l2⟩ := utf8IncDecode_last r.pending d
      simp only [fragment, List.map_cons, List.map_nil, MsgReader.loop, ne_eq, not_true, if_false,
        MsgReader.append, ht, if_true, List.flatten_cons, List.flatten_nil, List.append_nil]
      cases hx : utf8IncDecode r.pending d true with
      | error e =>
        obtain ⟨g1, rr, pos, rfl⟩ := l2 e hx
        refine ⟨fun s => ?_, fun _ => ⟨rr, pos, rfl⟩⟩
        simp [g1]
      | ok x =>
        obtain ⟨t, p'⟩ := x
        have := l1 t p' hx
        simp only [MsgReader.result, ht, if_true]
        refine ⟨fun s => ?_, fun h => absurd this (h t)⟩
        rw [this]
        simp only [Option.some.injEq, Except.ok.injEq]
        constructor
        · intro h; exact ⟨t, h.symm, rfl⟩
        · rintro ⟨_, rfl, rfl⟩; rfl
    | cons d2 ds =>
      obtain ⟨l1, l2⟩ := utf8IncDecode_more r.pending d (d2 :: ds).flatten
      rw [List.append_assoc] at l1 l2
      have hfl : (d :: d2 :: ds).flatten = d ++ (d2 :: ds).flatten := rfl
      rw [hfl]
      generalize hg : (d2 :: ds).flatten = rest at *
      simp only [fragment, List.map_cons, MsgReader.loop, ne_eq, not_true, if_false,
        MsgReader.append, ht, if_true, Bool.false_eq_true]
      cases hx : utf8IncDecode r.pending d false with
      | error e =>
        obtain ⟨⟨rr, pos, rfl⟩, g⟩ := l2 e hx
        refine ⟨fun s => ?_, fun _ => ⟨rr, pos, rfl⟩⟩
        simp only [Option.some.injEq, reduceCtorEq, false_iff]
        rintro ⟨t, _, ht⟩
        exact g t ht
      | ok x =>
        obtain ⟨t, p'⟩ := x
        have hl := l1 t p' hx
        obtain ⟨i1, i2⟩ := ih { r with text := true, str := r.str ++ t, pending := p', maxSize := r.maxSize.map (· - (d.length : Int)) }
          rfl (by simp)
        simp only at i1 i2 ⊢
        refine ⟨fun s => ?_, fun h => i2 fun t' ht' => h (t ++ t') ((hl _).2 ⟨t', rfl, ht'⟩)⟩
        rw [i1]
        constructor
        · rintro ⟨t', rfl, h⟩
          exact ⟨t ++ t', by rw [List.append_assoc], (hl _).2 ⟨t', rfl, h⟩⟩
        · rintro ⟨t', rfl, h⟩
          obtain ⟨t2, rfl, h2⟩ := (hl _).1 h
          exact ⟨t2, by rw [List.append_assoc], h2⟩

theorem MsgReader.loop_binary (r : MsgReader) (ht : r.text = false) (ds : List Bytes)
    (hne : ds ≠ []) : r.loop ((fragment .cont ds).map some) =
      some (.ok (.binary (r.bytes ++ ds.flatten))) := by
  induction ds generalizing r with
  | nil => exact absurd rfl hne
  | cons d ds ih =>
    cases ds with
    | nil => simp [fragment, MsgReader.loop, MsgReader.append, ht, MsgReader.result]
    | cons d2 ds =>
      simp only [fragment, List.map_cons, MsgReader.loop, ne_eq, not_true, if_false,
        MsgReader.append, ht, Bool.false_eq_true]
      have h := ih { r with text := false, bytes := r.bytes ++ d, maxSize := r.maxSize.map (· - (d.length : Int)) }
        rfl (by simp)
      simp only at h
      rw [h]
      simp

/-- **C08.**  A text message, however it is fragmented, is decoded to the text that the
concatenation of its payloads encodes; if it isn't valid UTF-8, reading it raises
`UnicodeDecodeError`. -/
theorem C08_text (maxSize : Option Int) (payloads : List Bytes) (hne : payloads ≠ []) :
    (∀ m, readMessage maxSize ((fragment .text payloads).map some) = some (.ok m) ↔
      ∃ s, m = some (.text s) ∧ IsUtf8 payloads.flatten s) ∧
    ((∀ s, ¬ IsUtf8 payloads.flatten s) → ∃ e pos,
      readMessage maxSize ((fragment .text payloads).map some) =
        some (.error (.unicodeDecodeError e pos))) := by
  have hdec : ∀ b s, utf8Decode b = .ok s ↔ IsUtf8 b s := fun b s => by
    rw [utf8Decode_iff_encode, utf8Encode_iff_spec]
  simp only [← hdec]
  cases payloads with
  | nil => exact absurd rfl hne
  | cons d ds =>
    cases ds with
    | nil =>
      simp only [fragment, List.map_cons, List.map_nil, readMessage, List.flatten_cons,
        List.flatten_nil, List.append_nil]
      have hl := (utf8IncDecode_last [] d)
      have he : ∀ e, utf8Decode d = .error e → ∃ r pos, e = .unicodeDecodeError r pos := by
        intro e he
        unfold utf8Decode at he
        split at he
        · cases he
        · cases he; exact ⟨_, _, rfl⟩
      cases hx : utf8Decode d with
      | error e =>
        obtain ⟨rr, pos, rfl⟩ := he e hx
        refine ⟨fun m => ?_, fun _ => ⟨rr, pos, by simp⟩⟩
        simp
      | ok s =>
        refine ⟨fun m => ?_, fun h => absurd rfl (h s)⟩
        simp only [ne_eq, not_true, false_and, if_false, decide_true, if_true, Option.some.injEq,
          Except.ok.injEq]
        constructor
        · intro h; exact ⟨s, h.symm, rfl⟩
        · rintro ⟨_, rfl, rfl⟩; rfl
    | cons d2 ds =>
      have hfl : (d :: d2 :: ds).flatten = d ++ (d2 :: ds).flatten := rfl
      obtain ⟨l1, l2⟩ := utf8IncDecode_more [] d (d2 :: ds).flatten
      rw [hfl]
      simp only [List.nil_append] at l1 l2
      simp only [fragment, List.map_cons, readMessage, ne_eq, not_true, false_and, if_false,
        Bool.false_eq_true, MsgReader.append, decide_true, if_true]
      cases hx : utf8IncDecode [] d false with
      | error e =>
        obtain ⟨⟨rr, pos, rfl⟩, g⟩ := l2 e hx
        refine ⟨fun s => ?_, fun _ => ⟨rr, pos, rfl⟩⟩
        simp only [Option.some.injEq, reduceCtorEq, false_iff]
        rintro ⟨t, _, ht⟩
        exact g t ht
      | ok x =>
        obtain ⟨t, p'⟩ := x
        have hl := l1 t p' hx
        obtain ⟨i1, i2⟩ := MsgReader.loop_text { text := true, str := [] ++ t, pending := p', maxSize := maxSize.map (· - (d.length : Int)) }
          rfl (d2 :: ds) (by simp)
        simp only [List.nil_append] at i1 i2 ⊢
        constructor
        · intro m
          have hx : ∀ o : Option (Except Exc Data), (o.map fun res => res.map some) = some (.ok m) ↔
              ∃ d, m = some d ∧ o = some (.ok d) := by
            intro o
            rcases o with _ | _ | d
            · simp
            · simp [Except.map]
            · simp only [Option.map_some, Except.map, Option.some.injEq, Except.ok.injEq]
              constructor
              · intro h; exact ⟨d, h.symm, rfl⟩
              · rintro ⟨_, rfl, rfl⟩; rfl
          rw [hx]
          constructor
          · rintro ⟨d', rfl, h⟩
            obtain ⟨t', rfl, h2⟩ := (i1 _).1 h
            exact ⟨t ++ t', rfl, (hl _).2 ⟨t', rfl, h2⟩⟩
          · rintro ⟨s, rfl, h⟩
            obtain ⟨t', rfl, h2⟩ := (hl _).1 h
            exact ⟨_, rfl, (i1 _).2 ⟨t', rfl, h2⟩⟩
        · intro h
          obtain ⟨e, pos, hi⟩ := i2 fun t' ht' => h (t ++ t') ((hl _).2 ⟨t', rfl, ht'⟩)
          exact ⟨e, pos, by rw [hi]; rfl⟩

/-- **C08**: a binary message, however it is fragmented, is the concatenation of its payloads. -/
theorem C08_binary (maxSize : Option Int) (payloads : List Bytes) (hne : payloads ≠ []) :
    readMessage maxSize ((fragment .binary payloads).map some) =
      some (.ok (some (.binary payloads.flatten))) := by
  cases payloads with
  | nil => exact absurd rfl hne
  | cons d ds =>
    cases ds with
    | nil => simp [fragment, readMessage]
    | cons d2 ds =>
      simp only [fragment, List.map_cons, readMessage]
      rw [if_neg (by simp)]
      simp only [reduceCtorEq, decide_false, Bool.false_eq_true, if_false, MsgReader.append]
      rw [MsgReader.loop_binary _ rfl _ (by simp)]
      simp [Except.map]

/-- Example: "é€" split inside both characters, with an empty fragment. -/
example : readMessage (some 5) ((fragment .text [[0xC3], [0xA9, 0xE2], [], [0x82, 0xAC]]).map some) =
    some (.ok (some (.text [0xE9, 0x20AC]))) := by decide +kernel

/-- Example: a character that isn't complete at the end of the message. -/
example : readMessage (some 5) ((fragment .text [[0x61], [0xE2, 0x82]]).map some) =
    some (.error (.unicodeDecodeError p!"unexpected end of data" 0)) := by decide +kernel

/-! ## C16 for the legacy protocol -/

/-- Each frame read in the loop is within the limit given to `read_data_frame`
(legacy/protocol.py 972), which is the current value of `max_size`. -/
def MsgReader.Within : MsgReader → List Frame → Prop
  | _, [] => True
  | r, f :: fs => (∀ m, r.maxSize = some m → (f.data.length : Int) ≤ m) ∧
      ∀ r', r.append f = .ok r' → r'.Within fs

theorem MsgReader.within_total {r : MsgReader} {m : Int} (hm : r.maxSize = some m)
    {fs : List Frame} (hw : r.Within fs) {d : Data} (h : r.loop (fs.map some) = some (.ok d)) :
    ∃ used, used <+: fs ∧ (∃ f ∈ used, f.fin = true) ∧
      ((used.map (·.data)).flatten.length : Int) ≤ m := by
  induction fs generalizing r m with
  | nil => cases h
  | cons f fs ih =>
    obtain ⟨h1, h2⟩ := hw
    simp only [List.map_cons, MsgReader.loop] at h
    split at h
    · cases h
    · cases ha : r.append f with
      | error e => rw [ha] at h; cases h
      | ok r' =>
        rw [ha] at h
        simp only at h
        have hm' : r'.maxSize = some (m - f.data.length) := by
          unfold MsgReader.append at ha
          split at ha
          · split at ha
            · cases ha
            · cases ha; rw [hm]; rfl
          · cases ha; rw [hm]; rfl
        have hf := h1 m hm
        split at h
        · rename_i hfin
          exact ⟨[f], ⟨fs, rfl⟩, ⟨f, by simp, hfin⟩, by simpa using hf⟩
        · obtain ⟨used, ⟨t, ht⟩, ⟨g, hg, hgf⟩, hl⟩ := ih hm' (h2 r' ha) h
          refine ⟨f :: used, ⟨t, by rw [List.cons_append, ht]⟩, ⟨g, by simp [hg], hgf⟩, ?_⟩
          simp only [List.map_cons, List.flatten_cons, List.length_append]
          omega

/-- **C16**, for the legacy protocol: when a message is returned, the total payload of its frames is
at most `max_size`, if each frame is within the limit that it is read with (which is what C04 says,
except if an extension makes frames larger: see `C16_max_size_false`). -/
theorem C16_legacy_partial (m : Int) (f : Frame) (fs : List Frame) (d : Data)
    (hf : (f.data.length : Int) ≤ m)
    (hw : ∀ r, ({ text := decide (f.opcode = .text), maxSize := some m } : MsgReader).append f = .ok r →
      r.Within fs)
    (h : readMessage (some m) ((f :: fs).map some) = some (.ok (some d))) :
    ∃ used, used <+: f :: fs ∧ (∃ g ∈ used, g.fin = true) ∧
      ((used.map (·.data)).flatten.length : Int) ≤ m := by
  simp only [List.map_cons, readMessage] at h
  split at h
  · cases h
  · split at h
    · rename_i hfin
      exact ⟨[f], ⟨fs, rfl⟩, ⟨f, by simp, hfin⟩, by simpa using hf⟩
    · cases ha : ({ text := decide (f.opcode = .text), maxSize := some m } : MsgReader).append f with
      | error e => rw [ha] at h; cases h
      | ok r =>
        rw [ha] at h
        simp only at h
        have hm' : r.maxSize = some (m - f.data.length) := by
          unfold MsgReader.append at ha
          split at ha
          · split at ha
            · cases ha
            · cases ha; rfl
          · cases ha; rfl
        obtain ⟨d', hd⟩ : ∃ d', r.loop (fs.map some) = some (.ok d') := by
          cases hl : r.loop (fs.map some) with
          | none => rw [hl] at h; cases h
          | some x =>
            cases x with
            | error e => rw [hl] at h; simp [Except.map] at h
            | ok d' => exact ⟨d', rfl⟩
        obtain ⟨used, ⟨t, ht⟩, ⟨g, hg, hgf⟩, hl⟩ := MsgReader.within_total hm' (hw r ha) hd
        refine ⟨f :: used, ⟨t, by rw [List.cons_append, ht]⟩, ⟨g, by simp [hg], hgf⟩, ?_⟩
        simp only [List.map_cons, List.flatten_cons, List.length_append]
        omega

/-- Example: a message of exactly `max_size` bytes. -/
example :
    let f : Frame := { fin := false, opcode := .binary, data := [1, 2] }
    let fs : List Frame := [{ fin := true, opcode := .cont, data := [3] }]
    (∀ r, ({ text := decide (f.opcode = .text), maxSize := some 3 } : MsgReader).append f = .ok r →
      r.Within fs) ∧
    readMessage (some 3) ((f :: fs).map some) = some (.ok (some (.binary [1, 2, 3]))) := by
  refine ⟨?_, rfl⟩
  intro r hr
  simp only [MsgReader.append, reduceCtorEq, decide_false, Bool.false_eq_true, if_false,
    Except.ok.injEq] at hr
  subst hr
  refine ⟨?_, fun _ _ => trivial⟩
  intro m hm
  simp only [Option.map_some, Option.some.injEq] at hm
  subst hm
  decide

end WS
