import Verif.Lemmas.ExtParse
import Verif.Lemmas.Base64Decode
import Verif.Lemmas.Utf8

/-!
# C33 to C38: header values
-/

namespace WS

open Spec

/-! ## C33: lists -/

/-- A parser of header values returns the elements of a non-empty list, or raises
`InvalidHeaderFormat` about this header, with an ASCII message, if the value isn't a list. -/
def Spec.ParsesLists {α : Type} (parse : PyStr → Except Exc (List α)) (name : PyStr)
    (Item : PyStr → α → Prop) : Prop :=
  ∀ value, (∃ as, as ≠ [] ∧ parse value = .ok as ∧ ListOf Item value as ∧
      ∀ as', ListOf Item value as' → as' = as) ∨
    ((∀ as, ¬ ListOf Item value as) ∧
      ∃ error pos, parse value = .error (.invalidHeaderFormat name error value pos) ∧
        ∀ c ∈ error, c < 128)

theorem Spec.Elements.ne_nil {α : Type} {Item : PyStr → α → Prop} {s : PyStr} {as : List α}
    (h : Elements Item s as) : as ≠ [] := by
  cases h <;> simp

theorem parsesLists {α : Type} {p : HeaderParser α} {Item : PyStr → α → Prop}
    (hp : Recognizes p Item) (name : PyStr) :
    ParsesLists (fun v => parseList p v name) name Item := by
  intro value
  cases h : parseList p value name with
  | ok as =>
    have h' := (parseList_iff hp value name as).1 h
    obtain ⟨_, _, _, _, _, he⟩ := id h'
    refine .inl ⟨as, he.ne_nil, h, h', fun as' ha => ?_⟩
    have := (parseList_iff hp value name as').2 ha
    rw [h] at this
    exact (Except.ok.inj this).symm
  | error e =>
    refine .inr ⟨fun as ha => ?_, ?_⟩
    · rw [(parseList_iff hp value name as).2 ha] at h; cases h
    · obtain ⟨er, pos, rfl, ha⟩ := parseList_error hp h
      exact ⟨er, pos, h, ha⟩

/-- **C33.** `parse_connection` -/
theorem C33_connection : ParsesLists parseConnection p!"Connection" TokItem :=
  parsesLists recognizes_token _

/-- **C33.** `parse_upgrade` -/
theorem C33_upgrade : ParsesLists parseUpgrade p!"Upgrade" ProtocolItem :=
  parsesLists recognizes_protocol _

/-- **C33.** `parse_subprotocol` -/
theorem C33_subprotocol : ParsesLists parseSubprotocol p!"Sec-WebSocket-Protocol" TokItem :=
  parsesLists recognizes_token _

/-- **C33.** `parse_extension` -/
theorem C33_extension : ParsesLists parseExtension p!"Sec-WebSocket-Extensions" ExtItem :=
  parsesLists recognizes_ext _

example : parseConnection p!", ,keep-alive ,, Upgrade\t," = .ok [p!"keep-alive", p!"Upgrade"] := by
  decide +kernel
example : parseUpgrade p!"websocket, h2c/1.0" = .ok [p!"websocket", p!"h2c/1.0"] := by decide +kernel
example : parseConnection p!"a b" =
    .error (.invalidHeaderFormat p!"Connection" p!"expected comma" p!"a b" 2) := by decide +kernel
example : parseConnection p!" , " =
    .error (.invalidHeaderFormat p!"Connection" p!"expected token" p!" , " 0) := by decide +kernel
example : parseExtension p!"a; b=1 ; c = \"\\2\";d, e" =
    .ok [(p!"a", [(p!"b", some p!"1"), (p!"c", some p!"2"), (p!"d", none)]), (p!"e", [])] := by
  decide +kernel

/-! ## C34: extensions and subprotocols -/

theorem elements_join {α : Type} {Item : PyStr → α → Prop} {build : α → PyStr} (as : List α)
    (h : ∀ a ∈ as, Item (build a) a) (hne : as ≠ []) :
    Elements Item (strJoin p!", " (as.map build)) as := by
  induction as with
  | nil => exact absurd rfl hne
  | cons a as ih =>
    cases as with
    | nil =>
      have hn : Gap [] := by intro c hc; cases hc
      have := Elements.last (Item := Item) (h a (by simp)) hn
      simpa [strJoin] using this
    | cons b bs =>
      have h2 := ih (fun x hx => h x (by simp [hx])) (by simp)
      have h3 : Gap p!", " := by
        intro c hc
        simp at hc
        omega
      exact Elements.cons (h a (by simp)) h3 (by simp) h2

theorem listOf_join {α : Type} {Item : PyStr → α → Prop} {build : α → PyStr} (as : List α)
    (h : ∀ a ∈ as, Item (build a) a) (hne : as ≠ []) :
    ListOf Item (strJoin p!", " (as.map build)) as :=
  ⟨[], _, rfl, (by intro c hc; cases hc), .inl rfl, elements_join as h hne⟩

/-- An extension whose name, parameter names and parameter values are tokens. -/
def Spec.TokenExt (e : ExtHeader) : Prop :=
  Tok e.1 ∧ ∀ p ∈ e.2, Tok p.1 ∧ ∀ v, p.2 = some v → Tok v

theorem paramItems_join (ps : List ExtParam) (h : ∀ p ∈ ps, Tok p.1 ∧ ∀ v, p.2 = some v → Tok v)
    (x : PyStr) : ∃ s, strJoin p!"; " (x :: ps.map fun p =>
      match p.2 with
      | none => p.1
      | some v => p.1 ++ p!"=" ++ v) = x ++ s ∧ ParamItems s ps := by
  induction ps generalizing x with
  | nil => exact ⟨[], by simp [strJoin], .nil⟩
  | cons p ps ih =>
    obtain ⟨hp, hv⟩ := h p (by simp)
    have hsp : Ows p!" " := by intro c hc; simp at hc; omega
    obtain ⟨s, e, hs⟩ := ih (fun q hq => h q (by simp [hq]))
      (match p.2 with
      | none => p.1
      | some v => p.1 ++ p!"=" ++ v)
    refine ⟨_, ?_, .cons (x := match p.2 with
      | none => p.1
      | some v => p.1 ++ p!"=" ++ v) .nil hsp ?_ hs⟩
    · rw [List.map_cons, strJoin, e]
      simp
    · obtain ⟨n, v⟩ := p
      cases v with
      | none => exact .flag hp
      | some v =>
        have := ParamItem.token (o1 := []) (o2 := []) hp .nil .nil (hv v rfl)
        simpa using this

theorem extItem_build {e : ExtHeader} (h : TokenExt e) : ExtItem (buildExtensionItem e) e := by
  obtain ⟨s, h1, h2⟩ := paramItems_join e.2 h.2 e.1
  exact ⟨s, h1, h.1, h2⟩

/-- **C34.** Parsing the `Sec-WebSocket-Extensions` header built from a list of extensions returns
this list. -/
theorem C34_extensions (exts : List ExtHeader) (hne : exts ≠ []) (h : ∀ e ∈ exts, TokenExt e) :
    parseExtension (buildExtension exts) = .ok exts :=
  (parseList_iff recognizes_ext _ _ _).2 (listOf_join exts (fun e he => extItem_build (h e he)) hne)

/-- **C34.** Parsing the `Sec-WebSocket-Protocol` header built from a list of subprotocols returns
this list. -/
theorem C34_subprotocols (ps : List PyStr) (hne : ps ≠ []) (h : ∀ p ∈ ps, Tok p) :
    parseSubprotocol (buildSubprotocol ps) = .ok ps := by
  have := listOf_join (Item := TokItem) (build := fun x => x) ps (fun p hp => ⟨rfl, h p hp⟩) hne
  rw [List.map_id''] at this
  · exact (parseList_iff recognizes_token _ _ _).2 this
  · intro x; rfl

theorem Spec.Tok.of_all {v : PyStr} (h : v ≠ [] ∧ v.all isTokenChar = true) : Tok v :=
  ⟨h.1, fun c hc => (isTokenChar_iff c).1 (List.all_eq_true.1 h.2 c hc)⟩

example : TokenExt (p!"permessage-deflate", [(p!"client_max_window_bits", none), (p!"x", some p!"10")]) := by
  refine ⟨.of_all (by decide +kernel), ?_⟩
  intro p hp
  simp only [List.mem_cons, List.not_mem_nil, or_false] at hp
  rcases hp with rfl | rfl
  · exact ⟨.of_all (by decide +kernel), by intro v hv; cases hv⟩
  · exact ⟨.of_all (by decide +kernel), by intro v hv; cases hv; exact .of_all (by decide +kernel)⟩

/-! ## C35: quoted strings -/

/-- The strings of characters that may occur in a quoted string. -/
def Spec.Quotable (v : PyStr) : Prop :=
  ∀ c ∈ v, c = 9 ∨ (0x20 ≤ c ∧ c ≤ 0x7E) ∨ (0x80 ≤ c ∧ c ≤ 0xFF)

/-- **C35, the full statement**: parsing the quoted form of a string returns the string. -/
def Spec.QuotedRoundTrip : Prop :=
  ∀ v, Quotable v → ∃ q, buildQuotedString v = .ok q ∧
    ∀ rest name, parseQuotedString (q ++ rest) (q ++ rest) name = .ok (v, rest)

/-- **C35** is false: characters from 0x80 to 0xFF are neither escaped by `build_quoted_string` nor
accepted without escape by `parse_quoted_string`. -/
theorem C35_round_trip_false : ¬ QuotedRoundTrip := by
  intro h
  obtain ⟨q, h1, h2⟩ := h [0xE9] (by intro c hc; simp at hc; omega)
  have e : buildQuotedString [0xE9] = .ok [34, 0xE9, 34] := by decide +kernel
  rw [e] at h1
  cases h1
  have := h2 [] []
  revert this
  decide +kernel

/-- **C35, partial**: it is true for strings of ASCII characters.  Missing: strings with characters
from 0x80 to 0xFF, for which it is false. -/
theorem C35_round_trip_partial (v : PyStr) (hv : Quotable v) (ha : ∀ c ∈ v, c < 128) :
    ∃ q, buildQuotedString v = .ok q ∧
      ∀ rest name, parseQuotedString (q ++ rest) (q ++ rest) name = .ok (v, rest) := by
  unfold buildQuotedString
  rw [if_pos (List.all_eq_true.2 fun c hc => (isQuotable_iff c).2 (hv c hc))]
  refine ⟨_, rfl, fun rest name => parseQuotedString_iff.2 ⟨_, rfl, ?_⟩⟩
  induction v with
  | nil => exact .nil
  | cons c v ih =>
    have h1 := hv c (by simp)
    have h2 := ha c (by simp)
    have ih := ih (fun c hc => hv c (by simp [hc])) (fun c hc => ha c (by simp [hc]))
    simp only [List.map_cons, List.flatten_cons]
    split
    · exact .pair h1 ih
    · exact .text (by omega) (by omega) (by omega) ih

/-- **C35, partial**: other strings are refused, by `build_quoted_string` if they contain a character
that cannot occur in a quoted string. -/
theorem C35_refused_partial (v : PyStr) (hv : ¬ Quotable v) :
    buildQuotedString v = .error (.valueError p!"invalid characters for quoted-string encoding") := by
  unfold buildQuotedString
  rw [if_neg]
  intro h
  exact hv fun c hc => (isQuotable_iff c).1 (List.all_eq_true.1 h c hc)

example : buildQuotedString p!"a \"b\" \\" = .ok p!"\"a \\\"b\\\" \\\\\"" := by decide +kernel

/-! ## C38: base64 -/

/-- **C38.** The encoding is the one of RFC 4648. -/
theorem C38_rfc4648 (b : Bytes) : b64encode b = base64 b := b64encode_eq b

/-- **C38.** Decoding the encoding of a byte string returns the byte string, with and without
validation. -/
theorem C38_round_trip (b : Bytes) :
    b64decode (b64encode b) = .ok b ∧ b64decodeValid (b64encode b) = .ok b := by
  refine ⟨a2b_encode b, ?_⟩
  unfold b64decodeValid
  rw [if_pos (b64Valid_encode b)]
  exact a2b_encode b

/-- **C38.** Without validation, when the padding is at the end, exactly the strings described by `Base64Of` are
decoded, to the bytes with the same bits. -/
theorem C38_decode {s : PyStr} (hs : ∃ body n, s = body ++ List.replicate n 61 ∧ 61 ∉ body) (b : Bytes) :
    b64decode s = .ok b ↔ Base64Of s b := b64decode_iff hs b

example : Base64Of p!"//-4=" [0xFF, 0xFE] ∧ ¬ ∃ b, Base64Of p!"dXNlA===" b := by
  refine ⟨(C38_decode ⟨p!"//-4", 1, rfl, by decide⟩ _).1 (by decide +kernel), ?_⟩
  rintro ⟨b, hb⟩
  have : b64decode p!"dXNlA===" = .ok b := (C38_decode ⟨p!"dXNlA", 3, rfl, by decide⟩ b).2 hb
  rw [show b64decode p!"dXNlA===" = .error .binasciiError by decide +kernel] at this
  cases this

/-- **C38.** The key generated from 16 random bytes is valid: it has 24 characters, and the server
decodes it to these 16 bytes. -/
theorem C38_key (raw : Bytes) (h : raw.length = 16) :
    (b64encode raw).length = 24 ∧ ∃ b, b64decodeValid (b64encode raw) = .ok b ∧ b.length = 16 := by
  refine ⟨?_, raw, (C38_round_trip raw).2, h⟩
  rw [b64encode_length, h]

example : b64encode b!"the sample nonce" = p!"dGhlIHNhbXBsZSBub25jZQ==" := by decide +kernel
example : b64encode [0xFF, 0xFE] = p!"//4=" := by decide +kernel

/-! ## C36: basic credentials -/

theorem b64Val_token68 {c : Nat} (h : (b64Val c).isSome = true) : isToken68Char c = true := by
  unfold b64Val at h
  simp only [isToken68Char, Bool.or_eq_true, Bool.and_eq_true, decide_eq_true_eq, List.contains_cons,
    beq_iff_eq, List.contains_nil, Bool.or_false]
  grind

theorem parseToken68_encode (hd name : PyStr) (b : Bytes) (hb : b ≠ []) :
    parseToken68 hd (b64encode b) name = .ok (b64encode b, []) := by
  obtain ⟨chars, pads, e, h1, h2, h3⟩ := b64encode_split b
  have h3 := h3 hb
  have hp : ∀ c, pads.head? = some c → isToken68Char c = false := by
    intro c hc
    rcases h2 with rfl | rfl | rfl <;> simp at hc <;> subst hc <;> decide
  obtain ⟨s1, s2⟩ := span_eq (p := isToken68Char) (a := chars) (b := pads)
    (fun c hc => b64Val_token68 (h1 c hc)) hp
  unfold parseToken68
  rw [e, s1, s2]
  cases chars with
  | nil => exact absurd rfl h3
  | cons c cs => rcases h2 with rfl | rfl | rfl <;> simp

theorem splitColon_eq {u p : PyStr} (hu : 58 ∉ u) : splitColon (u ++ p!":" ++ p) = some (u, p) := by
  induction u with
  | nil => simp [splitColon]
  | cons c u ih =>
    simp only [List.mem_cons, not_or] at hu
    have := ih hu.2
    simp only [List.cons_append, splitColon]
    simp only [List.append_assoc, List.cons_append, List.nil_append] at this ⊢
    rw [if_neg (fun h => hu.1 h.symm), this]

/-- **C36.** Parsing the `Authorization` header built for a user name without colon and a password
returns the user name and the password. -/
theorem C36_credentials (user password : PyStr) (hc : 58 ∉ user) {bu bp : Bytes}
    (hu : IsUtf8 bu user) (hp : IsUtf8 bp password) :
    ∃ header, buildAuthorizationBasic user password = .ok header ∧
      parseAuthorizationBasic header = .ok (user, password) := by
  have he : utf8Encode (user ++ p!":" ++ password) = .ok (bu ++ b!":" ++ bp) :=
    utf8Encode_append (utf8Encode_append (utf8Encode_iff_spec.2 hu) (by decide +kernel))
      (utf8Encode_iff_spec.2 hp)
  unfold buildAuthorizationBasic
  rw [if_neg hc, he]
  refine ⟨_, rfl, ?_⟩
  simp only [parseAuthorizationBasic]
  have e : ∀ s, p!"Basic " ++ s = p!"Basic" ++ (p!" " ++ s) := by intro s; simp
  have hb : Tok p!"Basic" := .of_all (by decide +kernel)
  rw [e, parseToken_eq _ _ hb (by intro c hc; simp at hc; subst hc; decide)]
  have h1 : pyLower p!"Basic" = p!"basic" := by decide +kernel
  simp only [h1, ne_eq, not_true_eq_false, if_false, List.cons_append, List.nil_append]
  rw [parseToken68_encode _ _ _ (by simp)]
  simp only [not_true_eq_false, if_false, (C38_round_trip _).1]
  have h2 : utf8Decode (bu ++ b!":" ++ bp) = .ok (user ++ p!":" ++ password) :=
    utf8Decode_iff_encode.2 he
  simp only [List.append_assoc, List.cons_append, List.nil_append] at h2 ⊢
  rw [h2]
  have h3 := splitColon_eq (p := password) hc
  simp only [List.append_assoc, List.cons_append, List.nil_append] at h3
  simp only [h3]

/-- **C36.** `build_authorization_basic` refuses a user name with a colon. -/
theorem C36_colon (user password : PyStr) (hc : 58 ∈ user) :
    buildAuthorizationBasic user password = .error .assertionError := by
  unfold buildAuthorizationBasic
  rw [if_pos hc]

example : buildAuthorizationBasic p!"Aladdin" p!"open sesame" =
    .ok p!"Basic QWxhZGRpbjpvcGVuIHNlc2FtZQ==" := by decide +kernel
example : parseAuthorizationBasic p!"bAsIc QWxhZGRpbjpvcGVuIHNlc2FtZQ==" =
    .ok (p!"Aladdin", p!"open sesame") := by decide +kernel

/-! ## C37: errors -/

/-- The errors documented for `parse_authorization_basic`. -/
def Spec.InvalidHeader : Exc → Prop
  | .invalidHeaderFormat _ _ _ _ => True
  | .invalidHeaderValue _ _ => True
  | _ => False

/-- **C37, the full statement.** -/
def Spec.AuthorizationErrors : Prop :=
  ∀ header e, parseAuthorizationBasic header = .error e → InvalidHeader e

/-- **C37** is false: credentials that aren't UTF-8 raise `UnicodeDecodeError`. -/
theorem C37_errors_false : ¬ AuthorizationErrors := by
  intro h
  exact h p!"Basic /w==" (.unicodeDecodeError Utf8Err.invalidStart.reason 0) (by decide +kernel)

theorem a2bLoop_error {quad left pads : Nat} {s : PyStr} {e : Exc}
    (h : a2bLoop quad left pads s = .error e) : e = .binasciiError := by
  induction s generalizing quad left pads with
  | nil => unfold a2bLoop at h; split at h <;> cases h; rfl
  | cons c cs ih =>
    unfold a2bLoop at h
    split at h
    · split at h
      · split at h
        · cases h
        · exact ih h
      · exact ih h
    · split at h
      · exact ih h
      · split at h
        · exact ih h
        all_goals
          split at h
          · cases h
          · rename_i h1; cases h; exact ih h1

/-- The padding of a token is at its end. -/
theorem parseToken68_shape {hd r name t rest : PyStr} (h : parseToken68 hd r name = .ok (t, rest)) :
    ∃ body n, t = body ++ List.replicate n 61 ∧ 61 ∉ body := by
  have hmem : ∀ {p : Nat → Bool} {l : PyStr} {a : Nat}, a ∈ l.takeWhile p → p a = true := by
    intro p l a ha
    induction l with
    | nil => cases ha
    | cons b l ih =>
      rw [List.takeWhile_cons] at ha
      split at ha
      · rename_i hb
        rcases List.mem_cons.1 ha with rfl | ha
        · exact hb
        · exact ih ha
      · cases ha
  unfold parseToken68 fmtError at h
  split at h
  · cases h
  · simp only [Except.ok.injEq, Prod.mk.injEq] at h
    obtain ⟨rfl, _⟩ := h
    refine ⟨r.takeWhile isToken68Char, ((r.dropWhile isToken68Char).takeWhile (· == 61)).length, ?_, ?_⟩
    · congr 1
      rw [List.eq_replicate_iff]
      exact ⟨rfl, fun c hc => by simpa using hmem hc⟩
    · intro hc
      have := hmem hc
      revert this
      decide

/-- **C37, partial**: any other exception is a `UnicodeDecodeError`, for credentials in base64 that
aren't in UTF-8.  Missing: these should be `InvalidHeaderValue`. -/
theorem C37_errors_partial (header : PyStr) (e : Exc) (h : parseAuthorizationBasic header = .error e) :
    InvalidHeader e ∨
      ∃ scheme token raw r i, header = scheme ++ p!" " ++ token ∧ pyLower scheme = p!"basic" ∧
        Base64Of token raw ∧ (∀ s, ¬ IsUtf8 raw s) ∧ e = .unicodeDecodeError r i := by
  simp only [parseAuthorizationBasic] at h
  split at h
  · rename_i h1
    cases h
    obtain ⟨_, _, rfl, _⟩ := parseToken_error h1
    exact .inl trivial
  · rename_i scheme rest h1
    obtain ⟨rfl, _, _⟩ := parseToken_ok h1
    split at h
    · cases h; exact .inl trivial
    · rename_i hs
      split at h
      · rename_i rest _
        split at h
        · rename_i h2
          unfold parseToken68 at h2
          cases h
          simp only [fmtError] at h2
          split at h2 <;> cases h2
          exact .inl trivial
        · rename_i credentials rest' h2
          split at h
          · unfold fmtError at h; cases h; exact .inl trivial
          · rename_i hr
            have hr : rest' = [] := Classical.byContradiction hr
            subst hr
            have hrest : rest = credentials := by
              unfold parseToken68 fmtError at h2
              split at h2
              · cases h2
              · rename_i h3
                simp only [Except.ok.injEq, Prod.mk.injEq] at h2
                obtain ⟨rfl, h2⟩ := h2
                have a1 := List.takeWhile_append_dropWhile (p := isToken68Char) (l := rest)
                have a2 := List.takeWhile_append_dropWhile (p := (· == 61))
                  (l := rest.dropWhile isToken68Char)
                rw [h2, List.append_nil] at a2
                rw [a2]
                exact a1.symm
            subst hrest
            have hshape := parseToken68_shape h2
            split at h
            · cases h; exact .inl trivial
            · rename_i h3 h4
              cases h
              exact absurd (a2bLoop_error h4) h3
            · rename_i raw h3
              split at h
              · rename_i e' h4
                cases h
                have h5 : ∃ r i, e = .unicodeDecodeError r i := by
                  unfold utf8Decode at h4
                  split at h4 <;> cases h4
                  exact ⟨_, _, rfl⟩
                obtain ⟨r, i, rfl⟩ := h5
                refine .inr ⟨scheme, rest, raw, r, i, by simp,
                  Classical.byContradiction hs, (b64decode_iff hshape raw).1 h3, ?_, rfl⟩
                intro s hs
                rw [utf8Decode_iff_encode.2 (utf8Encode_iff_spec.2 hs)] at h4
                cases h4
              · split at h
                · cases h; exact .inl trivial
                · cases h
      · unfold fmtError at h; cases h; exact .inl trivial

example : parseAuthorizationBasic p!"Digest x" =
    .error (.invalidHeaderValue p!"Authorization" p!"unsupported scheme: Digest") := by decide +kernel

end WS
