import Verif.Model.LegacyAuth
import Verif.Props.LegacyServer
import Verif.Props.HeaderParse

/-!
# C60: HTTP Basic Authentication
-/

namespace WS.Spec

/-- RFC 7235, section 2.1 -/
def Token68 (s : PyStr) : Prop :=
  ∃ chars n, s = chars ++ List.replicate n 61 ∧ chars ≠ [] ∧ ∀ c ∈ chars,
    (65 ≤ c ∧ c ≤ 90) ∨ (97 ≤ c ∧ c ≤ 122) ∨ (48 ≤ c ∧ c ≤ 57) ∨ c ∈ p!"-._~+/"

/-- RFC 7617: the credentials in the value of an `Authorization` header: `Basic`, in any case, a space, and
the user name and the password separated by a colon, in UTF-8 and base64. -/
def BasicCredentials (value user password : PyStr) : Prop :=
  ∃ scheme token raw, value = scheme ++ p!" " ++ token ∧ Tok scheme ∧ pyLower scheme = p!"basic" ∧
    Token68 token ∧ Base64Of token raw ∧ IsUtf8 raw (user ++ p!":" ++ password) ∧ 58 ∉ user

/-- RFC 7617: basic credentials that aren't in UTF-8. -/
def NotUtf8Credentials (value : PyStr) : Prop :=
  ∃ scheme token raw, value = scheme ++ p!" " ++ token ∧ pyLower scheme = p!"basic" ∧
    Base64Of token raw ∧ ∀ s, ¬ IsUtf8 raw s

/-- RFC 7617: the challenge for a realm -/
def challenge (realm : PyStr) : PyStr :=
  p!"Basic realm=\"" ++ realm.flatMap (fun c => if c = 34 ∨ c = 92 then [92, c] else [c]) ++
    p!"\", charset=\"UTF-8\""

end WS.Spec

namespace WS.LegacyAuth

open Spec LegacyServer

variable {X : Type}

theorem mem_takeWhile_imp {α : Type} {p : α → Bool} {l : List α} {a : α} (h : a ∈ l.takeWhile p) : p a = true := by
  induction l with
  | nil => cases h
  | cons b l ih =>
    rw [List.takeWhile_cons] at h
    split at h
    · rename_i hb
      rcases List.mem_cons.1 h with rfl | h
      · exact hb
      · exact ih h
    · cases h

theorem isToken68Char_iff (c : Nat) : isToken68Char c = true ↔
    ((65 ≤ c ∧ c ≤ 90) ∨ (97 ≤ c ∧ c ≤ 122) ∨ (48 ≤ c ∧ c ≤ 57) ∨ c ∈ p!"-._~+/") := by
  unfold isToken68Char
  simp only [Bool.or_eq_true, Bool.and_eq_true, decide_eq_true_eq, List.contains_iff_mem, List.mem_cons,
    List.not_mem_nil, or_false]
  omega

theorem parseToken68_all {hd r name t : PyStr} (h : parseToken68 hd r name = .ok (t, [])) : r = t ∧ Token68 t := by
  unfold parseToken68 fmtError at h
  split at h
  · cases h
  · rename_i tok hne
    simp only [Except.ok.injEq, Prod.mk.injEq] at h
    obtain ⟨rfl, h2⟩ := h
    have a1 := List.takeWhile_append_dropWhile (p := isToken68Char) (l := r)
    have a2 := List.takeWhile_append_dropWhile (p := (· == 61)) (l := r.dropWhile isToken68Char)
    rw [h2, List.append_nil] at a2
    refine ⟨by rw [a2]; exact a1.symm, r.takeWhile isToken68Char,
      ((r.dropWhile isToken68Char).takeWhile (· == 61)).length, ?_, by intro e; exact hne e, ?_⟩
    · congr 1
      rw [List.eq_replicate_iff]
      refine ⟨rfl, ?_⟩
      intro c hc
      have := mem_takeWhile_imp hc
      simpa using this
    · intro c hc
      exact (isToken68Char_iff c).1 (mem_takeWhile_imp hc)

theorem parseToken68_of {t : PyStr} (hd name : PyStr) (h : Token68 t) : parseToken68 hd t name = .ok (t, []) := by
  obtain ⟨chars, n, rfl, hne, hc⟩ := h
  have hp : ∀ c, (List.replicate n 61).head? = some c → isToken68Char c = false := by
    intro c hc
    cases n with
    | zero => cases hc
    | succ n => simp [List.replicate_succ] at hc; subst hc; decide
  obtain ⟨s1, s2⟩ := span_eq (p := isToken68Char) (a := chars) (b := List.replicate n 61)
    (fun c h => (isToken68Char_iff c).2 (hc c h)) hp
  obtain ⟨s3, s4⟩ := span_eq (p := (· == 61)) (a := List.replicate n 61) (b := [])
    (fun c h => by simp [(List.mem_replicate.1 h).2]) (by simp)
  rw [List.append_nil] at s3 s4
  unfold parseToken68
  simp only [s1, s2, s3, s4]

theorem splitColon_some {s u p : PyStr} (h : splitColon s = some (u, p)) : s = u ++ p!":" ++ p ∧ 58 ∉ u := by
  induction s generalizing u with
  | nil => cases h
  | cons c s ih =>
    unfold splitColon at h
    split at h
    · cases h
      rename_i hc
      subst hc
      simp
    · rename_i hc
      split at h
      · cases h
      · rename_i a b h1
        cases h
        obtain ⟨i1, i2⟩ := ih h1
        refine ⟨by rw [i1]; simp, ?_⟩
        simp only [List.mem_cons, not_or]
        exact ⟨fun e => hc e.symm, i2⟩

/-- `parse_authorization_basic` accepts exactly basic credentials. -/
theorem parseAuthorizationBasic_iff (header user password : PyStr) :
    parseAuthorizationBasic header = .ok (user, password) ↔ BasicCredentials header user password := by
  constructor
  · intro h
    simp only [parseAuthorizationBasic] at h
    split at h
    · cases h
    · rename_i scheme rest h1
      obtain ⟨rfl, ht, _⟩ := parseToken_ok h1
      split at h
      · cases h
      · rename_i hs
        have hs := Classical.byContradiction hs
        split at h
        · rename_i rest _
          split at h
          · cases h
          · rename_i credentials rest' h2
            split at h
            · unfold fmtError at h; cases h
            · rename_i hr
              have hr : rest' = [] := Classical.byContradiction hr
              subst hr
              obtain ⟨rfl, h68⟩ := parseToken68_all h2
              split at h
              · cases h
              · cases h
              · rename_i raw h3
                split at h
                · cases h
                · rename_i up h4
                  split at h
                  · cases h
                  · rename_i q h5
                    cases h
                    obtain ⟨rfl, h6⟩ := splitColon_some h5
                    exact ⟨scheme, rest, raw, by simp, ht, hs, h68, (b64decode_iff (parseToken68_shape h2) raw).1 h3,
                      utf8Encode_iff_spec.1 (utf8Decode_iff_encode.1 h4), h6⟩
        · unfold fmtError at h; cases h
  · rintro ⟨scheme, token, raw, rfl, ht, hs, h68, hb, hu, hc⟩
    simp only [parseAuthorizationBasic]
    rw [List.append_assoc, parseToken_eq _ _ ht (by intro c hc; simp at hc; subst hc; decide)]
    simp only [hs, ne_eq, not_true_eq_false, if_false, List.cons_append, List.nil_append]
    have h68' := parseToken68_of p!"" p!"" h68
    rw [parseToken68_of _ _ h68]
    simp only [not_true_eq_false, if_false, (b64decode_iff (parseToken68_shape h68') raw).2 hb]
    have h2 : utf8Decode raw = .ok (user ++ p!":" ++ password) :=
      utf8Decode_iff_encode.2 (utf8Encode_iff_spec.2 hu)
    rw [h2]
    simp only [splitColon_eq (p := password) hc]

/-- `process_request` returns nothing but the response of the superclass only for a request that has exactly
one `Authorization` header with accepted credentials. -/
theorem processRequest_cases (a : Auth) (path : PyStr) {h : Headers} (hk : h.Ok pyLower) :
    (∃ v user password, values h.list p!"Authorization" = [v] ∧ BasicCredentials v user password ∧
      a.check user password = .ok true ∧ a.processRequest path h = a.inner path h) ∨
    (∃ body, a.processRequest path h = unauthorized a.realm body ∧
      (values h.list p!"Authorization" = [] ∧ body = b!"Missing credentials\n" ∨
       ∃ v, values h.list p!"Authorization" = [v] ∧
        ((∀ user password, ¬ BasicCredentials v user password) ∧ body = b!"Unsupported credentials\n" ∨
         ∃ user password, BasicCredentials v user password ∧ a.check user password = .ok false ∧
          body = b!"Invalid credentials\n"))) ∨
    (∃ e, a.processRequest path h = .error e ∧
      (2 ≤ (values h.list p!"Authorization").length ∨
       ∃ v, values h.list p!"Authorization" = [v] ∧ (NotUtf8Credentials v ∨
         ∃ user password, BasicCredentials v user password ∧ a.check user password = .error e))) := by
  unfold Auth.processRequest
  rw [hk.one]
  match hv : values h.list p!"Authorization" with
  | [] => exact .inr (.inl ⟨_, rfl, .inl ⟨rfl, rfl⟩⟩)
  | _ :: _ :: _ => exact .inr (.inr ⟨_, rfl, .inl (by simp)⟩)
  | [v] =>
    simp only
    cases hp : parseAuthorizationBasic v with
    | error e =>
      have hno : ∀ user password, ¬ BasicCredentials v user password := by
        intro user password hb
        rw [(parseAuthorizationBasic_iff v user password).2 hb] at hp
        cases hp
      simp only
      rcases C37_errors_partial v e hp with he | ⟨scheme, token, raw, r, i, h1, h2, h3, h4, rfl⟩
      · have : isInvalidHeader e = true := by
          cases e <;> first | rfl | exact absurd he id
        rw [if_pos this]
        exact .inr (.inl ⟨_, rfl, .inr ⟨v, rfl, .inl ⟨hno, rfl⟩⟩⟩)
      · exact .inr (.inr ⟨_, rfl, .inr ⟨v, rfl, .inl ⟨scheme, token, raw, h1, h2, h3, h4⟩⟩⟩)
    | ok p =>
      obtain ⟨user, password⟩ := p
      have hb := (parseAuthorizationBasic_iff v user password).1 hp
      simp only
      cases hc : a.check user password with
      | error e => exact .inr (.inr ⟨e, rfl, .inr ⟨v, rfl, .inr ⟨user, password, hb, hc⟩⟩⟩)
      | ok b =>
        cases b with
        | false => exact .inr (.inl ⟨_, rfl, .inr ⟨v, rfl, .inr ⟨user, password, hb, hc, rfl⟩⟩⟩)
        | true => exact .inl ⟨v, user, password, rfl, hb, hc, rfl⟩

/-- **C60.** A connection opens only if the request has exactly one `Authorization` header, which contains
basic credentials that are accepted. -/
theorem C60_only (a : Auth) (py : PyEnv) (cfg : ServerConfig X) (date : PyStr) (serving : Bool)
    (request : Option Request) (hk : ∀ req, request = some req → req.headers.Ok pyLower) (o : Opened X)
    (h : openingHandshake (a.setup py cfg date) serving request = .opened o) :
    ∃ req v user password, request = some req ∧ values req.headers.list p!"Authorization" = [v] ∧
      BasicCredentials v user password ∧ a.check user password = .ok true := by
  obtain ⟨req, _, _, _, hr, _, hpr, _⟩ := C66_opened (a.setup py cfg date) serving request o hk h
  refine ⟨req, ?_⟩
  rcases processRequest_cases a req.path (hk req hr) with ⟨v, u, p, h1, h2, h3, _⟩ | ⟨body, h1, _⟩ | ⟨e, h1, _⟩
  · exact ⟨v, u, p, hr, h1, h2, h3⟩
  · have hpr : a.processRequest req.path req.headers = .ok none := hpr
    rw [h1] at hpr
    unfold unauthorized at hpr
    split at hpr <;> cases hpr
  · have hpr : a.processRequest req.path req.headers = .ok none := hpr
    rw [h1] at hpr
    cases hpr

/-- The credentials of a request are accepted. -/
def Spec.Authorized (check : PyStr → PyStr → Except Exc Bool) (hs : List (PyStr × PyStr)) : Prop :=
  ∃ v user password, values hs p!"Authorization" = [v] ∧ BasicCredentials v user password ∧
    check user password = .ok true

/-- **C60.** A request with accepted credentials is processed as if there was no authentication. -/
theorem C60_passes (a : Auth) (py : PyEnv) (cfg : ServerConfig X) (date : PyStr) (serving : Bool) (req : Request)
    (hk : req.headers.Ok pyLower) (h : Spec.Authorized a.check req.headers.list) :
    openingHandshake (a.setup py cfg date) serving (some req) =
      openingHandshake { py, cfg, processRequest := a.inner, date } serving (some req) := by
  obtain ⟨v, user, password, h1, h2, h3⟩ := h
  have : a.processRequest req.path req.headers = a.inner req.path req.headers := by
    unfold Auth.processRequest
    rw [hk.one, h1]
    simp only [(parseAuthorizationBasic_iff v user password).2 h2, h3]
  have he : earlyResponse (a.setup py cfg date) serving req =
      earlyResponse { py, cfg, processRequest := a.inner, date } serving req := by
    unfold earlyResponse
    simp only [Auth.setup, this]
  unfold openingHandshake handshake
  simp only [he]
  rfl

/-- The response has status 401 and challenges the client. -/
def Spec.Challenged (realm : PyStr) : LegacyServer.Outcome X → Prop
  | .refused status headers _ _ =>
    status = 401 ∧ values headers.list p!"WWW-Authenticate" = [challenge realm]
  | _ => False

/-- **C60, the full statement of the second part**: any other request gets a 401 response with a challenge
(if the realm can be sent in a header). -/
def Spec.OthersChallenged : Prop :=
  ∀ (a : Auth) (cfg : ServerConfig Unit) (req : Request), req.headers.Ok pyLower → Quotable a.realm →
    (∀ user password, ∃ b, a.check user password = .ok b) → ¬ Spec.Authorized a.check req.headers.list →
    Spec.Challenged a.realm (openingHandshake (a.setup PyEnv.simple cfg p!"now") true (some req))

theorem buildWwwAuthenticateBasic_eq {realm : PyStr} (h : realm.all isQuotable = true) :
    buildWwwAuthenticateBasic realm = .ok (challenge realm) := by
  unfold buildWwwAuthenticateBasic buildQuotedString
  rw [if_pos h]
  have : (p!"UTF-8").all isQuotable = true := by decide
  simp only [this, if_true]
  unfold challenge
  simp [List.flatMap]

theorem encodable_challenge {realm : PyStr} (h : realm.all isQuotable = true) : Encodable (challenge realm) := by
  intro c hc
  unfold challenge at hc
  have hlt : c < 256 := by
    rcases List.mem_append.1 hc with hc | hc
    · rcases List.mem_append.1 hc with hc | hc
      · have : ∀ c ∈ p!"Basic realm=\"", c < 256 := by decide
        exact this c hc
      · rw [List.mem_flatMap] at hc
        obtain ⟨x, hx, hc⟩ := hc
        have hx := List.all_eq_true.1 h x hx
        have hx : x < 256 := by
          unfold isQuotable at hx
          simp only [Bool.or_eq_true, Bool.and_eq_true, decide_eq_true_eq, beq_iff_eq] at hx
          omega
        split at hc
        · simp only [List.mem_cons, List.not_mem_nil, or_false] at hc
          omega
        · simp only [List.mem_singleton] at hc
          omega
    · have : ∀ c ∈ p!"\", charset=\"UTF-8\"", c < 256 := by decide
      exact this c hc
  exact .inl (by omega)

/-- **C60, partial**: any other request gets a 401 response with a challenge, unless it has several
`Authorization` headers, its credentials aren't in UTF-8 or the check raises an exception.  (Missing: the
first two cases, see `C60_duplicate_false` and `C60_utf8_false`.) -/
theorem C60_refused_partial (a : Auth) (py : PyEnv) (cfg : ServerConfig X) (date : PyStr) (req : Request)
    (hk : req.headers.Ok pyLower) (hrealm : Quotable a.realm) (hdate : Encodable date)
    (hagent : Encodable py.agent) (hcheck : ∀ user password, ∃ b, a.check user password = .ok b)
    (hone : (values req.headers.list p!"Authorization").length ≤ 1)
    (hutf : ∀ v ∈ values req.headers.list p!"Authorization", ¬ NotUtf8Credentials v)
    (hno : ¬ Spec.Authorized a.check req.headers.list) :
    Spec.Challenged a.realm (openingHandshake (a.setup py cfg date) true (some req)) := by
  have hq : a.realm.all isQuotable = true := by
    rw [List.all_eq_true]
    intro c hc
    have := hrealm c hc
    unfold isQuotable
    simp only [Bool.or_eq_true, Bool.and_eq_true, decide_eq_true_eq, beq_iff_eq]
    omega
  rcases processRequest_cases a req.path hk with ⟨v, u, p, h1, h2, h3, _⟩ | ⟨body, h1, _⟩ | ⟨e, h1, h2⟩
  · exact absurd ⟨v, u, p, h1, h2, h3⟩ hno
  · have hr : handshake (a.setup py cfg date) true (some req) = .error (.abort
        { status := 401, phrase := p!"Unauthorized",
          headers := [(p!"WWW-Authenticate", challenge a.realm)], body }) := by
      unfold unauthorized at h1
      rw [buildWwwAuthenticateBasic_eq hq] at h1
      have : earlyResponse (a.setup py cfg date) true req = .ok (some
        { status := 401, phrase := p!"Unauthorized",
          headers := [(p!"WWW-Authenticate", challenge a.realm)], body }) := by
        unfold earlyResponse
        have h1 : (a.setup py cfg date).processRequest req.path req.headers = _ := h1
        rw [h1]
        rfl
      unfold handshake
      simp only [this]
    obtain ⟨hd, w, k1, k2, _⟩ := refused_of hr rfl (by
        intro n hn
        have : ∀ n ∈ Spec.defaultNames, lower p!"WWW-Authenticate" ≠ lower n := by decide +kernel
        have := this n hn
        simp [values, valuesOf, this]) ⟨encodable_ascii (s := p!"Unauthorized") (by decide), (by
          intro p hp
          simp only [List.mem_singleton] at hp
          subst hp
          exact ⟨encodable_ascii (s := p!"WWW-Authenticate") (by decide), encodable_challenge hq⟩), hdate, hagent⟩
    rw [k1]
    refine ⟨rfl, ?_⟩
    rw [k2, Spec.refusal, values_append]
    have h1 : ∀ v, values [(p!"WWW-Authenticate", v)] p!"WWW-Authenticate" = [v] := by
      intro v
      simp [values, valuesOf]
    have h2 : ∀ n ∈ Spec.defaultNames, lower n ≠ lower p!"WWW-Authenticate" := by decide +kernel
    rw [h1]
    have h3 : ∀ d g l : PyStr, values [(p!"Date", d), (p!"Server", g), (p!"Content-Length", l),
        (p!"Content-Type", p!"text/plain"), (p!"Connection", p!"close")] p!"WWW-Authenticate" = [] := by
      intro d g l
      simp only [values, valuesOf, List.filter_cons, h2 p!"Date" (by decide), h2 p!"Server" (by decide),
        h2 p!"Content-Length" (by decide), h2 p!"Content-Type" (by decide), h2 p!"Connection" (by decide)]
      rfl
    rw [h3]
    rfl
  · rcases h2 with h2 | ⟨v, h2, h3 | ⟨u, p, h3, h4⟩⟩
    · omega
    · exact absurd h3 (hutf v (by rw [h2]; simp))
    · obtain ⟨b, hb⟩ := hcheck u p
      rw [hb] at h4
      cases h4

/-- A server with one user. -/
def exampleAuth : Auth :=
  { realm := p!"my \"dev\" server", check := fun u p => .ok (u = p!"hello" && p = p!"iloveyou"),
    inner := fun _ _ => .ok none }

/-- `goodRequest`, with these `Authorization` headers -/
def requestWith (vs : List PyStr) : Request :=
  { goodRequest with
    headers := Headers.ofList (goodRequest.headers.list ++ vs.map fun v => (p!"authorization", v)) }

theorem not_challenged {req : Request} (h : Spec.OthersChallenged)
    (hk : req.headers.Ok pyLower) (hno : ¬ Spec.Authorized exampleAuth.check req.headers.list)
    (hs : (openingHandshake (exampleAuth.setup PyEnv.simple exampleConfig p!"now") true (some req)).status = 500) :
    False := by
  have h := h exampleAuth exampleConfig req hk (by unfold Quotable; decide +kernel) (fun _ _ => ⟨_, rfl⟩) hno
  generalize openingHandshake (exampleAuth.setup PyEnv.simple exampleConfig p!"now") true (some req) = o at h hs
  cases o with
  | opened _ => exact h
  | dropped => exact h
  | refused status _ _ _ =>
    have h1 : status = 500 := hs
    have h2 : status = 401 := h.1
    omega

/-- **C60 doesn't hold for requests with several `Authorization` headers**: the response is 500. -/
theorem C60_duplicate_false : ¬ Spec.OthersChallenged := by
  intro h
  refine not_challenged (req := requestWith [p!"Basic aGVsbG86", p!"Basic aGVsbG86"]) h
    (Headers.ofList_ok _).1 ?_ (by decide +kernel)
  rintro ⟨v, u, p, h1, _⟩
  have h1 := congrArg List.length h1
  have h2 : (values (requestWith [p!"Basic aGVsbG86", p!"Basic aGVsbG86"]).headers.list
    p!"Authorization").length = 2 := by decide +kernel
  rw [h2] at h1
  simp at h1

/-- **C60 doesn't hold for credentials that aren't in UTF-8**: the response is 500. -/
theorem C60_utf8_false : ¬ Spec.OthersChallenged := by
  intro h
  refine not_challenged (req := requestWith [p!"Basic /w=="]) h (Headers.ofList_ok _).1 ?_ (by decide +kernel)
  rintro ⟨v, u, p, h1, h2, _⟩
  have h3 : values (requestWith [p!"Basic /w=="]).headers.list p!"Authorization" = [p!"Basic /w=="] := by
    decide +kernel
  rw [h3] at h1
  cases h1
  have h2 := (parseAuthorizationBasic_iff _ _ _).2 h2
  have h4 : (match parseAuthorizationBasic p!"Basic /w==" with | .ok _ => true | .error _ => false) = false := by
    decide +kernel
  rw [h2] at h4
  cases h4

-- The request is accepted with the right credentials, and challenged without or with wrong ones.
example : (openingHandshake (exampleAuth.setup PyEnv.simple exampleConfig p!"now") true
    (some (requestWith [p!"Basic aGVsbG86aWxvdmV5b3U="]))).status = 101 := by decide +kernel
example : ∀ vs ∈ [[], [p!"Basic aGVsbG86"], [p!"Basic aGVsbG8="], [p!"Bearer x"], [p!"Basic"]],
    (match openingHandshake (exampleAuth.setup PyEnv.simple exampleConfig p!"now") true (some (requestWith vs)) with
      | .refused status headers _ _ => (status, values headers.list p!"www-authenticate") | _ => (0, [])) =
    (401, [p!"Basic realm=\"my \\\"dev\\\" server\", charset=\"UTF-8\""]) := by decide +kernel

/-! ## Hard coded credentials -/

/-- A pair of strings -/
def Spec.pairVal (p : PyStr × PyStr) : Val := .tuple [.str p.1, .str p.2]

/-- **C60.** With a pair as `credentials`, exactly these credentials are accepted. -/
theorem C60_pair (realm user password : PyStr) (inner : PyStr → Headers → Except Exc (Option HttpResponse)) :
    ∃ a, factory realm (some (Spec.pairVal (user, password))) none inner = some a ∧ a.realm = realm ∧
      a.inner = inner ∧
      ∀ u p, ∃ b, a.check u p = .ok b ∧ (b = true ↔ u = user ∧ p = password) := by
  refine ⟨_, rfl, rfl, rfl, fun u p => ⟨_, rfl, ?_⟩⟩
  simp [Val.afterUnpack, Val.eqPair, Spec.pairVal]

theorem dictItems_pairs (l : List (PyStr × PyStr)) : dictItems (l.map Spec.pairVal) = some l := by
  induction l with
  | nil => rfl
  | cons p l ih =>
    simp only [List.map_cons, dictItems, ih]
    rfl

theorem dictLookup_iff (l : List (PyStr × PyStr)) (u p : PyStr) :
    dictLookup l u = some p ↔ ∃ pre post, l = pre ++ (u, p) :: post ∧ ∀ q ∈ post, q.1 ≠ u := by
  unfold dictLookup
  constructor
  · intro h
    rw [Option.map_eq_some_iff] at h
    obtain ⟨⟨u', p'⟩, h, rfl⟩ := h
    rw [List.find?_eq_some_iff_append] at h
    obtain ⟨h1, as, bs, h2, h3⟩ := h
    have h1 : u' = u := by simpa using h1
    subst h1
    refine ⟨bs.reverse, as.reverse, ?_, ?_⟩
    · have := congrArg List.reverse h2
      simpa using this
    · intro q hq
      have := h3 q (List.mem_reverse.1 hq)
      simpa using this
  · rintro ⟨pre, post, rfl, h⟩
    rw [Option.map_eq_some_iff]
    refine ⟨(u, p), ?_, rfl⟩
    rw [List.find?_eq_some_iff_append]
    refine ⟨by simp, post.reverse, pre.reverse, by simp, ?_⟩
    intro q hq
    have := h q (List.mem_reverse.1 hq)
    simpa using this

/-- **C60.** With a list of pairs as `credentials`, exactly the last password given for each user name is
accepted. -/
theorem C60_list (realm : PyStr) (l : List (PyStr × PyStr)) (inner : PyStr → Headers → Except Exc (Option HttpResponse)) :
    ∃ a, factory realm (some (.list (l.map Spec.pairVal))) none inner = some a ∧ a.realm = realm ∧
      a.inner = inner ∧
      ∀ u p, ∃ b, a.check u p = .ok b ∧
        (b = true ↔ ∃ pre post, l = pre ++ (u, p) :: post ∧ ∀ q ∈ post, q.1 ≠ u) := by
  have h1 : (Val.list (l.map Spec.pairVal)).pair? = none := by
    unfold Val.pair? Val.elems
    match l with
    | [] => rfl
    | [_] => rfl
    | [_, _] => rfl
    | _ :: _ :: _ :: _ => rfl
  have h2 : (l.map Spec.pairVal).all (fun v => v.pair?.isSome) = true := by
    rw [List.all_eq_true]
    intro v hv
    rw [List.mem_map] at hv
    obtain ⟨p, _, rfl⟩ := hv
    rfl
  have h3 : checkHardCoded (.list (l.map Spec.pairVal)) = some fun u p => decide (dictLookup l u = some p) := by
    unfold checkHardCoded
    rw [h1]
    simp only [Val.afterUnpack, Val.elems, h2, if_true, dictItems_pairs]
  refine ⟨{ realm, check := fun u p => .ok (decide (dictLookup l u = some p)), inner },
    by unfold factory; simp only [h3], rfl, rfl, fun u p => ⟨_, rfl, ?_⟩⟩
  rw [decide_eq_true_eq]
  exact dictLookup_iff l u p

/-- **C60.** A tuple of pairs is treated like a list of pairs. -/
theorem C60_tuple (realm : PyStr) (l : List (PyStr × PyStr)) (inner : PyStr → Headers → Except Exc (Option HttpResponse)) :
    factory realm (some (.tuple (l.map Spec.pairVal))) none inner =
      factory realm (some (.list (l.map Spec.pairVal))) none inner := by
  have h : checkHardCoded (.tuple (l.map Spec.pairVal)) = checkHardCoded (.list (l.map Spec.pairVal)) := by
    match l with
    | [] => rfl
    | [_] => rfl
    | [_, _] => rfl
    | _ :: _ :: _ :: _ => rfl
  simp only [factory, h]

/-- **C60.** With an iterator of pairs as `credentials`, the first three pairs are ignored: `is_credentials` has consumed
them. -/
theorem C60_iterator (realm : PyStr) (l : List (PyStr × PyStr)) (inner : PyStr → Headers → Except Exc (Option HttpResponse)) :
    factory realm (some (.iter (l.map Spec.pairVal))) none inner =
      factory realm (some (.list ((l.drop 3).map Spec.pairVal))) none inner := by
  have h : checkHardCoded (.iter (l.map Spec.pairVal)) = checkHardCoded (.list ((l.drop 3).map Spec.pairVal)) := by
    match l with
    | [] => rfl
    | [_] => rfl
    | [_, _] => rfl
    | _ :: _ :: _ :: l =>
      match l with
      | [] => rfl
      | [_] => rfl
      | [_, _] => rfl
      | _ :: _ :: _ :: _ => rfl
  simp only [factory, h]

/-- Example: of an iterator of four pairs, only the last one is accepted. -/
example : (checkHardCoded (.iter ([(p!"a", p!"1"), (p!"b", p!"2"), (p!"c", p!"3"), (p!"d", p!"4")].map Spec.pairVal))).map
    (fun check => (check p!"a" p!"1", check p!"c" p!"3", check p!"d" p!"4")) = some (false, false, true) := by
  decide +kernel

-- A list of two strings isn't refused, but no credentials are accepted.
example : checkHardCoded (.list [.str p!"hello", .str p!"iloveyou"]) =
    some fun u p => Val.eqPair u p (.list [.str p!"hello", .str p!"iloveyou"]) := rfl
example (u p : PyStr) : Val.eqPair u p (.list [.str p!"hello", .str p!"iloveyou"]) = false := rfl
-- Values that aren't credentials are refused.
example : checkHardCoded .other = none ∧ checkHardCoded (.list [.str p!"hello"]) = none := ⟨rfl, rfl⟩

/-- **C60.** Exactly one of `credentials` and `check_credentials` must be provided. -/
theorem C60_arguments (realm : PyStr) (credentials : Option Val) (check : Option (PyStr → PyStr → Except Exc Bool))
    (inner : PyStr → Headers → Except Exc (Option HttpResponse)) :
    (credentials.isSome = check.isSome → factory realm credentials check inner = none) ∧
    ∀ c, factory realm none (some c) inner = some { realm, check := c, inner } := by
  refine ⟨?_, fun c => rfl⟩
  intro h
  cases credentials <;> cases check <;> first | rfl | cases h

end WS.LegacyAuth
