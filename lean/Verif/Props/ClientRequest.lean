import Verif.Props.Agreement
import Verif.Props.HeaderParse
import Verif.Props.UriParse
import Verif.Model.LegacyClient

/-!
# C72: the request says exactly what the client was configured with
-/

namespace WS

open Spec

variable {X : Type}

/-- The value of `Authorization` for the user information of a URI (RFC 7617). -/
def Spec.BasicAuth (userInfo : Option (PyStr × PyStr)) (auth : Option PyStr) : Prop :=
  match userInfo with
  | none => auth = none
  | some (user, password) => 58 ∉ user ∧
      ∃ b, IsUtf8 b (user ++ p!":" ++ password) ∧ auth = some (p!"Basic " ++ base64 b)

/-- The header lines before `User-Agent`. -/
def Spec.mainLines (host key : PyStr) (auth origin eh sub : Option PyStr)
    (extra : List (PyStr × PyStr)) : List (PyStr × PyStr) :=
  [(p!"Host", host)] ++ optHeader p!"Authorization" auth ++
    optHeader p!"Origin" origin ++ [(p!"Upgrade", p!"websocket"), (p!"Connection", p!"Upgrade"),
      (p!"Sec-WebSocket-Key", key), (p!"Sec-WebSocket-Version", p!"13")] ++
    optHeader p!"Sec-WebSocket-Extensions" eh ++ optHeader p!"Sec-WebSocket-Protocol" sub ++ extra

/-- `Headers.ofList` of the lines before `User-Agent`, then `setdefault`. -/
theorem connect_eq (py : PyEnv) (cfg : ClientConfig X) (auth : Option PyStr)
    (ha : ∀ h : Headers, cfg.setAuth h = .ok (match auth with
      | none => h
      | some v => h.set p!"Authorization" v)) :
    cfg.connect py = match (Headers.ofList (mainLines
        (buildHost py cfg.uri.host cfg.uri.port cfg.uri.secure) (base64 cfg.raw) auth cfg.origin
        (cfg.extensions.map fun fs => buildExtension (ClientConfig.offers fs))
        (cfg.subprotocols.map buildSubprotocol) cfg.extraHeaders)).setdefault p!"User-Agent" py.agent with
      | .error e => .error e
      | .ok headers => .ok { path := cfg.uri.resourceName, headers } := by
  have hkey : cfg.key = base64 cfg.raw := b64encode_eq cfg.raw
  unfold ClientConfig.connect
  simp only [ha, hkey]
  congr 2
  unfold mainLines
  rw [Headers.ofList, List.foldl_append, ← Headers.ofList]
  congr 1
  cases auth <;> cases cfg.origin <;> cases cfg.extensions <;> cases cfg.subprotocols <;> rfl

theorem setAuth_iff (cfg : ClientConfig X) :
    (∃ auth, BasicAuth cfg.uri.userInfo auth ∧ ∀ h : Headers, cfg.setAuth h = .ok (match auth with
      | none => h
      | some v => h.set p!"Authorization" v)) ∨
    ((¬ ∃ auth, BasicAuth cfg.uri.userInfo auth) ∧ ∃ e, ∀ h : Headers, cfg.setAuth h = .error e) := by
  unfold ClientConfig.setAuth BasicAuth
  cases cfg.uri.userInfo with
  | none => exact .inl ⟨none, rfl, fun h => rfl⟩
  | some up =>
    obtain ⟨u, p⟩ := up
    simp only [buildAuthorizationBasic]
    by_cases hc : 58 ∈ u
    · refine .inr ⟨fun ⟨_, h, _⟩ => h hc, .assertionError, fun h => ?_⟩
      simp only [if_pos hc]
    · simp only [if_neg hc]
      cases he : utf8Encode (u ++ p!":" ++ p) with
      | ok b =>
        refine .inl ⟨some (p!"Basic " ++ base64 b), ⟨hc, b, utf8Encode_iff_spec.1 he, rfl⟩, fun h => ?_⟩
        simp only
        rw [b64encode_eq]
      | error e =>
        refine .inr ⟨fun ⟨_, _, b, hb, _⟩ => ?_, e, fun h => rfl⟩
        rw [utf8Encode_iff_spec.2 hb] at he
        cases he

theorem basicAuth_unique {u : Option (PyStr × PyStr)} {a b : Option PyStr} (ha : BasicAuth u a)
    (hb : BasicAuth u b) : a = b := by
  unfold BasicAuth at ha hb
  split at ha
  · simp only at hb; rw [ha, hb]
  · simp only at hb
    obtain ⟨_, x, hx, rfl⟩ := ha
    obtain ⟨_, y, hy, rfl⟩ := hb
    rw [← utf8Encode_iff_spec] at hx hy
    rw [hx] at hy
    cases hy
    rfl

/-- **C72.** `connect()` succeeds exactly when the credentials in the URI, if any, can be sent (no
colon in the user name and no lone surrogate) and the additional headers contain at most one
`User-Agent`; then the request is for the resource name of the URI and its header lines are exactly
those of the specification, in this order. -/
theorem C72_request (py : PyEnv) (cfg : ClientConfig X) (req : Request) :
    cfg.connect py = .ok req ↔
      (values cfg.extraHeaders p!"User-Agent").length ≤ 1 ∧
      ∃ auth, BasicAuth cfg.uri.userInfo auth ∧
        req = ⟨cfg.uri.resourceName, Headers.ofList (requestLines
          (buildHost py cfg.uri.host cfg.uri.port cfg.uri.secure) py.agent (base64 cfg.raw) auth
          cfg.origin (cfg.extensions.map fun fs => buildExtension (ClientConfig.offers fs))
          (cfg.subprotocols.map buildSubprotocol) cfg.extraHeaders)⟩ := by
  rcases setAuth_iff cfg with ⟨auth, hb, ha⟩ | ⟨hno, e, he⟩
  · rw [connect_eq py cfg auth ha]
    generalize hm : mainLines _ _ _ _ _ _ _ = main
    have hua : values main p!"User-Agent" = values cfg.extraHeaders p!"User-Agent" := by
      rw [← hm, mainLines]
      simp only [values_append, values_optHeader]
      rfl
    have hlines : requestLines (buildHost py cfg.uri.host cfg.uri.port cfg.uri.secure) py.agent
        (base64 cfg.raw) auth cfg.origin
        (cfg.extensions.map fun fs => buildExtension (ClientConfig.offers fs))
        (cfg.subprotocols.map buildSubprotocol) cfg.extraHeaders =
        withDefault main p!"User-Agent" py.agent := by rw [← hm]; rfl
    have hall : ∀ a, BasicAuth cfg.uri.userInfo a ↔ a = auth :=
      fun a => ⟨fun h => basicAuth_unique h hb, fun h => h ▸ hb⟩
    simp only [hall, exists_eq_left, hlines]
    have hk : (Headers.ofList main).Ok pyLower := (Headers.ofList_ok main).1
    have hl := Headers.list_ofList main
    rw [← hua, withDefault]
    rcases hk.setdefault p!"User-Agent" py.agent with ⟨e, h2⟩ | ⟨⟨v, e⟩, h2⟩ | ⟨e, h2⟩
    · rw [hl] at e
      rw [h2, e, Headers.ofList_snoc]
      simp [eq_comm]
    · rw [hl] at e
      rw [h2, e]
      simp [eq_comm]
    · rw [hl] at e
      rw [h2]
      constructor
      · intro h; cases h
      · intro ⟨h, _⟩; omega
  · constructor
    · intro h
      unfold ClientConfig.connect at h
      simp only [he] at h
      cases h
    · intro ⟨_, auth, ha, _⟩
      exact absurd ⟨auth, ha⟩ hno

/-! ## What the server reads -/

theorem requestLines_auth {host agent key : PyStr} {auth origin eh sub : Option PyStr}
    {extra : List (PyStr × PyStr)} (hx : values extra p!"Authorization" = []) :
    values (requestLines host agent key auth origin eh sub extra) p!"Authorization" =
      auth.toList := by
  unfold requestLines
  rw [values_withDefault (by decide)]
  simp only [values_append, values_optHeader, values_cons, hx]
  rw [if_neg (by decide), if_pos (by decide), if_neg (by decide), if_neg (by decide),
    if_neg (by decide), if_neg (by decide), if_neg (by decide), if_neg (by decide),
    if_neg (by decide)]
  simp [values, valuesOf]

theorem requestLines_origin {host agent key : PyStr} {auth origin eh sub : Option PyStr}
    {extra : List (PyStr × PyStr)} (hx : values extra p!"Origin" = []) :
    values (requestLines host agent key auth origin eh sub extra) p!"Origin" =
      origin.toList := by
  unfold requestLines
  rw [values_withDefault (by decide)]
  simp only [values_append, values_optHeader, values_cons, hx]
  rw [if_neg (by decide), if_neg (by decide), if_pos (by decide), if_neg (by decide),
    if_neg (by decide), if_neg (by decide), if_neg (by decide), if_neg (by decide),
    if_neg (by decide)]
  simp [values, valuesOf]

theorem requestLines_host {host agent key : PyStr} {auth origin eh sub : Option PyStr}
    {extra : List (PyStr × PyStr)} (hx : values extra p!"Host" = []) :
    values (requestLines host agent key auth origin eh sub extra) p!"Host" = [host] := by
  unfold requestLines
  rw [values_withDefault (by decide)]
  simp only [values_append, values_optHeader, values_cons, hx]
  rw [if_pos (by decide), if_neg (by decide), if_neg (by decide), if_neg (by decide),
    if_neg (by decide), if_neg (by decide), if_neg (by decide), if_neg (by decide),
    if_neg (by decide)]
  simp [values, valuesOf]

theorem requestLines_nonce {host agent key : PyStr} {auth origin eh sub : Option PyStr}
    {extra : List (PyStr × PyStr)} (hx : values extra p!"Sec-WebSocket-Key" = []) :
    values (requestLines host agent key auth origin eh sub extra) p!"Sec-WebSocket-Key" = [key] := by
  unfold requestLines
  rw [values_withDefault (by decide)]
  simp only [values_append, values_optHeader, values_cons, hx]
  rw [if_neg (by decide), if_neg (by decide), if_neg (by decide), if_neg (by decide),
    if_neg (by decide), if_pos (by decide), if_neg (by decide), if_neg (by decide),
    if_neg (by decide)]
  simp [values, valuesOf]

theorem utf8Encode_split {s t : PyStr} {b : Bytes} (h : utf8Encode (s ++ t) = .ok b) :
    ∃ a c, utf8Encode s = .ok a ∧ utf8Encode t = .ok c := by
  induction s generalizing b with
  | nil => exact ⟨[], b, rfl, h⟩
  | cons x s ih =>
    rw [List.cons_append, utf8Encode_cons_ok] at h
    obtain ⟨b1, b2, h1, h2, _⟩ := h
    obtain ⟨a, c, ha, hc⟩ := ih h2
    exact ⟨b1 ++ a, c, utf8Encode_cons_ok.2 ⟨b1, a, h1, ha, rfl⟩, hc⟩

/-- The credentials survive. -/
theorem basicAuth_parse {user password : PyStr} {auth : Option PyStr}
    (h : BasicAuth (some (user, password)) auth) :
    ∃ v, auth = some v ∧ parseAuthorizationBasic v = .ok (user, password) := by
  obtain ⟨hc, b, hb, rfl⟩ := h
  have he := utf8Encode_iff_spec.2 hb
  obtain ⟨x, bp, hx, hp⟩ := utf8Encode_split he
  obtain ⟨bu, _, hu, _⟩ := utf8Encode_split hx
  obtain ⟨v, hv, hv2⟩ := C36_credentials user password hc (utf8Encode_iff_spec.1 hu)
    (utf8Encode_iff_spec.1 hp)
  refine ⟨v, ?_, hv2⟩
  unfold buildAuthorizationBasic at hv
  rw [if_neg hc, he] at hv
  cases hv
  rw [b64encode_eq]

/-- What a server learns from a request: the resource, the host, the origin, the credentials, the
subprotocols and the extensions, where `none` means that there is no such header. -/
structure Spec.Learns (req : Request) (path host : PyStr) (origin : Option PyStr)
    (credentials : Option (PyStr × PyStr)) (subprotocols : Option (List PyStr))
    (extensions : Option (List ExtHeader)) (raw : Bytes) : Prop where
  path : req.path = path
  host : values req.headers.rawItems p!"Host" = [host]
  origin : values req.headers.rawItems p!"Origin" = origin.toList
  credentials : match credentials with
    | none => values req.headers.rawItems p!"Authorization" = []
    | some c => ∃ v, values req.headers.rawItems p!"Authorization" = [v] ∧
        parseAuthorizationBasic v = .ok c
  subprotocols : match subprotocols with
    | none => values req.headers.rawItems p!"Sec-WebSocket-Protocol" = []
    | some ps => ∃ v, values req.headers.rawItems p!"Sec-WebSocket-Protocol" = [v] ∧
        parseSubprotocol v = .ok ps
  extensions : match extensions with
    | none => values req.headers.rawItems p!"Sec-WebSocket-Extensions" = []
    | some es => ∃ v, values req.headers.rawItems p!"Sec-WebSocket-Extensions" = [v] ∧
        parseExtension v = .ok es
  key : ∃ v, values req.headers.rawItems p!"Sec-WebSocket-Key" = [v] ∧ b64decode v = .ok raw

/-- The headers that `connect()` sets, other than `User-Agent`. -/
def Spec.requestNames : List PyStr :=
  [p!"Host", p!"Authorization", p!"Origin", p!"Upgrade", p!"Connection", p!"Sec-WebSocket-Key",
    p!"Sec-WebSocket-Version", p!"Sec-WebSocket-Extensions", p!"Sec-WebSocket-Protocol"]

/-- **C72.** When a server reads the request of a client from the network, it learns what the client
was configured with: the resource name and the host of the URI, the origin, the user name and the
password of the URI, the subprotocols, the extensions and the key. -/
theorem C72_read (py : PyEnv) (cfg : ClientConfig X) {req : Request}
    (hconn : cfg.connect py = .ok req)
    (hpath : ∀ c ∈ cfg.uri.resourceName, 0x21 ≤ c ∧ c ≤ 0x7E)
    (hlen : cfg.uri.resourceName.length + 15 ≤ 4110) (hreq : Sendable req.headers.rawItems)
    (hextra : ∀ n ∈ requestNames, values cfg.extraHeaders n = [])
    (hexts : ∀ fs, cfg.extensions = some fs → fs ≠ [] ∧ ∀ f ∈ fs, TokenExt (f.name, f.requestParams))
    (hsubs : ∀ ps, cfg.subprotocols = some ps → ps ≠ [] ∧ ∀ p ∈ ps, Tok p) :
    ∃ bytes, req.serialize = .ok bytes ∧ ∀ rest eof, ∃ req',
      Request.parse.run ⟨bytes ++ rest, eof⟩ = .done req' ⟨rest, eof⟩ ∧
      Learns req' cfg.uri.resourceName (buildHost py cfg.uri.host cfg.uri.port cfg.uri.secure)
        cfg.origin cfg.uri.userInfo cfg.subprotocols
        (cfg.extensions.map fun fs => fs.map fun f => (f.name, f.requestParams)) cfg.raw := by
  obtain ⟨_, auth, ha, rfl⟩ := (C72_request py cfg req).1 hconn
  have hraw : ∀ hs, (Headers.ofList hs).rawItems = hs := Headers.list_ofList
  obtain ⟨bytes, hb, hp⟩ := C26_request_roundtrip_partial cfg.uri.resourceName _ hpath hlen
    (by simpa only [hraw] using hreq.2) (by simpa only [hraw] using hreq.1)
  refine ⟨bytes, hb, fun rest eof => ⟨_, hp rest eof, rfl, ?_, ?_, ?_, ?_, ?_, ?_⟩⟩ <;>
    simp only [hraw]
  · exact requestLines_host (hextra _ (by decide))
  · exact requestLines_origin (hextra _ (by decide))
  · rw [requestLines_auth (hextra _ (by decide))]
    cases hu : cfg.uri.userInfo with
    | none => rw [hu] at ha; simp only [BasicAuth] at ha; rw [ha]; rfl
    | some up =>
      rw [hu] at ha
      obtain ⟨v, rfl, hv⟩ := basicAuth_parse ha
      exact ⟨v, rfl, hv⟩
  · rw [requestLines_sub (hextra _ (by decide))]
    cases hs : cfg.subprotocols with
    | none => rfl
    | some ps => exact ⟨_, rfl, C34_subprotocols ps (hsubs ps hs).1 (hsubs ps hs).2⟩
  · rw [requestLines_ext (hextra _ (by decide))]
    cases hs : cfg.extensions with
    | none => rfl
    | some fs =>
      refine ⟨_, rfl, C34_extensions _ ?_ ?_⟩
      · simpa [ClientConfig.offers] using (hexts fs hs).1
      · intro e he
        simp only [ClientConfig.offers, List.mem_map] at he
        obtain ⟨f, hf, rfl⟩ := he
        exact (hexts fs hs).2 f hf
  · refine ⟨_, requestLines_nonce (hextra _ (by decide)), ?_⟩
    rw [← b64encode_eq]
    exact (C38_round_trip _).1

/-- A client with credentials, an origin, two subprotocols and permessage-deflate. -/
def namedClient : ClientConfig (Pmd storedZlib) where
  uri := { secure := true, host := p!"localhost", port := 8443, resourceName := p!"/chat",
           userInfo := some (p!"Aladdin", p!"open sesame") }
  raw := b!"the sample nonce"
  origin := some p!"https://example.com"
  subprotocols := some [p!"chat", p!"superchat"]
  extensions := some (enableClientPmd () none)
  extraHeaders := [(p!"X-Trace", p!"1")]

-- The hypotheses of `C72_read` hold for this configuration.
example : ∃ req, namedClient.connect PyEnv.simple = .ok req ∧
    (∀ c ∈ namedClient.uri.resourceName, 0x21 ≤ c ∧ c ≤ 0x7E) ∧ Sendable req.headers.rawItems ∧
    (∀ n ∈ requestNames, values namedClient.extraHeaders n = []) ∧
    (∀ fs, namedClient.extensions = some fs → fs ≠ [] ∧ ∀ f ∈ fs, TokenExt (f.name, f.requestParams)) ∧
    (∀ ps, namedClient.subprotocols = some ps → ps ≠ [] ∧ ∀ p ∈ ps, Tok p) ∧
    values req.headers.rawItems p!"Authorization" = [p!"Basic QWxhZGRpbjpvcGVuIHNlc2FtZQ=="] := by
  have hb : (match namedClient.connect PyEnv.simple with
      | .ok req => req.headers.rawItems.all goodHeader && decide (req.headers.rawItems.length ≤ 256) &&
          decide (values req.headers.rawItems p!"Authorization" =
            [p!"Basic QWxhZGRpbjpvcGVuIHNlc2FtZQ=="])
      | .error _ => false) = true := by decide +kernel
  cases hc : namedClient.connect PyEnv.simple with
  | error e => rw [hc] at hb; cases hb
  | ok req =>
    rw [hc] at hb
    simp only [Bool.and_eq_true, decide_eq_true_eq] at hb
    refine ⟨req, rfl, by decide, sendable_of hb.1.2 hb.1.1, by decide +kernel, ?_, ?_, hb.2⟩
    · intro fs hfs
      cases hfs
      refine ⟨by simp [enableClientPmd], fun f hf => ?_⟩
      rw [List.mem_singleton.1 (show f ∈ [_] from hf)]
      exact PmdParams.build_tok _
    · intro ps hps
      cases hps
      refine ⟨by simp, fun p hp => ?_⟩
      have : p ≠ [] ∧ p.all isTokenChar = true := by
        simp only [List.mem_cons, List.not_mem_nil, or_false] at hp
        rcases hp with rfl | rfl <;> decide +kernel
      exact .of_all this

-- Two `User-Agent` headers make `connect()` raise `MultipleValuesError`.
example : ({ namedClient with extraHeaders := [(p!"User-Agent", p!"a"), (p!"user-agent", p!"b")] } :
    ClientConfig (Pmd storedZlib)).connect PyEnv.simple =
      .error .multipleValuesError := by decide +kernel

/-! ## C73: the credentials of the URI -/

/-- **C73, the full statement.** The server learns the user name and the password that the URI stands
for: those of its user information, after percent-decoding (RFC 3986, 2.1 and 3.2.1). -/
def Spec.CredentialsMeant (X : Type) : Prop :=
  ∀ (env : Uri.Env) (py : PyEnv) (cfg : ClientConfig X) (req : Request) (u : Uri.Spec.Parts)
    (secure : Bool) (a b user password : PyStr) (ba bb : Bytes),
    u.Wf secure → u.user = some (a, b) → Uri.Spec.percentDecode a = some ba → IsUtf8 ba user →
    Uri.Spec.percentDecode b = some bb → IsUtf8 bb password → 58 ∉ user →
    Uri.parseUri env u.text = .ok cfg.uri → values cfg.extraHeaders p!"Authorization" = [] →
    cfg.connect py = .ok req →
    ∃ v, values req.headers.rawItems p!"Authorization" = [v] ∧
      parseAuthorizationBasic v = .ok (user, password)

theorem percentDecode_plain {s : PyStr} (h : 37 ∉ s) :
    Uri.Spec.percentDecode s = some (ascii s) := by
  induction s with
  | nil => rfl
  | cons c s ih =>
    simp only [List.mem_cons, not_or] at h
    have hne : c ≠ 37 := fun e => h.1 e.symm
    rw [Uri.Spec.percentDecode.eq_4 _ _ (fun _ _ _ h _ => hne h) (fun h => hne h), ih h.2]
    rfl

theorem decoded_plain {s t : PyStr} {b : Bytes} (h : 37 ∉ s) (ha : ∀ c ∈ s, c < 128)
    (hd : Uri.Spec.percentDecode s = some b) (hu : IsUtf8 b t) : t = s := by
  rw [percentDecode_plain h] at hd
  cases hd
  have h1 := utf8Decode_iff_encode.2 (utf8Encode_asciiBytes ha)
  have h2 := utf8Decode_iff_encode.2 (utf8Encode_iff_spec.2 hu)
  rw [h1] at h2
  cases h2
  rfl

/-- **C73**, the user information has no percent-encoded character: the server learns the user name
and the password that the URI stands for. -/
theorem C73_credentials_partial (env : Uri.Env) (py : PyEnv) (cfg : ClientConfig X) {req : Request}
    {u : Uri.Spec.Parts} {secure : Bool} {a b user password : PyStr} {ba bb : Bytes}
    (hw : u.Wf secure) (hu : u.user = some (a, b)) (ha : Uri.Spec.percentDecode a = some ba)
    (hua : IsUtf8 ba user) (hb : Uri.Spec.percentDecode b = some bb) (hub : IsUtf8 bb password)
    (hp : Uri.parseUri env u.text = .ok cfg.uri)
    (hx : values cfg.extraHeaders p!"Authorization" = []) (hc : cfg.connect py = .ok req)
    (ha37 : 37 ∉ a) (hb37 : 37 ∉ b) :
    ∃ v, values req.headers.rawItems p!"Authorization" = [v] ∧
      parseAuthorizationBasic v = .ok (user, password) := by
  obtain ⟨hca, hcb⟩ := hw.user a b hu
  rw [decoded_plain ha37 (fun c h => by have := hca c h; omega) ha hua,
    decoded_plain hb37 (fun c h => by have := hcb c h; omega) hb hub]
  rw [Uri.C64_parse env u secure hw] at hp
  obtain ⟨_, auth, hauth, rfl⟩ := (C72_request py cfg req).1 hc
  have hui : cfg.uri.userInfo = some (a, b) := by
    rw [← hu]
    injection hp with hp
    rw [← hp]
  rw [hui] at hauth
  obtain ⟨v, rfl, hv⟩ := basicAuth_parse hauth
  refine ⟨v, ?_, hv⟩
  have hraw : ∀ hs, (Headers.ofList hs).rawItems = hs := Headers.list_ofList
  simp only [hraw]
  rw [requestLines_auth hx]
  rfl

/-- The user information of this URI stands for the password `p@x`. -/
def percentUri : Uri.Spec.Parts where
  scheme := p!"ws"
  user := some (p!"u", p!"p%40x")
  host := p!"h"
  path := p!"/"

theorem percentUri_wf : percentUri.Wf false where
  scheme := by decide +kernel
  user := by
    rintro a b h
    cases h
    unfold Uri.Spec.Parts.Clean
    decide +kernel
  host := by
    refine ⟨by decide, ?_, fun h => absurd h (by decide)⟩
    unfold Uri.Spec.Parts.Clean
    decide +kernel
  port := by rintro n h; cases h
  path := by
    unfold Uri.Spec.Parts.Clean
    decide +kernel
  query := by rintro q h; cases h

/-- **C73 is false**: `parse_uri` doesn't decode the user information, so the server receives the
password `p%40x`. -/
theorem C73_credentials_false : ¬ CredentialsMeant Unit := by
  intro h
  let cfg : ClientConfig Unit :=
    { uri := { secure := false, host := p!"h", port := 80, resourceName := p!"/",
               userInfo := some (p!"u", p!"p%40x") }
      raw := b!"the sample nonce" }
  have hb : (match cfg.connect PyEnv.simple with
      | .ok req => decide (values req.headers.rawItems p!"Authorization" =
            [p!"Basic dTpwJTQweA=="])
      | .error _ => false) = true := by decide +kernel
  cases hc : cfg.connect PyEnv.simple with
  | error e => rw [hc] at hb; cases hb
  | ok req =>
    rw [hc] at hb
    obtain ⟨v, hv, hv2⟩ := h Uri.exampleEnv PyEnv.simple cfg req percentUri false p!"u" p!"p%40x" p!"u"
      p!"p@x" b!"u" b!"p@x" percentUri_wf rfl (by decide +kernel)
      (utf8Encode_iff_spec.1 (by decide +kernel)) (by decide +kernel)
      (utf8Encode_iff_spec.1 (by decide +kernel)) (by decide)
      (by rw [Uri.C64_parse _ _ _ percentUri_wf]; rfl) rfl hc
    rw [of_decide_eq_true hb] at hv
    cases hv
    have : parseAuthorizationBasic p!"Basic dTpwJTQweA==" = .ok (p!"u", p!"p%40x") := by decide +kernel
    rw [this] at hv2
    revert hv2
    decide

-- The hypotheses of `C73_credentials_partial` hold for this URI.
example : ({ percentUri with user := some (p!"u", p!"p!x") } : Uri.Spec.Parts).Wf false ∧
    Uri.Spec.percentDecode p!"p!x" = some b!"p!x" ∧
    Uri.parseUri Uri.exampleEnv ({ percentUri with user := some (p!"u", p!"p!x") } : Uri.Spec.Parts).text =
      .ok { secure := false, host := p!"h", port := 80, resourceName := p!"/",
            userInfo := some (p!"u", p!"p!x") } := by
  refine ⟨{ percentUri_wf with user := ?_ }, by decide +kernel, by decide +kernel⟩
  rintro a b h
  cases h
  unfold Uri.Spec.Parts.Clean
  decide +kernel

-- An IRI: the server receives the credentials `%C3%BC` and `%C3%A9`.
example : Uri.parseUri Uri.exampleEnv p!"ws://ü:é@h/" =
    .ok { secure := false, host := p!"h", port := 80, resourceName := p!"/",
          userInfo := some (p!"%C3%BC", p!"%C3%A9") } := by
  decide +kernel

end WS
