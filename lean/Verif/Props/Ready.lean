import Verif.Props.ClientRequest
import Verif.Props.SessionDeflate

/-!
# Configurations whose handshakes can be sent

Theorems about whole connections (C43, C69, C80, C83, C84) assume that the headers of the request and of the
response can be sent.  Here this is deduced from the configurations of the client and of the server.
-/

namespace WS

open Spec

variable {X : Type} {Z : Zlib}

/-! ## Values of headers -/

/-- Printable ASCII characters, without blanks at both ends -/
structure Spec.Neat (s : PyStr) : Prop where
  chars : ∀ c ∈ s, 0x20 ≤ c ∧ c ≤ 0x7E
  first : ∀ c, s.head? = some c → c ≠ 0x20
  last : ∀ c, s.getLast? = some c → c ≠ 0x20

theorem Spec.Neat.solid {s : PyStr} (h : ∀ c ∈ s, 0x21 ≤ c ∧ c ≤ 0x7E) : Neat s where
  chars c hc := by have := h c hc; omega
  first c hc := by have := h c (List.mem_of_mem_head? hc); omega
  last c hc := by have := h c (List.mem_of_getLast? hc); omega

theorem Spec.Neat.join {a sep b : PyStr} (ha : Neat a) (hna : a ≠ []) (hb : Neat b) (hnb : b ≠ [])
    (hs : ∀ c ∈ sep, 0x20 ≤ c ∧ c ≤ 0x7E) : Neat (a ++ sep ++ b) where
  chars c hc := by
    rcases List.mem_append.1 hc with hc | hc
    · rcases List.mem_append.1 hc with hc | hc
      · exact ha.chars c hc
      · exact hs c hc
    · exact hb.chars c hc
  first c hc := by
    cases a with
    | nil => exact absurd rfl hna
    | cons x a => exact ha.first c hc
  last c hc := by
    refine hb.last c ?_
    rw [List.getLast?_append] at hc
    cases hl : b.getLast? with
    | none => exact absurd (List.getLast?_eq_none_iff.1 hl) hnb
    | some d => rw [hl] at hc; exact hc

theorem strJoin_ne {sep : PyStr} {l : List PyStr} (h : ∀ s ∈ l, s ≠ []) (hl : l ≠ []) : strJoin sep l ≠ [] := by
  cases l with
  | nil => exact absurd rfl hl
  | cons x l =>
    have hx := h x (by simp)
    cases l with
    | nil => exact hx
    | cons y l => simp [strJoin, hx]

theorem Spec.Neat.strJoin {sep : PyStr} (hs : ∀ c ∈ sep, 0x20 ≤ c ∧ c ≤ 0x7E) {l : List PyStr}
    (h : ∀ s ∈ l, Neat s ∧ s ≠ []) : Neat (strJoin sep l) := by
  induction l with
  | nil => exact .solid (by simp [WS.strJoin])
  | cons x l ih =>
    have hx := h x (by simp)
    cases l with
    | nil => exact hx.1
    | cons y l =>
      have hi := ih fun s hm => h s (by simp [hm])
      exact hx.1.join hx.2 hi (strJoin_ne (fun s hm => (h s (by simp [hm])).2) (by simp)) hs

theorem tokenChar_solid {c : Nat} (h : TokenChar c) : 0x21 ≤ c ∧ c ≤ 0x7E := by
  rcases h with h | h | h | h
  · have : ∀ c ∈ p!"!#$%&'*+-.^_`|~", 0x21 ≤ c ∧ c ≤ 0x7E := by decide +kernel
    exact this c h
  · omega
  · omega
  · omega

theorem tok_neat {s : PyStr} (h : Tok s) : Neat s ∧ s ≠ [] :=
  ⟨.solid fun c hc => tokenChar_solid (h.2 c hc), h.1⟩

theorem ext_neat {e : ExtHeader} (h : TokenExt e) : Neat (buildExtensionItem e) ∧ buildExtensionItem e ≠ [] := by
  have key : ∀ s ∈ e.1 :: e.2.map (fun p : ExtParam =>
      match p.2 with
      | none => p.1
      | some v => p.1 ++ p!"=" ++ v), Neat s ∧ s ≠ [] := by
    intro s hs
    rcases List.mem_cons.1 hs with rfl | hs
    · exact tok_neat h.1
    · obtain ⟨p, hp, rfl⟩ := List.mem_map.1 hs
      have h1 := tok_neat (h.2 p hp).1
      split
      · exact h1
      · rename_i v hv
        have h2 := tok_neat ((h.2 p hp).2 v hv)
        exact ⟨h1.1.join h1.2 h2.1 h2.2 (by decide), by simp⟩
  unfold buildExtensionItem
  exact ⟨.strJoin (by decide) key, strJoin_ne (fun s hs => (key s hs).2) (by simp)⟩

theorem base64_solid (b : Bytes) : ∀ c ∈ base64 b, 0x21 ≤ c ∧ c ≤ 0x7E := by
  rw [← b64encode_eq]
  obtain ⟨cs, pads, e, h1, h2, _⟩ := b64encode_split b
  rw [e]
  intro c hc
  have low : ∀ c ∈ b64Alphabet, 0x21 ≤ c ∧ c ≤ 0x7E := by decide +kernel
  rcases List.mem_append.1 hc with hc | hc
  · exact low c ((b64Val_isSome_iff c).1 (h1 c hc))
  · rcases h2 with rfl | rfl | rfl <;> simp at hc <;> omega

theorem base64_length (b : Bytes) : (base64 b).length = (b.length + 2) / 3 * 4 := by
  rw [← b64encode_eq, b64encode_length]

/-- The names of headers that the library adds. -/
def ownNames : List PyStr :=
  [p!"Host", p!"Authorization", p!"Origin", p!"Upgrade", p!"Connection", p!"Sec-WebSocket-Key",
    p!"Sec-WebSocket-Version", p!"Sec-WebSocket-Extensions", p!"Sec-WebSocket-Protocol", p!"Sec-WebSocket-Accept"]

theorem Spec.Neat.good {n v : PyStr} (h : Neat v) (hn : n ∈ ownNames) (hl : v.length ≤ 4080) : GoodHeader (n, v) := by
  have h1 : ∀ n ∈ ownNames, n ≠ [] ∧ n.length ≤ 24 ∧ ∀ c ∈ n, isTokenChar c = true := by decide +kernel
  obtain ⟨k1, k2, k3⟩ := h1 n hn
  refine ⟨k1, fun c hc => (isTokenChar_iff c).1 (k3 c hc), fun c hc => .inr (h.chars c hc), ?_, ?_, ?_⟩
  · intro c hc
    have := h.first c hc
    have := h.chars c (List.mem_of_mem_head? hc)
    omega
  · intro c hc
    have := h.last c hc
    have := h.chars c (List.mem_of_getLast? hc)
    omega
  · simp only; omega

/-! ## The client -/

/-- A client with a well-formed URI of a reasonable length, and values that can be sent in headers of a
reasonable length. -/
structure Spec.ReadyClient (py : PyEnv) (cfg : ClientConfig X) (u : Uri.Spec.Parts) : Prop where
  wf : u.Wf cfg.uri.secure
  short : u.text.length ≤ 3000
  uri : ∃ env, Uri.parseUri env u.text = .ok cfg.uri
  key : cfg.raw.length = 16
  agent : GoodHeader (p!"User-Agent", py.agent)
  origin : ∀ o, cfg.origin = some o → GoodHeader (p!"Origin", o)
  extensions : ∀ fs, cfg.extensions = some fs → (∀ f ∈ fs, TokenExt (f.name, f.requestParams)) ∧
    (buildExtension (fs.map fun f => (f.name, f.requestParams))).length ≤ 4000
  subprotocols : ∀ ps, cfg.subprotocols = some ps → (∀ p ∈ ps, Tok p) ∧ (buildSubprotocol ps).length ≤ 4000
  extra : cfg.extraHeaders.length ≤ 240 ∧ ∀ p ∈ cfg.extraHeaders, GoodHeader p
  userAgent : (values cfg.extraHeaders p!"User-Agent").length ≤ 1

theorem pyLower_solid {s : PyStr} (h : ∀ c ∈ s, 0x21 ≤ c ∧ c ≤ 0x7E) : ∀ c ∈ pyLower s, 0x21 ≤ c ∧ c ≤ 0x7E := by
  intro c hc
  obtain ⟨d, hd, rfl⟩ := List.mem_map.1 hc
  have := h d hd
  split <;> omega

theorem pyLower_length (s : PyStr) : (pyLower s).length = s.length := by simp [pyLower]

theorem clean_solid {e s : PyStr} (h : Uri.Spec.Parts.Clean e s) : ∀ c ∈ s, 0x21 ≤ c ∧ c ≤ 0x7E := by
  intro c hc
  obtain ⟨h1, h2, _⟩ := h c hc
  omega

theorem host_neat (py : PyEnv) {host : PyStr} (h : ∀ c ∈ host, 0x21 ≤ c ∧ c ≤ 0x7E) {port : Nat} (hp : port ≤ 65535)
    (secure : Bool) : Neat (buildHost py host port secure) ∧ (buildHost py host port secure).length ≤ host.length + 8 := by
  obtain ⟨_, d, _⟩ := Uri.decStr_spec port
  have dl := decStr_length 4 port (by omega)
  have h1 : ∀ c ∈ (if py.isV6 host then p!"[" ++ host ++ p!"]" else host), 0x21 ≤ c ∧ c ≤ 0x7E := by
    split
    · intro c hc
      simp only [List.mem_append, List.mem_cons, List.not_mem_nil, or_false] at hc
      rcases hc with (hc | hc) | hc
      · omega
      · exact h c hc
      · omega
    · exact h
  have h2 : (if py.isV6 host then p!"[" ++ host ++ p!"]" else host).length ≤ host.length + 2 := by
    split <;> simp
  unfold buildHost
  simp only
  generalize (if py.isV6 host then p!"[" ++ host ++ p!"]" else host) = t at h1 h2
  generalize (if secure then 443 else 80) = d80
  split
  · refine ⟨.solid fun c hc => ?_, ?_⟩
    · simp only [List.mem_append, List.mem_cons, List.not_mem_nil, or_false] at hc
      rcases hc with (hc | hc) | hc
      · exact h1 c hc
      · omega
      · have := d c hc; omega
    · simp only [List.length_append, List.length_cons, List.length_nil]
      omega
  · exact ⟨.solid h1, by omega⟩

theorem withDefault_mem {hs : List (PyStr × PyStr)} {n d : PyStr} {p : PyStr × PyStr} (h : p ∈ withDefault hs n d) :
    p ∈ hs ∨ p = (n, d) := by
  unfold withDefault at h
  split at h
  · rcases List.mem_append.1 h with h | h
    · exact .inl h
    · exact .inr (List.mem_singleton.1 h)
  · exact .inl h

theorem withDefault_length (hs : List (PyStr × PyStr)) (n d : PyStr) : (withDefault hs n d).length ≤ hs.length + 1 := by
  unfold withDefault
  split <;> simp

theorem optHeader_length (n : PyStr) (v : Option PyStr) : (optHeader n v).length ≤ 1 := by
  cases v <;> simp [optHeader]

theorem optHeader_mem {n : PyStr} {v : Option PyStr} {p : PyStr × PyStr} (h : p ∈ optHeader n v) :
    ∃ x, v = some x ∧ p = (n, x) := by
  cases v with
  | none => cases h
  | some x => exact ⟨x, rfl, List.mem_singleton.1 h⟩

/-- **C72.** Such a client makes a request that can be sent. -/
theorem C72_ready {py : PyEnv} {cfg : ClientConfig X} {u : Uri.Spec.Parts} (h : ReadyClient py cfg u) :
    ∃ req, cfg.connect py = .ok req ∧ (∀ c ∈ cfg.uri.resourceName, 0x21 ≤ c ∧ c ≤ 0x7E) ∧
      cfg.uri.resourceName.length + 15 ≤ 4110 ∧ Sendable req.headers.rawItems := by
  obtain ⟨env, hu⟩ := h.uri
  have hp := Uri.C64_parse env u _ h.wf
  rw [hu] at hp
  replace hp := Except.ok.inj hp
  have hshort := h.short
  simp only [Uri.Spec.Parts.text, List.length_append] at hshort
  have hhost : cfg.uri.host = pyLower u.host := by rw [hp]
  have hport : cfg.uri.port = u.port.getD (if cfg.uri.secure then 443 else 80) := by
    have := congrArg (·.port) hp
    exact this
  have hui : cfg.uri.userInfo = u.user := by rw [hp]
  have hname : ∃ t, cfg.uri.resourceName = (if u.path = [] then p!"/" else u.path) ++ t ∧
      (∀ c ∈ t, 0x21 ≤ c ∧ c ≤ 0x7E) ∧ t.length ≤ u.queryText.length := by
    have := congrArg (·.resourceName) hp
    simp only at this
    refine ⟨_, this, ?_, ?_⟩
    · intro c hc
      cases hq : u.query with
      | none => rw [hq] at hc; cases hc
      | some q =>
        rw [hq] at hc
        cases q with
        | nil => cases hc
        | cons x q =>
          rcases List.mem_cons.1 hc with rfl | hc
          · omega
          · exact clean_solid (h.wf.query _ hq) c hc
    · unfold Uri.Spec.Parts.queryText
      cases u.query with
      | none => simp
      | some q => cases q <;> simp
  obtain ⟨t, hname, ht, htl⟩ := hname
  have hport' : cfg.uri.port ≤ 65535 := by
    rw [hport]
    cases hq : u.port with
    | none => simp only [Option.getD_none]; split <;> omega
    | some n => exact (h.wf.port n hq).2
  have hpath : ∀ c ∈ cfg.uri.resourceName, 0x21 ≤ c ∧ c ≤ 0x7E := by
    rw [hname]
    intro c hc
    rcases List.mem_append.1 hc with hc | hc
    · split at hc
      · simp at hc; omega
      · exact clean_solid h.wf.path.1 c hc
    · exact ht c hc
  have hlen : cfg.uri.resourceName.length ≤ 3001 := by
    rw [hname, List.length_append]
    have h1 : (if u.path = [] then p!"/" else u.path).length ≤ u.path.length + 1 := by split <;> simp
    omega
  -- credentials
  have hauth : ∃ auth, BasicAuth cfg.uri.userInfo auth ∧ ∀ v, auth = some v → Neat v ∧ v.length ≤ 4080 := by
    rw [hui]
    cases hx : u.user with
    | none => exact ⟨none, rfl, nofun⟩
    | some ab =>
      obtain ⟨a, b⟩ := ab
      obtain ⟨ha, hb⟩ := h.wf.user a b hx
      have hasc : ∀ c ∈ a ++ p!":" ++ b, c < 128 := by
        intro c hc
        simp only [List.mem_append, List.mem_cons, List.not_mem_nil, or_false] at hc
        rcases hc with (hc | hc) | hc
        · have := ha c hc; omega
        · omega
        · have := hb c hc; omega
      obtain ⟨bs, hbs, hbl⟩ := utf8Encode_ascii_length hasc
      refine ⟨_, ⟨Uri.clean_not_mem ha (.inl (by decide)), bs, utf8Encode_iff_spec.1 hbs, rfl⟩, ?_⟩
      rintro v ⟨⟩
      have hne : base64 bs ≠ [] := by
        intro e
        have := base64_length bs
        rw [e, hbl] at this
        simp at this
        omega
      refine ⟨?_, ?_⟩
      · have := (Neat.solid (s := p!"Basic") (by decide)).join (sep := p!" ") (by decide) (.solid (base64_solid bs)) hne
          (by decide)
        simpa using this
      · have hl : u.userText.length = a.length + b.length + 2 := by
          simp [Uri.Spec.Parts.userText, hx]; omega
        rw [List.length_append, base64_length, hbl]
        simp only [List.length_append, List.length_cons, List.length_nil]
        omega
  obtain ⟨auth, hb, hgood⟩ := hauth
  refine ⟨_, (C72_request py cfg _).2 ⟨h.userAgent, auth, hb, rfl⟩, hpath, by omega, ?_⟩
  have hraw : ∀ hs, (Headers.ofList hs).rawItems = hs := Headers.list_ofList
  rw [hraw]
  constructor
  · unfold requestLines
    refine Nat.le_trans (withDefault_length _ _ _) ?_
    have h1 := optHeader_length p!"Authorization" auth
    have h2 := optHeader_length p!"Origin" cfg.origin
    have h3 := optHeader_length p!"Sec-WebSocket-Extensions"
      (cfg.extensions.map fun fs => buildExtension (ClientConfig.offers fs))
    have h4 := optHeader_length p!"Sec-WebSocket-Protocol" (cfg.subprotocols.map buildSubprotocol)
    have h5 := h.extra.1
    simp only [List.length_append, List.length_cons, List.length_nil]
    omega
  · intro p hp
    rcases withDefault_mem hp with hp | rfl
    · simp only [List.mem_append] at hp
      rcases hp with (((((hp | hp) | hp) | hp) | hp) | hp) | hp
      · rw [List.mem_singleton.1 hp, hhost]
        have := host_neat py (pyLower_solid (clean_solid h.wf.host.2.1)) hport' cfg.uri.secure
        refine this.1.good (by simp [ownNames]) ?_
        have h1 := this.2
        rw [pyLower_length] at h1
        have h2 : u.host.length ≤ u.hostText.length := by
          unfold Uri.Spec.Parts.hostText
          split <;> first | exact Nat.le_refl _ | (simp only [List.length_append]; omega)
        omega
      · obtain ⟨v, hv, rfl⟩ := optHeader_mem hp
        exact (hgood v hv).1.good (by simp [ownNames]) (hgood v hv).2
      · obtain ⟨v, hv, rfl⟩ := optHeader_mem hp
        exact h.origin v hv
      · simp only [List.mem_cons, List.not_mem_nil, or_false] at hp
        rcases hp with rfl | rfl | rfl | rfl
        · exact (Neat.solid (by decide)).good (by simp [ownNames]) (by decide)
        · exact (Neat.solid (by decide)).good (by simp [ownNames]) (by decide)
        · refine (Neat.solid (base64_solid _)).good (by simp [ownNames]) ?_
          rw [base64_length, h.key]
          decide
        · exact (Neat.solid (by decide)).good (by simp [ownNames]) (by decide)
      · obtain ⟨v, hv, rfl⟩ := optHeader_mem hp
        obtain ⟨fs, hfs, rfl⟩ := Option.map_eq_some_iff.1 hv
        obtain ⟨k1, k2⟩ := h.extensions fs hfs
        refine Neat.good (.strJoin (by decide) ?_) (by simp [ownNames]) (Nat.le_trans k2 (by omega))
        intro s hs
        obtain ⟨e, he, rfl⟩ := List.mem_map.1 hs
        obtain ⟨f, hf, rfl⟩ := List.mem_map.1 he
        exact ext_neat (k1 f hf)
      · obtain ⟨v, hv, rfl⟩ := optHeader_mem hp
        obtain ⟨ps, hps, rfl⟩ := Option.map_eq_some_iff.1 hv
        obtain ⟨k1, k2⟩ := h.subprotocols ps hps
        exact Neat.good (.strJoin (by decide) fun s hs => tok_neat (k1 s hs)) (by simp [ownNames])
          (Nat.le_trans k2 (by omega))
      · exact h.extra.2 p hp
    · exact h.agent

/-! ## The request is a valid handshake -/

theorem requestLines_fixed {host agent key : PyStr} {auth origin eh sub : Option PyStr}
    {extra : List (PyStr × PyStr)} (hx : ∀ n ∈ requestNames, values extra n = []) :
    let hs := requestLines host agent key auth origin eh sub extra
    values hs p!"Upgrade" = [p!"websocket"] ∧ values hs p!"Connection" = [p!"Upgrade"] ∧
      values hs p!"Sec-WebSocket-Version" = [p!"13"] := by
  refine ⟨?_, ?_, ?_⟩
  · unfold requestLines
    rw [values_withDefault (by decide)]
    simp only [values_append, values_optHeader, values_cons, hx p!"Upgrade" (by decide)]
    rw [if_neg (by decide), if_neg (by decide), if_neg (by decide), if_pos (by decide), if_neg (by decide), if_neg (by decide), if_neg (by decide), if_neg (by decide), if_neg (by decide)]
    simp [values, valuesOf]
  · unfold requestLines
    rw [values_withDefault (by decide)]
    simp only [values_append, values_optHeader, values_cons, hx p!"Connection" (by decide)]
    rw [if_neg (by decide), if_neg (by decide), if_neg (by decide), if_neg (by decide), if_pos (by decide), if_neg (by decide), if_neg (by decide), if_neg (by decide), if_neg (by decide)]
    simp [values, valuesOf]
  · unfold requestLines
    rw [values_withDefault (by decide)]
    simp only [values_append, values_optHeader, values_cons, hx p!"Sec-WebSocket-Version" (by decide)]
    rw [if_neg (by decide), if_neg (by decide), if_neg (by decide), if_neg (by decide), if_neg (by decide), if_neg (by decide), if_pos (by decide), if_neg (by decide), if_neg (by decide)]
    simp [values, valuesOf]

theorem base64_key {raw : Bytes} (h : raw.length = 16) : ValidKey (base64 raw) := by
  rw [← validKey_iff]
  rw [← b64encode_eq]
  exact ⟨raw, (C38_round_trip raw).2, h⟩

/-- **C72.** The request of a client is a valid handshake, for every server that allows its origin. -/
theorem C72_valid {py : PyEnv} {cfg : ClientConfig X} {req : Request} (h : cfg.connect py = .ok req)
    (hkey : cfg.raw.length = 16) (hx : ∀ n ∈ requestNames, values cfg.extraHeaders n = [])
    {origins : Option (List (Option PyStr))} (ho : ∀ os, origins = some os → cfg.origin ∈ os) :
    ValidRequest origins req.headers.list (base64 cfg.raw) cfg.origin := by
  obtain ⟨_, _, auth, hl⟩ := connect_lines h
  rw [hl]
  obtain ⟨h1, h2, h3⟩ := requestLines_fixed (host := buildHost py cfg.uri.host cfg.uri.port cfg.uri.secure)
    (agent := py.agent) (key := base64 cfg.raw) (auth := auth) (origin := cfg.origin)
    (eh := cfg.extensions.map fun fs => buildExtension (ClientConfig.offers fs))
    (sub := cfg.subprotocols.map buildSubprotocol) hx
  refine ⟨⟨[p!"Upgrade"], ?_, p!"Upgrade", by simp, by decide⟩, ⟨p!"websocket", ?_, by decide⟩,
    ⟨requestLines_nonce (hx _ (by decide)), base64_key hkey⟩, h3, requestLines_origin (hx _ (by decide)), ho⟩
  · rw [h2]
    exact AllLists.cons (l := [p!"Upgrade"])
      ((parseList_iff recognizes_token p!"Upgrade" p!"Connection" [p!"Upgrade"]).1 (by decide +kernel)) .nil
  · rw [h1]
    exact AllLists.cons (l := [p!"websocket"])
      ((parseList_iff recognizes_protocol p!"websocket" p!"Upgrade" [p!"websocket"]).1 (by decide +kernel)) .nil

/-! ## permessage-deflate -/

/-- The window of the encoder of a client. -/
def Spec.clientWindow (client : Option WBits) (server : Option Nat) : Nat :=
  match client with
  | none => 15
  | some .any => server.getD 15
  | some (.val m) => min m (server.getD 15)

theorem negotiate_windows {cc : PmdClientConfig Z} {sc : PmdServerConfig Z} (hc : cc.params.Valid)
    (hs : (∀ n, sc.serverBits = some n → 8 ≤ n ∧ n ≤ 15) ∧
      ∀ n, sc.clientBits = some n → 8 ≤ n ∧ n ≤ 15) {r : PmdParams} (h : sc.negotiate cc.params = .ok r) :
    orDefault r.serverBits = min (cc.params.serverBits.getD 15) (sc.serverBits.getD 15) ∧
    orDefault (r.clientBits.map WBits.toNat) = Spec.clientWindow cc.params.clientBits sc.clientBits := by
  rw [serverNegotiate_eq] at h
  obtain ⟨⟨a, b, c, d⟩, st⟩ := cc
  obtain ⟨a', b', c', d', st'⟩ := sc
  obtain ⟨hc1, hc2⟩ := hc
  obtain ⟨hs1, hs2⟩ := hs
  simp only at hc1 hc2 hs1 hs2 h ⊢
  cases hw : WS.clientWindow d' d with
  | error e => rw [hw] at h; cases h
  | ok w =>
    rw [hw] at h
    cases h
    simp only
    constructor
    · rcases c' with _ | c' <;> rcases c with _ | c <;> (try have := hc1 _ rfl) <;> (try have := hs1 _ rfl) <;>
        simp only [minBits, orDefault, Option.getD_none, Option.getD_some] <;> first
        | omega
        | (rw [if_neg (by omega)] <;> omega)
    · rcases d' with _ | d' <;> rcases d with _ | _ | d <;> simp only [WS.clientWindow] at hw <;>
        cases hw <;> (try have := hc2 _ rfl) <;> (try have := hs2 _ rfl) <;>
        simp only [orDefault, Option.map_none, Option.map_some, WBits.toNat, Spec.clientWindow, Option.getD_none,
          Option.getD_some] <;> first
        | omega
        | (rw [if_neg (by omega)] <;> omega)

/-- **C47.** The window of the server is the smallest one that both sides ask for.  So is the window of the
client, if it supports the parameter. -/
theorem C47_windows (cc : PmdClientConfig Z) (sc : PmdServerConfig Z) (hc : cc.valid = true) (hs : sc.valid = true)
    (others : List PyStr) {answer : List ExtParam} {sx : Pmd Z}
    (h : sc.processRequestParams cc.params.build others = .ok (answer, sx)) :
    sx.localBits = min (cc.params.serverBits.getD 15) (sc.serverBits.getD 15) ∧
    sx.remoteBits = Spec.clientWindow cc.params.clientBits sc.clientBits := by
  rw [PmdClientConfig.valid_iff] at hc
  rw [PmdServerConfig.valid_iff] at hs
  unfold PmdServerConfig.processRequestParams at h
  split at h
  · cases h
  · rw [extract_build hc true (fun _ => rfl)] at h
    simp only at h
    split at h
    · cases h
    · rename_i r hr
      split at h
      · cases h
      · rename_i x hx
        cases h
        obtain ⟨-, -, -, -, k5, k6, -⟩ := Pmd.new_inv hx
        obtain ⟨h1, h2⟩ := negotiate_windows hc hs hr
        rw [k5, k6]
        exact ⟨h1, h2⟩

example : (match ({ serverBits := some 10, clientBits := some 9, settings := () } :
    PmdServerConfig storedZlib).processRequestParams
      ({ serverBits := some 12, clientBits := some .any } : PmdParams).build [] with
    | .ok (_, sx) => (sx.localBits, sx.remoteBits)
    | .error _ => (0, 0)) = (10, 9) := by decide +kernel

/-- `zlib` supports every window except the smallest one, and no side asks for the smallest one. -/
structure Spec.Windows (pc : PmdClientConfig Z) (ps : PmdServerConfig Z) : Prop where
  client : ∀ w, 9 ≤ w → w ≤ 15 → ∃ e, Z.compressobj w pc.settings = .ok e
  server : ∀ w, 9 ≤ w → w ≤ 15 → ∃ e, Z.compressobj w ps.settings = .ok e
  client9 : pc.params.serverBits ≠ some 8 ∧ pc.params.clientBits ≠ some (.val 8)
  server9 : ps.serverBits ≠ some 8 ∧ ps.clientBits ≠ some 8

/-- Then the server doesn't fail. -/
theorem pmd_request {pc : PmdClientConfig Z} {ps : PmdServerConfig Z} (hc : pc.valid = true) (hs : ps.valid = true)
    (hw : Windows pc ps) :
    (ps.clientBits ≠ none ∧ pc.params.clientBits = none ∧
      ∃ m, ps.processRequestParams pc.params.build [] = .error (.negotiationError m)) ∨
    ¬ (ps.clientBits ≠ none ∧ pc.params.clientBits = none) ∧
    ∃ answer sx, ps.processRequestParams pc.params.build [] = .ok (answer, sx) ∧
      (∃ e, Z.compressobj sx.remoteBits pc.settings = .ok e) ∧
      ∃ e, Z.compressobj sx.localBits ps.settings = .ok e := by
  have hw' := fun answer sx => C47_windows pc ps hc hs [] (answer := answer) (sx := sx)
  rw [PmdClientConfig.valid_iff] at hc
  rw [PmdServerConfig.valid_iff] at hs
  have win : ∀ r, ps.negotiate pc.params = .ok r →
      (9 ≤ orDefault r.serverBits ∧ orDefault r.serverBits ≤ 15) ∧
      (9 ≤ orDefault (r.clientBits.map WBits.toNat) ∧ orDefault (r.clientBits.map WBits.toNat) ≤ 15) := by
    intro r hr
    obtain ⟨h1, h2⟩ := negotiate_windows hc hs hr
    obtain ⟨c1, c2⟩ := hw.client9
    obtain ⟨s1, s2⟩ := hw.server9
    obtain ⟨hc1, hc2⟩ := hc
    obtain ⟨hs1, hs2⟩ := hs
    rw [h1, h2]
    constructor
    · cases ha : pc.params.serverBits <;> cases hb : ps.serverBits <;> simp only [Option.getD_none, Option.getD_some] <;>
        (try have := hc1 _ ha) <;> (try have := hs1 _ hb) <;> (try rw [ha] at c1) <;> (try rw [hb] at s1) <;>
        simp only [ne_eq, Option.some.injEq] at * <;> omega
    · rcases ha : pc.params.clientBits with _ | _ | n <;> cases hb : ps.clientBits <;>
        simp only [Spec.clientWindow, Option.getD_none, Option.getD_some] <;>
        (try have := hc2 _ ha) <;> (try have := hs2 _ hb) <;> (try rw [ha] at c2) <;> (try rw [hb] at s2) <;>
        simp only [ne_eq, Option.some.injEq, WBits.val.injEq] at * <;> omega
  cases hr : ps.negotiate pc.params with
  | error e =>
    left
    have : ps.clientBits ≠ none ∧ pc.params.clientBits = none ∧ ∃ m, e = .negotiationError m := by
      rw [serverNegotiate_eq] at hr
      cases hx : WS.clientWindow ps.clientBits pc.params.clientBits with
      | ok w => rw [hx] at hr; cases hr
      | error e' =>
        rw [hx] at hr
        cases hr
        unfold WS.clientWindow at hx
        split at hx <;> cases hx
        rename_i h1 h2
        exact ⟨by rw [h1]; simp, h2, _, rfl⟩
    obtain ⟨h1, h2, m, rfl⟩ := this
    refine ⟨h1, h2, m, ?_⟩
    unfold PmdServerConfig.processRequestParams
    rw [if_neg (by simp), extract_build hc true (fun _ => rfl)]
    simp only [hr]
  | ok r =>
    right
    obtain ⟨⟨a1, a2⟩, b1, b2⟩ := win r hr
    obtain ⟨e, he⟩ := hw.server _ a1 a2
    obtain ⟨e', he'⟩ := hw.client _ b1 b2
    have : ∃ x, Pmd.new r.clientNct r.serverNct (orDefault (r.clientBits.map WBits.toNat))
        (orDefault r.serverBits) ps.settings = .ok x := by
      rw [Pmd.new_ok ⟨by omega, b2⟩ ⟨by omega, a2⟩]
      cases r.serverNct with
      | true => exact ⟨_, rfl⟩
      | false => rw [he]; exact ⟨_, rfl⟩
    obtain ⟨x, hx⟩ := this
    refine ⟨?_, r.build, x, ?_, ?_⟩
    · rintro ⟨h1, h2⟩
      rw [serverNegotiate_eq, h2] at hr
      cases hb : ps.clientBits with
      | none => exact h1 hb
      | some n => rw [hb] at hr; cases hr
    · unfold PmdServerConfig.processRequestParams
      rw [if_neg (by simp), extract_build hc true (fun _ => rfl)]
      simp only [hr, hx]
    · obtain ⟨-, -, -, -, k5, k6, -⟩ := Pmd.new_inv hx
      rw [k5, k6]
      exact ⟨⟨_, he'⟩, _, he⟩

/-- The answer of a server is short. -/
theorem pmd_answer {ps : PmdServerConfig Z} {params answer : List ExtParam} {others : List PyStr} {x : Pmd Z}
    (h : ps.processRequestParams params others = .ok (answer, x)) :
    TokenExt (pmdName, answer) ∧ (buildExtensionItem (pmdName, answer)).length ≤ 200 := by
  unfold PmdServerConfig.processRequestParams at h
  split at h
  · cases h
  split at h
  · cases h
  split at h
  · cases h
  rename_i r _
  split at h
  · cases h
  rename_i x hx
  cases h
  refine ⟨PmdParams.build_tok _, ?_⟩
  obtain ⟨h1, h2, -⟩ := Pmd.new_inv hx
  have hd : ∀ n, n ≤ 15 → (decStr n).length ≤ 2 := fun n hn => decStr_length 1 n (by omega)
  obtain ⟨a, b, c, d⟩ := r
  simp only at h1 h2
  have hc : ∀ n, c = some n → (decStr n).length ≤ 2 := by
    rintro n rfl
    refine hd n ?_
    simp only [orDefault] at h2
    split at h2 <;> omega
  have hd' : ∀ n, d = some (.val n) → (decStr n).length ≤ 2 := by
    rintro n rfl
    refine hd n ?_
    simp only [orDefault, Option.map_some, WBits.toNat] at h1
    split at h1 <;> omega
  simp only [PmdParams.build, buildExtensionItem]
  cases a <;> cases b <;> rcases c with _ | n <;> rcases d with _ | _ | m <;>
    (try have := hc _ rfl) <;> (try have := hd' _ rfl) <;> simp only <;> (repeat' split) <;>
    simp [strJoin, pmdName] <;> omega

/-! ## The server -/

/-- A server with values that can be sent in headers of a reasonable length, which doesn't override the
headers of the handshake. -/
structure Spec.ReadyServer (py : PyEnv) (date : PyStr) (cfg : ServerConfig X) : Prop where
  date : GoodHeader (p!"Date", date)
  agent : GoodHeader (p!"Server", py.agent)
  extra : ∀ path h, ∃ extra, cfg.extraHeaders path h = .ok extra ∧ extra.length ≤ 240 ∧
    (∀ p ∈ extra, GoodHeader p) ∧ (values extra p!"Date").length ≤ 1 ∧ (values extra p!"Server").length ≤ 1 ∧
    ∀ n ∈ handshakeNames, values extra n = []

/-- What a server answers to an offer of permessage-deflate, or to no offer. -/
theorem ready_extensions {cc : ClientConfig (Pmd Z)} {sc : ServerConfig (Pmd Z)} {h : Headers} (hk : h.Ok pyLower)
    (hv : values h.list p!"Sec-WebSocket-Extensions" =
      (cc.extensions.map fun fs => buildExtension (ClientConfig.offers fs)).toList)
    {pc : PmdClientConfig Z} {ps : PmdServerConfig Z}
    (hcext : cc.extensions = none ∨ cc.extensions = some [pc.factory])
    (hsext : sc.extensions = none ∨ sc.extensions = some [ps.factory])
    (hpc : pc.valid = true) (hps : ps.valid = true) (hw : Windows pc ps) :
    ∃ eh exts, sc.processExtensions h = .ok (eh, exts) ∧ (∀ v, eh = some v → Neat v ∧ v.length ≤ 4000) ∧
      (exts ≠ [] ↔ cc.extensions ≠ none ∧ sc.extensions ≠ none ∧
        (ps.clientBits ≠ none → pc.params.clientBits ≠ none)) := by
  unfold ServerConfig.processExtensions
  rw [hk.all, hv]
  rcases hcext with e | e <;> rw [e]
  · exact ⟨none, [], rfl, nofun, by simp⟩
  · rcases hsext with e' | e' <;> rw [e']
    · exact ⟨none, [], rfl, nofun, by simp⟩
    · have hp : parseExtension (buildExtension (ClientConfig.offers [pc.factory])) =
          .ok [(pmdName, pc.params.build)] :=
        C34_extensions _ (by simp [ClientConfig.offers]) (by
          intro e he
          rw [List.mem_singleton.1 he]
          exact PmdParams.build_tok _)
      have hf : ∀ acc, ps.factory.processRequestParams pc.params.build acc =
          ps.processRequestParams pc.params.build (acc.map (pmdOps Z).name) := fun _ => rfl
      have hn : ps.factory.name = pmdName := rfl
      simp only [Option.map_some, Option.toList_some, Option.getD_some, parseAll, hp, List.append_nil, matchOffers,
        matchOffer, hn, ne_eq, not_true_eq_false, if_false, hf, List.map_nil, List.nil_append]
      rw [if_pos (by simp)]
      rcases pmd_request hpc hps hw with ⟨w1, w2, m, hm⟩ | ⟨w, answer, x, hx, _⟩
      · simp only [hm]
        exact ⟨none, [], rfl, nofun, by simp [w1, w2]⟩
      · simp only [hx]
        refine ⟨_, _, rfl, ?_, by simpa using fun h1 h2 => w ⟨h1, h2⟩⟩
        rintro v ⟨⟩
        obtain ⟨h1, h2⟩ := pmd_answer hx
        exact ⟨(ext_neat h1).1, Nat.le_trans h2 (by omega)⟩

theorem strJoin_le {sep p : PyStr} {l : List PyStr} (h : p ∈ l) : p.length ≤ (strJoin sep l).length := by
  induction l with
  | nil => cases h
  | cons x l ih =>
    cases l with
    | nil => rw [List.mem_singleton.1 h]; exact Nat.le_refl _
    | cons y l =>
      simp only [strJoin, List.length_append]
      rcases List.mem_cons.1 h with rfl | h
      · omega
      · have := ih h; omega

theorem ready_subprotocol {py : PyEnv} {cc : ClientConfig X} {sc : ServerConfig X} {h : Headers} (hk : h.Ok pyLower)
    (hv : values h.list p!"Sec-WebSocket-Protocol" = (cc.subprotocols.map buildSubprotocol).toList)
    (hs : ∀ ps, cc.subprotocols = some ps → ps ≠ [] ∧ (∀ p ∈ ps, Tok p) ∧ (buildSubprotocol ps).length ≤ 4000) :
    ∃ sub, sc.processSubprotocol py h = .ok sub ∧ ∀ v, sub = some v → Neat v ∧ v.length ≤ 4000 := by
  have hex : ∃ sub, sc.processSubprotocol py h = .ok sub := by
    unfold ServerConfig.processSubprotocol
    rw [hk.all, hv]
    cases hc : cc.subprotocols with
    | none => exact ⟨none, rfl⟩
    | some ps =>
      obtain ⟨h1, h2, h3⟩ := hs ps hc
      simp only [Option.map_some, Option.toList_some, parseAll, C34_subprotocols ps h1 h2]
      split <;> exact ⟨_, rfl⟩
  obtain ⟨sub, hsub⟩ := hex
  refine ⟨sub, hsub, ?_⟩
  rintro v rfl
  rcases processSubprotocol_ok hk hsub with ⟨_, h⟩ | ⟨offers, g1, g2⟩
  · cases h
  · obtain ⟨ht, ps, hps, hm⟩ := agreed_sub hv (fun l hl => (hs l hl).2.1) g1 g2 v rfl
    exact ⟨(tok_neat ht).1, Nat.le_trans (strJoin_le hm) (hs ps hps).2.2⟩

/-- A server accepts a valid request, if it can negotiate extensions and a subprotocol; its response can be
sent. -/
theorem ready_accept {py : PyEnv} {date : PyStr} {sc : ServerConfig X} {req : Request} (hk : req.headers.Ok pyLower)
    (hs : ReadyServer py date sc) {key : PyStr} {origin : Option PyStr}
    (hv : ValidRequest sc.origins req.headers.list key origin) {eh sub : Option PyStr} {exts : List X}
    (he : sc.processExtensions req.headers = .ok (eh, exts)) (heh : ∀ v, eh = some v → Neat v ∧ v.length ≤ 4000)
    (hp : sc.processSubprotocol py req.headers = .ok sub) (hsub : ∀ v, sub = some v → Neat v ∧ v.length ≤ 4000) :
    ∃ r, sc.accept py date req =
        (.ok r, { origin := some origin, exts := some exts, subprotocol := some sub }) ∧
      r.statusCode = 101 ∧ Sendable r.headers.rawItems := by
  have hverdict : ∀ s, Verdict sc.origins false false req.headers.list s → s = 101 := fun s h =>
    h.unique (.accepted hv (by simp) (by simp))
  have hbad : ∀ e : Exc, e.status ≠ 101 := by
    intro e
    unfold Exc.status
    split
    · omega
    · omega
    · split <;> omega
  have hcheck : checkRequest req.headers = .ok key := by
    rcases checkRequest_spec hk with ⟨key', h1, _, _, h4, _⟩ | ⟨_, key', h1, h2⟩ | ⟨e, _, _, _, h4⟩
    · have := h4.1.symm.trans hv.key.1
      cases this
      exact h1
    · exfalso
      have := h1.symm.trans hv.key.1
      cases this
      exact h2 fun c hc => .inl (by have := hv.key.2.ascii c hc; omega)
    · exact absurd (hverdict _ (h4 _ _ _)) (hbad e)
  have horigin : sc.processOrigin req.headers = .ok origin := by
    rcases processOrigin_spec sc hk with ⟨o, h1, h2⟩ | ⟨e, _, _, _, h | h⟩
    · have := h2.1.symm.trans hv.origin.1
      cases o <;> cases origin <;> first
        | exact h1
        | (simp at this; done)
        | (simp at this; rw [this] at h1; exact h1)
    · exfalso
      have := h.2
      rw [hv.origin.1] at this
      cases origin <;> simp at this
    · exact absurd hv.origin (h.2.2 _)
  have hproc : sc.processRequest py req =
      (.ok (key, eh, sub), { origin := some origin, exts := some exts, subprotocol := some sub }) := by
    unfold ServerConfig.processRequest
    simp only [hcheck, horigin, he, hp]
  obtain ⟨extra, hx, x1, x2, x3, x4, x5⟩ := hs.extra req.path req.headers
  obtain ⟨r, hr⟩ := acceptResponse_of (py := py) (date := date) (eh := eh) (sub := sub) hv.key.2.ascii
    (⟨extra, hx, x3, x4⟩ : ExtraOk sc req)
  obtain ⟨extra', hx', h101, _, _, _, _, hl⟩ := acceptResponse_ok hv.key.2.ascii hr
  rw [hx] at hx'
  cases hx'
  refine ⟨r, ?_, h101, ?_⟩
  · unfold ServerConfig.accept
    simp only [hproc, hr]
  · show Sendable r.headers.list
    rw [hl]
    constructor
    · have h1 := withDefault_length (withDefault (upgraded key eh sub extra) p!"Date" date) p!"Server" py.agent
      have h2 := withDefault_length (upgraded key eh sub extra) p!"Date" date
      have h3 : (upgraded key eh sub extra).length ≤ 245 := by
        have h1 := optHeader_length p!"Sec-WebSocket-Extensions" eh
        have h2 := optHeader_length p!"Sec-WebSocket-Protocol" sub
        simp only [upgraded, List.length_append, List.length_cons, List.length_nil]
        omega
      omega
    · intro p hp
      rcases withDefault_mem hp with hp | rfl
      · rcases withDefault_mem hp with hp | rfl
        · simp only [upgraded, List.mem_append] at hp
          rcases hp with ((hp | hp) | hp) | hp
          · simp only [List.mem_cons, List.not_mem_nil, or_false] at hp
            rcases hp with rfl | rfl | rfl
            · exact (Neat.solid (by decide)).good (by simp [ownNames]) (by decide)
            · exact (Neat.solid (by decide)).good (by simp [ownNames]) (by decide)
            · refine (Neat.solid (base64_solid _)).good (by simp [ownNames]) ?_
              rw [base64_length, Sha1.digest_length]
              decide
          · obtain ⟨v, hv, rfl⟩ := optHeader_mem hp
            exact (heh v hv).1.good (by simp [ownNames]) (Nat.le_trans (heh v hv).2 (by omega))
          · obtain ⟨v, hv, rfl⟩ := optHeader_mem hp
            exact (hsub v hv).1.good (by simp [ownNames]) (Nat.le_trans (hsub v hv).2 (by omega))
          · exact x2 p hp
        · exact hs.date
      · exact hs.agent

/-! ## The connection -/

theorem Spec.AllPairs.length {R : X → X → Prop} {xs ys : List X} (h : AllPairs R xs ys) :
    xs.length = ys.length := by
  induction h with
  | nil => rfl
  | cons _ _ ih => simp [ih]

/-- The client and the server are ready, the server allows the origin of the client, each of them may support
permessage-deflate, and headers added by the application don't override those of the handshake. -/
structure Spec.ReadyPair (cpy spy : PyEnv) (cc : ClientConfig (Pmd Z)) (sc : ServerConfig (Pmd Z))
    (u : Uri.Spec.Parts) (date : PyStr) (pc : PmdClientConfig Z) (ps : PmdServerConfig Z) : Prop where
  client : ReadyClient cpy cc u
  server : ReadyServer spy date sc
  extra : ∀ n ∈ requestNames, values cc.extraHeaders n = []
  subprotocols : cc.subprotocols ≠ some []
  origin : ∀ os, sc.origins = some os → cc.origin ∈ os
  clientValid : pc.valid = true
  serverValid : ps.valid = true
  windows : Windows pc ps
  clientExt : cc.extensions = none ∨ cc.extensions = some [pc.factory]
  serverExt : sc.extensions = none ∨ sc.extensions = some [ps.factory]

/-- The request and the response of such a pair. -/
theorem Spec.ReadyPair.handshake {cpy spy : PyEnv} {cc : ClientConfig (Pmd Z)} {sc : ServerConfig (Pmd Z)}
    {u : Uri.Spec.Parts} {date : PyStr} {pc : PmdClientConfig Z} {ps : PmdServerConfig Z}
    (h : ReadyPair cpy spy cc sc u date pc ps) :
    ∃ req r a exts sub, cc.connect cpy = .ok req ∧ (∀ c ∈ cc.uri.resourceName, 0x21 ≤ c ∧ c ≤ 0x7E) ∧
      cc.uri.resourceName.length + 15 ≤ 4110 ∧ Sendable req.headers.rawItems ∧
      sc.accept spy date req = (.ok r, a) ∧ a.exts = some exts ∧ a.subprotocol = some sub ∧ r.statusCode = 101 ∧
      Sendable r.headers.rawItems ∧
      (exts ≠ [] ↔ cc.extensions ≠ none ∧ sc.extensions ≠ none ∧
        (ps.clientBits ≠ none → pc.params.clientBits ≠ none)) ∧
      (∀ extra, sc.extraHeaders req.path req.headers = .ok extra → ∀ n ∈ handshakeNames, values extra n = []) := by
  obtain ⟨req, h1, h2, h3, h4⟩ := C72_ready h.client
  obtain ⟨_, hb, auth, hl⟩ := connect_lines h1
  have hv := C72_valid h1 h.client.key h.extra h.origin
  obtain ⟨eh, exts, he, heh, hon⟩ := ready_extensions (sc := sc) hb.ok
    (by rw [hl]; exact requestLines_ext (h.extra _ (by decide))) h.clientExt h.serverExt h.clientValid h.serverValid
    h.windows
  obtain ⟨sub, hp, hsub⟩ := ready_subprotocol (py := spy) (sc := sc) hb.ok
    (by rw [hl]; exact requestLines_sub (h.extra _ (by decide))) (fun ps hps =>
      ⟨fun e => h.subprotocols (by rw [hps, e]), h.client.subprotocols ps hps⟩)
  obtain ⟨r, hr, h101, hsend⟩ := ready_accept hb.ok h.server hv he heh hp hsub
  refine ⟨req, r, _, exts, sub, h1, h2, h3, h4, hr, rfl, rfl, h101, hsend, hon, ?_⟩
  intro extra hx
  obtain ⟨extra', hx', _, _, _, _, k⟩ := h.server.extra req.path req.headers
  rw [hx] at hx'
  cases hx'
  exact k

/-- **C43** and **C69**, from the configurations only.  A client and a server that are ready always connect: the
client makes a request; the server, which receives it in any pieces, answers with status code 101; the client
receives the response in any pieces.  Then both are in the `OPEN` state, with the same subprotocol.  They use
permessage-deflate if both support it, unless the server requires a parameter that the client doesn't support.
Then both sides make any calls that aren't part of the handshake, in any order, with messages of at most `size`
bytes, and each side receives the beginning of what the other side has written, in any pieces, and maybe at the same
time.  Each side delivers what the other side sends. -/
theorem C69_configured {cpy spy : PyEnv} {cc : ClientConfig (Pmd Z)} {sc : ServerConfig (Pmd Z)}
    {u : Uri.Spec.Parts} {date : PyStr} {pc : PmdClientConfig Z} {ps : PmdServerConfig Z}
    (h : ReadyPair cpy spy cc sc u date pc ps) {size : Nat} (h125 : 125 ≤ size) (h64 : size < 2 ^ 64)
    (K : Contract Z) (hK : Faithful K size) (hB : Bounded Z)
    (crand srand : Nat → Bytes) (hcr : ∀ i, (crand i).length = 4)
    (hsr : ∀ i, (srand i).length = 4) (cmax smax : Option Int) :
    let cenv := cc.env (pmdOps Z) crand hcr
    let senv := sc.env spy (pmdOps Z) srand hsr
    ∃ req, cc.connect cpy = .ok req ∧
    let c1 := ((clientInit cmax cc.origin).apply cenv (.handshake (.sendRequest req))).2
    ∀ chunks, chunks.flatten = c1.core.writes.flatten →
    let s1 := ((serverInit smax).feedAll senv chunks).2
    s1.core.events = [.handshake req] ∧
    ∃ r a, sc.accept spy date req = (.ok r, a) ∧ r.statusCode = 101 ∧
    let s2 := (s1.apply senv (.handshake (.accept date req))).2
    let s3 := (s2.apply senv (.handshake (.sendResponse r))).2
    s3.core.state = .opened ∧
    (s3.core.exts ≠ [] ↔ cc.extensions ≠ none ∧ sc.extensions ≠ none ∧
      (ps.clientBits ≠ none → pc.params.clientBits ≠ none)) ∧
    ∀ chunks', chunks'.flatten = s3.core.writes.flatten →
    let c2 := (c1.feedAll cenv chunks').2
    c2.core.state = .opened ∧ c2.core.events = [.handshake r] ∧ c2.core.subprotocol = s3.core.subprotocol ∧
    c2.core.exts.length = s3.core.exts.length ∧
    ∀ opsc opss, (∀ op ∈ opsc, op.isHandshake = false ∧ dataSize op ≤ size) →
      (∀ op ∈ opss, op.isHandshake = false ∧ dataSize op ≤ size) →
      (∀ more, c2.core.writes.flatten ++ received opss ++ more = (c2.output cenv opsc).flatten →
        Delivers cenv senv c2 s3 opsc opss more) ∧
      (∀ more, s3.core.writes.flatten ++ received opsc ++ more = (s3.output senv opss).flatten →
        Delivers senv cenv s3 c2 opss opsc more) := by
  intro cenv senv
  obtain ⟨req, r, a, exts, sub, h1, h2, h3, h4, hr, hae, has, h101, hsend, hon, hsx⟩ := h.handshake
  have hz : ∀ answer sx, ps.processRequestParams pc.params.build [] = .ok (answer, sx) →
      (∃ e, Z.compressobj sx.remoteBits pc.settings = .ok e) ∧ ∃ e, Z.compressobj sx.localBits ps.settings = .ok e := by
    intro answer sx hx
    rcases pmd_request h.clientValid h.serverValid h.windows with ⟨_, _, m, hm⟩ | ⟨_, answer', sx', hx', k⟩
    · rw [hm] at hx; cases hx
    · rw [hx] at hx'
      cases hx'
      exact k
  have hct : ∀ ps, cc.subprotocols = some ps → ∀ p ∈ ps, Tok p := fun ps hps => (h.client.subprotocols ps hps).1
  have hce : ∀ fs, cc.extensions = some fs → ∀ f ∈ fs, TokenExt (f.name, f.requestParams) :=
    fun fs hfs => (h.client.extensions fs hfs).1
  have hcompat : Compatible Mirrored (cc.extensions.getD []) (sc.extensions.getD []) := by
    have hl := C43_deflate pc ps h.clientValid h.serverValid fun answer sx hx => .inr (hz answer sx hx).1
    rcases h.clientExt with e | e <;> rcases h.serverExt with e' | e' <;> rw [e, e']
    · exact fun f hf => nomatch hf
    · exact fun f hf => nomatch hf
    · rintro f hf cacc sacc hp answer y ⟨pre, g, post, e, _⟩
      cases pre <;> cases e
    · exact hl
  refine ⟨req, h1, ?_⟩
  intro c1 chunks hch s1
  obtain ⟨hev, hst, hres⟩ := C43_agreement_partial (ops := pmdOps Z) h1 h2 h3 h4 (h.extra _ (by decide))
    (h.extra _ (by decide)) hce hct hcompat hsx crand srand hcr hsr cmax smax chunks hch
  refine ⟨hev, r, a, hr, h101, ?_⟩
  intro s2 s3
  rcases hres date r a hr with ⟨h, _⟩ | ⟨_, hso, hres⟩
  · exact absurd h101 h
  have hs3 : s3.core.exts = exts := by
    simp only [s3, s2, Conn.apply, senv, ServerConfig.env, Core.sendResponse]
    rw [hr, if_pos h101]
    cases r.serialize <;> simp [Assigned.store, hae]
  refine ⟨hso, by rw [hs3]; exact hon, ?_⟩
  intro chunks' hch' c2
  obtain ⟨hco, hcev, hcsub, hpairs, _⟩ := hres hsend chunks' hch'
  refine ⟨hco, hcev, hcsub, hpairs.length, ?_⟩
  exact C69_deflate h125 h64 K hK hB pc ps h.clientValid h.serverValid hz h.clientExt h.serverExt h1 h2 h3 h4
    (h.extra _ (by decide)) (h.extra _ (by decide)) hct hsx crand srand hcr hsr cmax smax chunks hch date r a hr h101
    hsend chunks' hch'

/-! ## Example -/

def readyUri : Uri.Spec.Parts where
  scheme := p!"WSS"
  user := some (p!"Aladdin", p!"sesame")
  host := p!"LocalHost"
  port := some 8443
  path := p!"/chat"
  query := some p!"lang=en"

/-- A client with credentials, an origin, two subprotocols and permessage-deflate. -/
def readyClient : ClientConfig (Pmd storedZlib) where
  uri := { secure := true, host := p!"localhost", port := 8443, resourceName := p!"/chat?lang=en",
           userInfo := some (p!"Aladdin", p!"sesame") }
  raw := b!"the sample nonce"
  origin := some p!"https://example.com"
  subprotocols := some [p!"chat", p!"superchat"]
  extensions := some (enableClientPmd () none)
  extraHeaders := [(p!"X-Trace", p!"1")]

def readyServer : ServerConfig (Pmd storedZlib) where
  origins := some [some p!"https://example.com"]
  extensions := some (enableServerPmd () none)
  subprotocols := some [p!"superchat"]
  extraHeaders _ _ := .ok [(p!"X-Served-By", p!"a")]

example : ReadyPair PyEnv.simple PyEnv.simple readyClient readyServer readyUri p!"Thu, 01 Jan 1970 00:00:00 GMT"
    { params := { clientBits := some .any }, settings := () } { settings := () } where
  client := {
    wf := {
      scheme := rfl
      user := by
        intro a b h
        cases h
        unfold Uri.Spec.Parts.Clean
        decide +kernel
      host := by
        refine ⟨by decide, ?_, fun h => absurd h (by decide)⟩
        unfold Uri.Spec.Parts.Clean
        decide +kernel
      port := by intro n h; cases h; decide
      path := by
        unfold Uri.Spec.Parts.Clean
        decide +kernel
      query := by
        intro q h
        cases h
        unfold Uri.Spec.Parts.Clean
        decide +kernel }
    short := by decide +kernel
    uri := ⟨{ lower := id, nfkcOk := fun _ => true, idna := fun _ => none }, by decide +kernel⟩
    key := rfl
    agent := goodHeader_sound (by decide +kernel)
    origin := by rintro o ⟨⟩; exact goodHeader_sound (by decide +kernel)
    extensions := by
      rintro fs ⟨⟩
      refine ⟨fun f hf => ?_, by decide +kernel⟩
      rw [List.mem_singleton.1 (show f ∈ [_] from hf)]
      exact PmdParams.build_tok _
    subprotocols := by
      rintro fs ⟨⟩
      refine ⟨fun p hp => ?_, by decide +kernel⟩
      have : p ≠ [] ∧ p.all isTokenChar = true := by
        simp only [List.mem_cons, List.not_mem_nil, or_false] at hp
        rcases hp with rfl | rfl <;> decide +kernel
      exact .of_all this
    extra := ⟨by decide, fun p hp => by
      rw [List.mem_singleton.1 hp]
      exact goodHeader_sound (by decide +kernel)⟩
    userAgent := by decide +kernel }
  server := {
    date := goodHeader_sound (by decide +kernel)
    agent := goodHeader_sound (by decide +kernel)
    extra := fun _ _ => ⟨_, rfl, by decide, fun p hp => by
      rw [List.mem_singleton.1 hp]
      exact goodHeader_sound (by decide +kernel), by decide +kernel, by decide +kernel, by decide +kernel⟩ }
  extra := by decide +kernel
  subprotocols := by decide
  origin := by rintro os ⟨⟩; decide
  clientValid := rfl
  serverValid := rfl
  windows := {
    client := fun w h1 h2 => ⟨(), if_pos ⟨h1, h2⟩⟩
    server := fun w h1 h2 => ⟨(), if_pos ⟨h1, h2⟩⟩
    client9 := by decide
    server9 := by decide }
  clientExt := .inr rfl
  serverExt := .inr rfl

end WS
