import Verif.Lemmas.Handshake

/-!
# Lemmas about the server side of the opening handshake
-/

namespace WS

open Spec

/-- The headers of a handshake request that a server examines. -/
def Spec.examined : List PyStr :=
  [p!"Connection", p!"Upgrade", p!"Sec-WebSocket-Key", p!"Sec-WebSocket-Version", p!"Origin",
    p!"Sec-WebSocket-Extensions", p!"Sec-WebSocket-Protocol"]

/-- The values of these headers can be encoded. -/
def Spec.EncodableRequest (hs : List (PyStr × PyStr)) : Prop :=
  ∀ n ∈ examined, ∀ v ∈ values hs n, Encodable v

/-- The status code of the response for an exception. -/
def Exc.status (e : Exc) : Int :=
  match e with
  | .invalidOrigin _ => 403
  | .invalidUpgrade .. => 426
  | _ => if e.isInvalidHandshake then 400 else 500

/-- The message of the exception can be encoded if the request can. -/
def MsgOk (hs : List (PyStr × PyStr)) (e : Exc) : Prop := EncodableRequest hs → Encodable e.str

theorem msgOk_format {hs : List (PyStr × PyStr)} {name error v : PyStr} {pos : Nat}
    (hn : ∀ c ∈ name, c < 128) (he : ∀ c ∈ error, c < 128) (hm : name ∈ examined)
    (hv : v ∈ values hs name) : MsgOk hs (.invalidHeaderFormat name error v pos) := by
  intro h
  refine encodable_headerMessage (encodable_ascii hn) ?_
  rintro _ ⟨⟩
  exact (((encodable_ascii he).append (encodable_ascii (by decide))).append
    (encodable_ascii (decStr_ascii pos))).append (encodable_ascii (by decide)) |>.append
    (h name hm v hv)

theorem encodable_joined {l : List PyStr} (h : ∀ x ∈ l, Encodable x) :
    ∀ v, joined l = some v → Encodable v := by
  intro v hv
  unfold joined at hv
  split at hv
  · cases hv
  · cases hv
    exact encodable_strJoin (encodable_ascii (by decide)) h

theorem encodable_tokItems {vs ts : List PyStr} (h : AllLists TokItem vs ts) :
    ∀ x ∈ ts, Encodable x := by
  intro x hx
  obtain ⟨y, rfl, ht⟩ := h.items x hx
  exact encodable_ascii ht.ascii

theorem encodable_protocolItems {vs ts : List PyStr} (h : AllLists ProtocolItem vs ts) :
    ∀ x ∈ ts, Encodable x := by
  intro x hx
  obtain ⟨y, rfl, ht⟩ := h.items x hx
  rcases ht with ht | ⟨n, v, h1, h2, rfl⟩
  · exact encodable_ascii ht.ascii
  · exact ((encodable_ascii h1.ascii).append (encodable_ascii (by decide))).append
      (encodable_ascii h2.ascii)

theorem Headers.Ok.all {h : Headers} (hk : h.Ok pyLower) (n : PyStr) :
    h.getAll n = values h.list n := (hk.lookup n).1

theorem Headers.Ok.one {h : Headers} (hk : h.Ok pyLower) (n : PyStr) :
    h.get n = (match values h.list n with
      | [] => .error .keyError
      | [v] => .ok v
      | _ => .error .multipleValuesError) := (hk.lookup n).2.2

/-- The checks of `Connection` and `Upgrade`. -/
theorem checkUpgrade_spec {h : Headers} (hk : h.Ok pyLower) :
    (checkUpgrade h = .ok () ∧ HasUpgrade h.list ∧ UpgradeIsWebsocket h.list) ∨
    (∃ e, checkUpgrade h = .error e ∧ e.isInvalidHandshake = true ∧ MsgOk h.list e ∧
      (∀ origins ext sub, Verdict origins ext sub h.list e.status) ∧
      ¬ (HasUpgrade h.list ∧ UpgradeIsWebsocket h.list)) := by
  unfold checkUpgrade
  rw [hk.all, hk.all]
  rcases parseAll_spec C33_connection (values h.list p!"Connection") with
    ⟨ts, h1, h2, _⟩ | ⟨hn, v, hv, er, pos, he, ha⟩
  · simp only [h1]
    have hu : (ts.any fun v => pyLower v == p!"upgrade") = true ↔ HasUpgrade h.list := by
      simp only [List.any_eq_true, beq_iff_eq]
      constructor
      · rintro ⟨t, ht, e⟩; exact ⟨ts, h2, t, ht, e⟩
      · rintro ⟨ts', h', t, ht, e⟩
        rw [h'.unique C33_connection h2] at ht
        exact ⟨t, ht, e⟩
    by_cases hup : HasUpgrade h.list
    · rw [hu.2 hup]
      simp only [Bool.not_true, Bool.false_eq_true, if_false]
      rcases parseAll_spec C33_upgrade (values h.list p!"Upgrade") with
        ⟨us, h3, h4, _⟩ | ⟨hn, v, hv, er, pos, he, ha⟩
      · simp only [h3]
        by_cases hw : UpgradeIsWebsocket h.list
        · obtain ⟨u, h5, h6⟩ := id hw
          rw [h4.unique C33_upgrade h5]
          simp only
          rw [pyLower_eq, if_pos h6]
          exact .inl ⟨rfl, hup, hw⟩
        · refine .inr ⟨.invalidUpgrade p!"Upgrade" (joined us), ?_, rfl, ?_, ?_, fun c => hw c.2⟩
          · split
            · rename_i u _
              rw [if_neg]
              intro e
              exact hw ⟨u, h4, e⟩
            · rfl
          · intro _
            exact encodable_headerMessage (encodable_ascii (by decide))
              (encodable_joined (encodable_protocolItems h4))
          · intro origins ext sub
            exact .notWebsocket hup ⟨us, h4⟩ hw
      · simp only [he]
        refine .inr ⟨_, rfl, rfl, msgOk_format (by decide) ha (by decide) hv, ?_, ?_⟩
        · intro origins ext sub
          exact .badUpgrade hup fun ⟨as, h⟩ => hn as h
        · rintro ⟨_, u, hw, _⟩
          exact hn _ hw
    · rw [show (ts.any fun v => pyLower v == p!"upgrade") = false from by
        rw [Bool.eq_false_iff]; exact fun e => hup (hu.1 e)]
      simp only [Bool.not_false, if_true]
      refine .inr ⟨_, rfl, rfl, ?_, fun _ _ _ => .notUpgrade ⟨ts, h2⟩ hup, fun c => hup c.1⟩
      intro _
      exact encodable_headerMessage (encodable_ascii (by decide))
        (encodable_joined (encodable_tokItems h2))
  · simp only [he]
    refine .inr ⟨_, rfl, rfl, msgOk_format (by decide) ha (by decide) hv,
      fun _ _ _ => .badConnection fun ⟨as, h⟩ => hn as h, ?_⟩
    rintro ⟨⟨ts, h, _⟩, _⟩
    exact hn _ h

/-- A header that must be present once. -/
theorem singleHeader_spec {h : Headers} (hk : h.Ok pyLower) (n : PyStr) :
    (∃ v, values h.list n = [v] ∧ singleHeader h n = .ok v) ∨
    ((∀ v, values h.list n ≠ [v]) ∧
      ∃ m, singleHeader h n = .error (.invalidHeader n m) ∧
        (Encodable n → ∀ s, m = some s → Encodable s)) := by
  unfold singleHeader
  rw [hk.one]
  match values h.list n with
  | [] => exact .inr ⟨by simp, none, rfl, by simp⟩
  | [v] => exact .inl ⟨v, rfl, rfl⟩
  | a :: b :: l =>
    refine .inr ⟨by simp, _, rfl, ?_⟩
    rintro hn _ ⟨⟩
    exact ((encodable_ascii (by decide)).append hn).append (encodable_ascii (by decide))

theorem key_spec {key : PyStr} {b : Bytes} (h : utf8Encode key = .ok b) :
    (ValidKey key → ∃ raw, b64decodeValid (b.map UInt8.toNat) = .ok raw ∧ raw.length = 16) ∧
    (∀ raw, b64decodeValid (b.map UInt8.toNat) = .ok raw → raw.length = 16 → ValidKey key) := by
  constructor
  · intro hv
    have : b.map UInt8.toNat = key := by
      rw [utf8Encode_ascii hv.ascii] at h
      cases h
      rw [List.map_map]
      conv => rhs; rw [← List.map_id key]
      apply List.map_congr_left
      intro c hc
      have := hv.ascii c hc
      simp only [Function.comp, id]
      exact u8_ofNat_toNat (by omega)
    rw [this]
    exact (validKey_iff key).2 hv
  · intro raw hr hl
    have hv : ValidKey (b.map UInt8.toNat) := (validKey_iff _).1 ⟨raw, hr, hl⟩
    have := utf8Encode_low h fun x hx => hv.ascii _ (List.mem_map_of_mem hx)
    rw [← this]
    exact hv

/-- The checks of a request, except those of the origin, the extensions and the subprotocols. -/
theorem checkRequest_spec {h : Headers} (hk : h.Ok pyLower) :
    (∃ key, checkRequest h = .ok key ∧ HasUpgrade h.list ∧ UpgradeIsWebsocket h.list ∧
      KeyIs h.list key ∧ VersionOk h.list) ∨
    (checkRequest h = .error .unicodeEncodeError ∧
      ∃ key, values h.list p!"Sec-WebSocket-Key" = [key] ∧ ¬ Encodable key) ∨
    (∃ e, checkRequest h = .error e ∧ e.isInvalidHandshake = true ∧ MsgOk h.list e ∧
      (∀ origins ext sub, Verdict origins ext sub h.list e.status)) := by
  unfold checkRequest
  rcases checkUpgrade_spec hk with ⟨h1, hu, hw⟩ | ⟨e, h1, h2, h3, h4, _⟩
  · simp only [h1]
    rcases singleHeader_spec hk p!"Sec-WebSocket-Key" with ⟨key, hkv, hkey⟩ | ⟨hkn, m, hkey, hm⟩
    · simp only [hkey]
      cases hb : utf8Encode key with
      | error e =>
        have hne : ¬ Encodable key := by
          intro he
          obtain ⟨b, hb'⟩ := utf8Encode_encodable he
          rw [hb] at hb'
          cases hb'
        have he : e = .unicodeEncodeError := by
          clear hne hkv hkey
          induction key generalizing e with
          | nil => cases hb
          | cons c s ih =>
            unfold utf8Encode at hb
            split at hb
            · cases hb; rfl
            · split at hb
              · rename_i e' he'
                cases hb
                exact ih _ he'
              · cases hb
        exact .inr (.inl ⟨by rw [he], key, hkv, hne⟩)
      | ok b =>
        simp only
        obtain ⟨k1, k2⟩ := key_spec hb
        have bad : ¬ ValidKey key → (∀ origins ext sub, Verdict origins ext sub h.list 400) := by
          intro hnv origins ext sub
          refine .badKey hu hw fun key' hk' => hnv ?_
          obtain ⟨hk1, hk2⟩ := hk'
          rw [hkv] at hk1
          have : key = key' := by simpa using hk1
          exact this ▸ hk2
        have msg : MsgOk h.list (.invalidHeaderValue p!"Sec-WebSocket-Key" key) := by
          intro he
          refine encodable_headerMessage (encodable_ascii (by decide)) ?_
          rintro _ ⟨⟩
          exact he p!"Sec-WebSocket-Key" (by decide) key (by rw [hkv]; simp)
        cases hd : b64decodeValid (b.map UInt8.toNat) with
        | error e =>
          rw [b64decodeValid_error hd]
          simp only
          refine .inr (.inr ⟨_, rfl, rfl, msg, bad fun hv => ?_⟩)
          obtain ⟨raw, hr, _⟩ := k1 hv
          rw [hd] at hr
          cases hr
        | ok raw =>
          simp only
          by_cases hl : raw.length = 16
          · have hv := k2 raw hd hl
            rw [if_neg (by simpa using hl)]
            rcases singleHeader_spec hk p!"Sec-WebSocket-Version" with ⟨v, hvv, hver⟩ | ⟨hvn, m, hver, hm⟩
            · simp only [hver]
              by_cases h13 : v = p!"13"
              · rw [if_neg (by simpa using h13)]
                exact .inl ⟨key, rfl, hu, hw, ⟨hkv, hv⟩, by rw [VersionOk, hvv, h13]⟩
              · rw [if_pos (by simpa using h13)]
                refine .inr (.inr ⟨_, rfl, rfl, ?_, fun _ _ _ => .badVersion hu hw ⟨hkv, hv⟩ ?_⟩)
                · intro he
                  refine encodable_headerMessage (encodable_ascii (by decide)) ?_
                  rintro _ ⟨⟩
                  exact he p!"Sec-WebSocket-Version" (by decide) v (by rw [hvv]; simp)
                · rw [VersionOk, hvv]
                  simpa using h13
            · simp only [hver]
              refine .inr (.inr ⟨_, rfl, rfl, ?_,
                fun _ _ _ => .badVersion hu hw ⟨hkv, hv⟩ (hvn _)⟩)
              intro _
              exact encodable_headerMessage (encodable_ascii (by decide))
                (hm (encodable_ascii (by decide)))
          · rw [if_pos (by simpa using hl)]
            refine .inr (.inr ⟨_, rfl, rfl, msg, bad fun hv => ?_⟩)
            obtain ⟨raw', hr, hl'⟩ := k1 hv
            rw [hd] at hr
            cases hr
            exact hl hl'
    · simp only [hkey]
      refine .inr (.inr ⟨_, rfl, rfl, ?_, fun _ _ _ => .badKey hu hw fun key hk' => hkn _ hk'.1⟩)
      intro _
      exact encodable_headerMessage (encodable_ascii (by decide)) (hm (encodable_ascii (by decide)))
  · simp only [h1]
    exact .inr (.inr ⟨e, rfl, h2, h3, h4⟩)

variable {X : Type}

theorem processOrigin_spec (cfg : ServerConfig X) {h : Headers} (hk : h.Ok pyLower) :
    (∃ o, cfg.processOrigin h = .ok o ∧ OriginIs cfg.origins h.list o) ∨
    (∃ e, cfg.processOrigin h = .error e ∧ e.isInvalidHandshake = true ∧ MsgOk h.list e ∧
      ((e.status = 400 ∧ 2 ≤ (values h.list p!"Origin").length) ∨
       (e.status = 403 ∧ (values h.list p!"Origin").length ≤ 1 ∧
        ∀ o, ¬ OriginIs cfg.origins h.list o))) := by
  have hone : ∀ origin : Option PyStr, values h.list p!"Origin" = origin.toList →
      h.get? p!"Origin" = .ok origin →
      (∃ o, cfg.processOrigin h = .ok o ∧ OriginIs cfg.origins h.list o) ∨
      (∃ e, cfg.processOrigin h = .error e ∧ e.isInvalidHandshake = true ∧ MsgOk h.list e ∧
        ((e.status = 400 ∧ 2 ≤ (values h.list p!"Origin").length) ∨
         (e.status = 403 ∧ (values h.list p!"Origin").length ≤ 1 ∧
          ∀ o, ¬ OriginIs cfg.origins h.list o))) := by
    intro origin hv hg
    unfold ServerConfig.processOrigin
    rw [hg]
    simp only
    cases ho : cfg.origins with
    | none => exact .inl ⟨origin, rfl, hv, by simp⟩
    | some os =>
      simp only
      by_cases hm : origin ∈ os
      · rw [if_pos hm]
        exact .inl ⟨origin, rfl, hv, by rintro _ ⟨⟩; exact hm⟩
      · rw [if_neg hm]
        refine .inr ⟨_, rfl, rfl, ?_, .inr ⟨rfl, ?_, ?_⟩⟩
        · intro he
          refine encodable_headerMessage (encodable_ascii (by decide)) ?_
          rintro v rfl
          exact he p!"Origin" (by decide) v (by rw [hv]; simp)
        · rw [hv]; cases origin <;> simp
        · rintro o ⟨h1, h2⟩
          rw [hv] at h1
          have : origin = o := by cases origin <;> cases o <;> simp_all
          exact hm (this ▸ h2 os rfl)
  have hg := hk.one p!"Origin"
  match hv : values h.list p!"Origin" with
  | [] =>
    rw [hv] at hg
    rw [← hv]
    exact hone none hv (by unfold Headers.get?; rw [hg])
  | [v] =>
    rw [hv] at hg
    rw [← hv]
    exact hone (some v) hv (by unfold Headers.get?; rw [hg])
  | a :: b :: l =>
    rw [hv] at hg
    have : h.get? p!"Origin" = .error .multipleValuesError := by unfold Headers.get?; rw [hg]
    unfold ServerConfig.processOrigin
    rw [this]
    refine .inr ⟨_, rfl, rfl, ?_, .inl ⟨rfl, by simp⟩⟩
    intro _
    exact encodable_headerMessage (name := p!"Origin")
      (value := some p!"more than one Origin header found") (encodable_ascii (by decide))
      (by rintro _ ⟨⟩; exact encodable_ascii (by decide))

/-- The exceptions raised by factories. -/
def FactoryErr (fs : List (ServerFactory X)) (e : Exc) : Prop :=
  (∀ m, e ≠ .negotiationError m) ∧
    ∃ f ∈ fs, ∃ ps acc, f.processRequestParams ps acc = .error e

theorem FactoryErr.mono {fs gs : List (ServerFactory X)} {e : Exc} (h : FactoryErr fs e)
    (hs : ∀ f ∈ fs, f ∈ gs) : FactoryErr gs e := by
  obtain ⟨h0, f, hf, h⟩ := h
  exact ⟨h0, f, hs f hf, h⟩

theorem matchOffer_error {name : PyStr} {params : List ExtParam} {acc : List X}
    {fs : List (ServerFactory X)} {e : Exc} (h : matchOffer name params acc fs = .error e) :
    FactoryErr fs e := by
  induction fs with
  | nil => cases h
  | cons f fs ih =>
    unfold matchOffer at h
    split at h
    · exact (ih h).mono (by intro g hg; simp [hg])
    · split at h
      · exact (ih h).mono (by intro g hg; simp [hg])
      · rename_i e' hne he
        cases h
        exact ⟨fun m hm => hne m hm, f, by simp, _, _, he⟩
      · cases h

theorem matchOffers_error {fs : List (ServerFactory X)} {offers : List ExtHeader}
    {exts : List ExtHeader} {acc : List X} {e : Exc}
    (h : matchOffers fs exts acc offers = .error e) : FactoryErr fs e := by
  induction offers generalizing exts acc with
  | nil => cases h
  | cons o offers ih =>
    obtain ⟨name, params⟩ := o
    unfold matchOffers at h
    split at h
    · rename_i e' he
      cases h
      exact matchOffer_error he
    · exact ih h
    · exact ih h

/-- The server has extensions. -/
def ServerConfig.hasExt (cfg : ServerConfig X) : Bool := !(cfg.extensions.getD []).isEmpty

/-- The server has subprotocols. -/
def ServerConfig.hasSub (cfg : ServerConfig X) : Bool := !(cfg.subprotocols.getD []).isEmpty

theorem processExtensions_spec (cfg : ServerConfig X) {h : Headers} (hk : h.Ok pyLower) :
    (∃ r, cfg.processExtensions h = .ok r ∧
      (cfg.hasExt = true → WellFormed ExtItem h.list p!"Sec-WebSocket-Extensions")) ∨
    (∃ e, cfg.processExtensions h = .error e ∧ FactoryErr (cfg.extensions.getD []) e) ∨
    (∃ e, cfg.processExtensions h = .error e ∧ e.isInvalidHandshake = true ∧ MsgOk h.list e ∧
      e.status = 400 ∧ cfg.hasExt = true ∧
      ¬ WellFormed ExtItem h.list p!"Sec-WebSocket-Extensions") := by
  unfold ServerConfig.processExtensions
  rw [hk.all]
  simp only
  by_cases hne : values h.list p!"Sec-WebSocket-Extensions" = []
  · rw [if_neg (by simp [hne])]
    exact .inl ⟨_, rfl, fun _ => ⟨[], by rw [hne]; exact .nil⟩⟩
  · by_cases hx : cfg.hasExt = true
    · rw [if_pos ⟨hne, by simpa [ServerConfig.hasExt] using hx⟩]
      rcases parseAll_spec C33_extension (values h.list p!"Sec-WebSocket-Extensions") with
        ⟨as, h1, h2, _⟩ | ⟨hn, v, hv, er, pos, he, ha⟩
      · simp only [h1]
        cases hm : matchOffers (cfg.extensions.getD []) [] [] as with
        | error e => exact .inr (.inl ⟨e, rfl, matchOffers_error hm⟩)
        | ok r => exact .inl ⟨_, rfl, fun _ => ⟨as, h2⟩⟩
      · simp only [he]
        exact .inr (.inr ⟨_, rfl, rfl, msgOk_format (by decide) ha (by decide) hv, rfl, hx,
          fun ⟨as, h⟩ => hn as h⟩)
    · rw [if_neg (by simpa [ServerConfig.hasExt] using fun _ => hx)]
      exact .inl ⟨_, rfl, fun h => absurd h hx⟩

theorem processSubprotocol_spec (py : PyEnv) (cfg : ServerConfig X) {h : Headers}
    (hk : h.Ok pyLower) :
    (∃ r, cfg.processSubprotocol py h = .ok r ∧
      (cfg.hasSub = true → WellFormed TokItem h.list p!"Sec-WebSocket-Protocol")) ∨
    (∃ e, cfg.processSubprotocol py h = .error e ∧ e.isInvalidHandshake = true ∧ MsgOk h.list e ∧
      e.status = 400 ∧ cfg.hasSub = true ∧
      ¬ WellFormed TokItem h.list p!"Sec-WebSocket-Protocol") := by
  unfold ServerConfig.processSubprotocol
  rw [hk.all]
  simp only
  by_cases hne : values h.list p!"Sec-WebSocket-Protocol" = []
  · rw [if_neg (by simp [hne])]
    exact .inl ⟨_, rfl, fun _ => ⟨[], by rw [hne]; exact .nil⟩⟩
  · by_cases hx : cfg.hasSub = true
    · rw [if_pos ⟨hne, by simpa [ServerConfig.hasSub] using hx⟩]
      rcases parseAll_spec C33_subprotocol (values h.list p!"Sec-WebSocket-Protocol") with
        ⟨as, h1, h2, _⟩ | ⟨hn, v, hv, er, pos, he, ha⟩
      · simp only [h1]
        exact .inl ⟨_, rfl, fun _ => ⟨as, h2⟩⟩
      · simp only [he]
        exact .inr ⟨_, rfl, rfl, msgOk_format (by decide) ha (by decide) hv, rfl, hx,
          fun ⟨as, h⟩ => hn as h⟩
    · rw [if_neg (by simpa [ServerConfig.hasSub] using fun _ => hx)]
      exact .inl ⟨_, rfl, fun h => absurd h hx⟩

/-- What `process_request` does. -/
theorem processRequest_spec (py : PyEnv) (cfg : ServerConfig X) {req : Request}
    (hk : req.headers.Ok pyLower) :
    (∃ key eh sub a origin, cfg.processRequest py req = (.ok (key, eh, sub), a) ∧
      a.origin = some origin ∧ ValidRequest cfg.origins req.headers.list key origin ∧
      Verdict cfg.origins cfg.hasExt cfg.hasSub req.headers.list 101) ∨
    (∃ a, cfg.processRequest py req = (.error .unicodeEncodeError, a) ∧
      ∃ key, values req.headers.list p!"Sec-WebSocket-Key" = [key] ∧ ¬ Encodable key) ∨
    (∃ e a, cfg.processRequest py req = (.error e, a) ∧ FactoryErr (cfg.extensions.getD []) e) ∨
    (∃ e a, cfg.processRequest py req = (.error e, a) ∧ e.isInvalidHandshake = true ∧
      MsgOk req.headers.list e ∧
      Verdict cfg.origins cfg.hasExt cfg.hasSub req.headers.list e.status) := by
  unfold ServerConfig.processRequest
  rcases checkRequest_spec hk with ⟨key, h1, hu, hw, hkey, hver⟩ | ⟨h1, h2⟩ | ⟨e, h1, h2, h3, h4⟩
  · simp only [h1]
    rcases processOrigin_spec cfg hk with ⟨o, ho, hoi⟩ | ⟨e, ho, h2, h3, h4⟩
    · have hvalid : ValidRequest cfg.origins req.headers.list key o := ⟨hu, hw, hkey, hver, hoi⟩
      simp only [ho]
      rcases processExtensions_spec cfg hk with ⟨r, hx, hxw⟩ | ⟨e, hx, hf⟩ | ⟨e, hx, h2, h3, h4, h5, h6⟩
      · simp only [hx]
        rcases processSubprotocol_spec py cfg hk with ⟨s, hs, hsw⟩ | ⟨e, hs, h2, h3, h4, h5, h6⟩
        · simp only [hs]
          exact .inl ⟨_, _, _, _, o, rfl, rfl, hvalid, .accepted hvalid hxw hsw⟩
        · simp only [hs]
          exact .inr (.inr (.inr ⟨e, _, rfl, h2, h3, h4 ▸ .badSubprotocols hvalid hxw h5 h6⟩))
      · simp only [hx]
        exact .inr (.inr (.inl ⟨e, _, rfl, hf⟩))
      · simp only [hx]
        exact .inr (.inr (.inr ⟨e, _, rfl, h2, h3, h4 ▸ .badExtensions hvalid h5 h6⟩))
    · simp only [ho]
      refine .inr (.inr (.inr ⟨e, _, rfl, h2, h3, ?_⟩))
      rcases h4 with ⟨e4, h4⟩ | ⟨e4, h4, h5⟩
      · rw [e4]; exact .manyOrigins hu hw hkey hver h4
      · rw [e4]; exact .badOrigin hu hw hkey hver h4 h5
  · simp only [h1]
    exact .inr (.inl ⟨_, rfl, h2⟩)
  · simp only [h1]
    exact .inr (.inr (.inr ⟨e, _, rfl, h2, h3, h4 _ _ _⟩))

/-! ## Responses -/

theorem Headers.Ok.setdefault {h : Headers} (hk : h.Ok pyLower) (n d : PyStr) :
    (values h.list n = [] ∧ h.setdefault n d = .ok (h.set n d)) ∨
    ((∃ v, values h.list n = [v]) ∧ h.setdefault n d = .ok h) ∨
    (2 ≤ (values h.list n).length ∧ h.setdefault n d = .error .multipleValuesError) := by
  unfold Headers.setdefault
  rw [hk.one]
  match values h.list n with
  | [] => exact .inl ⟨rfl, rfl⟩
  | [v] => exact .inr (.inl ⟨⟨v, rfl⟩, rfl⟩)
  | a :: b :: l => exact .inr (.inr ⟨by simp, rfl⟩)

/-- The header lines that are completed by default. -/
def Spec.withDefault (hs : List (PyStr × PyStr)) (n d : PyStr) : List (PyStr × PyStr) :=
  if values hs n = [] then hs ++ [(n, d)] else hs

theorem Headers.Ok.setdefault_ok {h h' : Headers} (hk : h.Ok pyLower) {n d : PyStr}
    (h1 : h.setdefault n d = .ok h') : h'.Ok pyLower ∧ h'.list = withDefault h.list n d ∧
      (values h.list n).length ≤ 1 := by
  unfold withDefault
  rcases hk.setdefault n d with ⟨e, h2⟩ | ⟨⟨v, e⟩, h2⟩ | ⟨e, h2⟩
  · rw [h2] at h1
    cases h1
    rw [e]
    exact ⟨hk.set n d, rfl, by simp⟩
  · rw [h2] at h1
    cases h1
    rw [e]
    exact ⟨hk, rfl, by simp⟩
  · rw [h2] at h1
    cases h1

theorem Headers.Ok.setdefault_of {h : Headers} (hk : h.Ok pyLower) {n d : PyStr}
    (h1 : (values h.list n).length ≤ 1) : ∃ h', h.setdefault n d = .ok h' := by
  rcases hk.setdefault n d with ⟨e, h2⟩ | ⟨⟨v, e⟩, h2⟩ | ⟨e, h2⟩
  · exact ⟨_, h2⟩
  · exact ⟨_, h2⟩
  · omega

/-- The header lines of a rejection. -/
def rejection (py : PyEnv) (date : PyStr) (hs : List (PyStr × PyStr)) (len : Nat) :
    List (PyStr × PyStr) :=
  hs ++ [(p!"Date", date), (p!"Server", py.agent), (p!"Content-Length", decStr len),
    (p!"Content-Type", p!"text/plain; charset=utf-8"), (p!"Connection", p!"close")]

theorem reject_spec (py : PyEnv) (date : PyStr) (status : Int) (phrase text : PyStr)
    (hs : List (PyStr × PyStr)) (hh : hs = [] ∨ hs = [(p!"Upgrade", p!"websocket")])
    (ht : Encodable text) : ∃ r body, reject py date status phrase text (Headers.ofList hs) = .ok r ∧
      utf8Encode text = .ok body ∧ r.statusCode = status ∧ r.reason = phrase ∧ r.body = some body ∧
      r.headers.Ok pyLower ∧ r.headers.list = rejection py date hs body.length := by
  obtain ⟨body, hb⟩ := utf8Encode_encodable ht
  obtain ⟨k0, l0⟩ := Headers.ofList_ok hs
  have step : ∀ {h : Headers} (l : List (PyStr × PyStr)) {n d : PyStr}, h.Ok pyLower → h.list = l →
      values l n = [] → ∃ h', h.setdefault n d = .ok h' ∧ h'.Ok pyLower ∧ h'.list = l ++ [(n, d)] := by
    rintro h l n d hk rfl hv
    rcases hk.setdefault n d with ⟨_, h2⟩ | ⟨⟨v, e⟩, _⟩ | ⟨e, _⟩
    · exact ⟨_, h2, hk.set n d, rfl⟩
    · rw [hv] at e; cases e
    · rw [hv] at e; simp at e
  obtain ⟨h1, e1, k1, l1⟩ := step (n := p!"Date") (d := date) hs k0 l0
    (by rcases hh with rfl | rfl <;> rfl)
  obtain ⟨h2, e2, k2, l2⟩ := step (n := p!"Server") (d := py.agent) _ k1 l1
    (by rcases hh with rfl | rfl <;> rfl)
  obtain ⟨h3, e3, k3, l3⟩ := step (n := p!"Content-Length") (d := decStr body.length) _ k2 l2
    (by rcases hh with rfl | rfl <;> rfl)
  obtain ⟨h4, e4, k4, l4⟩ := step (n := p!"Content-Type")
    (d := p!"text/plain; charset=utf-8") _ k3 l3 (by rcases hh with rfl | rfl <;> rfl)
  obtain ⟨h5, e5, k5, l5⟩ := step (n := p!"Connection") (d := p!"close") _ k4 l4
    (by rcases hh with rfl | rfl <;> rfl)
  refine ⟨{ statusCode := status, reason := phrase, headers := h5, body := some body }, body,
    by unfold reject; simp only [hb, e1, e2, e3, e4, e5], hb, rfl, rfl, rfl, k5, ?_⟩
  simp only [l5, rejection, List.append_assoc]
  rfl

theorem rejectExc_spec (py : PyEnv) (date : PyStr) (e : Exc) (he : Encodable e.str) :
    ∃ r body, rejectExc py date e = .ok r ∧ r.statusCode = e.status ∧ r.body = some body ∧
      r.headers.Ok pyLower ∧ r.exception = some e ∧
      r.headers.list = rejection py date
        (if e.status = 426 then [(p!"Upgrade", p!"websocket")] else []) body.length := by
  have key : ∀ status phrase text hs, (hs = [] ∨ hs = [(p!"Upgrade", p!"websocket")]) →
      Encodable text → status = e.status →
      (hs = if e.status = 426 then [(p!"Upgrade", p!"websocket")] else []) →
      ∃ r' r body, reject py date status phrase text (Headers.ofList hs) = .ok r' ∧
        r = { r' with exception := some e } ∧ r.statusCode = e.status ∧ r.body = some body ∧
        r.headers.Ok pyLower ∧ r.exception = some e ∧
        r.headers.list = rejection py date
          (if e.status = 426 then [(p!"Upgrade", p!"websocket")] else []) body.length := by
    intro status phrase text hs h1 h2 h3 h4
    obtain ⟨r, body, e1, e2, e3, e4, e5, e6, e7⟩ := reject_spec py date status phrase text hs h1 h2
    exact ⟨r, _, body, e1, rfl, by rw [← h3]; exact e3, e5, e6, rfl, h4 ▸ e7⟩
  have hfail : Encodable p!"Failed to open a WebSocket connection" := encodable_ascii (by decide)
  have hlow : ∀ s : PyStr, (∀ c ∈ s, c < 128) → Encodable s := fun _ h => encodable_ascii h
  by_cases c1 : ∃ o, e = .invalidOrigin o
  · obtain ⟨o, rfl⟩ := c1
    obtain ⟨r', r, body, e1, rfl, h⟩ := key 403 p!"Forbidden" _ [] (.inl rfl)
      (((hfail.append (hlow p!": " (by decide))).append he).append (hlow p!".\n" (by decide))) rfl rfl
    refine ⟨_, body, ?_, h⟩
    unfold rejectExc
    simp only
    rw [show ({} : Headers) = Headers.ofList [] from rfl, e1]
  by_cases c2 : ∃ n v, e = .invalidUpgrade n v
  · obtain ⟨n, v, rfl⟩ := c2
    obtain ⟨r', r, body, e1, rfl, h⟩ := key 426 p!"Upgrade Required" _ _ (.inr rfl)
      ((((hfail.append (hlow p!": " (by decide))).append he).append
        (hlow p!".\n\nYou cannot access a WebSocket server directly " (by decide))).append
        (hlow p!"with a browser. You need a WebSocket client.\n" (by decide))) rfl rfl
    refine ⟨_, body, ?_, h⟩
    unfold rejectExc
    simp only
    rw [e1]
  have hst : e.status = if e.isInvalidHandshake then 400 else 500 := by
    cases e <;> first | rfl | exact absurd ⟨_, rfl⟩ c1 | exact absurd ⟨_, _, rfl⟩ c2
  by_cases hi : e.isInvalidHandshake = true
  · rw [if_pos hi] at hst
    obtain ⟨r', r, body, e1, rfl, h⟩ := key 400 p!"Bad Request" _ [] (.inl rfl)
      (((hfail.append (hlow p!": " (by decide))).append he).append (hlow p!".\n" (by decide)))
      hst.symm (by rw [hst]; rfl)
    refine ⟨_, body, ?_, h⟩
    unfold rejectExc
    simp only
    cases e <;> first
      | exact absurd ⟨_, rfl⟩ c1
      | exact absurd ⟨_, _, rfl⟩ c2
      | rw [if_pos hi, show ({} : Headers) = Headers.ofList [] from rfl, e1]
  · rw [if_neg hi] at hst
    obtain ⟨r', r, body, e1, rfl, h⟩ := key 500 p!"Internal Server Error" _ [] (.inl rfl)
      (hfail.append (hlow p!".\nSee server log for more information.\n" (by decide)))
      hst.symm (by rw [hst]; rfl)
    refine ⟨_, body, ?_, h⟩
    unfold rejectExc
    simp only
    cases e <;> first
      | exact absurd ⟨_, rfl⟩ c1
      | exact absurd ⟨_, _, rfl⟩ c2
      | rw [if_neg hi, show ({} : Headers) = Headers.ofList [] from rfl, e1]

theorem reject_status {py : PyEnv} {date : PyStr} {status : Int} {phrase text : PyStr}
    {h : Headers} {r : Response} (hr : reject py date status phrase text h = .ok r) :
    r.statusCode = status := by
  unfold reject at hr
  repeat' split at hr
  all_goals first | cases hr; rfl | cases hr

theorem rejectExc_status {py : PyEnv} {date : PyStr} {e : Exc} {r : Response}
    (h : rejectExc py date e = .ok r) : r.statusCode = e.status := by
  unfold rejectExc at h
  simp only at h
  split at h
  · cases h
  · rename_i r' hr
    cases h
    simp only
    split at hr
    · rw [reject_status hr]; rfl
    · rw [reject_status hr]; rfl
    · rename_i hn1 hn2
      have hst : e.status = if e.isInvalidHandshake then 400 else 500 := by
        cases e <;> first | rfl | exact absurd rfl (hn1 _) | exact absurd rfl (hn2 _ _)
      split at hr <;> rename_i hi
      · rw [reject_status hr, hst, if_pos hi]
      · rw [reject_status hr, hst, if_neg hi]

theorem Headers.Ok.foldl_set {h : Headers} (hk : h.Ok pyLower) (l : List (PyStr × PyStr)) :
    (l.foldl (fun h p => h.set p.1 p.2) h).Ok pyLower ∧
    (l.foldl (fun h p => h.set p.1 p.2) h).list = h.list ++ l := by
  induction l generalizing h with
  | nil => exact ⟨hk, by simp⟩
  | cons p l ih =>
    obtain ⟨h1, h2⟩ := ih (hk.set p.1 p.2)
    refine ⟨h1, ?_⟩
    simp only [List.foldl_cons]
    rw [h2]
    simp [Headers.set]

/-- The `Sec-WebSocket-Accept` value for a key. -/
def Spec.acceptFor (key : PyStr) : PyStr :=
  base64 (Sha1.digest ((key ++ p!"258EAFA5-E914-47DA-95CA-C5AB0DC85B11").map UInt8.ofNat))

theorem acceptKey_spec {key : PyStr} (h : ∀ c ∈ key, c < 128) : acceptKey key = .ok (acceptFor key) := by
  unfold acceptKey acceptFor
  rw [utf8Encode_ascii (s := key ++ guid)]
  · rw [← b64encode_eq]; rfl
  · intro c hc
    rcases List.mem_append.1 hc with hc | hc
    · exact h c hc
    · have : ∀ c ∈ guid, c < 128 := by decide
      exact this c hc

/-- A header that is present if it has a value. -/
def Spec.optHeader (n : PyStr) : Option PyStr → List (PyStr × PyStr)
  | none => []
  | some v => [(n, v)]

/-- The header lines of a 101 response before the default ones. -/
def Spec.upgraded (key : PyStr) (eh sub : Option PyStr) (extra : List (PyStr × PyStr)) :
    List (PyStr × PyStr) :=
  [(p!"Upgrade", p!"websocket"), (p!"Connection", p!"Upgrade"),
    (p!"Sec-WebSocket-Accept", acceptFor key)] ++ optHeader p!"Sec-WebSocket-Extensions" eh ++
    optHeader p!"Sec-WebSocket-Protocol" sub ++ extra

theorem acceptResponse_headers {py : PyEnv} (cfg : ServerConfig X) {date : PyStr} {req : Request}
    {key : PyStr} {eh sub : Option PyStr} (hkey : ∀ c ∈ key, c < 128)
    {extra : List (PyStr × PyStr)} (hx : cfg.extraHeaders req.path req.headers = .ok extra) :
    ∃ h : Headers, h.Ok pyLower ∧ h.list = upgraded key eh sub extra ∧
      cfg.acceptResponse py date req key eh sub =
      match h.setdefault p!"Date" date with
      | .error e => .error e
      | .ok headers =>
        match headers.setdefault p!"Server" py.agent with
        | .error e => .error e
        | .ok headers => .ok { statusCode := 101, reason := p!"Switching Protocols", headers } := by
  have k3 : ((({} : Headers).set p!"Upgrade" p!"websocket").set p!"Connection" p!"Upgrade"
    |>.set p!"Sec-WebSocket-Accept" (acceptFor key)).Ok pyLower :=
    (((Headers.ok_empty pyLower).set _ _).set _ _).set _ _
  unfold ServerConfig.acceptResponse
  simp only [acceptKey_spec hkey, hx]
  cases eh with
  | none =>
    cases sub with
    | none =>
      obtain ⟨a, b⟩ := k3.foldl_set extra
      exact ⟨_, a, b, rfl⟩
    | some s =>
      obtain ⟨a, b⟩ := (k3.set p!"Sec-WebSocket-Protocol" s).foldl_set extra
      exact ⟨_, a, b, rfl⟩
  | some v =>
    cases sub with
    | none =>
      obtain ⟨a, b⟩ := (k3.set p!"Sec-WebSocket-Extensions" v).foldl_set extra
      exact ⟨_, a, b, rfl⟩
    | some s =>
      obtain ⟨a, b⟩ := ((k3.set p!"Sec-WebSocket-Extensions" v).set p!"Sec-WebSocket-Protocol" s).foldl_set extra
      exact ⟨_, a, b, rfl⟩

/-- The header lines of a 101 response. -/
theorem acceptResponse_ok {py : PyEnv} {cfg : ServerConfig X} {date : PyStr} {req : Request}
    {key : PyStr} {eh sub : Option PyStr} (hkey : ∀ c ∈ key, c < 128) {r : Response}
    (h : cfg.acceptResponse py date req key eh sub = .ok r) :
    ∃ extra, cfg.extraHeaders req.path req.headers = .ok extra ∧ r.statusCode = 101 ∧
      r.reason = p!"Switching Protocols" ∧ r.body = none ∧ r.exception = none ∧
      r.headers.Ok pyLower ∧
      r.headers.list = withDefault (withDefault (upgraded key eh sub extra) p!"Date" date)
        p!"Server" py.agent := by
  cases hx : cfg.extraHeaders req.path req.headers with
  | error e =>
    unfold ServerConfig.acceptResponse at h
    simp only [acceptKey_spec hkey, hx] at h
    cases h
  | ok extra =>
    obtain ⟨hd, hk, hl, he⟩ := acceptResponse_headers (py := py) (date := date) (eh := eh)
      (sub := sub) cfg hkey hx
    rw [he] at h
    split at h
    · cases h
    · rename_i h1 e1
      obtain ⟨k1, l1, _⟩ := hk.setdefault_ok e1
      split at h
      · cases h
      · rename_i h2 e2
        obtain ⟨k2, l2, _⟩ := k1.setdefault_ok e2
        cases h
        exact ⟨extra, rfl, rfl, rfl, rfl, rfl, k2, by rw [← hl, ← l1]; exact l2⟩

theorem values_append (a b : List (PyStr × PyStr)) (n : PyStr) :
    values (a ++ b) n = values a n ++ values b n := by
  simp [values, valuesOf]

theorem values_withDefault {hs : List (PyStr × PyStr)} {n d m : PyStr} (h : lower n ≠ lower m) :
    values (withDefault hs n d) m = values hs m := by
  unfold withDefault
  split
  · rw [values_append]
    simp [values, valuesOf, h]
  · rfl

end WS
