import Verif.Props.Frames
import Verif.Props.Server
import Verif.Props.Client
import Verif.Props.Pmd

/-!
# What is stored: more about C07, C39, C42, C46 and C47
-/

namespace WS

open Spec

/-! ## C07: data of control frames -/

/-- **C07.** Text and bytes are prepared for control frames: text is encoded in UTF-8, bytes are unchanged. -/
theorem C07_prepare_ctrl (d : PyStr ⊕ Bytes) (b : Bytes) :
    prepareCtrl d = .ok b ↔ (∃ s, d = .inl s ∧ utf8Decode b = .ok s) ∨ d = .inr b := by
  cases d with
  | inl s =>
    simp only [prepareCtrl, Sum.inl.injEq, reduceCtorEq, or_false, exists_eq_left']
    exact utf8Decode_iff_encode.symm
  | inr x =>
    simp only [prepareCtrl, reduceCtorEq, false_and, exists_false, false_or, Except.ok.injEq, Sum.inr.injEq]

/-- **C07.** Text and bytes are prepared for data frames, with the opcode that says which of these it was. -/
theorem C07_prepare_data_iff (d : PyStr ⊕ Bytes) (op : Opcode) (b : Bytes) :
    prepareData d = .ok (op, b) ↔
      (∃ s, d = .inl s ∧ op = .text ∧ utf8Decode b = .ok s) ∨ (d = .inr b ∧ op = .binary) := by
  refine ⟨C07_prepare_data d op b, ?_⟩
  rintro (⟨s, rfl, rfl, h⟩ | ⟨rfl, rfl⟩)
  · simp [prepareData, utf8Decode_iff_encode.1 h]
  · rfl

example : prepareCtrl (.inl [0x20AC]) = .ok [0xE2, 0x82, 0xAC] := by rfl

/-! ## C39, C44, C46: attributes of a server -/

variable {X : Type}

/-- **C39.** When the response is 101, the attributes of the connection are what was negotiated: the origin of the request, the
extensions and the subprotocol that the response says. -/
theorem C39_attributes (py : PyEnv) (cfg : ServerConfig X) (ops : ExtOps X) (rand : Nat → Bytes)
    (hr : ∀ i, (rand i).length = 4) (date : PyStr) (req : Request) (hk : req.headers.Ok pyLower) (r : Response) (a : Assigned X)
    (h : cfg.accept py date req = (.ok r, a)) (h1 : r.statusCode = 101) (c : Core X Request) :
    ∃ c', (cfg.env py ops rand hr).hsOp (.accept date req) c = (none, c', true) ∧
      OriginIs cfg.origins req.headers.list c'.origin ∧
      a.exts = some c'.exts ∧ a.subprotocol = some c'.subprotocol ∧
      c' = { c with origin := c'.origin, exts := c'.exts, subprotocol := c'.subprotocol } := by
  obtain ⟨key, eh, sub, origin, extra, h2, h3, h4, -⟩ := accept_101 hk h h1
  have h5 : ∃ exts, a.exts = some exts ∧ a.subprotocol = some sub := by
    unfold ServerConfig.processRequest at h2
    repeat' split at h2
    all_goals first
      | (cases h2; done)
      | (simp only [Prod.mk.injEq, Except.ok.injEq] at h2; obtain ⟨⟨-, -, rfl⟩, rfl⟩ := h2; exact ⟨_, rfl, rfl⟩)
  obtain ⟨exts, h5, h6⟩ := h5
  refine ⟨{ c with origin := origin, exts := exts, subprotocol := sub }, ?_, h4.origin, h5, h6, rfl⟩
  simp [ServerConfig.env, h, Assigned.store, h3, h5, h6]

example : (goodRequest.headers.Ok pyLower) ∧
    (exampleConfig.accept PyEnv.simple p!"now" goodRequest).2.subprotocol = some (some p!"superchat") :=
  ⟨(Headers.ofList_ok _).1, by decide +kernel⟩

/-! ## C42: what a client reports -/

/-- **C42.** The event for a response contains an exception if and only if the handshake failed because of an invalid response.
When another exception is raised, `receive_data` raises it. -/
theorem C42_exception (cfg : ClientConfig X) {p : Response} (hk : p.headers.Ok pyLower) (he : p.exception = none)
    {c : Core X Response} (hc : c.state = .connecting) :
    ∃ r, (cfg.onResponse p c).2.events = c.events ++ [.handshake r] ∧ { r with exception := none } = p ∧
      ((∃ exts sub, ValidResponse cfg p.statusCode p.headers.list exts sub) ↔
        r.exception = none ∧ (cfg.onResponse p c).1 = none) ∧
      ∀ e, r.exception = some e → e.isInvalidHandshake = true ∧ (cfg.onResponse p c).1 = none := by
  have hs := onResponse_spec cfg hk hc
  obtain ⟨exts, sub, hp⟩ := cfg.processResponse_core p c
  have hself : { p with exception := none } = p := by cases p; simp_all
  rcases hs with ⟨exts, sub, hv, ho⟩ | ⟨hn, ho⟩
  · refine ⟨p, by rw [ho], hself, ⟨fun _ => ⟨he, by rw [ho]⟩, fun _ => ⟨exts, sub, hv⟩⟩, ?_⟩
    intro e h
    rw [he] at h; cases h
  · have hne : ¬∃ exts sub, ValidResponse cfg p.statusCode p.headers.list exts sub :=
      fun ⟨exts, sub, h⟩ => hn exts sub h
    unfold ClientConfig.onResponse at ho ⊢
    rw [if_neg (by simp [hc])] at ho ⊢
    cases hx : cfg.processResponse p c with
    | mk o c' =>
      rw [hx] at ho hp
      simp only at hp
      subst hp
      cases o with
      | none => simp [Core.addEvent] at ho
      | some e =>
        simp only at ho ⊢
        by_cases hi : e.isInvalidHandshake = true
        · rw [if_pos hi]
          refine ⟨{ p with exception := some e }, by simp [Core.addEvent], hself, ⟨fun h => absurd h hne, ?_⟩, ?_⟩
          · rintro ⟨h, -⟩; cases h
          · intro e' h; cases h; exact ⟨hi, rfl⟩
        · rw [if_neg hi]
          refine ⟨p, by simp [Core.addEvent], hself, ⟨fun h => absurd h hne, ?_⟩, ?_⟩
          · rintro ⟨-, h⟩; cases h
          · intro e' h; rw [he] at h; cases h

/-- A response that isn't a handshake is reported with an exception. -/
example : ∃ r : Response, (exampleClient.onResponse { statusCode := 200, reason := p!"OK", headers := {} }
      { side := .client, state := .connecting, maxSize := none }).2.events = [.handshake r] ∧
    r.exception = some (.invalidStatusCode 200) := ⟨_, rfl, rfl⟩

/-! ## C46, C47: permessage-deflate -/

variable {Z : Zlib}

/-- **C47.** Whatever the server answers, if a client accepts it, the extension respects what the client asked for. -/
theorem C47_client (cc : PmdClientConfig Z) (hc : cc.valid = true) (params : List ExtParam) (others : List PyStr) {x : Pmd Z}
    (h : cc.processResponseParams params others = .ok x) :
    pmdName ∉ others ∧ ValidParams false params ∧
    (x.remoteNct = true ↔ (p!"server_no_context_takeover", none) ∈ params) ∧
    (cc.params.serverNct = true → x.remoteNct = true) ∧
    (x.localNct = true ↔ cc.params.clientNct = true ∨ (p!"client_no_context_takeover", none) ∈ params) ∧
    (∀ n, cc.params.serverBits = some n → x.remoteBits ≤ n ∧ ∃ v, (p!"server_max_window_bits", some v) ∈ params) ∧
    (∀ v n, (p!"server_max_window_bits", some v) ∈ params → WindowIs v n → x.remoteBits = n) ∧
    (∀ n, cc.params.clientBits = some (.val n) → x.localBits ≤ n) ∧
    (∀ v n, (p!"client_max_window_bits", some v) ∈ params → WindowIs v n → x.localBits = n ∧ cc.params.clientBits ≠ none) ∧
    x.settings = cc.settings := by
  rw [PmdClientConfig.valid_iff] at hc
  unfold PmdClientConfig.processResponseParams at h
  split at h
  · cases h
  next ho =>
  split at h
  · cases h
  next r hr =>
  obtain ⟨hv, hm⟩ := ((C48_extract false params).1 r).1 hr
  have hw : ∀ v n, WindowIs v n → 8 ≤ n ∧ n ≤ 15 := fun v n h => h.range
  have hsb : ∀ n, r.serverBits = some n → 8 ≤ n ∧ n ≤ 15 := fun n hn => by
    obtain ⟨v, hv, -⟩ := (hm.serverBits n).1 hn; exact hw v n hv
  have hcb : ∀ n, r.clientBits = some (.val n) → 8 ≤ n ∧ n ≤ 15 := fun n hn => by
    obtain ⟨v, hv, -⟩ := (hm.clientBits n).1 hn; exact hw v n hv
  have hany : r.clientBits ≠ some .any := by
    intro hx
    have := hv.1 _ (hm.clientAny.1 hx)
    cases this; contradiction
  split at h
  · cases h
  next r' hr' =>
  obtain ⟨-, -, x1, x2, x3, x4, x5⟩ := Pmd.new_inv h
  unfold PmdClientConfig.negotiate at hr'
  split at hr'
  · cases hr'
  next hnct =>
  obtain ⟨e1, e2⟩ : r'.serverNct = r.serverNct ∧ (r'.clientNct = true ↔ cc.params.clientNct = true ∨ r.clientNct = true) := by
    grind
  obtain ⟨e3, e4⟩ : r'.serverBits = r.serverBits ∧ ∀ n, cc.params.serverBits = some n → ∃ m, r.serverBits = some m ∧ m ≤ n := by
    unfold serverBitsError at hr'
    grind
  have e5 : (∀ n, r.clientBits = some n → r'.clientBits = some n ∧ cc.params.clientBits ≠ none) ∧
      ∀ n, cc.params.clientBits = some (.val n) → ∃ m, r'.clientBits = some (.val m) ∧ m ≤ n ∧ m ≠ 0 := by
    refine ⟨fun n hn => by grind, fun n hn => ?_⟩
    have := hc.2 n hn
    cases hb : r.clientBits with
    | none => refine ⟨n, ?_, Nat.le_refl _, by omega⟩; grind
    | some w =>
      cases w with
      | any => exact absurd hb hany
      | val m =>
        have := hcb m hb
        refine ⟨m, ?_, ?_, by omega⟩ <;> grind [WBits.toNat]
  refine ⟨ho, hv, ?_, ?_, ?_, ?_, ?_, ?_, ?_, x5⟩
  · rw [x1, e1, hm.serverNct]
  · intro hs; rw [x1, e1]; grind
  · rw [x2, e2, hm.clientNct]
  · intro n hn
    obtain ⟨m, h1, h2⟩ := e4 n hn
    obtain ⟨v, -, hv'⟩ := (hm.serverBits m).1 h1
    refine ⟨?_, v, hv'⟩
    rw [x3, e3, h1]
    have := hsb m h1
    simp only [orDefault]
    rw [if_neg (by omega)]; exact h2
  · intro v n h1 h2
    have h3 := (hm.serverBits n).2 ⟨v, h2, h1⟩
    rw [x3, e3, h3]
    have := hsb n h3
    simp only [orDefault]
    rw [if_neg (by omega)]
  · intro n hn
    obtain ⟨m, h1, h2, h3⟩ := e5.2 n hn
    rw [x4, h1]
    simp only [Option.map_some, WBits.toNat, orDefault]
    rw [if_neg h3]; exact h2
  · intro v n h1 h2
    have h3 := (hm.clientBits n).2 ⟨v, h2, h1⟩
    obtain ⟨h4, h5⟩ := e5.1 _ h3
    refine ⟨?_, h5⟩
    rw [x4, h4]
    have := hcb n h3
    simp only [Option.map_some, WBits.toNat, orDefault]
    rw [if_neg (by omega)]

example :
    (match ({ params := { serverBits := some 12 }, settings := () } : PmdClientConfig storedZlib).processResponseParams
        [(p!"server_max_window_bits", some p!"10")] [] with
      | .ok x => (x.remoteBits, x.localBits) | .error _ => (0, 0)) = (10, 15) := by decide +kernel

example : ({ params := { serverBits := some 12 }, settings := () } : PmdClientConfig storedZlib).processResponseParams [] [] =
    .error (.negotiationError p!"expected server_max_window_bits") := by rfl

/-- **C46.** `compression="deflate"` adds permessage-deflate at the end of the extensions of a client, unless there's one; other
extensions are kept. -/
theorem C46_enable_client (default : Z.Settings) (fs : Option (List (ClientFactory (Pmd Z)))) :
    ∃ added, enableClientPmd default fs = fs.getD [] ++ added ∧
      (added = [] ↔ ∃ f ∈ fs.getD [], f.name = pmdName) ∧
      (added ≠ [] → ∃ f, added = [f] ∧ f.name = pmdName ∧ f.requestParams = [(p!"client_max_window_bits", none)]) := by
  unfold enableClientPmd
  simp only
  split
  · next h =>
    refine ⟨_, rfl, ?_, fun _ => ⟨_, rfl, rfl, rfl⟩⟩
    simp only [List.cons_ne_nil, false_iff]
    simpa using h
  · next h =>
    refine ⟨[], by simp, ?_, by simp⟩
    simpa using h

/-- **C46.** Likewise for a server. -/
theorem C46_enable_server (default : Z.Settings) (fs : Option (List (ServerFactory (Pmd Z)))) :
    ∃ added, enableServerPmd default fs = fs.getD [] ++ added ∧
      (added = [] ↔ ∃ f ∈ fs.getD [], f.name = pmdName) ∧
      (added ≠ [] → ∃ f, added = [f] ∧ f.name = pmdName) := by
  unfold enableServerPmd
  simp only
  split
  · next h =>
    refine ⟨_, rfl, ?_, fun _ => ⟨_, rfl, rfl⟩⟩
    simp only [List.cons_ne_nil, false_iff]
    simpa using h
  · next h =>
    refine ⟨[], by simp, ?_, by simp⟩
    simpa using h

example : (enableServerPmd (Z := storedZlib) () none).map (·.name) = [pmdName] := by rfl

end WS
