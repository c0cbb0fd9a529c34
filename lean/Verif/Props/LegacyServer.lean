import Verif.Props.Server
import Verif.Model.LegacyServer

/-!
# C66: the opening handshake of legacy servers
-/

namespace WS.LegacyServer

open Spec

variable {X : Type}

theorem responseHeaders_eq (s : Setup X) (req : Request) (key : PyStr) (eh sub : Option PyStr) :
    responseHeaders s req key eh sub =
      match s.cfg.acceptResponse s.py s.date req key eh sub with
      | .error e => .error e
      | .ok r => .ok r.headers := by
  unfold responseHeaders ServerConfig.acceptResponse
  repeat' split
  all_goals first | rfl | (simp_all; done) | skip
  all_goals grind

/-- How the exceptions of the two servers differ. -/
def SameExc (e e' : Exc) : Prop :=
  e' = e ∨ ∃ n v, e = .invalidUpgrade n v ∧ e' = .invalidUpgrade n (some (v.getD []))

theorem SameExc.status {e e' : Exc} (h : SameExc e e') : e'.status = e.status := by
  rcases h with rfl | ⟨n, v, rfl, rfl⟩ <;> rfl

theorem SameExc.encodable {e e' : Exc} (h : SameExc e e') (he : Encodable e.str) : Encodable e'.str := by
  rcases h with rfl | ⟨n, v, rfl, rfl⟩
  · exact he
  · cases v with
    | some v => exact he
    | none =>
      simp only [Exc.str, headerMessage, Option.getD_none] at he ⊢
      intro c hc
      simp only [List.mem_append] at hc
      rcases hc with (hc | hc) | hc
      · exact encodable_ascii (s := p!"empty ") (by decide) c hc
      · exact he c (by simp [hc])
      · exact he c (by simp [hc])

theorem checkRequest_eq (h : Headers) :
    (∃ key, WS.checkRequest h = .ok key ∧ checkRequest h = .ok key) ∨
      ∃ e e', WS.checkRequest h = .error e ∧ checkRequest h = .error e' ∧ SameExc e e' := by
  unfold checkRequest
  cases WS.checkRequest h with
  | ok key => exact .inl ⟨key, rfl, rfl⟩
  | error e =>
    right
    cases e <;> first | exact ⟨_, _, rfl, rfl, .inl rfl⟩ | exact ⟨_, _, rfl, rfl, .inr ⟨_, _, rfl, rfl⟩⟩

/-- The handshake, in terms of the methods of the sans-I/O server. -/
theorem handshake_eq (s : Setup X) (serving : Bool) (req : Request)
    (he : earlyResponse s serving req = .ok none) :
    (∃ e e' a, s.cfg.processRequest s.py req = (.error e, a) ∧ SameExc e e' ∧
      handshake s serving (some req) = .error (.exc e')) ∨
    (∃ key eh sub a, s.cfg.processRequest s.py req = (.ok (key, eh, sub), a) ∧
      ((∃ e, s.cfg.acceptResponse s.py s.date req key eh sub = .error e ∧
          handshake s serving (some req) = .error (.exc e)) ∨
        ∃ r, s.cfg.acceptResponse s.py s.date req key eh sub = .ok r ∧
          ((∃ e, httpResponse 101 p!"Switching Protocols" r.headers none = .error e ∧
              handshake s serving (some req) = .error (.exc e)) ∨
            ∃ b o, httpResponse 101 p!"Switching Protocols" r.headers none = .ok b ∧
              handshake s serving (some req) = .ok o ∧ o.path = req.path ∧ o.headers = r.headers ∧
              o.written = b ∧ a.origin = some o.origin ∧ a.exts = some o.exts ∧
              a.subprotocol = some o.subprotocol ∧ o.subprotocol = sub))) := by
  simp only [handshake, he, ServerConfig.processRequest]
  rcases checkRequest_eq req.headers with ⟨key, h1, h2⟩ | ⟨e, e', h1, h2, h3⟩
  · rw [h1, h2]
    simp only
    cases h4 : s.cfg.processOrigin req.headers with
    | error e => exact .inl ⟨e, e, _, rfl, .inl rfl, rfl⟩
    | ok origin =>
      simp only
      cases h5 : s.cfg.processExtensions req.headers with
      | error e => exact .inl ⟨e, e, _, rfl, .inl rfl, rfl⟩
      | ok x =>
        obtain ⟨eh, exts⟩ := x
        simp only
        cases h6 : s.cfg.processSubprotocol s.py req.headers with
        | error e => exact .inl ⟨e, e, _, rfl, .inl rfl, rfl⟩
        | ok sub =>
          simp only
          right
          refine ⟨key, eh, sub, _, rfl, ?_⟩
          rw [responseHeaders_eq]
          cases h7 : s.cfg.acceptResponse s.py s.date req key eh sub with
          | error e => exact .inl ⟨e, rfl, rfl⟩
          | ok r =>
            right
            refine ⟨r, rfl, ?_⟩
            simp only
            cases h8 : httpResponse 101 p!"Switching Protocols" r.headers none with
            | error e => exact .inl ⟨e, rfl, rfl⟩
            | ok b => exact .inr ⟨b, _, rfl, rfl, rfl, rfl, rfl, rfl, rfl, rfl, rfl⟩
  · rw [h1, h2]
    exact .inl ⟨e, e', _, rfl, h3, rfl⟩

/-- **C66.** A legacy server opens a connection only if it's not shutting down, `process_request` doesn't
return a response and the request is a valid handshake from an acceptable origin.  The response is
the one that RFC 6455 requires. -/
theorem C66_opened (s : Setup X) (serving : Bool) (request : Option Request) (o : Opened X)
    (hk : ∀ req, request = some req → req.headers.Ok pyLower)
    (h : openingHandshake s serving request = .opened o) :
    ∃ req key eh extra, request = some req ∧ serving = true ∧
      s.processRequest req.path req.headers = .ok none ∧
      ValidRequest s.cfg.origins req.headers.list key o.origin ∧
      s.cfg.extraHeaders req.path req.headers = .ok extra ∧
      o.headers.list = withDefault (withDefault (upgraded key eh o.subprotocol extra) p!"Date" s.date)
        p!"Server" s.py.agent ∧
      utf8Encode (p!"HTTP/1.1 101 Switching Protocols\r\n" ++ o.headers.toStr) = .ok o.written := by
  unfold openingHandshake at h
  split at h
  · rename_i o' ho
    cases h
    cases request with
    | none => cases ho
    | some req =>
      have hk := hk req rfl
      cases he : earlyResponse s serving req with
      | error e => simp [handshake, he] at ho
      | ok early =>
        cases early with
        | some r => simp [handshake, he] at ho
        | none =>
          have hserv : serving = true ∧ s.processRequest req.path req.headers = .ok none := by
            unfold earlyResponse at he
            split at he
            · cases he
            · split at he
              · rename_i h1 h2
                cases he
                exact ⟨h2, h1⟩
              · cases he
          rcases handshake_eq s serving req he with ⟨e, e', a, h1, _, h2⟩ | ⟨key, eh, sub, a, h1, h2⟩
          · rw [h2] at ho; cases ho
          rcases h2 with ⟨e, _, h2⟩ | ⟨r, h2, ⟨e, _, h3⟩ | ⟨b, o', h3, h4, p1, p2, p3, p4, p5, p6, p7⟩⟩
          · rw [h2] at ho; cases ho
          · rw [h3] at ho; cases ho
          · rw [h4] at ho
            cases ho
            rcases processRequest_spec s.py s.cfg hk with ⟨key', eh', sub', a', origin, g1, g2, g3, _⟩ |
              ⟨_, g1, _⟩ | ⟨_, _, g1, _⟩ | ⟨_, _, g1, _⟩
            · rw [h1] at g1
              cases g1
              rw [p4] at g2
              cases g2
              obtain ⟨extra, hx, _, _, _, _, _, hl⟩ := acceptResponse_ok g3.key.2.ascii h2
              refine ⟨req, key, eh, extra, rfl, hserv.1, hserv.2, g3, hx, by rw [p2, p7]; exact hl, ?_⟩
              unfold httpResponse at h3
              split at h3
              · cases h3
              · rename_i b' hb
                cases h3
                rw [p3, p2]
                simp only [Option.getD_none, List.append_nil]
                rw [← hb]
                have : p!"HTTP/1.1 101 Switching Protocols\r\n" =
                    p!"HTTP/1.1 " ++ decStr 101 ++ p!" " ++ p!"Switching Protocols" ++ [13, 10] := by
                  decide +kernel
                rw [this]
            · rw [h1] at g1; cases g1
            · rw [h1] at g1; cases g1
            · rw [h1] at g1; cases g1
  · split at h
    · cases h
    · split at h
      · cases h
      · split at h <;> cases h

/-! ## Rejections -/

/-- The names of the default headers of a rejection -/
def Spec.defaultNames : List PyStr := [p!"Date", p!"Server", p!"Content-Length", p!"Content-Type", p!"Connection"]

/-- The header lines of a rejection -/
def Spec.refusal (s : Setup X) (r : HttpResponse) : List (PyStr × PyStr) :=
  r.headers ++ [(p!"Date", s.date), (p!"Server", s.py.agent), (p!"Content-Length", decStr r.body.length),
    (p!"Content-Type", p!"text/plain"), (p!"Connection", p!"close")]

theorem errorHeaders_spec (s : Setup X) (r : HttpResponse)
    (h : ∀ n ∈ Spec.defaultNames, values r.headers n = []) :
    ∃ hd, errorHeaders s r = .ok hd ∧ hd.Ok pyLower ∧ hd.list = Spec.refusal s r := by
  have step : ∀ {h : Headers} (l : List (PyStr × PyStr)) {n d : PyStr}, h.Ok pyLower → h.list = l →
      values l n = [] → ∃ h', h.setdefault n d = .ok h' ∧ h'.Ok pyLower ∧ h'.list = l ++ [(n, d)] := by
    rintro h l n d hk rfl hv
    rcases hk.setdefault n d with ⟨_, h2⟩ | ⟨⟨v, e⟩, _⟩ | ⟨e, _⟩
    · exact ⟨_, h2, hk.set n d, rfl⟩
    · rw [hv] at e; cases e
    · rw [hv] at e; simp at e
  obtain ⟨k0, l0⟩ := Headers.ofList_ok r.headers
  have hv : ∀ n ∈ Spec.defaultNames, ∀ l, values l n = [] → values (r.headers ++ l) n = [] := by
    intro n hn l hl
    rw [values_append, h n hn, hl]
    rfl
  obtain ⟨h1, e1, k1, l1⟩ := step (n := p!"Date") (d := s.date) _ k0 l0 (h _ (by decide))
  obtain ⟨h2, e2, k2, l2⟩ := step (n := p!"Server") (d := s.py.agent) _ k1 l1 (hv _ (by decide) _ rfl)
  rw [List.append_assoc] at l2
  obtain ⟨h3, e3, k3, l3⟩ := step (n := p!"Content-Length") (d := decStr r.body.length) _ k2 l2
    (hv _ (by decide) _ rfl)
  rw [List.append_assoc] at l3
  obtain ⟨h4, e4, k4, l4⟩ := step (n := p!"Content-Type") (d := p!"text/plain") _ k3 l3 (hv _ (by decide) _ rfl)
  rw [List.append_assoc] at l4
  obtain ⟨h5, e5, k5, l5⟩ := step (n := p!"Connection") (d := p!"close") _ k4 l4 (hv _ (by decide) _ rfl)
  rw [List.append_assoc] at l5
  exact ⟨h5, by unfold errorHeaders; simp only [e1, e2, e3, e4, e5], k5, l5⟩

theorem encodable_toStr {h : Headers} (he : ∀ p ∈ h.list, Encodable p.1 ∧ Encodable p.2) :
    Encodable h.toStr := by
  intro c hc
  unfold Headers.toStr at hc
  rcases List.mem_append.1 hc with hc | hc
  · rw [List.mem_flatten] at hc
    obtain ⟨l, hl, hc⟩ := hc
    rw [List.mem_map] at hl
    obtain ⟨p, hp, rfl⟩ := hl
    have := he p hp
    simp only [List.mem_append] at hc
    rcases hc with ((hc | hc) | hc) | hc
    · exact this.1 c hc
    · exact encodable_ascii (s := p!": ") (by decide) c hc
    · exact this.2 c hc
    · exact encodable_ascii (s := [13, 10]) (by decide) c hc
  · exact encodable_ascii (s := [13, 10]) (by decide) c hc

/-- A response that can be written is written. -/
theorem refused_of {s : Setup X} {serving : Bool} {request : Option Request} {raised : Raised} {r : HttpResponse}
    (h : handshake s serving request = .error raised) (hr : errorResponse raised = some r)
    (hn : ∀ n ∈ Spec.defaultNames, values r.headers n = [])
    (henc : Encodable r.phrase ∧ (∀ p ∈ r.headers, Encodable p.1 ∧ Encodable p.2) ∧ Encodable s.date ∧
      Encodable s.py.agent) :
    ∃ hd w, openingHandshake s serving request = .refused r.status hd r.body (w ++ r.body) ∧
      hd.list = Spec.refusal s r ∧
      utf8Encode (p!"HTTP/1.1 " ++ decStr r.status ++ p!" " ++ r.phrase ++ p!"\r\n" ++ hd.toStr) = .ok w := by
  obtain ⟨hd, e1, k1, l1⟩ := errorHeaders_spec s r hn
  have hhd : Encodable hd.toStr := by
    refine encodable_toStr ?_
    intro p hp
    rw [l1] at hp
    unfold Spec.refusal at hp
    rcases List.mem_append.1 hp with hp | hp
    · exact henc.2.1 p hp
    · simp only [List.mem_cons, List.not_mem_nil, or_false] at hp
      rcases hp with rfl | rfl | rfl | rfl | rfl
      · exact ⟨encodable_ascii (s := p!"Date") (by decide), henc.2.2.1⟩
      · exact ⟨encodable_ascii (s := p!"Server") (by decide), henc.2.2.2⟩
      · exact ⟨encodable_ascii (s := p!"Content-Length") (by decide), encodable_ascii (decStr_ascii _)⟩
      · exact ⟨encodable_ascii (by decide), encodable_ascii (by decide)⟩
      · exact ⟨encodable_ascii (by decide), encodable_ascii (by decide)⟩
  obtain ⟨w, hw⟩ := utf8Encode_encodable (s := p!"HTTP/1.1 " ++ decStr r.status ++ p!" " ++ r.phrase ++
    [13, 10] ++ hd.toStr) (((((encodable_ascii (by decide)).append (encodable_ascii (decStr_ascii _))).append
      (encodable_ascii (by decide))).append henc.1).append (encodable_ascii (by decide)) |>.append hhd)
  refine ⟨hd, w, ?_, l1, hw⟩
  unfold openingHandshake
  rw [h]
  simp only
  rw [hr]
  simp only
  rw [e1]
  simp only [httpResponse]
  rw [hw]
  rfl

/-- The response for an exception whose message can be encoded -/
theorem errorResponse_spec (e : Exc) (he : Encodable e.str) :
    ∃ r, errorResponse (.exc e) = some r ∧ (r.status : Int) = e.status ∧
      r.headers = (if e.status = 426 then [(p!"Upgrade", p!"websocket")] else []) ∧ (∀ c ∈ r.phrase, c < 128) := by
  have hfail : Encodable p!"Failed to open a WebSocket connection" := encodable_ascii (by decide)
  have hlow : ∀ s : PyStr, (∀ c ∈ s, c < 128) → Encodable s := fun _ h => encodable_ascii h
  obtain ⟨b1, hb1⟩ := utf8Encode_encodable
    (((hfail.append (hlow p!": " (by decide))).append he).append (hlow p!".\n" (by decide)))
  obtain ⟨b2, hb2⟩ := utf8Encode_encodable
    ((((hfail.append (hlow p!": " (by decide))).append he).append
        (hlow p!".\n\nYou cannot access a WebSocket server directly " (by decide))).append
        (hlow p!"with a browser. You need a WebSocket client.\n" (by decide)))
  by_cases c1 : ∃ o, e = .invalidOrigin o
  · obtain ⟨o, rfl⟩ := c1
    refine ⟨{ status := 403, phrase := p!"Forbidden", headers := [], body := b1 }, ?_, rfl, rfl, ?_⟩
    · unfold errorResponse
      simp only [hb1]
    · show ∀ c ∈ p!"Forbidden", c < 128
      decide
  by_cases c2 : ∃ n v, e = .invalidUpgrade n v
  · obtain ⟨n, v, rfl⟩ := c2
    refine ⟨{ status := 426, phrase := p!"Upgrade Required", headers := [(p!"Upgrade", p!"websocket")],
              body := b2 }, ?_, rfl, rfl, ?_⟩
    · unfold errorResponse
      simp only [hb2]
    · show ∀ c ∈ p!"Upgrade Required", c < 128
      decide
  have hst : e.status = if e.isInvalidHandshake then 400 else 500 := by
    cases e <;> first | rfl | exact absurd ⟨_, rfl⟩ c1 | exact absurd ⟨_, _, rfl⟩ c2
  have her : errorResponse (.exc e) = if e.isInvalidHandshake then
      match utf8Encode (p!"Failed to open a WebSocket connection" ++ p!": " ++ e.str ++ p!".\n") with
      | .error _ => none
      | .ok body => some { status := 400, phrase := p!"Bad Request", headers := [], body }
      else some { status := 500, phrase := p!"Internal Server Error", headers := [],
                  body := b!"Failed to open a WebSocket connection.\nSee server log for more information.\n" } := by
    cases e <;> first | rfl | exact absurd ⟨_, rfl⟩ c1 | exact absurd ⟨_, _, rfl⟩ c2
  rw [her, hst]
  split
  · rw [hb1]
    exact ⟨_, rfl, rfl, rfl, show ∀ c ∈ p!"Bad Request", c < 128 by decide⟩
  · exact ⟨_, rfl, rfl, rfl, show ∀ c ∈ p!"Internal Server Error", c < 128 by decide⟩

/-- The names of the extensions and the parameters of their answers can be encoded. -/
def Spec.EncodableAnswers (fs : List (ServerFactory X)) : Prop :=
  ∀ f ∈ fs, Encodable f.name ∧ ∀ ps acc rps x, f.processRequestParams ps acc = .ok (rps, x) →
    ∀ p ∈ rps, Encodable p.1 ∧ ∀ v, p.2 = some v → Encodable v

theorem encodable_negotiated {fs : List (ServerFactory X)} {offers answers : List ExtHeader} {acc xs : List X}
    (h : Negotiated fs offers acc answers xs) (ha : Spec.EncodableAnswers fs) :
    ∀ e ∈ answers, Encodable (buildExtensionItem e) := by
  induction h with
  | nil => intro e he; cases he
  | skip _ _ ih => exact ih
  | take hf _ ih =>
    intro e he
    rcases List.mem_cons.1 he with rfl | he
    · obtain ⟨pre, f, post, h1, h2, h3, _⟩ := hf
      obtain ⟨a1, a2⟩ := ha f (by rw [h1]; simp)
      have a2 := a2 _ _ _ _ h3
      unfold buildExtensionItem
      refine encodable_strJoin (encodable_ascii (by decide)) ?_
      intro x hx
      rcases List.mem_cons.1 hx with rfl | hx
      · rw [← h2]
        exact a1
      · rw [List.mem_map] at hx
        obtain ⟨p, hp, rfl⟩ := hx
        obtain ⟨b1, b2⟩ := a2 p hp
        split
        · exact b1
        · rename_i v hv
          exact (b1.append (encodable_ascii (by decide))).append (b2 v hv)
    · exact ih e he

theorem encodable_withDefault {hs : List (PyStr × PyStr)} {n d : PyStr}
    (h : ∀ p ∈ hs, Encodable p.1 ∧ Encodable p.2) (hn : Encodable n) (hd : Encodable d) :
    ∀ p ∈ withDefault hs n d, Encodable p.1 ∧ Encodable p.2 := by
  intro p hp
  unfold withDefault at hp
  split at hp
  · rcases List.mem_append.1 hp with hp | hp
    · exact h p hp
    · simp only [List.mem_singleton] at hp
      subst hp
      exact ⟨hn, hd⟩
  · exact h p hp

theorem base64_ascii (b : Bytes) : ∀ c ∈ base64 b, c < 128 := by
  intro c hc
  unfold base64 at hc
  rcases List.mem_append.1 hc with hc | hc
  · rw [List.mem_map] at hc
    obtain ⟨x, _, rfl⟩ := hc
    rw [List.getD_eq_getElem?_getD]
    cases hg : b64Alphabet[ofBits x]? with
    | none => decide
    | some c =>
      have : ∀ c ∈ b64Alphabet, c < 128 := by decide +kernel
      exact this c (List.mem_of_getElem? hg)
  · rw [(List.mem_replicate.1 hc).2]
    decide

/-- The header lines of a 101 response can be encoded. -/
theorem encodable_response {s : Setup X} {req : Request} (hk : req.headers.Ok pyLower)
    (hextra : ∀ extra, s.cfg.extraHeaders req.path req.headers = .ok extra →
      ∀ p ∈ extra, Encodable p.1 ∧ Encodable p.2)
    (hans : Spec.EncodableAnswers (s.cfg.extensions.getD [])) (hdate : Encodable s.date)
    (hagent : Encodable s.py.agent) {key : PyStr} {eh sub : Option PyStr} {a : Assigned X}
    (h1 : s.cfg.processRequest s.py req = (.ok (key, eh, sub), a)) (hkey : ValidKey key) {r : Response}
    (hr : s.cfg.acceptResponse s.py s.date req key eh sub = .ok r) :
    ∀ p ∈ r.headers.list, Encodable p.1 ∧ Encodable p.2 := by
  obtain ⟨extra, hx, _, _, _, _, _, hl⟩ := acceptResponse_ok hkey.ascii hr
  obtain ⟨exts, he, _, hs, _⟩ := processRequest_assigned h1
  obtain ⟨offers, answers, _, hneg, heh⟩ := processExtensions_ok hk he
  rw [hl]
  refine encodable_withDefault (encodable_withDefault ?_ (encodable_ascii (by decide)) hdate)
    (encodable_ascii (by decide)) hagent
  intro p hp
  simp only [upgraded, List.mem_append, List.mem_cons, List.not_mem_nil, or_false] at hp
  rcases hp with (((rfl | rfl | rfl) | hp) | hp) | hp
  · exact ⟨encodable_ascii (by decide), encodable_ascii (by decide)⟩
  · exact ⟨encodable_ascii (by decide), encodable_ascii (by decide)⟩
  · refine ⟨encodable_ascii (s := p!"Sec-WebSocket-Accept") (by decide), encodable_ascii ?_⟩
    exact base64_ascii _
  · cases eh with
    | none => cases hp
    | some v =>
      simp only [optHeader, List.mem_singleton] at hp
      subst hp
      refine ⟨encodable_ascii (s := p!"Sec-WebSocket-Extensions") (by decide), ?_⟩
      split at heh
      · cases heh
      · cases heh
        unfold buildExtension
        refine encodable_strJoin (encodable_ascii (by decide)) ?_
        intro x hx
        rw [List.mem_map] at hx
        obtain ⟨e, he, rfl⟩ := hx
        exact encodable_negotiated hneg hans e he
  · cases sub with
    | none => cases hp
    | some v =>
      simp only [optHeader, List.mem_singleton] at hp
      subst hp
      refine ⟨encodable_ascii (s := p!"Sec-WebSocket-Protocol") (by decide), ?_⟩
      rcases processSubprotocol_ok hk hs with ⟨_, h2⟩ | ⟨offers, h2, h3⟩
      · cases h2
      · exact encodable_tokItems h2 _ h3.1
  · exact hextra extra hx p hp

/-- **C66.** If `process_request` doesn't return a response, the server isn't shutting down, the values of
the examined headers, of `Date` and of `Server` can be encoded, the application's extension factories raise
nothing but `NegotiationError` and its extra headers can be encoded, with at most one `Date` and one
`Server`, then the client gets the response that its request deserves: 101 if it's a valid handshake, 426
for a bad upgrade, 403 for a bad origin, 400 for any other invalid header; never 500.  (Missing: headers that
cannot be encoded, see `C66_status_false`.) -/
theorem C66_status_partial (s : Setup X) (req : Request) (hk : req.headers.Ok pyLower)
    (hnone : s.processRequest req.path req.headers = .ok none)
    (henc : EncodableRequest req.headers.list) (hdate : Encodable s.date) (hagent : Encodable s.py.agent)
    (hf : NegotiatesOnly (s.cfg.extensions.getD [])) (hx : ExtraOk s.cfg req)
    (hextra : ∀ extra, s.cfg.extraHeaders req.path req.headers = .ok extra →
      ∀ p ∈ extra, Encodable p.1 ∧ Encodable p.2)
    (hans : Spec.EncodableAnswers (s.cfg.extensions.getD [])) :
    (∃ o, openingHandshake s true (some req) = .opened o ∧
      Verdict s.cfg.origins (!(s.cfg.extensions.getD []).isEmpty) (!(s.cfg.subprotocols.getD []).isEmpty)
        req.headers.list 101) ∨
    (∃ status hd body w, openingHandshake s true (some req) = .refused status hd body w ∧ status ≠ 101 ∧
      Verdict s.cfg.origins (!(s.cfg.extensions.getD []).isEmpty) (!(s.cfg.subprotocols.getD []).isEmpty)
        req.headers.list status ∧
      hd.list = (if status = 426 then [(p!"Upgrade", p!"websocket")] else []) ++
        [(p!"Date", s.date), (p!"Server", s.py.agent), (p!"Content-Length", decStr body.length),
          (p!"Content-Type", p!"text/plain"), (p!"Connection", p!"close")]) := by
  have he : earlyResponse s true req = .ok none := by
    unfold earlyResponse
    rw [hnone]
    rfl
  rcases processRequest_spec s.py s.cfg hk with ⟨key, eh, sub, a, origin, g1, g2, g3, g4⟩ |
    ⟨a, g1, key, hv, hne⟩ | ⟨e, a, g1, hn, f, hfm, ps, acc, hfe⟩ | ⟨e, a, g1, _, hm, hver⟩
  · left
    obtain ⟨r, hr⟩ := acceptResponse_of (py := s.py) (date := s.date) (eh := eh) (sub := sub)
      g3.key.2.ascii hx
    rcases handshake_eq s true req he with ⟨e, e', a', h1, _, h2⟩ | ⟨key', eh', sub', a', h1, h2⟩
    · rw [g1] at h1; cases h1
    · rw [g1] at h1
      cases h1
      rcases h2 with ⟨e, h2, _⟩ | ⟨r', h2, h3⟩
      · rw [hr] at h2; cases h2
      · rw [hr] at h2
        cases h2
        have hwr := encodable_response hk hextra hans hdate hagent g1 g3.key.2 hr
        obtain ⟨b, hb⟩ := utf8Encode_encodable (s := p!"HTTP/1.1 " ++ decStr 101 ++ p!" " ++
          p!"Switching Protocols" ++ [13, 10] ++ r.headers.toStr)
          ((encodable_ascii (by decide +kernel)).append (encodable_toStr hwr))
        rcases h3 with ⟨e, h3, _⟩ | ⟨b', o, h3, h4, _⟩
        · unfold httpResponse at h3
          rw [hb] at h3
          cases h3
        · refine ⟨o, ?_, g4⟩
          unfold openingHandshake
          rw [h4]
  · exact absurd (henc p!"Sec-WebSocket-Key" (by decide) key (by rw [hv]; simp)) hne
  · obtain ⟨m, rfl⟩ := hf f hfm ps acc e hfe
    exact absurd rfl (hn m)
  · right
    rcases handshake_eq s true req he with ⟨e1, e', a', h1, hs, h2⟩ | ⟨key', eh', sub', a', h1, h2⟩
    · rw [g1] at h1
      cases h1
      obtain ⟨r, hr, hst, hhd, hph⟩ := errorResponse_spec e' (hs.encodable (hm henc))
      rw [hs.status] at hst hhd
      obtain ⟨hd, w, k1, k2, _⟩ := refused_of h2 hr (by
        rw [hhd]
        intro n hn
        split
        · have : ∀ n ∈ Spec.defaultNames, values [(p!"Upgrade", p!"websocket")] n = [] := by decide +kernel
          exact this n hn
        · rfl) ⟨encodable_ascii hph, (by
          rw [hhd]
          intro p hp
          split at hp
          · simp only [List.mem_singleton] at hp
            subst hp
            exact ⟨encodable_ascii (by decide), encodable_ascii (by decide)⟩
          · cases hp), hdate, hagent⟩
      refine ⟨_, hd, _, _, k1, ?_, by rw [hst]; exact hver, ?_⟩
      · intro h101
        rw [h101] at hst
        have hst : e.status = 101 := hst.symm
        unfold Exc.status at hst
        split at hst
        · cases hst
        · cases hst
        · split at hst <;> cases hst
      · rw [k2, Spec.refusal, hhd]
        congr 1
        have : (e.status = 426) ↔ (r.status = 426) := by omega
        simp only [this]
    · rw [g1] at h1; cases h1

/-- **C66.** A server that's shutting down doesn't open connections; unless `process_request` raises an
exception, the response is 503. -/
theorem C66_shutdown (s : Setup X) (req : Request) (r : Option HttpResponse)
    (hp : s.processRequest req.path req.headers = .ok r) (hdate : Encodable s.date) (hagent : Encodable s.py.agent) :
    ∃ hd body w, openingHandshake s false (some req) = .refused 503 hd body w := by
  have hr : handshake s false (some req) = .error (.abort
      { status := 503, phrase := p!"Service Unavailable", headers := [], body := b!"Server is shutting down.\n" }) := by
    unfold handshake earlyResponse
    simp only [hp]
    rfl
  obtain ⟨hd, w, k1, _⟩ := refused_of hr rfl (fun n _ => rfl)
    ⟨encodable_ascii (s := p!"Service Unavailable") (by decide), (fun p hp => by cases hp), hdate, hagent⟩
  exact ⟨hd, _, _, k1⟩

/-! ## Examples -/

/-- A server whose hook does nothing. -/
def exampleSetup (cfg : ServerConfig Unit) : Setup Unit :=
  { py := PyEnv.simple, cfg, processRequest := fun _ _ => .ok none, date := p!"now" }

/-- What the client gets: the status of the response, 0 if there is none. -/
def Outcome.status : Outcome X → Nat
  | .opened _ => 101
  | .refused status .. => status
  | .dropped => 0

/-- The client gets the response that its request deserves, whatever the request contains. -/
def RightStatus : Prop := ∀ (cfg : ServerConfig Unit) (req : Request), req.headers.Ok pyLower →
  cfg.extensions = none → (∀ path h, cfg.extraHeaders path h = .ok []) →
  Verdict cfg.origins (!(cfg.extensions.getD []).isEmpty) (!(cfg.subprotocols.getD []).isEmpty)
    req.headers.list (openingHandshake (exampleSetup cfg) true (some req)).status

theorem Verdict_known {origins : Option (List (Option PyStr))} {ext sub : Bool} {hs : List (PyStr × PyStr)}
    {n : Nat} (h : Verdict origins ext sub hs n) : n = 400 ∨ n = 403 ∨ n = 426 ∨ n = 101 := by
  cases h <;> simp

/-- **C66 doesn't hold for all requests**: when the version contains a byte that isn't UTF-8, which becomes
a lone surrogate, the message can't be encoded and the connection is closed without a response.  When the
key contains such a byte, the response is 500. -/
theorem C66_status_false : ¬ RightStatus ∧
    (openingHandshake (exampleSetup {}) true (some badVersionRequest)).status = 0 ∧
    (openingHandshake (exampleSetup {}) true (some badKeyRequest)).status = 500 := by
  have h0 : (openingHandshake (exampleSetup {}) true (some badVersionRequest)).status = 0 := by decide +kernel
  refine ⟨?_, h0, by decide +kernel⟩
  intro h
  have := Verdict_known (h {} badVersionRequest (Headers.ofList_ok _).1 rfl (fun _ _ => rfl))
  omega

-- A valid request is accepted; the attributes are those of the configuration.
example : (match openingHandshake (exampleSetup exampleConfig) true (some goodRequest) with
    | .opened o => (o.path, o.origin, o.subprotocol, o.headers.list.take 4) | _ => ([], none, none, [])) =
    (p!"/chat", some p!"http://a", some p!"superchat", [(p!"Upgrade", p!"websocket"), (p!"Connection", p!"Upgrade"),
      (p!"Sec-WebSocket-Accept", p!"s3pPLMBiTxaQ9kYGzzhZRbK+xOo="),
      (p!"Sec-WebSocket-Protocol", p!"superchat")]) := by decide +kernel

-- The hypotheses of `C66_status_partial` hold for this request.
example : ∃ o, openingHandshake (exampleSetup exampleConfig) true (some goodRequest) = .opened o := by
  have henc : ∀ n ∈ examined, ∀ v ∈ values goodRequest.headers.list n, ∀ c ∈ v, c < 128 := by
    decide +kernel
  rcases C66_status_partial (exampleSetup exampleConfig) goodRequest (Headers.ofList_ok _).1 rfl
    (fun n hn v hv => encodable_ascii (henc n hn v hv)) (encodable_ascii (s := p!"now") (by decide))
    (encodable_ascii (s := PyEnv.simple.agent) (by decide +kernel))
    (fun f hf => by cases hf) ⟨[], rfl, by decide, by decide⟩
    (fun extra he p hp => by cases he; cases hp) (fun f hf => by cases hf) with ⟨o, h, _⟩ | ⟨st, hd, b, w, h, hne, _⟩
  · exact ⟨o, h⟩
  · have : (openingHandshake (exampleSetup exampleConfig) true (some goodRequest)).status = 101 := by
      decide +kernel
    rw [h] at this
    exact absurd this hne

-- A server that's shutting down, a request from another origin, and something else than HTTP.
example : (openingHandshake (exampleSetup exampleConfig) false (some goodRequest)).status = 503 ∧
    (openingHandshake (exampleSetup { origins := some [some p!"http://b"] }) true (some goodRequest)).status = 403 ∧
    (openingHandshake (exampleSetup {}) true none).status = 400 := by decide +kernel

end WS.LegacyServer
