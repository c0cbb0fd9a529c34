import Verif.Lemmas.Server

/-!
# The server side of the opening handshake (C39-C41, C44-C46)
-/

namespace WS

open Spec

variable {X : Type}

/-! ## C39: valid handshakes -/

theorem accept_101 {py : PyEnv} {cfg : ServerConfig X} {date : PyStr} {req : Request}
    (hk : req.headers.Ok pyLower) {r : Response} {a : Assigned X}
    (h : cfg.accept py date req = (.ok r, a)) (hr : r.statusCode = 101) :
    ∃ key eh sub origin extra, cfg.processRequest py req = (.ok (key, eh, sub), a) ∧
      a.origin = some origin ∧ ValidRequest cfg.origins req.headers.list key origin ∧
      cfg.extraHeaders req.path req.headers = .ok extra ∧ r.headers.Ok pyLower ∧
      r.headers.list = withDefault (withDefault (upgraded key eh sub extra) p!"Date" date)
        p!"Server" py.agent ∧
      Verdict cfg.origins cfg.hasExt cfg.hasSub req.headers.list 101 := by
  have bad : ∀ e a', cfg.processRequest py req = (.error e, a') → False := by
    intro e a' he
    unfold ServerConfig.accept at h
    rw [he] at h
    simp only [Prod.mk.injEq] at h
    have := rejectExc_status h.1
    rw [hr] at this
    unfold Exc.status at this
    split at this
    · omega
    · omega
    · split at this <;> omega
  rcases processRequest_spec py cfg hk with ⟨key, eh, sub, a', origin, h1, h2, h3, h4⟩ |
    ⟨a', h1, _⟩ | ⟨e, a', h1, _⟩ | ⟨e, a', h1, _⟩
  · unfold ServerConfig.accept at h
    rw [h1] at h
    simp only [Prod.mk.injEq] at h
    obtain ⟨h5, rfl⟩ := h
    obtain ⟨extra, hx, _, _, _, _, hok, hl⟩ := acceptResponse_ok h3.key.2.ascii h5
    exact ⟨key, eh, sub, origin, extra, h1, h2, h3, hx, hok, hl, h4⟩
  · exact (bad _ _ h1).elim
  · exact (bad _ _ h1).elim
  · exact (bad _ _ h1).elim

/-- **C39.** `accept` returns a 101 response only if the request is a valid handshake from an
acceptable origin.  The response starts with the headers that RFC 6455 requires; the
`Sec-WebSocket-Accept` header is the base64 encoding of the SHA-1 hash of the key and the GUID, and
it is the only one unless the application adds another one. -/
theorem C39_upgrade (py : PyEnv) (cfg : ServerConfig X) (date : PyStr) (req : Request)
    (hk : req.headers.Ok pyLower) (r : Response) (a : Assigned X)
    (h : cfg.accept py date req = (.ok r, a)) (hr : r.statusCode = 101) :
    ∃ key origin tail, ValidRequest cfg.origins req.headers.list key origin ∧
      a.origin = some origin ∧
      r.headers.rawItems = [(p!"Upgrade", p!"websocket"), (p!"Connection", p!"Upgrade"),
        (p!"Sec-WebSocket-Accept", base64 (Sha1.digest
          ((key ++ p!"258EAFA5-E914-47DA-95CA-C5AB0DC85B11").map UInt8.ofNat)))] ++ tail ∧
      ∃ extra, cfg.extraHeaders req.path req.headers = .ok extra ∧
        (values extra p!"Sec-WebSocket-Accept" = [] → values tail p!"Sec-WebSocket-Accept" = []) := by
  obtain ⟨key, eh, sub, origin, extra, h1, h2, h3, hx, hok, hl, _⟩ := accept_101 hk h hr
  have hwd : ∀ (hs : List (PyStr × PyStr)) n d, ∃ t, withDefault hs n d = hs ++ t ∧
      (lower n ≠ lower p!"Sec-WebSocket-Accept" → values t p!"Sec-WebSocket-Accept" = []) := by
    intro hs n d
    unfold withDefault
    split
    · exact ⟨_, rfl, fun hne => by simp [values, valuesOf, hne]⟩
    · exact ⟨[], by simp, fun _ => rfl⟩
  obtain ⟨t1, e1, v1⟩ := hwd (upgraded key eh sub extra) p!"Date" date
  obtain ⟨t2, e2, v2⟩ := hwd (upgraded key eh sub extra ++ t1) p!"Server" py.agent
  rw [e1, e2] at hl
  refine ⟨key, origin, optHeader p!"Sec-WebSocket-Extensions" eh ++
    optHeader p!"Sec-WebSocket-Protocol" sub ++ extra ++ t1 ++ t2, h3, h2, ?_, extra, hx, ?_⟩
  · unfold Headers.rawItems
    rw [hl]
    simp only [upgraded, acceptFor, List.append_assoc]
  · intro hv
    have o : ∀ n (v : Option PyStr), lower n ≠ lower p!"Sec-WebSocket-Accept" →
        values (optHeader n v) p!"Sec-WebSocket-Accept" = [] := by
      intro n v hne
      cases v <;> simp [optHeader, values, valuesOf, hne]
    simp only [values_append]
    rw [o _ _ (by decide), o _ _ (by decide), hv, v1 (by decide), v2 (by decide)]
    rfl

/-! ## C40, C41: rejections -/

/-- The verdict is unique. -/
theorem Spec.Verdict.unique {origins : Option (List (Option PyStr))} {ext sub : Bool}
    {hs : List (PyStr × PyStr)} {s s' : Int} (h : Verdict origins ext sub hs s)
    (h' : Verdict origins ext sub hs s') : s = s' := by
  have w1 : HasUpgrade hs → WellFormed TokItem hs p!"Connection" := fun ⟨ts, h, _⟩ => ⟨ts, h⟩
  have w2 : UpgradeIsWebsocket hs → WellFormed ProtocolItem hs p!"Upgrade" := fun ⟨u, h, _⟩ => ⟨_, h⟩
  have w3 : ∀ o, OriginIs origins hs o → (values hs p!"Origin").length ≤ 1 := by
    intro o ho
    rw [ho.1]
    cases o <;> simp
  cases h with
  | badConnection => cases h' <;> first | rfl | (rename_i h; grind [ValidRequest])
  | notUpgrade => cases h' <;> first | rfl | grind [ValidRequest]
  | badUpgrade => cases h' <;> first | rfl | grind [ValidRequest]
  | notWebsocket => cases h' <;> first | rfl | grind [ValidRequest]
  | badKey => cases h' <;> first | rfl | grind [ValidRequest]
  | badVersion => cases h' <;> first | rfl | grind [ValidRequest]
  | manyOrigins => cases h' <;> first | rfl | grind [ValidRequest]
  | badOrigin => cases h' <;> first | rfl | grind [ValidRequest]
  | badExtensions => cases h' <;> first | rfl | grind [ValidRequest]
  | badSubprotocols => cases h' <;> first | rfl | grind [ValidRequest]
  | accepted => cases h' <;> first | rfl | grind [ValidRequest]

/-- The claim of C40: the status of every response is the one that the request deserves. -/
def Spec.RightStatus : Prop :=
  ∀ (py : PyEnv) (cfg : ServerConfig Unit) (date : PyStr) (req : Request) (r : Response)
    (a : Assigned Unit), req.headers.Ok pyLower → (cfg.extensions = none) →
    cfg.accept py date req = (.ok r, a) →
    Verdict cfg.origins (!(cfg.extensions.getD []).isEmpty) (!(cfg.subprotocols.getD []).isEmpty)
      req.headers.list r.statusCode

/-- The claim of C41: `accept` returns a response. -/
def Spec.AlwaysReturns : Prop :=
  ∀ (py : PyEnv) (cfg : ServerConfig Unit) (date : PyStr) (req : Request),
    req.headers.Ok pyLower → cfg.extensions = none →
    (∀ path h, cfg.extraHeaders path h = .ok []) →
    ∃ r, (cfg.accept py date req).1 = .ok r

/-- A list without duplicates. -/
def dedup : List PyStr → List PyStr
  | [] => []
  | x :: xs => if x ∈ xs then dedup xs else x :: dedup xs

theorem mem_dedup {x : PyStr} {l : List PyStr} : x ∈ dedup l ↔ x ∈ l := by
  induction l with
  | nil => simp [dedup]
  | cons y ys ih =>
    unfold dedup
    split <;> simp only [List.mem_cons, ih] <;> grind

theorem nodup_dedup (l : List PyStr) : (dedup l).Nodup := by
  induction l with
  | nil => exact List.nodup_nil
  | cons y ys ih =>
    unfold dedup
    split
    · exact ih
    · rename_i h
      exact List.nodup_cons.2 ⟨fun h' => h (mem_dedup.1 h'), ih⟩

/-- Sets in the order of the first list. -/
def PyEnv.simple : PyEnv where
  agent := p!"Python/3.10 websockets/10.0"
  setOrder a b := dedup (a.filter fun x => x ∈ b)
  setOrder_nodup a b := nodup_dedup _
  setOrder_mem a b x := by simp [mem_dedup]
  isV6 _ := false

/-- A request whose key isn't ASCII. -/
def badKeyRequest : Request :=
  { path := p!"/", headers := Headers.ofList [(p!"Connection", p!"Upgrade"),
      (p!"Upgrade", p!"websocket"), (p!"Sec-WebSocket-Key", [0xDC80]),
      (p!"Sec-WebSocket-Version", p!"13")] }

/-- A request whose version isn't ASCII. -/
def badVersionRequest : Request :=
  { path := p!"/", headers := Headers.ofList [(p!"Connection", p!"Upgrade"),
      (p!"Upgrade", p!"websocket"), (p!"Sec-WebSocket-Key", p!"dGhlIHNhbXBsZSBub25jZQ=="),
      (p!"Sec-WebSocket-Version", [0xDC80])] }

/-- **C40.** The claim is false: a key with a byte that isn't ASCII, which the parser represents
with a surrogate, is answered with 500 instead of 400. -/
theorem C40_status_false : ¬ RightStatus := by
  intro h
  have hh := h PyEnv.simple {} p!"now" badKeyRequest
  cases hr : (({} : ServerConfig Unit).accept PyEnv.simple p!"now" badKeyRequest) with
  | mk x a =>
    have hs : (match x with | .ok r => r.statusCode | .error _ => 0) = 500 := by
      have : (match (({} : ServerConfig Unit).accept PyEnv.simple p!"now" badKeyRequest).1 with
        | .ok r => r.statusCode | .error _ => 0) = 500 := by decide +kernel
      rw [hr] at this
      exact this
    cases x with
    | error e => simp at hs
    | ok r =>
      have := hh r a (Headers.ofList_ok _).1 rfl hr
      simp only at hs
      rw [hs] at this
      generalize hz : (500 : Int) = z at this
      cases this <;> cases hz

/-- **C41.** The claim is false: a version with a byte that isn't ASCII makes `accept` raise
`UnicodeEncodeError`, because the message of the response cannot be encoded. -/
theorem C41_returns_false : ¬ AlwaysReturns := by
  intro h
  obtain ⟨r, hr⟩ := h PyEnv.simple {} p!"now" badVersionRequest (Headers.ofList_ok _).1 rfl
    (fun _ _ => rfl)
  have : (match (({} : ServerConfig Unit).accept PyEnv.simple p!"now" badVersionRequest).1 with
    | .ok _ => true | .error _ => false) = false := by decide +kernel
  rw [hr] at this
  simp at this

theorem length_withDefault (hs : List (PyStr × PyStr)) (n d m : PyStr)
    (h : lower n ≠ lower m) : (values (withDefault hs n d) m).length = (values hs m).length := by
  rw [values_withDefault h]

/-- The factories of a server raise nothing but `NegotiationError`. -/
def Spec.NegotiatesOnly (fs : List (ServerFactory X)) : Prop :=
  ∀ f ∈ fs, ∀ ps acc e, f.processRequestParams ps acc = .error e → ∃ m, e = .negotiationError m

/-- The application provides at most one `Date` and one `Server` header. -/
def Spec.ExtraOk (cfg : ServerConfig X) (req : Request) : Prop :=
  ∃ extra, cfg.extraHeaders req.path req.headers = .ok extra ∧
    (values extra p!"Date").length ≤ 1 ∧ (values extra p!"Server").length ≤ 1

theorem acceptResponse_of {py : PyEnv} {cfg : ServerConfig X} {date : PyStr} {req : Request}
    {key : PyStr} {eh sub : Option PyStr} (hkey : ∀ c ∈ key, c < 128) (hx : ExtraOk cfg req) :
    ∃ r, cfg.acceptResponse py date req key eh sub = .ok r := by
  obtain ⟨extra, hx, hd, hs⟩ := hx
  obtain ⟨h, hk, hl, he⟩ := acceptResponse_headers (py := py) (date := date) (eh := eh)
    (sub := sub) cfg hkey hx
  have o : ∀ n m (v : Option PyStr), lower n ≠ lower m → values (optHeader n v) m = [] := by
    intro n m v hne
    cases v <;> simp [optHeader, values, valuesOf, hne]
  have hup : ∀ m, lower p!"Upgrade" ≠ lower m → lower p!"Connection" ≠ lower m →
      lower p!"Sec-WebSocket-Accept" ≠ lower m → lower p!"Sec-WebSocket-Extensions" ≠ lower m →
      lower p!"Sec-WebSocket-Protocol" ≠ lower m →
      values (upgraded key eh sub extra) m = values extra m := by
    intro m h1 h2 h3 h4 h5
    simp only [upgraded, values_append]
    rw [o _ _ _ h4, o _ _ _ h5]
    simp [values, valuesOf, h1, h2, h3]
  obtain ⟨h1, e1⟩ := hk.setdefault_of (n := p!"Date") (d := date) (by
    rw [hl, hup _ (by decide) (by decide) (by decide) (by decide) (by decide)]; exact hd)
  obtain ⟨k1, l1, _⟩ := hk.setdefault_ok e1
  obtain ⟨h2, e2⟩ := k1.setdefault_of (n := p!"Server") (d := py.agent) (by
    rw [l1, values_withDefault (by decide), hl,
      hup _ (by decide) (by decide) (by decide) (by decide) (by decide)]; exact hs)
  rw [he, e1]
  simp only [e2]
  exact ⟨_, rfl⟩

/-- **C40.** If the values of the examined headers can be encoded, the application's extension
factories raise nothing but `NegotiationError` and the application provides at most one `Date`
and one `Server` header, then `accept` returns the response that the request deserves: 101 if it's a
valid handshake, 426 for a bad upgrade, 403 for a bad origin, 400 for any other invalid header;
never 500.  Every rejection has a body of the length announced by `Content-Length` and
`Connection: close`; the 426 rejection has `Upgrade: websocket`.
(Missing: headers that cannot be encoded, see `C40_status_false` and `C41_returns_false`.) -/
theorem C40_status_partial (py : PyEnv) (cfg : ServerConfig X) (date : PyStr) (req : Request)
    (hk : req.headers.Ok pyLower) (henc : EncodableRequest req.headers.list)
    (hf : NegotiatesOnly (cfg.extensions.getD [])) (hx : ExtraOk cfg req) :
    ∃ r a, cfg.accept py date req = (.ok r, a) ∧
      Verdict cfg.origins (!(cfg.extensions.getD []).isEmpty) (!(cfg.subprotocols.getD []).isEmpty)
        req.headers.list r.statusCode ∧
      (r.statusCode ≠ 101 → ∃ body, r.body = some body ∧ r.headers.rawItems =
        (if r.statusCode = 426 then [(p!"Upgrade", p!"websocket")] else []) ++
        [(p!"Date", date), (p!"Server", py.agent), (p!"Content-Length", decStr body.length),
          (p!"Content-Type", p!"text/plain; charset=utf-8"), (p!"Connection", p!"close")]) := by
  unfold ServerConfig.accept
  rcases processRequest_spec py cfg hk with ⟨key, eh, sub, a, origin, h1, h2, h3, h4⟩ |
    ⟨a, h1, key, hv, hne⟩ | ⟨e, a, h1, hn, f, hfm, ps, acc, he⟩ | ⟨e, a, h1, _, hm, hver⟩
  · obtain ⟨r, hr⟩ := acceptResponse_of (py := py) (date := date) (eh := eh) (sub := sub)
      h3.key.2.ascii hx
    obtain ⟨_, _, h101, _⟩ := acceptResponse_ok h3.key.2.ascii hr
    refine ⟨r, a, by simp only [h1, hr], ?_, fun h => absurd h101 h⟩
    rw [h101]
    exact h4
  · exact absurd (henc p!"Sec-WebSocket-Key" (by decide) key (by rw [hv]; simp)) hne
  · obtain ⟨m, rfl⟩ := hf f hfm ps acc e he
    exact absurd rfl (hn m)
  · obtain ⟨r, body, hr, hs, hb, _, _, hl⟩ := rejectExc_spec py date e (hm henc)
    refine ⟨r, a, by simp only [h1, hr], hs ▸ hver, fun _ => ⟨body, hb, ?_⟩⟩
    unfold Headers.rawItems
    rw [hl, hs]
    rfl

/-- What the exception says about a header: nothing if the header is missing, else the elements of the lists in its
values. -/
inductive Spec.Shown {Item : PyStr → PyStr → Prop} (vs : List PyStr) : Option PyStr → Prop where
  | missing : vs = [] → Shown vs none
  | found {as} : vs ≠ [] → AllLists Item vs as → Shown vs (some (p!", ".intercalate as))

theorem strJoin_eq (sep : PyStr) (l : List PyStr) : strJoin sep l = sep.intercalate l := by
  induction l with
  | nil => rfl
  | cons x xs ih =>
    cases xs with
    | nil => simp [strJoin, List.intercalate]
    | cons y ys =>
      rw [strJoin, ih]
      simp [List.intercalate, List.intersperse]

theorem shown_joined {Item : PyStr → PyStr → Prop} {vs as : List PyStr} (h : AllLists Item vs as) (hn : vs ≠ [] → as ≠ []) :
    Spec.Shown (Item := Item) vs (joined as) := by
  unfold joined
  split
  · next he =>
    refine .missing ?_
    cases vs with
    | nil => rfl
    | cons v vs => exact absurd he (hn (by simp))
  · next he =>
    rw [strJoin_eq]
    refine .found ?_ h
    rintro rfl
    cases h
    exact he rfl

/-- **C40.** When the server or the client reports a bad upgrade, it reports the header which is bad and the value of
this header: no value if and only if the header is missing. -/
theorem C40_diagnosis {h : Headers} (hk : h.Ok pyLower) {name : PyStr} {value : Option PyStr}
    (he : checkUpgrade h = .error (.invalidUpgrade name value)) :
    (name = p!"Connection" ∧ ¬ HasUpgrade h.list ∧ Shown (Item := TokItem) (values h.list p!"Connection") value) ∨
    (name = p!"Upgrade" ∧ HasUpgrade h.list ∧ ¬ UpgradeIsWebsocket h.list ∧
      Shown (Item := ProtocolItem) (values h.list p!"Upgrade") value) := by
  have hs := checkUpgrade_spec hk
  rw [he] at hs
  rcases hs with ⟨h0, _⟩ | ⟨e, _, _, _, _, hbad⟩
  · cases h0
  unfold checkUpgrade at he
  rw [hk.all, hk.all] at he
  rcases parseAll_spec C33_connection (values h.list p!"Connection") with
    ⟨ts, h1, h2, h3⟩ | ⟨_, v, _, er, pos, he1, _⟩
  · simp only [h1] at he
    split at he
    · next hu =>
      simp only [Except.error.injEq, Exc.invalidUpgrade.injEq] at he
      obtain ⟨rfl, rfl⟩ := he
      refine .inl ⟨rfl, ?_, shown_joined h2 h3⟩
      rintro ⟨ts', h', t, ht, e⟩
      rw [h'.unique C33_connection h2] at ht
      simp only [Bool.not_eq_true', List.any_eq_false, beq_iff_eq] at hu
      exact hu t ht e
    · next hu =>
      have hup : HasUpgrade h.list := by
        simp only [Bool.not_eq_true', Bool.not_eq_false, List.any_eq_true, beq_iff_eq] at hu
        obtain ⟨t, ht, e⟩ := hu
        exact ⟨ts, h2, t, ht, e⟩
      rcases parseAll_spec C33_upgrade (values h.list p!"Upgrade") with
        ⟨us, h4, h5, h6⟩ | ⟨_, v, _, er, pos, he1, _⟩
      · simp only [h4] at he
        have : name = p!"Upgrade" ∧ value = joined us := by
          split at he
          · split at he
            · cases he
            · cases he; exact ⟨rfl, rfl⟩
          · cases he; exact ⟨rfl, rfl⟩
        obtain ⟨rfl, rfl⟩ := this
        exact .inr ⟨rfl, hup, fun hw => hbad ⟨hup, hw⟩, shown_joined h5 h6⟩
      · simp only [he1] at he
        cases he
  · simp only [he1] at he
    cases he

/-- **C41.** If the values of the examined headers and the messages of the factories' exceptions can
be encoded and the application provides at most one `Date` and one `Server` header, then `accept`
returns a response.  (Missing: other requests, see `C41_returns_false`.) -/
theorem C41_returns_partial (py : PyEnv) (cfg : ServerConfig X) (date : PyStr) (req : Request)
    (hk : req.headers.Ok pyLower) (henc : EncodableRequest req.headers.list)
    (hf : ∀ f ∈ cfg.extensions.getD [], ∀ ps acc e, f.processRequestParams ps acc = .error e →
      Encodable e.str) (hx : ExtraOk cfg req) :
    ∃ r a, cfg.accept py date req = (.ok r, a) := by
  unfold ServerConfig.accept
  have rej : ∀ e a, cfg.processRequest py req = (.error e, a) → Encodable e.str →
      ∃ r a, (match cfg.processRequest py req with
        | (.error e, a) => (rejectExc py date e, a)
        | (.ok (key, extensionsHeader, protocolHeader), a) =>
          (cfg.acceptResponse py date req key extensionsHeader protocolHeader, a)) = (.ok r, a) := by
    intro e a h1 he
    obtain ⟨r, _, hr, _⟩ := rejectExc_spec py date e he
    exact ⟨r, a, by simp only [h1, hr]⟩
  rcases processRequest_spec py cfg hk with ⟨key, eh, sub, a, origin, h1, h2, h3, h4⟩ |
    ⟨a, h1, key, hv, hne⟩ | ⟨e, a, h1, hn, f, hfm, ps, acc, he⟩ | ⟨e, a, h1, _, hm, hver⟩
  · obtain ⟨r, hr⟩ := acceptResponse_of (py := py) (date := date) (eh := eh) (sub := sub)
      h3.key.2.ascii hx
    exact ⟨r, a, by simp only [h1, hr]⟩
  · exact rej _ a h1 (by intro c hc; cases hc)
  · exact rej e a h1 (hf f hfm ps acc e he)
  · exact rej e a h1 (hm henc)

/-! ## C44, C45: subprotocols -/

theorem position_eq (l : List PyStr) (x : PyStr) : indexOf l x = position l x := by
  unfold indexOf position
  induction l with
  | nil => rfl
  | cons y ys ih =>
    by_cases h : y = x
    · simp [List.findIdx_cons, h]
    · have hb : (y == x) = false := by simpa using h
      simp [List.findIdx_cons, hb, h, ih]

theorem mem_insertBy {key : PyStr → Nat} {x y : PyStr} {l : List PyStr} :
    y ∈ insertBy key x l ↔ y = x ∨ y ∈ l := by
  induction l with
  | nil => simp [insertBy]
  | cons z zs ih =>
    unfold insertBy
    split
    · simp
    · simp only [List.mem_cons, ih]
      grind

theorem mem_sortedBy {key : PyStr → Nat} {y : PyStr} {l : List PyStr} :
    y ∈ sortedBy key l ↔ y ∈ l := by
  induction l with
  | nil => simp [sortedBy]
  | cons x xs ih => simp [sortedBy, mem_insertBy, ih]

theorem head_insertBy {key : PyStr → Nat} {x : PyStr} {l : List PyStr}
    (hl : ∀ h, l.head? = some h → ∀ y ∈ l, key h ≤ key y) :
    ∀ h, (insertBy key x l).head? = some h → ∀ y ∈ insertBy key x l, key h ≤ key y := by
  intro h hh y hy
  rw [mem_insertBy] at hy
  cases l with
  | nil =>
    simp [insertBy] at hh
    simp at hy
    subst hh; subst hy; omega
  | cons z zs =>
    have h2 := hl z rfl
    unfold insertBy at hh
    split at hh
    · simp at hh
      subst hh
      rcases hy with rfl | hy
      · omega
      · have := h2 y hy; omega
    · simp at hh
      subst hh
      rcases hy with rfl | hy
      · omega
      · exact h2 y hy

theorem head_sortedBy (key : PyStr → Nat) (l : List PyStr) :
    ∀ h, (sortedBy key l).head? = some h → ∀ y ∈ l, key h ≤ key y := by
  have : ∀ h, (sortedBy key l).head? = some h → ∀ y ∈ sortedBy key l, key h ≤ key y := by
    induction l with
    | nil => intro h hh; simp [sortedBy] at hh
    | cons x xs ih =>
      unfold sortedBy
      exact head_insertBy ih
  intro h hh y hy
  exact this h hh y (mem_sortedBy.2 hy)

/-- **C44.** `select_subprotocol` returns a subprotocol that the client and the server have in
common, such that no other one has a lower sum of positions; it returns `None` exactly if there is
no common subprotocol. -/
theorem C44_selection (py : PyEnv) (client server : List PyStr) :
    BestSubprotocol client server (selectSubprotocol py client server) := by
  unfold selectSubprotocol
  cases h : (sortedBy (fun p => indexOf client p + indexOf server p)
    (py.setOrder client server)).head? with
  | none =>
    intro q hq hq'
    have h0 : sortedBy (fun p => indexOf client p + indexOf server p)
      (py.setOrder client server) = [] := List.head?_eq_none_iff.1 h
    have := mem_sortedBy (key := fun p => indexOf client p + indexOf server p).2
      ((py.setOrder_mem client server q).2 ⟨hq, hq'⟩)
    rw [h0] at this
    cases this
  | some p =>
    have hp := (py.setOrder_mem client server p).1 (mem_sortedBy.1 (List.mem_of_mem_head? h))
    refine ⟨hp.1, hp.2, fun q h1 h2 => ?_⟩
    have := head_sortedBy _ _ p h q ((py.setOrder_mem client server q).2 ⟨h1, h2⟩)
    simp only [position_eq] at this
    exact this

-- "b" is second for the client and first for the server.
example : selectSubprotocol PyEnv.simple [p!"a", p!"b", p!"c"] [p!"b", p!"d", p!"a"] = some p!"b" := by
  decide +kernel

/-- What the server does with the `Sec-WebSocket-Protocol` headers of a request that it accepts. -/
theorem processSubprotocol_ok {py : PyEnv} {cfg : ServerConfig X} {h : Headers}
    (hk : h.Ok pyLower) {s : Option PyStr} (hs : cfg.processSubprotocol py h = .ok s) :
    (cfg.hasSub = false ∧ s = none) ∨
    ∃ offers, AllLists TokItem (values h.list p!"Sec-WebSocket-Protocol") offers ∧
      BestSubprotocol offers (cfg.subprotocols.getD []) s := by
  unfold ServerConfig.processSubprotocol at hs
  rw [hk.all] at hs
  simp only at hs
  split at hs
  · split at hs
    · cases hs
    · rename_i offers ho
      cases hs
      rcases parseAll_spec C33_subprotocol (values h.list p!"Sec-WebSocket-Protocol") with
        ⟨as, h1, h2, _⟩ | ⟨_, _, _, _, _, he, _⟩
      · rw [show parseAll parseSubprotocol (values h.list p!"Sec-WebSocket-Protocol") = .ok as
          from h1] at ho
        cases ho
        exact .inr ⟨_, h2, C44_selection py _ _⟩
      · rw [he] at ho
        cases ho
  · rename_i hc
    cases hs
    by_cases hv : values h.list p!"Sec-WebSocket-Protocol" = []
    · refine .inr ⟨[], by rw [hv]; exact .nil, ?_⟩
      intro q hq
      cases hq
    · left
      refine ⟨?_, rfl⟩
      have : cfg.subprotocols.getD [] = [] := Classical.byContradiction fun h => hc ⟨hv, h⟩
      simp [ServerConfig.hasSub, this]

theorem processRequest_assigned {py : PyEnv} {cfg : ServerConfig X} {req : Request}
    {key : PyStr} {eh sub : Option PyStr} {a : Assigned X}
    (h : cfg.processRequest py req = (.ok (key, eh, sub), a)) :
    ∃ exts, cfg.processExtensions req.headers = .ok (eh, exts) ∧ a.exts = some exts ∧
      cfg.processSubprotocol py req.headers = .ok sub ∧ a.subprotocol = some sub := by
  unfold ServerConfig.processRequest at h
  split at h
  · cases h
  · split at h
    · cases h
    · split at h
      · cases h
      · rename_i hx
        split at h
        · cases h
        · rename_i hs
          cases h
          exact ⟨_, hx, rfl, hs, rfl⟩

theorem values_response {py : PyEnv} {date key : PyStr} {eh sub : Option PyStr}
    {extra : List (PyStr × PyStr)} {n : PyStr} (h1 : lower p!"Date" ≠ lower n)
    (h2 : lower p!"Server" ≠ lower n) (hx : values extra n = []) :
    values (withDefault (withDefault (upgraded key eh sub extra) p!"Date" date) p!"Server" py.agent) n =
      values ([(p!"Upgrade", p!"websocket"), (p!"Connection", p!"Upgrade"),
        (p!"Sec-WebSocket-Accept", acceptFor key)] ++ optHeader p!"Sec-WebSocket-Extensions" eh ++
        optHeader p!"Sec-WebSocket-Protocol" sub) n := by
  rw [values_withDefault h2, values_withDefault h1, upgraded, values_append, hx, List.append_nil]

/-- **C44.** The subprotocol of an accepted connection is the best common one among those of the
`Sec-WebSocket-Protocol` headers of the request and those of the configuration; it is announced in
the `Sec-WebSocket-Protocol` header of the response, unless the application adds one. -/
theorem C44_accept (py : PyEnv) (cfg : ServerConfig X) (date : PyStr) (req : Request)
    (hk : req.headers.Ok pyLower) (r : Response) (a : Assigned X)
    (h : cfg.accept py date req = (.ok r, a)) (hr : r.statusCode = 101) :
    ∃ sub extra, a.subprotocol = some sub ∧
      ((cfg.subprotocols.getD [] = [] ∧ sub = none) ∨
        ∃ offers, AllLists TokItem (values req.headers.list p!"Sec-WebSocket-Protocol") offers ∧
          BestSubprotocol offers (cfg.subprotocols.getD []) sub) ∧
      cfg.extraHeaders req.path req.headers = .ok extra ∧
      (values extra p!"Sec-WebSocket-Protocol" = [] →
        values r.headers.list p!"Sec-WebSocket-Protocol" = sub.toList) := by
  obtain ⟨key, eh, sub, origin, extra, h1, h2, h3, hx, hok, hl, _⟩ := accept_101 hk h hr
  obtain ⟨exts, _, _, hs, ha⟩ := processRequest_assigned h1
  refine ⟨sub, extra, ha, ?_, hx, ?_⟩
  · rcases processSubprotocol_ok hk hs with ⟨h1, h2⟩ | h
    · refine .inl ⟨?_, h2⟩
      simpa [ServerConfig.hasSub] using h1
    · exact .inr h
  · intro hv
    rw [hl, values_response (by decide) (by decide) hv]
    cases eh <;> cases sub <;> rfl

/-- The claim of C45: the selection doesn't depend on the order of the intermediate set. -/
def Spec.DeterministicSelection : Prop :=
  ∀ (py py' : PyEnv) (client server : List PyStr),
    selectSubprotocol py client server = selectSubprotocol py' client server

/-- Sets in the order of the second list. -/
def PyEnv.reversed : PyEnv where
  agent := p!"Python/3.10 websockets/10.0"
  setOrder a b := dedup (b.filter fun x => x ∈ a)
  setOrder_nodup a b := nodup_dedup _
  setOrder_mem a b x := by simp [mem_dedup, and_comm]
  isV6 _ := false

/-- **C45.** The claim is false: when the client prefers "a" to "b" and the server "b" to "a", the
result depends on the iteration order of a set of strings, which Python randomises. -/
theorem C45_deterministic_false : ¬ DeterministicSelection := by
  intro h
  have := h PyEnv.simple PyEnv.reversed [p!"a", p!"b"] [p!"b", p!"a"]
  revert this
  decide +kernel

/-- **C45.** If no two common subprotocols have the same sum of positions, the selection is
deterministic.  (Missing: ties, see `C45_deterministic_false`.) -/
theorem C45_deterministic_partial (py py' : PyEnv) (client server : List PyStr)
    (h : ∀ p ∈ client, p ∈ server → ∀ q ∈ client, q ∈ server →
      rank client server p = rank client server q → p = q) :
    selectSubprotocol py client server = selectSubprotocol py' client server := by
  have h1 := C44_selection py client server
  have h2 := C44_selection py' client server
  generalize selectSubprotocol py client server = a at h1
  generalize selectSubprotocol py' client server = b at h2
  cases a with
  | none =>
    cases b with
    | none => rfl
    | some q => exact absurd h2.2.1 (h1 q h2.1)
  | some p =>
    cases b with
    | none => exact absurd h1.2.1 (h2 p h1.1)
    | some q =>
      have := h1.2.2 q h2.1 h2.2.1
      have := h2.2.2 p h1.1 h1.2.1
      rw [h p h1.1 h1.2.1 q h2.1 h2.2.1 (by omega)]

/-- Example: two common subprotocols, in different orders -/
example : let client := [p!"a", p!"b", p!"c"]; let server := [p!"b", p!"d", p!"a"]
    ∀ p ∈ client, p ∈ server → ∀ q ∈ client, q ∈ server → rank client server p = rank client server q → p = q := by
  decide +kernel

/-- **C45.** In particular the selection is deterministic if the client and the server prefer their
common subprotocols in the same order. -/
theorem C45_same_order_partial (py py' : PyEnv) (client server : List PyStr)
    (h : ∀ p ∈ client, p ∈ server → ∀ q ∈ client, q ∈ server →
      position client p < position client q → position server p < position server q) :
    selectSubprotocol py client server = selectSubprotocol py' client server := by
  have inj : ∀ (l : List PyStr) p q, p ∈ l → q ∈ l → position l p = position l q → p = q := by
    intro l
    induction l with
    | nil => intro p q hp; cases hp
    | cons x xs ih =>
      intro p q hp hq he
      unfold position at he ih
      by_cases h1 : x = p
      · by_cases h2 : x = q
        · rw [← h1, h2]
        · simp [h1, List.takeWhile_cons] at he
          rw [if_neg (by simpa [h1] using h2)] at he
          simp at he
      · by_cases h2 : x = q
        · simp [h2, List.takeWhile_cons] at he
          exact he.symm
        · simp [h1, h2, List.takeWhile_cons] at he
          refine ih p q ?_ ?_ ?_
          · rcases List.mem_cons.1 hp with rfl | hp
            · exact absurd rfl h1
            · exact hp
          · rcases List.mem_cons.1 hq with rfl | hq
            · exact absurd rfl h2
            · exact hq
          · simpa using he
  apply C45_deterministic_partial
  intro p hp hp' q hq hq' he
  unfold rank at he
  rcases Nat.lt_trichotomy (position client p) (position client q) with hlt | heq | hgt
  · have := h p hp hp' q hq hq' hlt; omega
  · exact inj client p q hp hq heq
  · have := h q hq hq' p hp hp' hgt; omega

/-- Example: two common subprotocols, in the same order -/
example : let client := [p!"a", p!"b", p!"c"]; let server := [p!"d", p!"a", p!"c"]
    ∀ p ∈ client, p ∈ server → ∀ q ∈ client, q ∈ server → position client p < position client q →
      position server p < position server q := by
  decide +kernel

/-! ## C46: extensions -/

/-- The first factory with this name that accepts the parameters. -/
def Spec.FirstMatch (fs : List (ServerFactory X)) (name : PyStr) (params : List ExtParam)
    (acc : List X) (response : List ExtParam) (x : X) : Prop :=
  ∃ pre f post, fs = pre ++ f :: post ∧ f.name = name ∧
    f.processRequestParams params acc = .ok (response, x) ∧
    ∀ g ∈ pre, g.name = name → ∃ m, g.processRequestParams params acc = .error (.negotiationError m)

/-- No factory with this name accepts the parameters. -/
def Spec.NoMatch (fs : List (ServerFactory X)) (name : PyStr) (params : List ExtParam)
    (acc : List X) : Prop :=
  ∀ g ∈ fs, g.name = name → ∃ m, g.processRequestParams params acc = .error (.negotiationError m)

/-- `Negotiated fs offers acc answers exts`: the answers and the extensions are those of the first
matching factory for each offer, in order, after `acc` have been enabled. -/
inductive Spec.Negotiated (fs : List (ServerFactory X)) :
    List ExtHeader → List X → List ExtHeader → List X → Prop where
  | nil {acc} : Negotiated fs [] acc [] []
  | skip {name params offers acc answers exts} : NoMatch fs name params acc →
      Negotiated fs offers acc answers exts →
      Negotiated fs ((name, params) :: offers) acc answers exts
  | take {name params offers acc answers exts response x} :
      FirstMatch fs name params acc response x →
      Negotiated fs offers (acc ++ [x]) answers exts →
      Negotiated fs ((name, params) :: offers) acc ((name, response) :: answers) (x :: exts)

theorem matchOffer_ok {fs : List (ServerFactory X)} {name : PyStr} {params : List ExtParam}
    {acc : List X} {o : Option (List ExtParam × X)} (h : matchOffer name params acc fs = .ok o) :
    (o = none ∧ NoMatch fs name params acc) ∨
    ∃ response x, o = some (response, x) ∧ FirstMatch fs name params acc response x := by
  induction fs with
  | nil =>
    cases h
    exact .inl ⟨rfl, by intro g hg; cases hg⟩
  | cons f fs ih =>
    have skip : (f.name = name →
        ∃ m, f.processRequestParams params acc = .error (.negotiationError m)) →
        matchOffer name params acc fs = .ok o →
        (o = none ∧ NoMatch (f :: fs) name params acc) ∨
        ∃ response x, o = some (response, x) ∧ FirstMatch (f :: fs) name params acc response x := by
      intro hf h'
      rcases ih h' with ⟨h1, h2⟩ | ⟨response, x, h1, pre, g, post, h2, h3, h4, h5⟩
      · refine .inl ⟨h1, ?_⟩
        intro g hg
        rcases List.mem_cons.1 hg with rfl | hg
        · exact hf
        · exact h2 g hg
      · refine .inr ⟨response, x, h1, f :: pre, g, post, by rw [h2]; rfl, h3, h4, ?_⟩
        intro g hg
        rcases List.mem_cons.1 hg with rfl | hg
        · exact hf
        · exact h5 g hg
    unfold matchOffer at h
    split at h
    · rename_i hn
      exact skip (fun e => absurd e hn) h
    · rename_i hn
      split at h
      · rename_i m hm
        exact skip (fun _ => ⟨m, hm⟩) h
      · cases h
      · rename_i r hr
        cases h
        exact .inr ⟨r.1, r.2, rfl, [], f, fs, rfl, Classical.byContradiction fun c => hn c,
          hr, by intro g hg; cases hg⟩

theorem matchOffers_ok {fs : List (ServerFactory X)} {offers : List ExtHeader}
    {exts : List ExtHeader} {acc : List X} {r : List ExtHeader × List X}
    (h : matchOffers fs exts acc offers = .ok r) :
    ∃ answers xs, r = (exts ++ answers, acc ++ xs) ∧ Negotiated fs offers acc answers xs := by
  induction offers generalizing exts acc with
  | nil =>
    cases h
    exact ⟨[], [], by simp, .nil⟩
  | cons o offers ih =>
    obtain ⟨name, params⟩ := o
    unfold matchOffers at h
    split at h
    · cases h
    · rename_i hm
      rcases matchOffer_ok hm with ⟨_, h2⟩ | ⟨_, _, h1, _⟩
      · obtain ⟨answers, xs, h3, h4⟩ := ih h
        exact ⟨answers, xs, h3, .skip h2 h4⟩
      · cases h1
    · rename_i response x hm
      rcases matchOffer_ok hm with ⟨h1, _⟩ | ⟨_, _, h1, h2⟩
      · cases h1
      · cases h1
        obtain ⟨answers, xs, h3, h4⟩ := ih h
        exact ⟨(name, response) :: answers, x :: xs, by simp [h3], .take h2 h4⟩

/-- The answers are to a sublist of the offers, in order. -/
theorem Spec.Negotiated.sublist {fs : List (ServerFactory X)} {offers answers : List ExtHeader}
    {acc xs : List X} (h : Negotiated fs offers acc answers xs) :
    (answers.map (·.1)).Sublist (offers.map (·.1)) ∧ answers.length = xs.length ∧
      ∀ e ∈ answers, ∃ f ∈ fs, f.name = e.1 := by
  induction h with
  | nil => exact ⟨List.Sublist.slnil, rfl, by simp⟩
  | skip _ _ ih => exact ⟨ih.1.cons _, ih.2⟩
  | take hf _ ih =>
    refine ⟨ih.1.cons_cons _, by simp [ih.2.1], ?_⟩
    intro e he
    rcases List.mem_cons.1 he with rfl | he
    · obtain ⟨pre, f, post, h1, h2, _⟩ := hf
      exact ⟨f, by rw [h1]; simp, h2⟩
    · exact ih.2.2 e he

theorem processExtensions_ok {cfg : ServerConfig X} {h : Headers} (hk : h.Ok pyLower)
    {eh : Option PyStr} {exts : List X} (hx : cfg.processExtensions h = .ok (eh, exts)) :
    ∃ offers answers, (cfg.extensions.getD [] = [] ∨
        AllLists ExtItem (values h.list p!"Sec-WebSocket-Extensions") offers) ∧
      Negotiated (cfg.extensions.getD []) offers [] answers exts ∧
      eh = if answers = [] then none else some (buildExtension answers) := by
  unfold ServerConfig.processExtensions at hx
  rw [hk.all] at hx
  simp only at hx
  split at hx
  · split at hx
    · cases hx
    · rename_i offers ho
      split at hx
      · cases hx
      · rename_i exts' acc hm
        cases hx
        obtain ⟨answers, xs, h1, h2⟩ := matchOffers_ok hm
        simp only [List.nil_append, Prod.mk.injEq] at h1
        obtain ⟨rfl, rfl⟩ := h1
        refine ⟨offers, _, .inr ?_, h2, rfl⟩
        rcases parseAll_spec C33_extension (values h.list p!"Sec-WebSocket-Extensions") with
          ⟨as, h1, h2, _⟩ | ⟨_, _, _, _, _, he, _⟩
        · rw [show parseAll parseExtension (values h.list p!"Sec-WebSocket-Extensions") = .ok as
            from h1] at ho
          cases ho
          exact h2
        · rw [he] at ho
          cases ho
  · rename_i hc
    cases hx
    refine ⟨[], [], ?_, .nil, rfl⟩
    by_cases hv : values h.list p!"Sec-WebSocket-Extensions" = []
    · right
      rw [hv]
      exact .nil
    · left
      have : (cfg.extensions.getD []).isEmpty = true := Classical.byContradiction fun h => hc ⟨hv, h⟩
      simpa using this

/-- **C46.** The extensions of an accepted connection are enabled by the server's factories: for
each offer of the `Sec-WebSocket-Extensions` headers of the request, in order, the first factory with
the same name that accepts its parameters, if any, provides an extension and the parameters of the
answer.  The `Sec-WebSocket-Extensions` header of the response lists exactly the answers, unless the
application adds one. -/
theorem C46_server (py : PyEnv) (cfg : ServerConfig X) (date : PyStr) (req : Request)
    (hk : req.headers.Ok pyLower) (r : Response) (a : Assigned X)
    (h : cfg.accept py date req = (.ok r, a)) (hr : r.statusCode = 101) :
    ∃ offers answers exts extra, a.exts = some exts ∧ (cfg.extensions.getD [] = [] ∨
        AllLists ExtItem (values req.headers.list p!"Sec-WebSocket-Extensions") offers) ∧
      Negotiated (cfg.extensions.getD []) offers [] answers exts ∧
      (answers.map (·.1)).Sublist (offers.map (·.1)) ∧ answers.length = exts.length ∧
      cfg.extraHeaders req.path req.headers = .ok extra ∧
      (values extra p!"Sec-WebSocket-Extensions" = [] →
        values r.headers.list p!"Sec-WebSocket-Extensions" =
          if answers = [] then [] else [buildExtension answers]) := by
  obtain ⟨key, eh, sub, origin, extra, h1, h2, h3, hx, hok, hl, _⟩ := accept_101 hk h hr
  obtain ⟨exts, he, ha, hs, _⟩ := processRequest_assigned h1
  obtain ⟨offers, answers, ho, hn, heh⟩ := processExtensions_ok hk he
  refine ⟨offers, answers, exts, extra, ha, ho, hn, hn.sublist.1, hn.sublist.2.1, hx, ?_⟩
  intro hv
  rw [hl, values_response (by decide) (by decide) hv, heh]
  split
  · cases sub <;> rfl
  · cases sub <;> rfl

/-! ## Examples -/

/-- A valid request that offers two subprotocols. -/
def goodRequest : Request :=
  { path := p!"/chat", headers := Headers.ofList [(p!"Host", p!"example.com"),
      (p!"connection", p!"keep-alive, Upgrade"), (p!"UPGRADE", p!"WebSocket"),
      (p!"Sec-WebSocket-Key", p!"dGhlIHNhbXBsZSBub25jZQ=="), (p!"Sec-WebSocket-Version", p!"13"),
      (p!"Origin", p!"http://a"), (p!"Sec-WebSocket-Protocol", p!"chat, superchat")] }

def exampleConfig : ServerConfig Unit :=
  { origins := some [some p!"http://a"], subprotocols := some [p!"superchat"] }

-- The hypotheses of the theorems above hold for this request, which is accepted.
example : goodRequest.headers.Ok pyLower ∧ ExtraOk exampleConfig goodRequest ∧
    (match (exampleConfig.accept PyEnv.simple p!"now" goodRequest).1 with
      | .ok r => (r.statusCode, r.headers.list.take 4) | .error _ => (0, [])) =
    (101, [(p!"Upgrade", p!"websocket"), (p!"Connection", p!"Upgrade"),
      (p!"Sec-WebSocket-Accept", p!"s3pPLMBiTxaQ9kYGzzhZRbK+xOo="),
      (p!"Sec-WebSocket-Protocol", p!"superchat")]) :=
  ⟨(Headers.ofList_ok _).1, ⟨[], rfl, by decide, by decide⟩, by decide +kernel⟩

example : EncodableRequest goodRequest.headers.list := by
  have : ∀ n ∈ examined, ∀ v ∈ values goodRequest.headers.list n, ∀ c ∈ v, c < 128 := by
    decide +kernel
  exact fun n hn v hv => encodable_ascii (this n hn v hv)

/-- Example for `C40_diagnosis`: the elements of two `Connection` headers; no `Upgrade` header -/
example : checkUpgrade (Headers.ofList [(p!"Connection", p!"close ,foo"), (p!"connection", p!"bar")]) =
      .error (.invalidUpgrade p!"Connection" (some p!"close, foo, bar")) ∧
    checkUpgrade (Headers.ofList [(p!"Connection", p!"Upgrade")]) = .error (.invalidUpgrade p!"Upgrade" none) := by
  decide +kernel

-- `Sha1.digest`, which is a transcription of FIPS 180-4, for a message of three blocks
example : Sha1.digest (b!"The quick brown fox jumps over the lazy dog. " ++ b!"The quick brown fox jumps over the lazy dog. "
      ++ b!"The quick brown fox jumps over the lazy dog. ") =
    [0xca, 0xd3, 0x6c, 0x9a, 0x7b, 0x06, 0x73, 0x25, 0x21, 0x99,
      0x99, 0x93, 0x93, 0x7a, 0x68, 0x8d, 0xbb, 0x8f, 0x9b, 0x99] := by decide +kernel

end WS
