import Verif.Props.Agreement
import Verif.Props.LegacyServer
import Verif.Props.LegacyClient
import Verif.Props.LegacyStream

/-!
# C83: the opening handshake between the sans-I/O implementation and the legacy implementation

All four combinations of a client and a server, at the level of the bytes that they exchange.
-/

namespace WS.Interop

open Spec Legacy

variable {X : Type}

/-- The two implementations of the opening handshake. -/
inductive Impl where
  /-- client.py, server.py, connection.py, streams.py -/
  | sansio
  /-- legacy/client.py, legacy/server.py, legacy/http.py, on `asyncio.StreamReader` -/
  | legacy
deriving DecidableEq, Repr

/-- The task of a legacy connection has returned a value, or it's going to when the event loop runs it
once; `P` relates the value and the bytes that the stream reader holds then. -/
def Spec.Settles {α : Type} (e : Legacy.Endpoint α) (P : α → Bytes → Prop) : Prop :=
  match e.task with
  | .ended (some (.ok a)) => P a e.reader.buf
  | .ready _ => ∃ e', e.step .run = some e' ∧ ∃ a, e'.task = .ended (some (.ok a)) ∧ P a e'.reader.buf
  | _ => False

/-- The parameters of a server of either implementation: its configuration, and what only one of both
implementations takes. -/
structure ServerSide (X : Type) where
  setup : LegacyServer.Setup X
  ops : ExtOps X
  rand : Nat → Bytes
  rand_len : ∀ i, (rand i).length = 4
  maxSize : Option Int
  readLimit : Nat

/-- The parameters of a client of either implementation. -/
structure ClientSide (X : Type) where
  py : PyEnv
  cfg : ClientConfig X
  ops : ExtOps X
  rand : Nat → Bytes
  rand_len : ∀ i, (rand i).length = 4
  maxSize : Option Int
  readLimit : Nat

def ServerSide.env (s : ServerSide X) : Env X Request ServerCall :=
  s.setup.cfg.env s.setup.py s.ops s.rand s.rand_len

def ClientSide.env (c : ClientSide X) : Env X Response ClientCall := c.cfg.env c.ops c.rand c.rand_len

/-- A server of this implementation which receives the bytes `b`, in any pieces, accepts the
connection: it writes `written` and it has these extensions and this subprotocol; then it expects a
frame, and it has delivered none. -/
def Spec.ServerOpens (s : ServerSide X) (b written : Bytes) (exts : List X) (sub : Option PyStr) : Impl → Prop
  | .sansio =>
    ∀ chunks : List Bytes, chunks.flatten = b →
      let s1 := ((serverInit s.maxSize).feedAll s.env chunks).2
      ∃ req r a, s1.core.events = [.handshake req] ∧
        s.setup.cfg.accept s.setup.py s.setup.date req = (.ok r, a) ∧
        let s2 := (s1.apply s.env (.handshake (.accept s.setup.date req))).2
        let t := s2.apply s.env (.handshake (.sendResponse r))
        t.1 = none ∧ t.2.core.state = .opened ∧ t.2.core.writes.flatten = written ∧ t.2.core.exts = exts ∧
          t.2.core.subprotocol = sub ∧ t.2.AtFrame .server ∧ eventFrames t.2.core.events = []
  | .legacy =>
    ∀ as e, Legacy.Spec.SingleRead as → Legacy.Spec.fedEof as = false → Legacy.Spec.fed as = b →
      Legacy.Endpoint.exec ⟨.init s.readLimit, .ready readRequest⟩ as = some e →
      Settles e fun a rest => rest = [] ∧ ∃ o,
        LegacyServer.openingHandshake s.setup true (some ⟨a.1, a.2⟩) = .opened o ∧ o.written = written ∧
          o.exts = exts ∧ o.subprotocol = sub

/-- The bytes of the request of a client of this implementation. -/
def Spec.ClientSends (c : ClientSide X) (req : Request) (b : Bytes) : Impl → Prop
  | .sansio => ((clientInit c.maxSize c.cfg.origin).apply c.env (.handshake (.sendRequest req))).2.core.writes = [b]
  | .legacy => LegacyClient.request c.py c.cfg = .ok b

/-- A client of this implementation, which has sent the request `req` and which receives the bytes
`w`, in any pieces, is connected: it has these extensions and this subprotocol; then it expects a
frame, and it has delivered none. -/
def Spec.ClientOpens (c : ClientSide X) (req : Request) (w : Bytes) (exts : List X) (sub : Option PyStr) :
    Impl → Prop
  | .sansio =>
    ∀ chunks : List Bytes, chunks.flatten = w →
      let c1 := ((clientInit c.maxSize c.cfg.origin).apply c.env (.handshake (.sendRequest req))).2
      let c2 := (c1.feedAll c.env chunks).2
      c2.core.state = .opened ∧ c2.core.exts = exts ∧ c2.core.subprotocol = sub ∧ c2.AtFrame .client ∧
        eventFrames c2.core.events = []
  | .legacy =>
    ∀ as e, Legacy.Spec.SingleRead as → Legacy.Spec.fedEof as = false → Legacy.Spec.fed as = w →
      Legacy.Endpoint.exec ⟨.init c.readLimit, .ready readResponse⟩ as = some e →
      Settles e fun a rest => rest = [] ∧
        LegacyClient.response c.cfg a.1 a.2.2 = .ok ⟨c.cfg.uri, exts, sub⟩

open Interop.Spec

/-! ## Reading in the legacy implementation -/

theorem exec_snoc {α : Type} {e e' : Legacy.Endpoint α} {as : List (IoAct α)} (h : e.exec as = some e') (a : IoAct α) :
    e.exec (as ++ [a]) = e'.step a := by
  induction as generalizing e with
  | nil =>
    simp only [Endpoint.exec, Option.some.injEq] at h
    subst h
    simp only [List.nil_append, Endpoint.exec]
    cases e.step a <;> rfl
  | cons b as ih =>
    simp only [Endpoint.exec, List.cons_append] at h ⊢
    cases hb : e.step b with
    | none => simp [hb] at h
    | some e1 =>
      simp only [hb] at h ⊢
      exact ih h

theorem fed_snoc_run {α : Type} (as : List (IoAct α)) :
    Legacy.Spec.fed (as ++ [.run]) = Legacy.Spec.fed as ∧
      Legacy.Spec.fedEof (as ++ [.run]) = Legacy.Spec.fedEof as := by
  induction as with
  | nil => exact ⟨rfl, rfl⟩
  | cons a as ih => cases a <;> simp_all [Legacy.Spec.fed, Legacy.Spec.fedEof]

theorem single_snoc_run {α : Type} {as : List (IoAct α)} (h : Legacy.Spec.SingleRead as) :
    Legacy.Spec.SingleRead (as ++ [.run]) := by
  intro a ha
  rcases List.mem_append.1 ha with ha | ha
  · exact h a ha
  · exact .inl (List.mem_singleton.1 ha)

/-- When a task can run, one step ends it or suspends it. -/
theorem step_run {α : Type} {e : Legacy.Endpoint α} {c : Coro α} (h : e.task = .ready c) :
    ∃ e', e.step .run = some e' ∧ ∀ c', e'.task ≠ .ready c' := by
  simp only [Endpoint.step, h]
  split <;> exact ⟨_, rfl, by simp⟩

/-- All tasks that are neither suspended nor raise settle. -/
theorem settles_of {α : Type} {e0 : Legacy.Endpoint α} {as : List (IoAct α)} {e : Legacy.Endpoint α}
    (ha : Legacy.Spec.SingleRead as) (he : e0.exec as = some e) {P : α → Bytes → Prop}
    (h : ∀ as' e', Legacy.Spec.SingleRead as' → Legacy.Spec.fed as' = Legacy.Spec.fed as →
      Legacy.Spec.fedEof as' = Legacy.Spec.fedEof as → e0.exec as' = some e' →
      match e'.task with
      | .ended (some (.ok a)) => P a e'.reader.buf
      | .ready _ => True
      | _ => False) : Settles e P := by
  have h1 := h as e ha rfl rfl he
  unfold Settles
  cases ht : e.task with
  | ready c =>
    simp only
    obtain ⟨e', hs, hn⟩ := step_run ht
    refine ⟨e', hs, ?_⟩
    have h2 := h (as ++ [.run]) e' (single_snoc_run ha) (fed_snoc_run as).1 (fed_snoc_run as).2
      (by rw [exec_snoc he]; exact hs)
    cases ht' : e'.task with
    | ready c' => exact absurd ht' (hn c')
    | waiting c' => simp [ht'] at h2
    | ended res =>
      cases res with
      | none => simp [ht'] at h2
      | some r =>
        cases r with
        | error x => simp [ht'] at h2
        | ok a => simp only [ht'] at h2; exact ⟨a, rfl, h2⟩
  | waiting c => simp [ht] at h1
  | ended res =>
    cases res with
    | none => simp [ht] at h1
    | some r =>
      cases r with
      | error x => simp [ht] at h1
      | ok a => simp only [ht] at h1; exact h1

theorem Spec.Settles.mono {α : Type} {e : Legacy.Endpoint α} {P Q : α → Bytes → Prop} (h : Settles e P)
    (hpq : ∀ a b, P a b → Q a b) : Settles e Q := by
  unfold Settles at h ⊢
  split <;> rename_i ht <;> simp only [ht] at h
  · exact hpq _ _ h
  · obtain ⟨e', h1, a, h2, h3⟩ := h
    exact ⟨e', h1, a, h2, hpq _ _ h3⟩

theorem Spec.Settles.and {α : Type} {e : Legacy.Endpoint α} {P Q : α → Bytes → Prop} (h : Settles e P)
    (h' : Settles e Q) : Settles e fun a b => P a b ∧ Q a b := by
  unfold Settles at h h' ⊢
  split <;> rename_i ht <;> simp only [ht] at h h'
  · exact ⟨h, h'⟩
  · obtain ⟨e1, h1, a, h2, h3⟩ := h
    obtain ⟨e2, g1, b, g2, g3⟩ := h'
    rw [h1] at g1
    cases g1
    rw [h2] at g2
    cases g2
    exact ⟨e1, h1, a, h2, h3, g3⟩

theorem Spec.Settles.value {α : Type} {e : Legacy.Endpoint α} {P : α → Bytes → Prop} (h : Settles e P) :
    ∃ a b, P a b := by
  unfold Settles at h
  split at h
  · exact ⟨_, _, h⟩
  · obtain ⟨e', _, a, _, h3⟩ := h
    exact ⟨_, _, h3⟩
  · exact h.elim

theorem sofar_init {α : Type} (n : Nat) (c : Coro α) (as : List (IoAct α)) :
    Legacy.Spec.sofar ⟨.init n, .ready c⟩ as = ⟨Legacy.Spec.fed as, Legacy.Spec.fedEof as⟩ := by
  simp [Legacy.Spec.sofar, AReader.init]

/-- A task reads what the same coroutine reads from all the bytes at once. -/
theorem settles_read {α : Type} {c : Coro α} (hc : c.Fresh) (hcare : Careful c) {n : Nat} (hn : 8218 ≤ n)
    {b rest : Bytes} {v : α} (hp : c.run ⟨b, false⟩ = .done v ⟨rest, false⟩) {as : List (IoAct α)}
    {e : Legacy.Endpoint α} (ha : Legacy.Spec.SingleRead as) (hf : Legacy.Spec.fedEof as = false)
    (hb : Legacy.Spec.fed as = b)
    (he : Legacy.Endpoint.exec ⟨.init n, .ready c⟩ as = some e) :
    Settles e fun a r => a = v ∧ r = rest := by
  refine settles_of ha he fun as' e' ha' hb' hf' he' => ?_
  have h0 : Sim (fun n => maxLine ≤ n + 1) Careful (fun _ s => Never c s) c
      (AReader.init n).plain ⟨.init n, .ready c⟩ :=
    ⟨rfl, by simp only [AReader.init, maxLine]; omega, .fresh hc, hcare, rfl⟩
  obtain ⟨_, _, h⟩ := h0.exec hc (rules_careful _ hc) ha' he'
  have hs : (AReader.init n).plain.more (Legacy.Spec.fed as')
      ((AReader.init n).plain.eof || Legacy.Spec.fedEof as') = ⟨b, false⟩ := by
    rw [hb', hf', hb, hf]
    rfl
  rw [hs] at h
  cases ht : e'.task with
  | ready c => trivial
  | waiting c' =>
    simp only [ht] at h
    rw [hp] at h
    exact nomatch h.2.2
  | ended res =>
    cases res with
    | none => simp [ht] at h
    | some r =>
      cases r with
      | error x =>
        simp only [ht] at h
        exact absurd (by simpa [Reader.more] using hp) (h [] false (fun h => by cases h) v ⟨rest, false⟩)
      | ok a =>
        simp only [ht] at h ⊢
        rw [hp] at h
        cases hr : e'.reader with
        | mk l bf ef pa =>
          rw [hr] at h
          cases h
          exact ⟨rfl, rfl⟩

theorem run_request {x y : Reader} {req : Request} :
    Request.parse.run x = .done req y ↔ readRequest.run x = .done (req.path, req.headers) y := by
  rw [readRequest_eq, Coro.run_bind]
  cases h : readRequest.run x with
  | done a r =>
    constructor
    · intro h
      cases h
      rfl
    · intro h
      cases h
      rfl
  | raised e r => constructor <;> intro h <;> cases h
  | blocked c r => constructor <;> intro h <;> cases h

/-- A legacy server reads the request that `Request.parse` reads. -/
theorem settles_request {n : Nat} (hn : 8218 ≤ n) {b rest : Bytes} {req : Request}
    (hp : Request.parse.run ⟨b, false⟩ = .done req ⟨rest, false⟩) {as : List (IoAct (PyStr × Headers))}
    {e : Legacy.Endpoint (PyStr × Headers)} (ha : Legacy.Spec.SingleRead as) (hf : Legacy.Spec.fedEof as = false)
    (hb : Legacy.Spec.fed as = b)
    (he : Legacy.Endpoint.exec ⟨.init n, .ready readRequest⟩ as = some e) :
    Settles e fun a r => a = (req.path, req.headers) ∧ r = rest :=
  settles_read readRequest_fresh readRequest_careful hn (run_request.1 hp) ha hf hb he

theorem parseBody_done {status : Int} {reason : PyStr} {headers : Headers} {x y : Reader} {r : Response}
    (h : (Response.parseBody status reason headers).run x = .done r y) :
    r.statusCode = status ∧ r.headers = headers ∧ (status = 101 → x = y) := by
  unfold Response.parseBody at h
  split at h
  · cases h
  · split at h
    · cases h
      exact ⟨rfl, rfl, fun _ => rfl⟩
    · rename_i hb
      have hne : status ≠ 101 := by
        rintro rfl
        exact hb (by decide)
      have key : ∀ (c : Coro Bytes), (c.bind fun body =>
          .ret { statusCode := status, reason, headers, body := some body }).run x = .done r y →
          r.statusCode = status ∧ r.headers = headers := by
        intro c hc
        rw [Coro.run_bind] at hc
        cases hr : c.run x with
        | done a q => rw [hr] at hc; cases hc; exact ⟨rfl, rfl⟩
        | raised a q => rw [hr] at hc; cases hc
        | blocked a q => rw [hr] at hc; cases hc
      split at h
      · exact ⟨(key _ h).1, (key _ h).2, fun h => absurd h hne⟩
      · cases h
      · split at h
        · cases h
        · split at h
          · cases h
          · exact ⟨(key _ h).1, (key _ h).2, fun h => absurd h hne⟩

/-- A legacy client reads a response. -/
theorem settles_response {n : Nat} (hn : 8218 ≤ n) {b rest : Bytes} {v : Int × PyStr × Headers}
    (hp : readResponse.run ⟨b, false⟩ = .done v ⟨rest, false⟩)
    {as : List (IoAct (Int × PyStr × Headers))} {e : Legacy.Endpoint (Int × PyStr × Headers)}
    (ha : Legacy.Spec.SingleRead as) (hf : Legacy.Spec.fedEof as = false) (hb : Legacy.Spec.fed as = b)
    (he : Legacy.Endpoint.exec ⟨.init n, .ready readResponse⟩ as = some e) :
    Settles e fun a x => a = v ∧ x = rest :=
  settles_read readResponse_fresh readResponse_careful hn hp ha hf hb he

/-- `Response.parse` reads the body after what `read_response` reads. -/
theorem run_response {x y : Reader} {v : Int × PyStr × Headers} (h : readResponse.run x = .done v y) :
    Response.parse.run x = (Response.parseBody v.1 v.2.1 v.2.2).run y := by
  rw [readResponse_eq, Coro.run_bind, h]
  rfl

theorem response_head {x y : Reader} {r : Response} (h : Response.parse.run x = .done r y)
    (h101 : r.statusCode = 101) : ∃ reason, readResponse.run x = .done (101, reason, r.headers) y := by
  rw [readResponse_eq, Coro.run_bind] at h
  cases hr : readResponse.run x with
  | done v q =>
    rw [hr] at h
    obtain ⟨h1, h2, h3⟩ := parseBody_done h
    obtain ⟨st, reason, hd⟩ := v
    simp only at h1 h2 h3
    have hst : st = 101 := by rw [← h1]; exact h101
    rw [h3 hst, hst, ← h2]
    exact ⟨reason, rfl⟩
  | raised e q => rw [hr] at h; exact nomatch h
  | blocked c q => rw [hr] at h; exact nomatch h

/-- Everything arrives at once. -/
theorem exec_once {α : Type} (n : Nat) (c : Coro α) (b : Bytes) :
    ∃ e, Legacy.Endpoint.exec ⟨.init n, .ready c⟩ [.data b] = some e ∧
      Legacy.Spec.SingleRead [IoAct.data (α := α) b] ∧ Legacy.Spec.fedEof [IoAct.data (α := α) b] = false ∧
      Legacy.Spec.fed [IoAct.data (α := α) b] = b := by
  have h1 : Legacy.Spec.SingleRead [IoAct.data (α := α) b] :=
    fun a ha => .inr (.inr ⟨b, List.mem_singleton.1 ha⟩)
  have h2 : Legacy.Spec.fed [IoAct.data (α := α) b] = b := by simp [Legacy.Spec.fed]
  by_cases hb : b = []
  · exact ⟨⟨.init n, .ready c⟩, by simp [Endpoint.exec, Endpoint.step, AReader.init, hb], h1, rfl, h2⟩
  · exact ⟨⟨(AReader.init n).feedData b, .ready c⟩,
      by simp [Endpoint.exec, Endpoint.step, AReader.init, hb, Task.wakeup], h1, rfl, h2⟩

/-! ## Servers -/

theorem acceptResponse_shape {py : PyEnv} {cfg : ServerConfig X} {date : PyStr} {req : Request}
    {key : PyStr} {eh sub : Option PyStr} {r : Response}
    (h : cfg.acceptResponse py date req key eh sub = .ok r) :
    r.statusCode = 101 ∧ r.reason = p!"Switching Protocols" ∧ r.body = none := by
  unfold ServerConfig.acceptResponse at h
  split at h
  · cases h
  · simp only at h
    split at h
    · cases h
    · split at h
      · cases h
      · split at h
        · cases h
        · cases h
          exact ⟨rfl, rfl, rfl⟩

theorem utf8Encode_right {a b : PyStr} {x : Bytes} (h : utf8Encode (a ++ b) = .ok x) :
    ∃ y, utf8Encode b = .ok y :=
  utf8Encode_encodable fun c hc => encodable_of_utf8Encode h c (by simp [hc])

/-- Both servers write the same bytes for the same response. -/
theorem httpResponse_iff {r : Response} (h1 : r.statusCode = 101) (h2 : r.reason = p!"Switching Protocols")
    (h3 : r.body = none) (w : Bytes) :
    LegacyServer.httpResponse 101 p!"Switching Protocols" r.headers none = .ok w ↔ r.serialize = .ok w := by
  have hline : ∃ x, utf8Encode (p!"HTTP/1.1 " ++ decStr 101 ++ p!" " ++ p!"Switching Protocols" ++ [13, 10]) =
      .ok x := by
    refine utf8Encode_encodable (encodable_ascii ?_)
    decide +kernel
  obtain ⟨x, hx⟩ := hline
  have hi : intStr (101 : Int) = decStr 101 := rfl
  unfold LegacyServer.httpResponse Response.serialize
  rw [h1, h2, h3, hi, hx]
  simp only
  constructor
  · intro h
    cases he : utf8Encode (p!"HTTP/1.1 " ++ decStr 101 ++ p!" " ++ p!"Switching Protocols" ++ [13, 10] ++
        r.headers.toStr) with
    | error e => rw [he] at h; cases h
    | ok y =>
      rw [he] at h
      obtain ⟨z, hz⟩ := utf8Encode_right he
      rw [utf8Encode_append hx hz] at he
      cases he
      simp only [Headers.serialize, hz]
      exact h
  · intro h
    cases hz : r.headers.serialize with
    | error e => simp [hz] at h
    | ok z =>
      simp only [hz] at h
      rw [utf8Encode_append hx hz]
      exact h

/-- What the servers of both implementations have in common. -/
def Answers (s : LegacyServer.Setup X) (req : Request) (w : Bytes) (exts : List X) (sub : Option PyStr) : Prop :=
  ∃ r a, s.cfg.accept s.py s.date req = (.ok r, a) ∧ r.statusCode = 101 ∧ r.serialize = .ok w ∧
    a.exts = some exts ∧ a.subprotocol = some sub

theorem legacy_answers {s : LegacyServer.Setup X} {req : Request}
    (he : s.processRequest req.path req.headers = .ok none) (w : Bytes) (exts : List X) (sub : Option PyStr) :
    (∃ o, LegacyServer.openingHandshake s true (some req) = .opened o ∧ o.written = w ∧ o.exts = exts ∧
      o.subprotocol = sub) ↔ Answers s req w exts sub := by
  have hearly : LegacyServer.earlyResponse s true req = .ok none := by
    simp [LegacyServer.earlyResponse, he]
  have hopen : ∀ o, LegacyServer.openingHandshake s true (some req) = .opened o ↔
      LegacyServer.handshake s true (some req) = .ok o := by
    intro o
    unfold LegacyServer.openingHandshake
    constructor
    · intro h
      split at h
      · rename_i h'; cases h; exact h'
      · split at h
        · cases h
        · split at h
          · cases h
          · split at h <;> cases h
    · intro h
      rw [h]
  rcases LegacyServer.handshake_eq s true req hearly with ⟨e, e', a, h1, _, h2⟩ | ⟨key, eh, sub', a, h1, h2⟩
  · constructor
    · rintro ⟨o, h, _⟩
      rw [hopen, h2] at h
      cases h
    · rintro ⟨r, a', h, h101, _⟩
      exfalso
      unfold ServerConfig.accept at h
      rw [h1] at h
      simp only [Prod.mk.injEq] at h
      have := rejectExc_status h.1
      rw [h101] at this
      unfold Exc.status at this
      split at this <;> (try split at this) <;> cases this
  · have hacc : s.cfg.accept s.py s.date req = (s.cfg.acceptResponse s.py s.date req key eh sub', a) := by
      unfold ServerConfig.accept
      rw [h1]
    rcases h2 with ⟨e, h3, h4⟩ | ⟨r, h3, h4⟩
    · constructor
      · rintro ⟨o, h, _⟩
        rw [hopen, h4] at h
        cases h
      · rintro ⟨r, a', h, _⟩
        rw [hacc, h3] at h
        cases h
    · obtain ⟨r1, r2, r3⟩ := acceptResponse_shape h3
      rcases h4 with ⟨e, h4, h5⟩ | ⟨b, o, h4, h5, _, _, h8, _, h10, h11, _⟩
      · constructor
        · rintro ⟨o, h, _⟩
          rw [hopen, h5] at h
          cases h
        · rintro ⟨r', a', h, _, hw, _⟩
          rw [hacc, h3] at h
          cases h
          rw [← httpResponse_iff r1 r2 r3, h4] at hw
          cases hw
      · rw [httpResponse_iff r1 r2 r3] at h4
        constructor
        · rintro ⟨o', h, rfl, rfl, rfl⟩
          rw [hopen, h5] at h
          cases h
          exact ⟨r, a, by rw [hacc, h3], r1, by rw [h8]; exact h4, h10, h11⟩
        · rintro ⟨r', a', h, _, hw, hx, hs⟩
          rw [hacc, h3] at h
          cases h
          rw [h4] at hw
          cases hw
          rw [h10] at hx
          cases hx
          rw [h11] at hs
          cases hs
          exact ⟨o, (hopen o).2 h5, h8, rfl, rfl⟩

theorem sansio_opens {s : ServerSide X} {b : Bytes} {req : Request}
    (hp : Request.parse.run ⟨b, false⟩ = .done req ⟨[], false⟩) (w : Bytes) (exts : List X) (sub : Option PyStr) :
    ServerOpens s b w exts sub .sansio ↔ Answers s.setup req w exts sub := by
  have hs1 : ∀ chunks : List Bytes, chunks.flatten = b → ((serverInit s.maxSize).feedAll s.env chunks).2 = ⟨{
      side := .server, state := .connecting, maxSize := s.maxSize,
      events := [.handshake req] }, .init, .top⟩ := fun chunks hc =>
    feed_message s.env (serverInit_settled s.maxSize) hp rfl chunks hc
  constructor
  · intro h
    obtain ⟨req', r, a, h1, h2, h3, h4, h5, h6, h7, _⟩ := h [b] (by simp)
    rw [hs1 [b] (by simp)] at h1 h3 h4 h5 h6 h7
    simp only [List.cons.injEq, and_true, Event.handshake.injEq] at h1
    subst h1
    simp only [Conn.apply, ServerSide.env, ServerConfig.env] at h3 h4 h5 h6 h7
    rw [h2] at h3 h4 h5 h6 h7
    simp only [Core.sendResponse] at h3 h4 h5 h6 h7
    have h101 : r.statusCode = 101 := by
      apply Classical.byContradiction
      intro hne
      rw [if_neg hne] at h4
      cases hx : a.exts <;> cases hw : r.serialize <;>
        simp [hw, Assigned.store, hx] at h4
    have hassigned : ∃ exts sub, a.exts = some exts ∧ a.subprotocol = some sub := by
      cases hpr : s.setup.cfg.processRequest s.setup.py req with
      | mk res a' =>
        unfold ServerConfig.accept at h2
        rw [hpr] at h2
        cases res with
        | error e =>
          exfalso
          simp only [Prod.mk.injEq] at h2
          have := rejectExc_status h2.1
          rw [h101] at this
          unfold Exc.status at this
          split at this <;> (try split at this) <;> cases this
        | ok t =>
          obtain ⟨key, eh, sub⟩ := t
          simp only [Prod.mk.injEq] at h2
          rw [h2.2] at hpr
          obtain ⟨exts, _, hx, _, hs⟩ := processRequest_assigned hpr
          exact ⟨_, _, hx, hs⟩
    obtain ⟨exts', sub', hx, hsub⟩ := hassigned
    cases hw : r.serialize with
    | error e => simp [hw, hx, Assigned.store] at h3
    | ok w' =>
      simp [hw, hx, hsub, Assigned.store, h101] at h5 h6 h7
      subst h5 h6 h7
      exact ⟨r, a, h2, h101, hw, hx, hsub⟩
  · rintro ⟨r, a, h2, h101, hw, hx, hsub⟩ chunks hc
    intro s1
    refine ⟨req, r, a, ?_, h2, ?_⟩
    · simp only [s1]
      rw [hs1 chunks hc]
    · simp only [s1]
      rw [hs1 chunks hc]
      simp [Conn.apply, ServerSide.env, ServerConfig.env, h2, Core.sendResponse, h101, hw, Assigned.store, hx,
        hsub, Conn.AtFrame, PState.rebind, eventFrames]

theorem legacy_opens {s : ServerSide X} {b : Bytes} {req : Request} (hn : 8218 ≤ s.readLimit)
    (hp : Request.parse.run ⟨b, false⟩ = .done req ⟨[], false⟩)
    (he : s.setup.processRequest req.path req.headers = .ok none)
    (w : Bytes) (exts : List X) (sub : Option PyStr) :
    ServerOpens s b w exts sub .legacy ↔ Answers s.setup req w exts sub := by
  constructor
  · intro h
    obtain ⟨e, h1, h2, h3, h4⟩ := exec_once s.readLimit readRequest b
    obtain ⟨a, rest, ⟨rfl, _⟩, _, o, ho⟩ := ((settles_request hn hp h2 h3 h4 h1).and (h _ e h2 h3 h4 h1)).value
    exact (legacy_answers he w exts sub).1 ⟨o, ho⟩
  · intro h as e h1 h2 h3 h4
    refine (settles_request hn hp h1 h2 h3 h4).mono ?_
    rintro a rest ⟨rfl, rfl⟩
    exact ⟨rfl, (legacy_answers he w exts sub).2 h⟩

/-- **C83.** A legacy server accepts the same requests as a sans-I/O server with the same
configuration, if `process_request` doesn't interfere: they write the same response, with the same
extensions and the same subprotocol. -/
theorem C83_servers (s : ServerSide X) (hn : 8218 ≤ s.readLimit) {b : Bytes} {req : Request}
    (hp : Request.parse.run ⟨b, false⟩ = .done req ⟨[], false⟩)
    (he : s.setup.processRequest req.path req.headers = .ok none) (w : Bytes) (exts : List X)
    (sub : Option PyStr) : ServerOpens s b w exts sub .legacy ↔ ServerOpens s b w exts sub .sansio := by
  rw [legacy_opens hn hp he, sansio_opens hp]

/-! ## Clients -/

theorem client_sends {c : ClientSide X} {req : Request} (hc : c.cfg.connect c.py = .ok req) (b : Bytes)
    (k : Impl) : ClientSends c req b k ↔ req.serialize = .ok b := by
  cases k with
  | sansio =>
    simp only [ClientSends, Conn.apply, ClientSide.env, ClientConfig.env, Core.sendRequest]
    cases req.serialize <;> simp [clientInit]
  | legacy =>
    simp only [ClientSends, LegacyClient.request, hc]

theorem sansio_connected {c : ClientSide X} {req : Request} {w : Bytes} {r : Response}
    (hp : Response.parse.run ⟨w, false⟩ = .done r ⟨[], false⟩) {exts : List X} {sub : Option PyStr}
    (hv : ValidResponse c.cfg r.statusCode r.headers.list exts sub) {chunks : List Bytes}
    (hch : chunks.flatten = w) :
    let c1 := ((clientInit c.maxSize c.cfg.origin).apply c.env (.handshake (.sendRequest req))).2
    let c2 := (c1.feedAll c.env chunks).2
    c2.core.state = .opened ∧ c2.core.exts = exts ∧ c2.core.subprotocol = sub ∧ c2.AtFrame .client ∧
      eventFrames c2.core.events = [] := by
  intro c1 c2
  have hk := Response.parse_ok hp
  have hset : c1.Settled := Conn.apply_settled c.env (clientInit_settled _ _) _
  have hst : ∃ core : Core X Response, c1 = ⟨core, .init, .hs Response.parse⟩ ∧ core.state = .connecting ∧
      core.side = .client ∧ (core.expectCont = false ∧ core.curSize = none) ∧ core.events = [] := by
    simp only [c1, Conn.apply, ClientSide.env, ClientConfig.env, Core.sendRequest]
    cases req.serialize <;> exact ⟨_, rfl, rfl, rfl, ⟨rfl, rfl⟩, rfl⟩
  obtain ⟨core, hcore, hcs, hside, hcont, hev⟩ := hst
  have fwd : c2 = ⟨{ core with
      exts, subprotocol := sub, state := .opened, events := core.events ++ [.handshake r] }, .init, .top⟩ := by
    simp only [c2]
    rw [hcore] at hset ⊢
    refine feed_message c.env hset hp ?_ chunks hch
    have := (processResponse_iff hk core _).2 ⟨exts, sub, hv, rfl⟩
    simp only [ClientSide.env, ClientConfig.env, ClientConfig.onResponse]
    rw [if_neg (by rw [hcs]; simp), this]
    rfl
  rw [fwd]
  exact ⟨rfl, rfl, rfl, ⟨hside, rfl, rfl, hcont⟩, by rw [hev]; rfl⟩

/-- Which responses complete the handshake of a sans-I/O client -/
theorem sansio_connects {c : ClientSide X} {req : Request} {w : Bytes} {v : Int × PyStr × Headers}
    (hp : readResponse.run ⟨w, false⟩ = .done v ⟨[], false⟩) (exts : List X) (sub : Option PyStr) :
    ClientOpens c req w exts sub .sansio ↔ ValidResponse c.cfg v.1 v.2.2.list exts sub ∧
      v.2.2.contains p!"Transfer-Encoding" = false := by
  constructor
  · intro h
    have h1 := h [w] (by simp)
    have h2 := C42_only_valid c.cfg c.ops c.rand c.rand_len c.maxSize c.cfg.origin
      [.handshake (.sendRequest req), .receiveData w]
    simp only at h2
    have hex : ((clientInit c.maxSize c.cfg.origin).exec (c.cfg.env c.ops c.rand c.rand_len)
        [.handshake (.sendRequest req), .receiveData w]).2 = (Conn.feedAll c.env
          ((clientInit c.maxSize c.cfg.origin).apply c.env (.handshake (.sendRequest req))).2 [w]).2 := rfl
    rw [hex] at h2
    simp only at h1
    obtain ⟨r, rest, exts', g1, g2⟩ := h2 (by rw [h1.1]; simp)
    have hrec : received [Op.handshake (ClientCall.sendRequest req), .receiveData w] = w := by
      simp [received, Op.bytes]
    rw [hrec] at g1
    obtain ⟨reason, hh⟩ := response_head g1 g2.status
    rw [hp] at hh
    cases hh
    have h3 := sansio_connected (req := req) g1 g2 (chunks := [w]) (by simp)
    have hx : exts' = exts := h3.2.1.symm.trans h1.2.1
    rw [h1.2.2.1, hx, g2.status] at g2
    refine ⟨g2, ?_⟩
    · rw [run_response hp] at g1
      unfold Response.parseBody at g1
      split at g1
      · cases g1
      · rename_i hc
        simpa using hc
  · rintro ⟨hv, ht⟩ chunks hch
    have hr : Response.parse.run ⟨w, false⟩ = .done ⟨v.1, v.2.1, v.2.2, none, none⟩ ⟨[], false⟩ := by
      rw [run_response hp]
      unfold Response.parseBody
      rw [if_neg (by simp [ht]), if_pos (by rw [hv.status]; decide)]
      rfl
    exact sansio_connected hr hv hch

/-- The headers that `read_response` returns are consistent. -/
theorem readResponse_ok {x y : Reader} {v : Int × PyStr × Headers} (h : readResponse.run x = .done v y) :
    v.2.2.Ok pyLower := by
  unfold readResponse at h
  rw [Coro.bind_done_iff] at h
  obtain ⟨line, r1, _, h⟩ := h
  split at h
  · cases h
  · split at h
    · cases h
    · split at h
      · cases h
      · split at h
        · cases h
        · split at h
          · cases h
          · split at h
            · cases h
            · rw [Coro.bind_done_iff, readHeaders_eq] at h
              obtain ⟨hd, r2, h1, h2⟩ := h
              obtain ⟨_, hs, _, _, _, _, rfl⟩ := parseHeaders_iff.1 h1
              cases h2
              exact (Headers.ofList_ok _).1

/-- Which responses complete the handshake of a legacy client -/
theorem legacy_connects {c : ClientSide X} {req : Request} {w : Bytes} {v : Int × PyStr × Headers}
    (hn : 8218 ≤ c.readLimit) (hp : readResponse.run ⟨w, false⟩ = .done v ⟨[], false⟩)
    (exts : List X) (sub : Option PyStr) :
    ClientOpens c req w exts sub .legacy ↔ ValidResponse c.cfg v.1 v.2.2.list exts sub := by
  have hk := readResponse_ok hp
  have hi := LegacyClient.response_iff (cfg := c.cfg) (status := v.1) hk (o := ⟨c.cfg.uri, exts, sub⟩)
  constructor
  · intro h
    obtain ⟨e, h1, h2, h3, h4⟩ := exec_once c.readLimit readResponse w
    obtain ⟨a, rest, ⟨rfl, _⟩, _, ho⟩ :=
      ((settles_response hn hp h2 h3 h4 h1).and (h _ e h2 h3 h4 h1)).value
    exact (hi.1 ho).1
  · intro h as e h1 h2 h3 h4
    refine (settles_response hn hp h1 h2 h3 h4).mono ?_
    rintro a rest ⟨rfl, rfl⟩
    exact ⟨rfl, hi.2 ⟨h, rfl⟩⟩

/-- **C83.** A legacy client accepts the same responses as a sans-I/O client with the same
configuration, with the same extensions and the same subprotocol, unless they contain a
`Transfer-Encoding` header. -/
theorem C83_clients_partial (c : ClientSide X) (hn : 8218 ≤ c.readLimit) (req : Request) {w : Bytes}
    {v : Int × PyStr × Headers} (hp : readResponse.run ⟨w, false⟩ = .done v ⟨[], false⟩)
    (ht : values v.2.2.list p!"Transfer-Encoding" = []) (exts : List X) (sub : Option PyStr) :
    ClientOpens c req w exts sub .legacy ↔ ClientOpens c req w exts sub .sansio := by
  rw [legacy_connects hn hp, sansio_connects hp]
  have hc := ((readResponse_ok hp).lookup p!"Transfer-Encoding").2.1
  have : v.2.2.contains p!"Transfer-Encoding" = false := by
    cases h : v.2.2.contains p!"Transfer-Encoding" with
    | false => rfl
    | true => exact absurd ht (hc.1 h)
  simp [this]

/-- The claim of C83 for clients: both accept the same responses. -/
def Spec.SameClients : Prop :=
  ∀ (c : ClientSide Empty) (req : Request) (w : Bytes) (v : Int × PyStr × Headers), 8218 ≤ c.readLimit →
    readResponse.run ⟨w, false⟩ = .done v ⟨[], false⟩ → ∀ exts sub,
    (ClientOpens c req w exts sub .legacy ↔ ClientOpens c req w exts sub .sansio)

/-- A client with the key `dGhlIHNhbXBsZSBub25jZQ==` -/
def plainClient : ClientSide Empty where
  py := PyEnv.simple
  cfg := { uri := { secure := false, host := p!"h", port := 80, resourceName := p!"/" }, raw := b!"the sample nonce" }
  ops := noExts
  rand := fun _ => [1, 2, 3, 4]
  rand_len := fun _ => rfl
  maxSize := none
  readLimit := 65536

def encodedResponse : Bytes :=
  b!"HTTP/1.1 101 Switching Protocols\r\nUpgrade: websocket\r\nConnection: Upgrade\r\n" ++
  b!"Sec-WebSocket-Accept: s3pPLMBiTxaQ9kYGzzhZRbK+xOo=\r\nTransfer-Encoding: chunked\r\n\r\n"

/-- **C83.** The claim is false: when the response contains a `Transfer-Encoding` header, legacy clients
ignore it and they are connected; `Response.parse` raises `NotImplementedError`. -/
theorem C83_clients_false : ¬ SameClients := by
  intro h
  have h1 : (match readResponse.run ⟨encodedResponse, false⟩ with
    | .done v r => decide (r = ⟨[], false⟩) && v.2.2.contains p!"Transfer-Encoding" &&
      (match LegacyClient.response plainClient.cfg v.1 v.2.2 with
        | .ok o => o.exts.isEmpty && decide (o.subprotocol = none)
        | .error _ => false)
    | _ => false) = true := by decide +kernel
  cases hr : readResponse.run ⟨encodedResponse, false⟩ with
  | raised e r => rw [hr] at h1; cases h1
  | blocked c r => rw [hr] at h1; cases h1
  | done v r =>
    rw [hr] at h1
    simp only [Bool.and_eq_true, decide_eq_true_eq] at h1
    obtain ⟨⟨rfl, h3⟩, h4⟩ := h1
    cases ho : LegacyClient.response plainClient.cfg v.1 v.2.2 with
    | error e => rw [ho] at h4; cases h4
    | ok o =>
      have hv := ((LegacyClient.response_iff (readResponse_ok hr)).1 ho).1
      have h5 := h plainClient ⟨[], {}⟩ encodedResponse v (by decide) hr o.exts o.subprotocol
      rw [legacy_connects (by decide) hr, sansio_connects hr] at h5
      have h6 := (h5.1 hv).2
      rw [h3] at h6
      cases h6

/-- **C83.** A client and a server, each of any implementation, for compatible extensions and headers
that can be sent.  The client sends a request; the server receives it in any pieces.  If it accepts the
connection, then the client, which receives the response in any pieces, is connected too, with the same
subprotocol and with extensions that match those of the server one by one. -/
theorem C83_handshake_partial (c : ClientSide X) (s : ServerSide X) (hn : 8218 ≤ c.readLimit)
    (hn' : 8218 ≤ s.readLimit) {R : X → X → Prop} {req : Request} (hconn : c.cfg.connect c.py = .ok req)
    (hpath : ∀ x ∈ c.cfg.uri.resourceName, 0x21 ≤ x ∧ x ≤ 0x7E)
    (hlen : c.cfg.uri.resourceName.length + 15 ≤ 4110) (hreq : Sendable req.headers.rawItems)
    (hcx : values c.cfg.extraHeaders p!"Sec-WebSocket-Extensions" = [])
    (hcp : values c.cfg.extraHeaders p!"Sec-WebSocket-Protocol" = [])
    (hce : ∀ fs, c.cfg.extensions = some fs → ∀ f ∈ fs, TokenExt (f.name, f.requestParams))
    (hct : ∀ ps, c.cfg.subprotocols = some ps → ∀ p ∈ ps, Tok p)
    (hcompat : Compatible R (c.cfg.extensions.getD []) (s.setup.cfg.extensions.getD []))
    (he : s.setup.processRequest req.path req.headers = .ok none)
    (hsx : ∀ extra, s.setup.cfg.extraHeaders req.path req.headers = .ok extra →
      ∀ n ∈ handshakeNames, values extra n = [])
    (ck sk : Impl) :
    ∃ b, ClientSends c req b ck ∧ ∀ w exts sub, ServerOpens s b w exts sub sk →
      (∀ r a, s.setup.cfg.accept s.setup.py s.setup.date req = (.ok r, a) → Sendable r.headers.list) →
      ∃ exts', AllPairs R exts' exts ∧ ClientOpens c req w exts' sub ck := by
  obtain ⟨hp, hb, _⟩ := connect_lines hconn
  obtain ⟨b, hser, hparse⟩ := C26_request_roundtrip_partial req.path req.headers.list
    (by rw [hp]; exact hpath) (by rw [hp]; exact hlen) hreq.2 hreq.1
  rw [← hb] at hser hparse
  have hparse : Request.parse.run ⟨b, false⟩ = .done req ⟨[], false⟩ := by simpa using hparse [] false
  refine ⟨b, (client_sends hconn b ck).2 hser, ?_⟩
  intro w exts sub ho hsend
  have hans : Answers s.setup req w exts sub := by
    cases sk with
    | sansio => exact (sansio_opens hparse w exts sub).1 ho
    | legacy => exact (legacy_opens hn' hparse he w exts sub).1 ho
  obtain ⟨r, a, hacc, h101, hw, hx, hs⟩ := hans
  have hsend := hsend r a hacc
  obtain ⟨hrb, hre, hbo, hexc, hte, cexts, sexts, sub', hae, has, hpairs, hvalid⟩ :=
    response_valid hconn hcx hcp hce hct hcompat hacc h101 hsx
  obtain ⟨rbytes, hrser, hrparse, _⟩ := C27_response_roundtrip 101 p!"Switching Protocols"
    r.headers.list none (by omega) reasonOk (rb := b!"Switching Protocols") (by decide +kernel)
    (by decide) hsend.2 hsend.1 hte
  have hrr : (Response.mk ((101 : Nat) : Int) p!"Switching Protocols" (Headers.ofList r.headers.list)
      none none) = r := by
    rw [← hrb]
    cases r
    simp only at h101 hre hbo hexc
    simp [h101, hre, hbo, hexc]
  rw [hrr] at hrser hrparse
  rw [hw] at hrser
  cases hrser
  have hrp : Response.parse.run ⟨w, false⟩ = .done r ⟨[], false⟩ := by
    have := hrparse (by unfold BodyLess; omega) rfl [] false
    simpa using this
  rw [hx] at hae
  cases hae
  rw [hs] at has
  cases has
  refine ⟨cexts, hpairs, ?_⟩
  cases ck with
  | sansio => exact fun chunks hch => sansio_connected hrp hvalid hch
  | legacy =>
    obtain ⟨reason, hh⟩ := response_head hrp h101
    rw [h101] at hvalid
    exact (legacy_connects hn hh cexts sub).2 hvalid

/-- The claim of C83: when the server accepts the connection, the client is connected. -/
def Spec.AlwaysConnect (Z : Zlib) : Prop :=
  ∀ (c : ClientSide (Pmd Z)) (s : ServerSide (Pmd Z)) (req : Request) (b w : Bytes) (exts : List (Pmd Z))
    (sub : Option PyStr) (ck sk : Impl), 8218 ≤ c.readLimit → 8218 ≤ s.readLimit →
    c.cfg.connect c.py = .ok req → ClientSends c req b ck → ServerOpens s b w exts sub sk →
    ∃ exts', ClientOpens c req w exts' sub ck

/-- The bytes of a handshake; whether the server accepts and the legacy client refuses. -/
def refusedAnswer (c : ClientSide (Pmd storedZlib)) (s : ServerSide (Pmd storedZlib)) : Bool :=
  match c.cfg.connect c.py with
  | .error _ => false
  | .ok req =>
    match req.serialize with
    | .error _ => false
    | .ok b =>
      match Request.parse.run ⟨b, false⟩ with
      | .done req' r => decide (req' = req) && decide (r = ⟨[], false⟩) &&
        (match s.setup.cfg.accept s.setup.py s.setup.date req with
        | (.ok r, a) => decide (r.statusCode = 101) && a.exts.isSome && decide (a.subprotocol = some none) &&
          (match r.serialize with
          | .error _ => false
          | .ok w =>
            match readResponse.run ⟨w, false⟩ with
            | .done v r => decide (r = ⟨[], false⟩) &&
              (match LegacyClient.response c.cfg v.1 v.2.2 with
              | .ok _ => false
              | .error _ => true)
            | _ => false)
        | _ => false)
      | _ => false

def smallWindowSide : ClientSide (Pmd storedZlib) where
  py := PyEnv.simple
  cfg := smallWindowClient
  ops := pmdOps storedZlib
  rand := fun _ => [1, 2, 3, 4]
  rand_len := fun _ => rfl
  maxSize := none
  readLimit := 65536

def deflateServerSide : ServerSide (Pmd storedZlib) where
  setup := { py := PyEnv.simple, cfg := deflateServer, processRequest := fun _ _ => .ok none, date := p!"now" }
  ops := pmdOps storedZlib
  rand := fun _ => [1, 2, 3, 4]
  rand_len := fun _ => rfl
  maxSize := none
  readLimit := 65536

/-- In this handshake, servers of both implementations accept and clients of both implementations
refuse. -/
theorem smallWindow_refused : ∃ req b w exts, smallWindowSide.cfg.connect smallWindowSide.py = .ok req ∧
    (∀ ck, ClientSends smallWindowSide req b ck) ∧ (∀ sk, ServerOpens deflateServerSide b w exts none sk) ∧
    ∀ ck exts' sub, ¬ ClientOpens smallWindowSide req w exts' sub ck := by
  have h : refusedAnswer smallWindowSide deflateServerSide = true := by decide +kernel
  unfold refusedAnswer at h
  split at h
  · cases h
  · rename_i req hconn
    split at h
    · cases h
    · rename_i b hser
      split at h
      · rename_i req' r hparse
        split at h
        · rename_i r a hacc
          split at h
          · simp at h
          · rename_i w hw
            split at h
            · rename_i v r' hv
              simp only [Bool.and_eq_true, decide_eq_true_eq] at h
              obtain ⟨⟨rfl, rfl⟩, ⟨⟨h101, hx⟩, hsub⟩, rfl, hres⟩ := h
              obtain ⟨exts, hx⟩ := Option.isSome_iff_exists.1 hx
              have hans : Answers deflateServerSide.setup req' w exts none := ⟨r, a, hacc, h101, hw, hx, hsub⟩
              have hno : ∀ exts' sub, ¬ ValidResponse smallWindowSide.cfg v.1 v.2.2.list exts' sub := by
                intro exts' sub hval
                have := (LegacyClient.response_iff (o := ⟨smallWindowSide.cfg.uri, exts', sub⟩)
                  (readResponse_ok hv)).2 ⟨hval, rfl⟩
                rw [this] at hres
                cases hres
              refine ⟨req', b, w, exts, hconn, fun ck => (client_sends hconn b ck).2 hser, ?_, ?_⟩
              · intro sk
                cases sk with
                | sansio => exact (sansio_opens hparse w exts _).2 hans
                | legacy => exact (legacy_opens (by decide) hparse rfl w exts _).2 hans
              · intro ck exts' sub hco
                cases ck with
                | sansio => exact hno _ _ ((sansio_connects hv exts' sub).1 hco).1
                | legacy => exact hno _ _ ((legacy_connects (by decide) hv exts' sub).1 hco)
            · simp at h
        · simp at h
      · cases h

/-- **C83.** The claim is false in all combinations: a client that asks for a window of 256 bytes isn't
connected to a server that accepts it, see `C43_agreement_false`. -/
theorem C83_handshake_false : ¬ AlwaysConnect storedZlib := by
  intro h
  obtain ⟨req, b, w, exts, h1, h2, h3, h4⟩ := smallWindow_refused
  obtain ⟨exts', h5⟩ := h _ _ req b w exts none .legacy .legacy (by decide) (by decide) h1 (h2 _) (h3 _)
  exact h4 _ _ _ h5

theorem ascii_pref {s : PyStr} (h : ∀ c ∈ s, c < 128) {t : PyStr} {b : Bytes} (hb : utf8Encode (s ++ t) = .ok b) :
    ∃ u, b = s.map UInt8.ofNat ++ u := by
  obtain ⟨y, hy⟩ := utf8Encode_right hb
  rw [utf8Encode_append (utf8Encode_ascii h) hy] at hb
  cases hb
  exact ⟨y, rfl⟩

/-- **C83.** The server may send frames right after the response.  A legacy client leaves them to
`transfer_data`, which reads them first. -/
theorem C83_early_frames (c : ClientSide X) (hn : 8218 ≤ c.readLimit) {w rest : Bytes} {v : Int × PyStr × Headers}
    (hp : readResponse.run ⟨w, false⟩ = .done v ⟨[], false⟩) {exts : List X} {sub : Option PyStr}
    (hv : ValidResponse c.cfg v.1 v.2.2.list exts sub) (as : List (IoAct (Int × PyStr × Headers)))
    (e : Legacy.Endpoint (Int × PyStr × Headers)) (ha : Legacy.Spec.SingleRead as)
    (hf : Legacy.Spec.fedEof as = false) (hb : Legacy.Spec.fed as = w ++ rest)
    (he : Legacy.Endpoint.exec ⟨.init c.readLimit, .ready readResponse⟩ as = some e) :
    Settles e fun a left => left = rest ∧
      LegacyClient.response c.cfg a.1 a.2.2 = .ok ⟨c.cfg.uri, exts, sub⟩ := by
  have hp' : readResponse.run ⟨w ++ rest, false⟩ = .done v ⟨rest, false⟩ := by
    have := Coro.run_push (r := ⟨w, false⟩) rfl (.fresh readResponse_fresh) rest
    rw [hp] at this
    exact this
  refine (settles_response hn hp' ha hf hb he).mono ?_
  rintro a left ⟨rfl, rfl⟩
  exact ⟨rfl, (LegacyClient.response_iff (readResponse_ok hp)).2 ⟨hv, rfl⟩⟩

/-! ## Refusals -/

/-- A client of this implementation that receives the beginning of `w`, in any pieces, and maybe the
end of the stream, isn't connected. -/
def Spec.ClientStays (c : ClientSide X) (w : Bytes) : Impl → Prop
  | .sansio => ∀ calls : List (Op ClientCall), received calls <+: w →
      ((clientInit c.maxSize c.cfg.origin).exec c.env calls).2.core.state = .connecting
  | .legacy => ∀ as e, Legacy.Spec.SingleRead as → Legacy.Spec.fed as <+: w →
      Legacy.Endpoint.exec ⟨.init c.readLimit, .ready readResponse⟩ as = some e →
      ∀ a, e.task = .ended (some (.ok a)) → ∀ o, LegacyClient.response c.cfg a.1 a.2.2 ≠ .ok o

theorem status_line {n : Nat} {d t u : Bytes} {eof : Bool} {v : Int × PyStr × Headers} {y : Reader}
    (h : readResponse.run ⟨d, eof⟩ = .done v y)
    (hd : d ++ u = b!"HTTP/1.1 " ++ (decStr n).map UInt8.ofNat ++ [32] ++ t) : v.1 = n := by
  have hdig : ∀ x ∈ (decStr n).map UInt8.ofNat, x ≠ 10 ∧ x ≠ 13 ∧ x ≠ 32 := by
    intro x hx
    obtain ⟨k, hk, rfl⟩ := List.mem_map.1 hx
    have := decStr_digits n k hk
    have h1 : (UInt8.ofNat k).toNat = k := by
      rw [UInt8.toNat_ofNat']
      omega
    refine ⟨?_, ?_, ?_⟩ <;> (intro h; rw [h] at h1; simp at h1; omega)
  unfold readResponse at h
  rw [Coro.bind_done_iff] at h
  obtain ⟨line, r1, h1, h2⟩ := h
  obtain ⟨e1, e2, e3, e4⟩ := parseLine_iff.1 h1
  simp only at e1
  generalize hP : b!"HTTP/1.1 " ++ (decStr n).map UInt8.ofNat ++ [32] = P at hd
  have hP13 : (13 : UInt8) ∉ P := by
    rw [← hP]
    intro h
    simp only [List.mem_append, List.mem_singleton] at h
    rcases h with (h | h) | h
    · exact absurd h (by decide)
    · exact (hdig 13 h).2.1 rfl
    · cases h
  rw [e1] at hd
  have hd' : line ++ (crlf ++ (r1.buf ++ u)) = P ++ t := by
    rw [← hd]
    simp [List.append_assoc]
  obtain ⟨a, ha⟩ : ∃ a, line = P ++ a := by
    rcases List.append_eq_append_iff.1 hd' with ⟨a, h1, h2⟩ | ⟨a, h1, _⟩
    · cases a with
      | nil => exact ⟨[], by simpa using h1.symm⟩
      | cons x a =>
        exfalso
        apply hP13
        rw [h1]
        simp only [crlf, List.cons_append, List.cons.injEq] at h2
        rw [← h2.1]
        simp
    · exact ⟨a, h1⟩
  have hsp : split3 32 line = some (b!"HTTP/1.1", (decStr n).map UInt8.ofNat, a) := by
    refine (split3_iff _ _ _ _ _).2 ⟨?_, by decide, fun h => (hdig 32 h).2.2 rfl⟩
    rw [ha, ← hP]
    simp
  rw [hsp] at h2
  simp only [ne_eq, not_true_eq_false, if_false] at h2
  have hmap : ((decStr n).map UInt8.ofNat).map UInt8.toNat = decStr n := by
    rw [List.map_map]
    refine List.map_congr_left (g := id) (fun k hk => ?_) |>.trans (List.map_id _)
    have := decStr_digits n k hk
    simp only [Function.comp, id, UInt8.toNat_ofNat']
    omega
  rw [hmap, (pyInt_iff _ _).2 (intLiteral_decStr n)] at h2
  simp only at h2
  split at h2
  · cases h2
  · split at h2
    · cases h2
    · split at h2
      · cases h2
      · rw [Coro.bind_done_iff] at h2
        obtain ⟨hd, r2, _, h3⟩ := h2
        cases h3
        rfl

/-- A response with another status than 101 doesn't complete the handshake of any client. -/
theorem client_stays {n : Nat} (hne : n ≠ 101) (c : ClientSide X) (hn : 8218 ≤ c.readLimit) (t : Bytes) (k : Impl) :
    ClientStays c (b!"HTTP/1.1 " ++ (decStr n).map UInt8.ofNat ++ [32] ++ t) k := by
  cases k with
  | sansio =>
    intro calls ⟨u, hu⟩
    apply Classical.byContradiction
    intro hc
    obtain ⟨r, rest, exts, g1, g2⟩ :=
      C42_only_valid c.cfg c.ops c.rand c.rand_len c.maxSize c.cfg.origin calls hc
    obtain ⟨reason, hh⟩ := response_head g1 g2.status
    have := status_line hh hu
    simp only at this
    omega
  | legacy =>
    intro as e ha ⟨u, hu⟩ he a ht o ho
    have h0 : Sim (fun n => maxLine ≤ n + 1) Careful (fun _ s => Never readResponse s) readResponse
        (AReader.init c.readLimit).plain ⟨.init c.readLimit, .ready readResponse⟩ :=
      ⟨rfl, by simp only [AReader.init, maxLine]; omega, .fresh readResponse_fresh, readResponse_careful, rfl⟩
    obtain ⟨_, _, h⟩ := h0.exec readResponse_fresh (rules_careful _ readResponse_fresh) ha he
    simp only [ht] at h
    have hk := readResponse_ok h
    have h1 := ((LegacyClient.response_iff hk).1 ho).1.status
    have h2 := status_line h (u := u) (t := t) (n := n) (by rw [← hu]; rfl)
    rw [h1] at h2
    omega

theorem pref_status (n : Nat) {t : PyStr} {b : Bytes}
    (hb : utf8Encode (p!"HTTP/1.1 " ++ decStr n ++ p!" " ++ t) = .ok b) :
    ∃ u, b = b!"HTTP/1.1 " ++ (decStr n).map UInt8.ofNat ++ [32] ++ u := by
  obtain ⟨u, hu⟩ := ascii_pref (s := p!"HTTP/1.1 " ++ decStr n ++ p!" ") (by
    intro c hc
    simp only [List.mem_append] at hc
    rcases hc with (hc | hc) | hc
    · revert hc c; decide
    · have := decStr_digits n c hc
      omega
    · revert hc c; decide) hb
  refine ⟨u, ?_⟩
  rw [hu]
  simp

theorem errorResponse_exc {e : Exc} {r : LegacyServer.HttpResponse}
    (he : LegacyServer.errorResponse (.exc e) = some r) : r.status ≠ 101 := by
  unfold LegacyServer.errorResponse at he
  simp only at he
  split at he
  · generalize utf8Encode _ = x at he
    cases x with
    | error _ => cases he
    | ok b => simp only [Option.some.injEq] at he; subst he; simp
  · generalize utf8Encode _ = x at he
    cases x with
    | error _ => cases he
    | ok b => simp only [Option.some.injEq] at he; subst he; simp
  · split at he
    · generalize utf8Encode _ = x at he
      cases x with
      | error _ => cases he
      | ok b => simp only [Option.some.injEq] at he; subst he; simp
    · simp only [Option.some.injEq] at he; subst he; simp
/-- **C83.** When a legacy server refuses a connection with another status than 101 — always, unless
`process_request` returns a response with the status 101 — clients aren't connected. -/
theorem C83_refused_legacy (c : ClientSide X) (hn : 8218 ≤ c.readLimit) (s : LegacyServer.Setup X) (serving : Bool)
    (request : Option Request)
    (hpr : ∀ req r, request = some req → s.processRequest req.path req.headers = .ok (some r) → r.status ≠ 101)
    (status : Nat) (hd : Headers) (body w : Bytes)
    (h : LegacyServer.openingHandshake s serving request = .refused status hd body w) (k : Impl) :
    ClientStays c w k := by
  have hw : status ≠ 101 ∧ ∃ phrase, LegacyServer.httpResponse status phrase hd (some body) = .ok w := by
    unfold LegacyServer.openingHandshake at h
    split at h
    · cases h
    · rename_i raised hr
      split at h
      · cases h
      · rename_i r he
        split at h
        · cases h
        · split at h
          · cases h
          · rename_i written hwr
            cases h
            refine ⟨?_, _, hwr⟩
            cases raised with
            | abort r' =>
              cases he
              cases request with
              | none => cases hr
              | some req =>
                cases hx : LegacyServer.earlyResponse s serving req with
                | error e => simp [LegacyServer.handshake, hx] at hr
                | ok early =>
                  cases early with
                  | some r2 =>
                    simp only [LegacyServer.handshake, hx] at hr
                    cases hr
                    unfold LegacyServer.earlyResponse at hx
                    split at hx
                    · cases hx
                    · rename_i r3 hx3
                      split at hx
                      · cases hx
                        exact hpr req r rfl hx3
                      · cases hx
                        decide
                  | none =>
                    rcases LegacyServer.handshake_eq s serving req hx with ⟨_, _, _, _, _, h2⟩ |
                      ⟨_, _, _, _, _, ⟨_, _, h2⟩ | ⟨_, _, ⟨_, _, h2⟩ | ⟨_, _, _, h2, _⟩⟩⟩
                    all_goals rw [h2] at hr; cases hr
            | exc e => exact errorResponse_exc he
  obtain ⟨hne, phrase, hw⟩ := hw
  unfold LegacyServer.httpResponse at hw
  split at hw
  · cases hw
  · rename_i b hb
    rw [List.append_assoc, List.append_assoc] at hb
    obtain ⟨u, rfl⟩ := pref_status status hb
    cases hw
    have := client_stays hne c hn (u ++ body) k
    simpa [List.append_assoc] using this

/-- **C83.** When a sans-I/O server refuses a connection, clients aren't connected. -/
theorem C83_refused_sansio (c : ClientSide X) (hn : 8218 ≤ c.readLimit) (s : ServerSide X)
    {b : Bytes} {req : Request} (hp : Request.parse.run ⟨b, false⟩ = .done req ⟨[], false⟩) (chunks : List Bytes)
    (hch : chunks.flatten = b) (r : Response) (a : Assigned X)
    (hacc : s.setup.cfg.accept s.setup.py s.setup.date req = (.ok r, a)) :
    let s1 := ((serverInit s.maxSize).feedAll s.env chunks).2
    let s2 := (s1.apply s.env (.handshake (.accept s.setup.date req))).2
    let s3 := (s2.apply s.env (.handshake (.sendResponse r))).2
    s3.core.state ≠ .opened → s3.core.writes ≠ [] → ∀ k, ClientStays c s3.core.writes.flatten k := by
  intro s1 s2 s3 hst hwr k
  have hs1 : s1 = ⟨{
      side := .server, state := .connecting, maxSize := s.maxSize,
      events := [.handshake req] }, .init, .top⟩ :=
    feed_message s.env (serverInit_settled s.maxSize) hp rfl chunks hch
  have hs3 : s3.core = (Core.sendResponse (a.store s1.core).1 r).2 := by
    simp only [s3, s2, Conn.apply, ServerSide.env, ServerConfig.env, hacc]
    simp only [Assigned.store]
    cases a.exts <;> rfl
  rw [hs3] at hst hwr ⊢
  have hcode : r.statusCode = 101 ∨ ∃ n : Nat, r.statusCode = n ∧ n ≠ 101 := by
    unfold ServerConfig.accept at hacc
    split at hacc
    · simp only [Prod.mk.injEq] at hacc
      right
      rw [rejectExc_status hacc.1]
      unfold Exc.status
      split
      · exact ⟨403, rfl, by decide⟩
      · exact ⟨426, rfl, by decide⟩
      · split
        · exact ⟨400, rfl, by decide⟩
        · exact ⟨500, rfl, by decide⟩
    · simp only [Prod.mk.injEq] at hacc
      exact .inl (acceptResponse_shape hacc.1).1
  simp only [Core.sendResponse] at hst hwr ⊢
  rcases hcode with h | ⟨n, h, hne⟩
  · exfalso
    apply hst
    rw [if_pos h]
    cases r.serialize <;> rfl
  · have hn1 : r.statusCode ≠ 101 := by omega
    rw [if_neg hn1] at hst hwr ⊢
    cases hw : r.serialize with
    | error e =>
      rw [hw] at hwr
      exact absurd (by rw [hs1]; rfl) hwr
    | ok w =>
      have hwf : ((a.store s1.core).1.writes ++ [w]).flatten = w := by
        rw [hs1]
        simp [Assigned.store]
      simp only
      rw [hwf]
      unfold Response.serialize at hw
      split at hw
      · cases hw
      · rename_i line hline
        split at hw
        · cases hw
        · rename_i hs _
          rw [h, show intStr (n : Int) = decStr n from rfl, List.append_assoc] at hline
          obtain ⟨u, rfl⟩ := pref_status n hline
          cases hw
          have := client_stays hne c hn (u ++ hs ++ r.body.getD []) k
          simpa [List.append_assoc] using this

/-! ## Concrete cases -/

def deflateSide : ClientSide (Pmd storedZlib) where
  py := PyEnv.simple
  cfg := deflateClient
  ops := pmdOps storedZlib
  rand := fun _ => [1, 2, 3, 4]
  rand_len := fun _ => rfl
  maxSize := none
  readLimit := 65536

def chatSide : ServerSide (Pmd storedZlib) where
  setup := { py := PyEnv.simple, cfg := chatServer, processRequest := fun _ _ => .ok none, date := p!"now" }
  ops := pmdOps storedZlib
  rand := fun _ => [1, 2, 3, 4]
  rand_len := fun _ => rfl
  maxSize := none
  readLimit := 65536

-- All four combinations are connected, with the extension and a subprotocol.
example (ck sk : Impl) : ∃ req b w exts exts', ClientSends deflateSide req b ck ∧
    ServerOpens chatSide b w exts (some p!"superchat") sk ∧ exts.length = 1 ∧
    AllPairs Mirrored exts' exts ∧ ClientOpens deflateSide req w exts' (some p!"superchat") ck := by
  obtain ⟨req, hconn, hpath, hreq, hce, hct, hcompat, hacc⟩ := deflateClient_chatServer
  cases ha : chatServer.accept PyEnv.simple p!"now" req with
  | mk res a =>
    cases res with
    | error e => rw [ha] at hacc; exact hacc.elim
    | ok r =>
      rw [ha] at hacc
      obtain ⟨h101, hgood, hsub, hex⟩ := hacc
      cases hx : a.exts with
      | none => rw [hx] at hex; cases hex
      | some exts =>
        have hs : Sendable r.headers.list := by
          refine sendable_of ?_ hgood
          have : (match deflateClient.connect PyEnv.simple with
            | .ok req => (match chatServer.accept PyEnv.simple p!"now" req with
              | (.ok r, _) => decide (r.headers.rawItems.length ≤ 256)
              | _ => false)
            | .error _ => false) = true := by decide +kernel
          rw [hconn] at this
          simp only [ha, decide_eq_true_eq] at this
          exact this
        obtain ⟨b, hsend, hopen⟩ := C83_handshake_partial deflateSide chatSide (by decide) (by decide) hconn hpath
          (by decide) hreq rfl rfl hce hct hcompat rfl
          (fun extra he => by cases he; intro n _; rfl) ck sk
        obtain ⟨hrb, hre, hbo, hexc, hte, _⟩ := response_valid hconn rfl rfl hce hct hcompat ha h101
          (fun extra he => by cases he; intro n _; rfl)
        obtain ⟨w, hw, _⟩ := C27_response_roundtrip 101 p!"Switching Protocols"
          r.headers.list none (by omega) reasonOk (rb := b!"Switching Protocols") (by decide +kernel)
          (by decide) hs.2 hs.1 hte
        have hrr : (Response.mk ((101 : Nat) : Int) p!"Switching Protocols" (Headers.ofList r.headers.list)
            none none) = r := by
          rw [← hrb]
          cases r
          simp only at h101 hre hbo hexc
          simp [h101, hre, hbo, hexc]
        rw [hrr] at hw
        have hans : Answers chatSide.setup req w exts (some p!"superchat") := ⟨r, a, ha, h101, hw, hx, hsub⟩
        obtain ⟨hp, hb, _⟩ := connect_lines hconn
        obtain ⟨b', hser, hparse⟩ := C26_request_roundtrip_partial req.path req.headers.list
          (by rw [hp]; exact hpath) (by rw [hp]; decide) hreq.2 hreq.1
        rw [← hb] at hser hparse
        have hparse : Request.parse.run ⟨b', false⟩ = .done req ⟨[], false⟩ := by simpa using hparse [] false
        have : b = b' := by
          have h1 := (client_sends (c := deflateSide) hconn b ck).1 hsend
          rw [hser] at h1
          cases h1
          rfl
        subst this
        have hso : ServerOpens chatSide b w exts (some p!"superchat") sk := by
          cases sk with
          | sansio => exact (sansio_opens hparse w exts _).2 hans
          | legacy => exact (legacy_opens (by decide) hparse rfl w exts _).2 hans
        obtain ⟨exts', hpairs, hco⟩ := hopen w exts _ hso
          (fun r' a' h => by
            have : (Except.ok r', a') = (Except.ok r, a) := h.symm.trans ha
            cases this
            exact hs)
        refine ⟨req, b, w, exts, exts', hsend, hso, ?_, hpairs, hco⟩
        rw [hx] at hex
        simpa using hex

-- A server which is closing refuses the request; its response starts with the status line.
example : (match LegacyServer.openingHandshake (LegacyServer.exampleSetup exampleConfig) false (some goodRequest) with
    | .refused status _ _ w => decide (status = 503) && b!"HTTP/1.1 503 Service Unavailable\r\n".isPrefixOf w
    | _ => false) = true := by decide +kernel

-- When `process_request` returns the status 101, legacy clients and sans-I/O clients may be connected:
-- the hypothesis of `C83_refused_legacy` on `process_request` is necessary.
example : (match LegacyServer.openingHandshake { LegacyServer.exampleSetup exampleConfig with
      processRequest := fun _ _ => .ok (some { status := 101, phrase := p!"Switching Protocols", headers := [
        (p!"Upgrade", p!"websocket"), (p!"Connection", p!"Upgrade"), (p!"Sec-WebSocket-Accept", p!"s3pPLMBiTxaQ9kYGzzhZRbK+xOo=")], body := [] }) }
      true (some goodRequest) with
    | .refused _ _ _ w => (match readResponse.run ⟨w, false⟩ with
      | .done v _ => (match LegacyClient.response plainClient.cfg v.1 v.2.2 with
        | .ok _ => true
        | .error _ => false)
      | _ => false)
    | _ => false) = true := by decide +kernel

end WS.Interop
