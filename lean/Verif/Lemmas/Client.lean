import Verif.Lemmas.Server
import Verif.Lemmas.ConnOut
import Verif.Lemmas.ConnFwd
import Verif.Props.EndToEnd
import Verif.Props.Http

/-!
# Lemmas about the client side of the opening handshake, and the environments of connections
-/

namespace WS

open Spec

variable {X : Type}

/-! ## The environments are lawful -/

theorem ServerConfig.env_lawful (cfg : ServerConfig X) (py : PyEnv) {ops : ExtOps X}
    (ho : ops.Lawful) (rand : Nat → Bytes) (hr : ∀ i, (rand i).length = 4) :
    (cfg.env py ops rand hr).Lawful where
  ops := ho
  onHs_connecting := by
    intro e c hc
    simp only [ServerConfig.env, serverOnRequest, hc, ne_eq, not_true, if_false]
    exact ⟨rfl, .inl hc, rfl, rfl, rfl, rfl, rfl, rfl, rfl, by simp [Core.addEvent],
      [.handshake e], rfl, by simp⟩
  onHs_other := by
    intro e c hc
    simp [ServerConfig.env, serverOnRequest, hc]
  hsOp := by
    intro h c hc
    cases h with
    | accept date req =>
      have hstore : ∀ a : Assigned X, HsStep c (a.store c).1 [] := fun a =>
        ⟨rfl, .inl hc, rfl, rfl, rfl, rfl, rfl, rfl, rfl, by simp [Assigned.store],
          [], by simp [Assigned.store], by simp⟩
      simp only [ServerConfig.env]
      cases hx : cfg.accept py date req with
      | mk r a =>
        cases r with
        | ok r => exact ⟨[], hstore a⟩
        | error e => exact ⟨[], hstore a⟩
    | sendResponse r =>
      simp only [ServerConfig.env]
      unfold Core.sendResponse
      cases hx : r.serialize with
      | ok b =>
        refine ⟨[b], ?_⟩
        simp only
        split
        · exact ⟨rfl, .inr rfl, rfl, rfl, rfl, rfl, rfl, rfl, rfl, rfl, [], by simp, by simp⟩
        · exact ⟨rfl, .inl hc, rfl, rfl, rfl, rfl, rfl, rfl, rfl, rfl, [], by simp, by simp⟩
      | error e =>
        refine ⟨[], ?_⟩
        simp only
        split
        · exact ⟨rfl, .inr rfl, rfl, rfl, rfl, rfl, rfl, rfl, rfl, by simp, [], by simp, by simp⟩
        · exact ⟨rfl, .inl hc, rfl, rfl, rfl, rfl, rfl, rfl, rfl, by simp, [], by simp, by simp⟩

theorem ClientConfig.processResponse_core (cfg : ClientConfig X) (r : Response)
    (c : Core X Response) : ∃ exts sub, (cfg.processResponse r c).2 =
      { c with exts, subprotocol := sub } := by
  unfold ClientConfig.processResponse
  split
  · exact ⟨c.exts, c.subprotocol, rfl⟩
  · split
    · exact ⟨c.exts, c.subprotocol, rfl⟩
    · rename_i exts _
      simp only
      split
      · exact ⟨exts, c.subprotocol, rfl⟩
      · rename_i sub _
        exact ⟨exts, sub, rfl⟩

theorem ClientConfig.env_lawful (cfg : ClientConfig X) {ops : ExtOps X}
    (ho : ops.Lawful) (rand : Nat → Bytes) (hr : ∀ i, (rand i).length = 4) :
    (cfg.env ops rand hr).Lawful where
  ops := ho
  onHs_connecting := by
    intro r c hc
    simp only [ClientConfig.env, ClientConfig.onResponse, hc, ne_eq, not_true, if_false]
    obtain ⟨exts, sub, hp⟩ := cfg.processResponse_core r c
    cases hx : cfg.processResponse r c with
    | mk e c' =>
      rw [hx] at hp
      simp only at hp
      subst hp
      cases e with
      | none =>
        exact ⟨rfl, .inr rfl, rfl, rfl, rfl, rfl, rfl, rfl, rfl, by simp [Core.addEvent], _, rfl,
          by simp⟩
      | some e =>
        simp only
        split <;>
          exact ⟨rfl, .inl hc, rfl, rfl, rfl, rfl, rfl, rfl, rfl, by simp [Core.addEvent], _, rfl,
            by simp⟩
  onHs_other := by
    intro e c hc
    simp [ClientConfig.env, ClientConfig.onResponse, hc]
  hsOp := by
    intro h c hc
    cases h with
    | sendRequest r =>
      simp only [ClientConfig.env]
      unfold Core.sendRequest
      cases hx : r.serialize with
      | ok b => exact ⟨[b], rfl, .inl hc, rfl, rfl, rfl, rfl, rfl, rfl, rfl, rfl, [], by simp, by simp⟩
      | error e =>
        exact ⟨[], rfl, .inl hc, rfl, rfl, rfl, rfl, rfl, rfl, rfl, by simp, [], by simp, by simp⟩

/-! ## Valid responses -/

/-- The first factory of the client with this name that accepts the parameters. -/
def Spec.FirstAnswer (fs : List (ClientFactory X)) (name : PyStr) (params : List ExtParam)
    (acc : List X) (x : X) : Prop :=
  ∃ pre f post, fs = pre ++ f :: post ∧ f.name = name ∧
    f.processResponseParams params acc = .ok x ∧
    ∀ g ∈ pre, g.name = name → ∃ m, g.processResponseParams params acc = .error (.negotiationError m)

/-- `Answered fs answers acc exts`: the extensions are those of the first matching factory for each
answer of the server, in order, after `acc` have been enabled. -/
inductive Spec.Answered (fs : List (ClientFactory X)) : List ExtHeader → List X → List X → Prop where
  | nil {acc} : Answered fs [] acc []
  | cons {name params answers acc exts x} : FirstAnswer fs name params acc x →
      Answered fs answers (acc ++ [x]) exts →
      Answered fs ((name, params) :: answers) acc (x :: exts)

/-- A response that completes the handshake of a client. -/
structure Spec.ValidResponse (cfg : ClientConfig X) (code : Int) (hs : List (PyStr × PyStr))
    (exts : List X) (sub : Option PyStr) : Prop where
  status : code = 101
  connection : HasUpgrade hs
  upgrade : UpgradeIsWebsocket hs
  accept : values hs p!"Sec-WebSocket-Accept" = [acceptFor (base64 cfg.raw)]
  extensions : (values hs p!"Sec-WebSocket-Extensions" = [] ∧ exts = []) ∨
    ∃ fs answers, cfg.extensions = some fs ∧
      AllLists ExtItem (values hs p!"Sec-WebSocket-Extensions") answers ∧ answers ≠ [] ∧
      Answered fs answers [] exts
  subprotocol : (values hs p!"Sec-WebSocket-Protocol" = [] ∧ sub = none) ∨
    ∃ ps p, cfg.subprotocols = some ps ∧
      AllLists TokItem (values hs p!"Sec-WebSocket-Protocol") [p] ∧ p ∈ ps ∧ sub = some p

theorem matchAnswer_iff {fs : List (ClientFactory X)} {name : PyStr} {params : List ExtParam}
    {acc : List X} {x : X} :
    matchAnswer name params acc fs = .ok (some x) ↔ FirstAnswer fs name params acc x := by
  induction fs with
  | nil =>
    simp only [matchAnswer]
    constructor
    · intro h; cases h
    · rintro ⟨pre, f, post, h, _⟩
      cases pre <;> cases h
  | cons f fs ih =>
    have skip : (f.name = name →
        ∃ m, f.processResponseParams params acc = .error (.negotiationError m)) →
        (FirstAnswer (f :: fs) name params acc x ↔ FirstAnswer fs name params acc x) := by
      intro hf
      constructor
      · rintro ⟨pre, g, post, h1, h2, h3, h4⟩
        cases pre with
        | nil =>
          cases h1
          obtain ⟨m, hm⟩ := hf h2
          rw [hm] at h3
          cases h3
        | cons p pre =>
          cases h1
          exact ⟨pre, g, post, rfl, h2, h3, fun k hk => h4 k (by simp [hk])⟩
      · rintro ⟨pre, g, post, h1, h2, h3, h4⟩
        refine ⟨f :: pre, g, post, by rw [h1]; rfl, h2, h3, ?_⟩
        intro k hk
        rcases List.mem_cons.1 hk with rfl | hk
        · exact hf
        · exact h4 k hk
    have first : ∀ r, f.name = name → f.processResponseParams params acc = r →
        (∀ m, r ≠ .error (.negotiationError m)) →
        (FirstAnswer (f :: fs) name params acc x ↔ r = .ok x) := by
      intro r hn hr hne
      constructor
      · rintro ⟨pre, g, post, h1, h2, h3, h4⟩
        cases pre with
        | nil => cases h1; rw [← hr, h3]
        | cons p pre =>
          cases h1
          obtain ⟨m, hm⟩ := h4 f (by simp) hn
          exact absurd (hr ▸ hm) (hne m)
      · rintro rfl
        exact ⟨[], f, fs, rfl, hn, hr, by simp⟩
    unfold matchAnswer
    split
    · rename_i hn
      rw [ih, skip (fun h => absurd h hn)]
    · rename_i hn
      have hn' : f.name = name := Classical.byContradiction fun c => hn c
      split
      · rename_i m hm
        rw [ih, skip (fun _ => ⟨m, hm⟩)]
      · rename_i e hne he
        rw [first _ hn' he (fun m h => hne m (by cases h; rfl))]
        simp
      · rename_i y hy
        rw [first _ hn' hy (by simp)]
        simp

theorem matchAnswers_iff {fs : List (ClientFactory X)} {answers : List ExtHeader} {acc : List X}
    {r : List X} : matchAnswers fs acc answers = .ok r ↔
      ∃ xs, r = acc ++ xs ∧ Answered fs answers acc xs := by
  induction answers generalizing acc with
  | nil =>
    simp only [matchAnswers, Except.ok.injEq]
    constructor
    · rintro rfl; exact ⟨[], by simp, .nil⟩
    · rintro ⟨xs, rfl, h⟩; cases h; simp
  | cons a answers ih =>
    obtain ⟨name, params⟩ := a
    unfold matchAnswers
    constructor
    · intro h
      split at h
      · cases h
      · cases h
      · rename_i x hx
        obtain ⟨xs, rfl, h2⟩ := ih.1 h
        exact ⟨x :: xs, by simp, .cons (matchAnswer_iff.1 hx) h2⟩
    · rintro ⟨xs, rfl, h⟩
      cases h with
      | cons h1 h2 =>
        rw [matchAnswer_iff.2 h1]
        simp only
        exact ih.2 ⟨_, by simp, h2⟩

theorem clientExtensions_iff {cfg : ClientConfig X} {h : Headers} (hk : h.Ok pyLower)
    {exts : List X} : cfg.processExtensions h = .ok exts ↔
    (values h.list p!"Sec-WebSocket-Extensions" = [] ∧ exts = []) ∨
    ∃ fs answers, cfg.extensions = some fs ∧
      AllLists ExtItem (values h.list p!"Sec-WebSocket-Extensions") answers ∧ answers ≠ [] ∧
      Answered fs answers [] exts := by
  unfold ClientConfig.processExtensions
  rw [hk.all]
  simp only
  by_cases hv : values h.list p!"Sec-WebSocket-Extensions" = []
  · rw [if_neg (by simpa using hv)]
    simp only [Except.ok.injEq]
    constructor
    · rintro rfl; exact .inl ⟨hv, rfl⟩
    · rintro (⟨_, rfl⟩ | ⟨fs, answers, _, h1, h2, _⟩)
      · rfl
      · rw [hv] at h1
        cases h1
        exact absurd rfl h2
  · rw [if_pos hv]
    cases hx : cfg.extensions with
    | none => simp [hv]
    | some fs =>
      simp only
      rcases parseAll_spec C33_extension (values h.list p!"Sec-WebSocket-Extensions") with
        ⟨as, h1, h2, h3⟩ | ⟨hn, _, _, _, _, he, _⟩
      · rw [h1]
        simp only
        rw [matchAnswers_iff]
        constructor
        · rintro ⟨xs, rfl, h4⟩
          exact .inr ⟨fs, as, rfl, h2, h3 hv, h4⟩
        · rintro (⟨h, _⟩ | ⟨fs', as', hf, h4, _, h5⟩)
          · exact absurd h hv
          · cases hf
            rw [h4.unique C33_extension h2] at h5
            exact ⟨exts, rfl, h5⟩
      · rw [he]
        simp only [reduceCtorEq, false_iff]
        rintro (⟨h, _⟩ | ⟨_, as', _, h4, _⟩)
        · exact absurd h hv
        · exact hn _ h4

theorem clientSubprotocol_iff {cfg : ClientConfig X} {h : Headers} (hk : h.Ok pyLower)
    {sub : Option PyStr} : cfg.processSubprotocol h = .ok sub ↔
    (values h.list p!"Sec-WebSocket-Protocol" = [] ∧ sub = none) ∨
    ∃ ps p, cfg.subprotocols = some ps ∧
      AllLists TokItem (values h.list p!"Sec-WebSocket-Protocol") [p] ∧ p ∈ ps ∧ sub = some p := by
  unfold ClientConfig.processSubprotocol
  rw [hk.all]
  simp only
  by_cases hv : values h.list p!"Sec-WebSocket-Protocol" = []
  · rw [if_neg (by simpa using hv)]
    simp only [Except.ok.injEq]
    constructor
    · rintro rfl; exact .inl ⟨hv, rfl⟩
    · rintro (⟨_, rfl⟩ | ⟨ps, p, _, h1, _⟩)
      · rfl
      · rw [hv] at h1
        cases h1
  · rw [if_pos hv]
    cases hx : cfg.subprotocols with
    | none => simp [hv]
    | some ps =>
      simp only
      rcases parseAll_spec C33_subprotocol (values h.list p!"Sec-WebSocket-Protocol") with
        ⟨as, h1, h2, h3⟩ | ⟨hn, _, _, _, _, he, _⟩
      · rw [h1]
        match as, h2, h3 hv with
        | [], _, h3 => exact absurd rfl h3
        | [p], h2, _ =>
          simp only
          constructor
          · intro h
            split at h
            · rename_i hm
              cases h
              exact .inr ⟨ps, p, rfl, h2, hm, rfl⟩
            · cases h
          · rintro (⟨h, _⟩ | ⟨ps', q, hf, h4, hm, rfl⟩)
            · exact absurd h hv
            · cases hf
              have := h4.unique C33_subprotocol h2
              cases this
              rw [if_pos hm]
        | p :: q :: l, h2, _ =>
          simp only [reduceCtorEq, false_iff]
          rintro (⟨h, _⟩ | ⟨_, _, _, h4, _⟩)
          · exact absurd h hv
          · have := h4.unique C33_subprotocol h2
            cases this
      · rw [he]
        simp only [reduceCtorEq, false_iff]
        rintro (⟨h, _⟩ | ⟨_, _, _, h4, _⟩)
        · exact absurd h hv
        · exact hn _ h4

theorem base64_ascii (b : Bytes) : ∀ c ∈ base64 b, c < 128 := by
  rw [← b64encode_eq]
  obtain ⟨cs, pads, e, h1, h2, _⟩ := b64encode_split b
  rw [e]
  intro c hc
  have low : ∀ c ∈ b64Alphabet, c < 128 := by decide +kernel
  rcases List.mem_append.1 hc with hc | hc
  · exact low c ((b64Val_isSome_iff c).1 (h1 c hc))
  · rcases h2 with rfl | rfl | rfl <;> simp at hc <;> omega

theorem checkResponse_iff {cfg : ClientConfig X} {r : Response} (hk : r.headers.Ok pyLower) :
    cfg.checkResponse r = .ok () ↔ r.statusCode = 101 ∧ HasUpgrade r.headers.list ∧
      UpgradeIsWebsocket r.headers.list ∧
      values r.headers.list p!"Sec-WebSocket-Accept" = [acceptFor (base64 cfg.raw)] := by
  unfold ClientConfig.checkResponse
  by_cases hc : r.statusCode = 101
  · rw [if_neg (by simpa using hc)]
    rcases checkUpgrade_spec hk with ⟨h1, hu, hw⟩ | ⟨e, h1, _, _, _, hn⟩
    · rw [h1]
      simp only
      have hkey : acceptKey cfg.key = .ok (acceptFor (base64 cfg.raw)) := by
        have : cfg.key = base64 cfg.raw := b64encode_eq cfg.raw
        rw [this]
        exact acceptKey_spec (base64_ascii _)
      rcases singleHeader_spec hk p!"Sec-WebSocket-Accept" with ⟨v, hv, hs⟩ | ⟨hv, m, hs, _⟩
      · rw [hs, hkey, hv]
        simp only
        constructor
        · intro h
          split at h
          · cases h
          · rename_i hne
            have : v = acceptFor (base64 cfg.raw) := Classical.byContradiction fun c => hne c
            exact ⟨hc, hu, hw, by rw [this]⟩
        · rintro ⟨_, _, _, h⟩
          cases h
          simp
      · rw [hs]
        simp only [reduceCtorEq, false_iff]
        rintro ⟨_, _, _, h⟩
        exact hv _ h
    · rw [h1]
      simp only [reduceCtorEq, false_iff]
      rintro ⟨_, h2, h3, _⟩
      exact hn ⟨h2, h3⟩
  · rw [if_pos hc]
    simp [hc]

/-- `process_response` succeeds exactly on valid responses. -/
theorem processResponse_iff {cfg : ClientConfig X} {r : Response} (hk : r.headers.Ok pyLower)
    (c c' : Core X Response) : cfg.processResponse r c = (none, c') ↔
      ∃ exts sub, ValidResponse cfg r.statusCode r.headers.list exts sub ∧
        c' = { c with exts, subprotocol := sub } := by
  unfold ClientConfig.processResponse
  constructor
  · intro h
    split at h
    · cases h
    · rename_i h1
      obtain ⟨a1, a2, a3, a4⟩ := (checkResponse_iff hk).1 h1
      split at h
      · cases h
      · rename_i exts h2
        simp only at h
        split at h
        · cases h
        · rename_i sub h3
          cases h
          exact ⟨exts, sub, ⟨a1, a2, a3, a4, (clientExtensions_iff hk).1 h2,
            (clientSubprotocol_iff hk).1 h3⟩, rfl⟩
  · rintro ⟨exts, sub, h, rfl⟩
    rw [(checkResponse_iff hk).2 ⟨h.status, h.connection, h.upgrade, h.accept⟩]
    simp only
    rw [(clientExtensions_iff hk).2 h.extensions]
    simp only
    rw [(clientSubprotocol_iff hk).2 h.subprotocol]

/-! ## Nothing else leaves the `CONNECTING` state -/

/-- The core doesn't leave or enter the `CONNECTING` state; its subprotocol doesn't change. -/
structure Core.Keeps {E : Type} (c c' : Core X E) : Prop where
  state : c.state = .connecting ↔ c'.state = .connecting
  sub : c'.subprotocol = c.subprotocol

variable {E H : Type}

theorem Core.Keeps.rfl' {c : Core X E} : Core.Keeps c c := ⟨.rfl, rfl⟩

theorem Core.Keeps.trans {a b c : Core X E} (h1 : a.Keeps b) (h2 : b.Keeps c) : a.Keeps c :=
  ⟨h1.state.trans h2.state, h2.sub.trans h1.sub⟩

theorem Core.sendFrame_keeps (env : Env X E H) (c : Core X E) (f : Frame) :
    c.Keeps (c.sendFrame env f).2 := by
  unfold Core.sendFrame
  split
  · exact .rfl'
  · simp only
    split <;> exact ⟨.rfl, rfl⟩

theorem Core.sendEof_keeps (c : Core X E) : c.Keeps c.sendEof.2 := by
  unfold Core.sendEof
  split <;> exact ⟨.rfl, rfl⟩

theorem Core.failEof_keeps (c : Core X E) : c.Keeps c.failEof.2 := by
  unfold Core.failEof
  split
  · exact c.sendEof_keeps
  · exact .rfl'

theorem Core.sendFrame_none {env : Env X E H} {c c' : Core X E} {f : Frame}
    (h : c.sendFrame env f = (none, c')) : c.state = .opened := by
  unfold Core.sendFrame at h
  split at h
  · cases h
  · rename_i hs
    exact Classical.byContradiction fun hn => hs hn

theorem Core.sendCloseFrame_keeps (env : Env X E H) (c : Core X E) (d : Bytes) :
    c.Keeps (c.sendCloseFrame env d).2 := by
  unfold Core.sendCloseFrame
  have h1 := Core.sendFrame_keeps env c { fin := true, opcode := .close, data := d }
  cases hx : c.sendFrame env { fin := true, opcode := .close, data := d } with
  | mk e c' =>
    rw [hx] at h1
    cases e with
    | some e => exact h1
    | none =>
      have hop := Core.sendFrame_none hx
      simp only
      have h2 : c.Keeps { c' with state := .closing } :=
        ⟨by simp [hop], h1.sub⟩
      split
      · exact h2.trans (Core.sendEof_keeps _)
      · exact h2

theorem Core.failConnection_keeps (env : Env X E H) (c : Core X E) (code : Int) (reason : PyStr) :
    c.Keeps (c.failConnection env code reason).2 := by
  unfold Core.failConnection
  split
  · rename_i hop
    split
    · exact .rfl'
    · rename_i data _
      have h1 := Core.sendFrame_keeps env c { fin := true, opcode := .close, data }
      cases hx : c.sendFrame env { fin := true, opcode := .close, data } with
      | mk e c' =>
        rw [hx] at h1
        cases e with
        | some e => exact h1
        | none =>
          have h2 : c.Keeps { c' with state := .closing } :=
            ⟨by simp [hop.2], h1.sub⟩
          exact h2.trans (Core.failEof_keeps _)
  · exact c.failEof_keeps

theorem Core.handleFrame_keeps (env : Env X E H) (c : Core X E) (f : Frame) :
    c.Keeps (c.handleFrame env f).2 := by
  unfold Core.handleFrame
  split
  · repeat' split
    all_goals exact ⟨.rfl, rfl⟩
  · repeat' split
    all_goals exact ⟨.rfl, rfl⟩
  · repeat' split
    all_goals exact ⟨.rfl, rfl⟩
  · split
    · exact Core.sendFrame_keeps env c _
    · exact .rfl'
  · exact .rfl'
  · simp only
    split
    · exact ⟨.rfl, rfl⟩
    · split
      · exact ⟨.rfl, rfl⟩
      · split
        · exact Core.Keeps.trans (b := { c with closeReceived := true, closeCode := _, closeReason := _ })
            ⟨.rfl, rfl⟩ (Core.sendCloseFrame_keeps env _ _)
        · exact ⟨.rfl, rfl⟩

theorem Core.frameRead_keeps (env : Env X E H) (c : Core X E) (lim : Option Int)
    (stale : Option (List X)) (raw : Frame) : c.Keeps (c.frameRead env lim stale raw).2 := by
  unfold Core.frameRead
  cases hx : Frame.finish env.ops (stale.getD c.exts) lim raw with
  | mk res xs =>
    simp only
    have h1 : c.Keeps (if stale.isNone then { c with exts := xs } else c) := by
      split
      · exact ⟨.rfl, rfl⟩
      · exact .rfl'
    cases res with
    | error e => exact h1
    | ok f =>
      simp only
      have h2 := Core.handleFrame_keeps env (if stale.isNone then { c with exts := xs } else c) f
      cases hy : (if stale.isNone then { c with exts := xs } else c).handleFrame env f with
      | mk e c' =>
        rw [hy] at h2
        cases e with
        | some e => exact h1.trans h2
        | none => exact (h1.trans h2).trans ⟨.rfl, rfl⟩

theorem Core.atEnd_keeps (c : Core X E) : c.Keeps c.atEnd.2 := by
  unfold Core.atEnd
  split
  · exact c.failEof_keeps
  · exact .rfl'

/-- The parser is past the handshake. -/
def PState.NotHs : PState X E → Prop
  | .hs _ => False
  | _ => True

theorem Conn.loop_keeps (env : Env X E H) (n : Nat) (c : Core X E) (r : Reader) :
    c.Keeps (Conn.loop env n c r).2.core ∧ (Conn.loop env n c r).2.pstate.NotHs := by
  induction n generalizing c r with
  | zero => exact ⟨.rfl', trivial⟩
  | succ n ih =>
    simp only [Conn.loop]
    cases r.atEof with
    | none => exact ⟨.rfl', trivial⟩
    | some b =>
      cases b with
      | true =>
        simp only
        have h1 := c.atEnd_keeps
        cases hx : c.atEnd with
        | mk e c' =>
          rw [hx] at h1
          cases e <;> exact ⟨h1, trivial⟩
      | false =>
        simp only
        cases (Frame.parseRaw c.maskIn c.frameLimit).run r with
        | blocked co r1 => exact ⟨.rfl', trivial⟩
        | raised e r1 => exact ⟨.rfl', trivial⟩
        | done raw r1 =>
          simp only
          have h1 := Core.frameRead_keeps env c c.frameLimit none raw
          cases hx : c.frameRead env c.frameLimit none raw with
          | mk e c' =>
            rw [hx] at h1
            cases e with
            | some e => exact ⟨h1, trivial⟩
            | none => exact ⟨h1.trans (ih c' r1).1, (ih c' r1).2⟩

theorem Conn.resume_keeps (env : Env X E H) (k : Conn X E) (hp : k.pstate.NotHs) :
    k.core.Keeps (k.resume env).2.core ∧ (k.resume env).2.pstate.NotHs := by
  unfold Conn.resume
  cases hps : k.pstate with
  | dead => exact ⟨.rfl', by simp [hps, PState.NotHs]⟩
  | parked => exact ⟨.rfl', trivial⟩
  | top => exact Conn.loop_keeps env _ _ _
  | hs co => rw [hps] at hp; exact hp.elim
  | inFrame co lim stale =>
    simp only
    cases co.run k.reader with
    | blocked co r1 => exact ⟨.rfl', trivial⟩
    | raised e r1 => exact ⟨.rfl', trivial⟩
    | done raw r1 =>
      simp only
      have h1 := Core.frameRead_keeps env k.core lim stale raw
      cases hx : k.core.frameRead env lim stale raw with
      | mk e c' =>
        rw [hx] at h1
        cases e with
        | some e => exact ⟨h1, trivial⟩
        | none =>
          have := Conn.loop_keeps env (r1.buf.length + 1) c' r1
          exact ⟨h1.trans this.1, this.2⟩

/-- What `step` does after `resume`. -/
theorem Conn.step_of_resume (env : Env X E H) (k : Conn X E) :
    (k.resume env).2.core.Keeps (k.step env).2.core ∧
      (k.step env).2.pstate = (k.resume env).2.pstate := by
  by_cases hd : k.pstate = .dead
  · have : k.resume env = (some .runtimeError, k) := by unfold Conn.resume; rw [hd]
    rw [this, Conn.step_dead env k hd]
    exact ⟨.rfl', rfl⟩
  · rw [Conn.step_alive env k hd]
    cases hx : k.resume env with
    | mk e k1 =>
      cases e with
      | none => exact ⟨.rfl', rfl⟩
      | some e =>
        simp only
        have h1 := Core.failConnection_keeps env k1.core (failCode e).1 (failCode e).2
        cases hy : k1.core.failConnection env (failCode e).1 (failCode e).2 with
        | mk e' c' =>
          rw [hy] at h1
          cases e' with
          | some e' => exact ⟨h1, rfl⟩
          | none => exact ⟨h1.trans ⟨.rfl, rfl⟩, rfl⟩

/-- API calls other than those of the handshake and those that receive data. -/
theorem Conn.apply_keeps (env : Env X E H) (k : Conn X E) (op : Op H)
    (h1 : op.isHandshake = false) (h2 : ∀ d, op ≠ .receiveData d) (h3 : op ≠ .receiveEof) :
    k.core.Keeps (k.apply env op).2.core ∧ (k.apply env op).2.pstate = k.pstate ∧
      (k.apply env op).2.reader = k.reader := by
  cases op with
  | receiveData d => exact absurd rfl (h2 d)
  | receiveEof => exact absurd rfl h3
  | handshake h => cases h1
  | eventsReceived => exact ⟨⟨.rfl, rfl⟩, rfl, rfl⟩
  | dataToSend => exact ⟨⟨.rfl, rfl⟩, rfl, rfl⟩
  | sendPing d => exact ⟨Core.sendFrame_keeps env _ _, rfl, rfl⟩
  | sendPong d => exact ⟨Core.sendFrame_keeps env _ _, rfl, rfl⟩
  | sendText d fin =>
    refine ⟨?_, rfl, rfl⟩
    simp only [Conn.apply, Conn.onCore, Core.sendData]
    split
    · exact .rfl'
    · exact Core.Keeps.trans (b := { k.core with expectCont := !fin }) ⟨.rfl, rfl⟩
        (Core.sendFrame_keeps env _ _)
  | sendBinary d fin =>
    refine ⟨?_, rfl, rfl⟩
    simp only [Conn.apply, Conn.onCore, Core.sendData]
    split
    · exact .rfl'
    · exact Core.Keeps.trans (b := { k.core with expectCont := !fin }) ⟨.rfl, rfl⟩
        (Core.sendFrame_keeps env _ _)
  | sendContinuation d fin =>
    refine ⟨?_, rfl, rfl⟩
    simp only [Conn.apply, Conn.onCore, Core.sendContinuation]
    split
    · exact .rfl'
    · exact Core.Keeps.trans (b := { k.core with expectCont := !fin }) ⟨.rfl, rfl⟩
        (Core.sendFrame_keeps env _ _)
  | sendClose code reason =>
    refine ⟨?_, rfl, rfl⟩
    simp only [Conn.apply, Conn.onCore, Core.sendClose]
    split
    · exact .rfl'
    · split
      · split
        · exact .rfl'
        · exact Core.sendCloseFrame_keeps env _ _
      · split
        · exact .rfl'
        · exact Core.sendCloseFrame_keeps env _ _

end WS
