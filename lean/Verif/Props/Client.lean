import Verif.Lemmas.Client

/-!
# The client side of the opening handshake: C42 and C46
-/

namespace WS

open Spec

variable {X : Type}

theorem parseLine_fresh : parseLine.Fresh := by
  refine Coro.Fresh.bind Coro.fresh_line fun l => ?_
  split
  · exact .raise _
  · split
    · exact .raise _
    · exact .ret _

theorem parseHeadersLoop_fresh (n : Nat) (h : Headers) : (parseHeadersLoop n h).Fresh := by
  induction n generalizing h with
  | zero => exact .raise _
  | succ n ih =>
    refine Coro.Fresh.bind parseLine_fresh fun l => ?_
    split
    · exact .ret _
    · split
      · exact .raise _
      · split
        · exact .raise _
        · simp only
          split
          · exact .raise _
          · exact ih _

theorem Request.parse_fresh : Request.parse.Fresh := by
  refine Coro.Fresh.bind parseLine_fresh fun l => ?_
  split
  · exact .raise _
  · split
    · exact .raise _
    · split
      · exact .raise _
      · exact Coro.Fresh.bind (parseHeadersLoop_fresh _ _) fun h => .ret _

theorem Response.parse_fresh : Response.parse.Fresh := by
  refine Coro.Fresh.bind parseLine_fresh fun l => ?_
  split
  · exact .raise _
  · split
    · exact .raise _
    · split
      · exact .raise _
      · split
        · exact .raise _
        · split
          · exact .raise _
          · split
            · exact .raise _
            · refine Coro.Fresh.bind (parseHeadersLoop_fresh _ _) fun h => ?_
              unfold Response.parseBody
              split
              · exact .raise _
              · split
                · exact .ret _
                · split
                  · exact Coro.Fresh.bind Coro.fresh_toEof fun _ => .ret _
                  · exact .raise _
                  · split
                    · exact .raise _
                    · split
                      · exact .raise _
                      · exact Coro.Fresh.bind (Coro.fresh_exact _) fun _ => .ret _

/-- The headers of a parsed response are consistent. -/
theorem Response.parse_ok {r r' : Reader} {p : Response}
    (h : Response.parse.run r = .done p r') : p.headers.Ok pyLower := by
  obtain ⟨_, _, _, _, hs, _, _, _, _, _, _, _, _, rfl⟩ := Response.parse_iff.1 h
  exact (Headers.ofList_ok (strs hs)).1

/-- The response that starts a byte stream completes the handshake. -/
def Spec.Completes (cfg : ClientConfig X) (d : Bytes) (sub : Option PyStr) : Prop :=
  ∃ r rest exts, Response.parse.run ⟨d, false⟩ = .done r ⟨rest, false⟩ ∧
    ValidResponse cfg r.statusCode r.headers.list exts sub

theorem Response.parse_more {d rest : Bytes} {r : Response}
    (h : Response.parse.run ⟨d, false⟩ = .done r ⟨rest, false⟩) (d' : Bytes) :
    Response.parse.run ⟨d ++ d', false⟩ = .done r ⟨rest ++ d', false⟩ := by
  have := Coro.run_push (r := ⟨d, false⟩) rfl (.fresh Response.parse_fresh) d'
  rw [h] at this
  exact this

theorem Spec.Completes.more {cfg : ClientConfig X} {d : Bytes} {sub : Option PyStr}
    (h : Completes cfg d sub) (d' : Bytes) : Completes cfg (d ++ d') sub := by
  obtain ⟨r, rest, exts, h1, h2⟩ := h
  exact ⟨r, _, exts, Response.parse_more h1 d', h2⟩

/-- Why a client hasn't completed the handshake. -/
inductive Stays (cfg : ClientConfig X) (d : Bytes) (k : Conn X Response) : Prop where
  | parsing (co : Coro Response) : k.pstate = .hs co → k.reader.eof = false →
      Response.parse.run ⟨d, false⟩ = .blocked co k.reader → Stays cfg d k
  | ended : k.pstate.NotHs → k.reader.eof = true → Stays cfg d k
  | raised (e r) : k.pstate.NotHs → Response.parse.run ⟨d, false⟩ = .raised e r → Stays cfg d k
  | refused (p r) : k.pstate.NotHs → Response.parse.run ⟨d, false⟩ = .done p r →
      (∀ exts sub, ¬ ValidResponse cfg p.statusCode p.headers.list exts sub) → Stays cfg d k

/-- The invariant of a client. -/
def ClientInv (cfg : ClientConfig X) (d : Bytes) (k : Conn X Response) : Prop :=
  (k.core.state = .connecting ∧ Stays cfg d k) ∨
  (k.pstate.NotHs ∧ Completes cfg d k.core.subprotocol ∧ k.core.state ≠ .connecting)

theorem Stays.more {cfg : ClientConfig X} {d : Bytes} {k k' : Conn X Response}
    (h : Stays cfg d k) (hn : k.pstate.NotHs) (hn' : k'.pstate.NotHs)
    (he : k.reader.eof = true → k'.reader.eof = true) (d' : Bytes) : Stays cfg (d ++ d') k' := by
  have hp := Coro.run_push (r := ⟨d, false⟩) rfl (.fresh Response.parse_fresh) d'
  cases h with
  | parsing co h1 => rw [h1] at hn; exact hn.elim
  | ended _ h => exact .ended hn' (he h)
  | raised e r _ h => rw [h] at hp; exact .raised _ _ hn' hp
  | refused p r _ h h2 => rw [h] at hp; exact .refused _ _ hn' hp h2

/-- What a client does with a response. -/
theorem onResponse_spec (cfg : ClientConfig X) {p : Response} (hk : p.headers.Ok pyLower)
    {c : Core X Response} (hc : c.state = .connecting) :
    (∃ exts sub, ValidResponse cfg p.statusCode p.headers.list exts sub ∧
      cfg.onResponse p c = (none, { c with
        exts, subprotocol := sub, state := .opened, events := c.events ++ [.handshake p] })) ∨
    ((∀ exts sub, ¬ ValidResponse cfg p.statusCode p.headers.list exts sub) ∧
      (cfg.onResponse p c).2.state = .connecting) := by
  unfold ClientConfig.onResponse
  rw [if_neg (by simp [hc])]
  obtain ⟨exts, sub, he⟩ := cfg.processResponse_core p c
  have hi := fun c' => processResponse_iff (cfg := cfg) hk c c'
  cases hx : cfg.processResponse p c with
  | mk e c' =>
    rw [hx] at hi he
    simp only at he
    cases e with
    | none =>
      obtain ⟨exts, sub, hv, rfl⟩ := (hi _).1 rfl
      exact .inl ⟨exts, sub, hv, rfl⟩
    | some e =>
      refine .inr ⟨fun exts sub hv => ?_, ?_⟩
      · have := (hi _).2 ⟨exts, sub, hv, rfl⟩
        cases this
      · simp only
        subst he
        split <;> exact hc

theorem client_step (cfg : ClientConfig X) (ops : ExtOps X) (rand : Nat → Bytes)
    (hr : ∀ i, (rand i).length = 4) {d : Bytes} {k : Conn X Response} {co : Coro Response}
    (hp : k.pstate = .hs co) (hready : co.Ready k.reader) (hc : k.core.state = .connecting)
    (hrun : co.run k.reader = Response.parse.run ⟨d, k.reader.eof⟩)
    (heof : k.reader.eof = true → ∃ c r, Response.parse.run ⟨d, false⟩ = .blocked c r) :
    ClientInv cfg d (k.step (cfg.env ops rand hr)).2 := by
  obtain ⟨g1, g2⟩ := Conn.step_of_resume (cfg.env ops rand hr) k
  have heof' : (k.step (cfg.env ops rand hr)).2.reader.eof = k.reader.eof :=
    (Conn.step_settled _ k (by rw [hp]; exact hready)).2.1
  generalize hk1 : (k.step (cfg.env ops rand hr)).2 = k1 at g1 g2 heof'
  unfold Conn.resume at g1 g2
  rw [hp] at g1 g2
  simp only at g1 g2
  rw [hrun] at g1 g2
  cases he : k.reader.eof with
  | false =>
    rw [he] at g1 g2 heof' hrun
    cases hx : Response.parse.run ⟨d, false⟩ with
    | blocked co' r' =>
      rw [hx] at g1 g2 hrun
      refine .inl ⟨g1.state.1 hc, .parsing co' g2 heof' ?_⟩
      rw [hx]
      have : k1.reader = r' := by
        rw [← hk1, Conn.step_alive _ k (by rw [hp]; simp)]
        unfold Conn.resume
        rw [hp]
        simp only
        rw [hrun]
      rw [this]
    | raised e r' =>
      rw [hx] at g1 g2
      exact .inl ⟨g1.state.1 hc, .raised e r' (by rw [g2]; trivial) hx⟩
    | done p r' =>
      rw [hx] at g1 g2
      simp only at g1 g2
      have hre : r'.eof = false := by
        obtain ⟨_, _, h⟩ := Response.parse.run_suffix ⟨d, false⟩
        rw [hx] at h
        exact h
      have hr' : r' = ⟨r'.buf, false⟩ := by cases r'; simp_all
      have hon : (cfg.env ops rand hr).onHs p k.core = cfg.onResponse p k.core := rfl
      rw [hon] at g1 g2
      rcases onResponse_spec cfg (Response.parse_ok hx) hc with ⟨exts, sub, hv, ho⟩ | ⟨hn, ho⟩
      · rw [ho] at g1 g2
        simp only at g1 g2
        have hl := Conn.loop_keeps (cfg.env ops rand hr) (r'.buf.length + 1)
          { k.core with exts, subprotocol := sub, state := .opened,
                        events := k.core.events ++ [.handshake p] } r'
        have hs : k1.core.subprotocol = sub := g1.sub.trans hl.1.sub
        refine .inr ⟨by rw [g2]; exact hl.2, ⟨p, r'.buf, exts, ?_, ?_⟩, ?_⟩
        · rw [← hr']; exact hx
        · rw [hs]; exact hv
        · intro h
          have := hl.1.state.2 (g1.state.2 h)
          cases this
      · cases hy : cfg.onResponse p k.core with
        | mk e c' =>
          rw [hy] at g1 g2 ho
          simp only at ho
          cases e with
          | some e =>
            simp only at g1 g2
            exact .inl ⟨g1.state.1 ho, .refused p r' (by rw [g2]; trivial) hx hn⟩
          | none =>
            simp only at g1 g2
            have hl := Conn.loop_keeps (cfg.env ops rand hr) (r'.buf.length + 1) c' r'
            exact .inl ⟨g1.state.1 (hl.1.state.1 ho),
              .refused p r' (by rw [g2]; exact hl.2) hx hn⟩
  | true =>
    obtain ⟨c0, r0, hb⟩ := heof he
    rw [he] at g1 g2 heof' hrun
    cases hx : Response.parse.run ⟨d, true⟩ with
    | blocked co' r' =>
      have := (Coro.run_ready (.fresh Response.parse_fresh) hx).2.2
      cases this
    | raised e r' =>
      rw [hx] at g1 g2
      exact .inl ⟨g1.state.1 hc, .ended (by rw [g2]; trivial) heof'⟩
    | done p r' =>
      rw [hx] at g1 g2
      simp only at g1 g2
      have hon : (cfg.env ops rand hr).onHs p k.core = cfg.onResponse p k.core := rfl
      rw [hon] at g1 g2
      rcases onResponse_spec cfg (Response.parse_ok hx) hc with ⟨exts, sub, hv, ho⟩ | ⟨hn, ho⟩
      · -- a response with status 101 ends with its headers, whether or not the stream has ended
        exfalso
        obtain ⟨head, code, reason, s, hs, rest, body, a1, a2, a3, a4, a5, a6, rfl⟩ :=
          Response.parse_iff.1 hx
        have h101 : code = 101 := hv.status
        have : Response.parse.run ⟨d, false⟩ =
            .done ⟨code, s, Headers.ofList (strs hs), none, none⟩ ⟨rest, false⟩ :=
          Response.parse_iff.2 ⟨head, code, reason, s, hs, rest, none, a1, a2, a3, a4,
            .none (by rw [h101]; unfold BodyLess; omega), rfl, rfl⟩
        rw [hb] at this
        cases this
      · cases hy : cfg.onResponse p k.core with
        | mk e c' =>
          rw [hy] at g1 g2 ho
          simp only at ho
          cases e with
          | some e =>
            simp only at g1 g2
            exact .inl ⟨g1.state.1 ho, .ended (by rw [g2]; trivial) heof'⟩
          | none =>
            simp only at g1 g2
            have hl := Conn.loop_keeps (cfg.env ops rand hr) (r'.buf.length + 1) c' r'
            exact .inl ⟨g1.state.1 (hl.1.state.1 ho), .ended (by rw [g2]; exact hl.2) heof'⟩

theorem client_apply (cfg : ClientConfig X) (ops : ExtOps X) (rand : Nat → Bytes)
    (hr : ∀ i, (rand i).length = 4) {d : Bytes} {k : Conn X Response} (hs : k.Settled)
    (h : ClientInv cfg d k) (op : Op ClientCall) :
    ClientInv cfg (d ++ op.bytes) (k.apply (cfg.env ops rand hr) op).2 := by
  -- after the handshake
  have done : k.pstate.NotHs → ∀ k' : Conn X Response, k.core.Keeps k'.core → k'.pstate.NotHs →
      (k.reader.eof = true → k'.reader.eof = true) → ClientInv cfg (d ++ op.bytes) k' := by
    intro hn k' hk hn' he
    rcases h with ⟨h1, h2⟩ | ⟨_, h2, h3⟩
    · exact .inl ⟨hk.state.1 h1, h2.more hn hn' he _⟩
    · exact .inr ⟨hn', by rw [hk.sub]; exact h2.more _, fun h => h3 (hk.state.2 h)⟩
  have other : op.isHandshake = false → (∀ x, op ≠ .receiveData x) → op ≠ .receiveEof →
      ClientInv cfg (d ++ op.bytes) (k.apply (cfg.env ops rand hr) op).2 := by
    intro a b c
    obtain ⟨h1, h2, h3⟩ := Conn.apply_keeps (cfg.env ops rand hr) k op a b c
    have hb : op.bytes = [] := by cases op <;> first | rfl | exact absurd rfl (b _)
    rw [hb, List.append_nil]
    rcases h with ⟨g1, g2⟩ | ⟨g1, g2, g3⟩
    · refine .inl ⟨h1.state.1 g1, ?_⟩
      cases g2 with
      | parsing co x y z => exact .parsing co (h2.trans x) (by rw [h3]; exact y) (by rw [h3]; exact z)
      | ended x y => exact .ended (by rw [h2]; exact x) (by rw [h3]; exact y)
      | raised e r x y => exact .raised e r (by rw [h2]; exact x) y
      | refused p r x y z => exact .refused p r (by rw [h2]; exact x) y z
    · exact .inr ⟨by rw [h2]; exact g1, by rw [h1.sub]; exact g2, fun h => g3 (h1.state.2 h)⟩
  have steps : ∀ k' : Conn X Response, k'.core = k.core → k'.pstate = k.pstate →
      k.reader.eof = false → k'.pstate.Ready k'.reader →
      (∀ co, k.pstate = .hs co → co.run k'.reader = Response.parse.run ⟨d ++ op.bytes, k'.reader.eof⟩ ∧
        (k'.reader.eof = true → ∃ c r, Response.parse.run ⟨d ++ op.bytes, false⟩ = .blocked c r)) →
      ClientInv cfg (d ++ op.bytes) (k'.step (cfg.env ops rand hr)).2 := by
    intro k' e1 e2 e3 hrdy hco
    by_cases hn : k.pstate.NotHs
    · have hn' : k'.pstate.NotHs := by rw [e2]; exact hn
      obtain ⟨a1, a2⟩ := Conn.resume_keeps (cfg.env ops rand hr) k' hn'
      obtain ⟨b1, b2⟩ := Conn.step_of_resume (cfg.env ops rand hr) k'
      rw [e1] at a1
      exact done hn _ (a1.trans b1) (by rw [b2]; exact a2) (by rw [e3]; intro h; cases h)
    · cases hp : k.pstate with
      | hs co =>
        obtain ⟨c1, c2⟩ := hco co hp
        have hst : k.core.state = .connecting := by
          rcases h with ⟨g, _⟩ | ⟨g, _⟩
          · exact g
          · exact absurd g hn
        exact client_step cfg ops rand hr (e2.trans hp)
          (by rw [e2, hp] at hrdy; exact hrdy) (by rw [e1]; exact hst) c1 c2
      | _ => rw [hp] at hn; exact absurd trivial hn
  have hco : ∀ co, k.pstate = .hs co → Response.parse.run ⟨d, false⟩ = .blocked co k.reader := by
    intro co hp
    rcases h with ⟨_, g⟩ | ⟨g, _⟩
    · cases g with
      | parsing co' x y z =>
        rw [hp] at x
        cases x
        exact z
      | ended x => rw [hp] at x; exact x.elim
      | raised _ _ x => rw [hp] at x; exact x.elim
      | refused _ _ x => rw [hp] at x; exact x.elim
    · rw [hp] at g; exact g.elim
  cases op with
  | receiveData x =>
    simp only [Conn.apply, Conn.receiveData_eq]
    split
    · rename_i he
      rcases hs with ⟨_, g⟩ | ⟨g, _⟩ | ⟨g, _⟩
      · have hn : k.pstate.NotHs := by rcases g with g | g <;> rw [g] <;> trivial
        exact done hn k .rfl' hn id
      · rw [g] at he; cases he
      · rw [g] at he; cases he
    · rename_i he
      have he' : k.reader.eof = false := by simpa using he
      refine steps (k.push x) rfl rfl he' ((hs.ready he').push x) ?_
      intro co hp
      have hb := hco co hp
      have := Coro.run_push (r := ⟨d, false⟩) rfl (.fresh Response.parse_fresh) x
      rw [hb] at this
      refine ⟨?_, fun h => ?_⟩
      · rw [Conn.push_reader, Reader.push_eof, he']
        exact this.symm
      · rw [Conn.push_reader, Reader.push_eof, he'] at h; cases h
  | receiveEof =>
    simp only [Conn.apply, Conn.receiveEof_eq]
    split
    · rename_i he
      rcases hs with ⟨_, g⟩ | ⟨g, _⟩ | ⟨g, _⟩
      · have hn : k.pstate.NotHs := by rcases g with g | g <;> rw [g] <;> trivial
        exact done hn k .rfl' hn id
      · rw [g] at he; cases he
      · rw [g] at he; cases he
    · rename_i he
      have he' : k.reader.eof = false := by simpa using he
      refine steps { k with reader := { k.reader with eof := true } } rfl rfl he'
        ((hs.ready he').setEof true) ?_
      intro co hp
      have hb := hco co hp
      simp only [Op.bytes, List.append_nil]
      exact ⟨Coro.run_setEof hb, fun _ => ⟨_, _, hb⟩⟩
  | handshake x =>
    cases x with
    | sendRequest r =>
      have hstep : ∃ w, (k.apply (cfg.env ops rand hr) (.handshake (.sendRequest r))).2 =
          { k with core := { k.core with writes := w } } := by
        simp only [Conn.apply, ClientConfig.env, Core.sendRequest]
        cases r.serialize with
        | ok b => exact ⟨_, rfl⟩
        | error e => exact ⟨_, rfl⟩
      obtain ⟨w, hw⟩ := hstep
      rw [hw]
      simp only [Op.bytes, List.append_nil]
      rcases h with ⟨g1, g2⟩ | ⟨g1, g2, g3⟩
      · refine .inl ⟨g1, ?_⟩
        cases g2 with
        | parsing co x y z => exact .parsing co x y z
        | ended x y => exact .ended x y
        | raised e r x y => exact .raised e r x y
        | refused p r x y z => exact .refused p r x y z
      · exact .inr ⟨g1, g2, g3⟩
  | sendContinuation x fin => exact other rfl (by simp) (by simp)
  | sendText x fin => exact other rfl (by simp) (by simp)
  | sendBinary x fin => exact other rfl (by simp) (by simp)
  | sendClose code reason => exact other rfl (by simp) (by simp)
  | sendPing x => exact other rfl (by simp) (by simp)
  | sendPong x => exact other rfl (by simp) (by simp)
  | eventsReceived => exact other rfl (by simp) (by simp)
  | dataToSend => exact other rfl (by simp) (by simp)

theorem clientInit_settled (maxSize : Option Int) (origin : Option PyStr) :
    (clientInit maxSize origin : Conn X Response).Settled := by
  exact .inr (.inr ⟨rfl, by simp [clientInit], .fresh Response.parse_fresh, rfl⟩)

theorem client_exec (cfg : ClientConfig X) (ops : ExtOps X) (rand : Nat → Bytes)
    (hr : ∀ i, (rand i).length = 4) {d : Bytes} {k : Conn X Response} (hs : k.Settled)
    (h : ClientInv cfg d k) (calls : List (Op ClientCall)) :
    ClientInv cfg (d ++ received calls) (k.exec (cfg.env ops rand hr) calls).2 := by
  induction calls generalizing d k with
  | nil => simpa [received, Conn.exec] using h
  | cons op calls ih =>
    have := ih (Conn.apply_settled (cfg.env ops rand hr) hs op) (client_apply cfg ops rand hr hs h op)
    simpa [received, Conn.exec] using this

/-- A new client satisfies the invariant. -/
theorem clientInit_inv (cfg : ClientConfig X) (maxSize : Option Int) (origin : Option PyStr) :
    ClientInv cfg [] (clientInit maxSize origin) :=
  .inl ⟨rfl, .parsing _ rfl rfl rfl⟩

/-- **C42.**  Whatever a client receives, in whatever pieces, and whatever is called in between, it
leaves the `CONNECTING` state only if what it received starts with a response that completes the
handshake; its subprotocol is then the one in that response. -/
theorem C42_only_valid (cfg : ClientConfig X) (ops : ExtOps X) (rand : Nat → Bytes)
    (hr : ∀ i, (rand i).length = 4) (maxSize : Option Int) (origin : Option PyStr)
    (calls : List (Op ClientCall)) :
    let k := ((clientInit maxSize origin).exec (cfg.env ops rand hr) calls).2
    k.core.state ≠ .connecting → Completes cfg (received calls) k.core.subprotocol := by
  intro k hk
  have := client_exec cfg ops rand hr (clientInit_settled maxSize origin)
    (clientInit_inv cfg maxSize origin) calls
  rw [List.nil_append] at this
  rcases this with ⟨h, _⟩ | ⟨_, h, _⟩
  · exact absurd h hk
  · exact h

theorem exec_eof (cfg : ClientConfig X) (ops : ExtOps X) (rand : Nat → Bytes)
    (hr : ∀ i, (rand i).length = 4) {k : Conn X Response} (hs : k.Settled)
    (he : k.reader.eof = false) (calls : List (Op ClientCall)) (hc : ∀ op ∈ calls, op ≠ .receiveEof) :
    (k.exec (cfg.env ops rand hr) calls).2.reader.eof = false := by
  induction calls generalizing k with
  | nil => exact he
  | cons op calls ih =>
    refine ih (Conn.apply_settled _ hs op) ?_ fun o ho => hc o (by simp [ho])
    have hop := hc op (by simp)
    cases op with
    | receiveEof => exact absurd rfl hop
    | receiveData d =>
      simp only [Conn.apply, Conn.receiveData_eq, he]
      exact (Conn.step_settled _ _ ((hs.ready he).push d)).2.1.trans he
    | handshake x =>
      cases x with
      | sendRequest r =>
        simp only [Conn.apply, ClientConfig.env, Core.sendRequest]
        cases r.serialize <;> exact he
    | _ => exact he

/-- C42, and the converse: as long as the end of the stream isn't reached, a client has left the
`CONNECTING` state exactly when what it received starts with a response that completes the
handshake. -/
theorem C42_exactly_valid (cfg : ClientConfig X) (ops : ExtOps X) (rand : Nat → Bytes)
    (hr : ∀ i, (rand i).length = 4) (maxSize : Option Int) (origin : Option PyStr)
    (calls : List (Op ClientCall)) (hc : ∀ op ∈ calls, op ≠ .receiveEof) :
    let k := ((clientInit maxSize origin).exec (cfg.env ops rand hr) calls).2
    k.core.state ≠ .connecting ↔ ∃ sub, Completes cfg (received calls) sub := by
  intro k
  constructor
  · intro h
    exact ⟨_, C42_only_valid cfg ops rand hr maxSize origin calls h⟩
  · rintro ⟨sub, r, rest, exts, h1, h2⟩ hst
    have heof := exec_eof cfg ops rand hr (clientInit_settled (X := X) maxSize origin) rfl calls hc
    have := client_exec cfg ops rand hr (clientInit_settled maxSize origin)
      (clientInit_inv cfg maxSize origin) calls
    rw [List.nil_append] at this
    rcases this with ⟨_, h⟩ | ⟨_, _, h⟩
    · cases h with
      | parsing co _ _ h => rw [h1] at h; cases h
      | ended _ h => rw [heof] at h; cases h
      | raised e r _ h => rw [h1] at h; cases h
      | refused p r _ h hn =>
        rw [h1] at h
        cases h
        exact hn _ _ h2
    · exact h hst

/-- The configuration of a client, with the key of RFC 6455, section 1.3. -/
def exampleClient : ClientConfig Empty where
  uri := { secure := false, host := p!"localhost", port := 80, resourceName := p!"/" , userInfo := none }
  subprotocols := some [p!"chat", p!"superchat"]
  raw := b!"the sample nonce"

/-- A response to that client. -/
def exampleResponse : Bytes :=
  b!"HTTP/1.1 101 Switching Protocols\r\nUpgrade: websocket\r\nConnection: Upgrade\r\n" ++
  b!"Sec-WebSocket-Accept: s3pPLMBiTxaQ9kYGzzhZRbK+xOo=\r\nSec-WebSocket-Protocol: chat\r\n\r\n"

-- A client that reaches the `OPEN` state, so that C42 isn't vacuous.
example : ((clientInit none none).exec
      (exampleClient.env noExts (fun _ => [1, 2, 3, 4]) (fun _ => rfl))
      [.receiveData (exampleResponse.take 50), .receiveData (exampleResponse.drop 50)]).2.core.state =
    .opened := by decide +kernel

/-! ## C46, for the client -/

theorem Spec.Answered.names {fs : List (ClientFactory X)} {answers : List ExtHeader}
    {acc exts : List X} (h : Answered fs answers acc exts) :
    ∀ a ∈ answers, ∃ f ∈ fs, f.name = a.1 := by
  induction h with
  | nil => simp
  | cons h1 h2 ih =>
    obtain ⟨pre, f, post, rfl, hn, _⟩ := h1
    intro a ha
    rcases List.mem_cons.1 ha with rfl | ha
    · exact ⟨f, by simp, hn⟩
    · exact ih a ha

/-- **C46**, for the client: a response with an extension whose name isn't the name of one of the
extensions that the client offered leaves the client in the `CONNECTING` state. -/
theorem C46_client (cfg : ClientConfig X) {r : Response} (hk : r.headers.Ok pyLower)
    {c : Core X Response} (hc : c.state = .connecting) {answers : List ExtHeader}
    (ha : AllLists ExtItem (values r.headers.list p!"Sec-WebSocket-Extensions") answers)
    {name : PyStr} {params : List ExtParam} (hm : (name, params) ∈ answers)
    (hn : ∀ f ∈ cfg.extensions.getD [], f.name ≠ name) :
    (cfg.onResponse r c).2.state = .connecting := by
  rcases onResponse_spec cfg hk hc with ⟨exts, sub, hv, _⟩ | ⟨_, h⟩
  · exfalso
    rcases hv.extensions with ⟨h, _⟩ | ⟨fs, as, h1, h2, _, h3⟩
    · rw [h] at ha
      cases ha
      cases hm
    · rw [ha.unique C33_extension h2] at hm
      obtain ⟨f, hf, he⟩ := h3.names _ hm
      rw [h1] at hn
      exact hn f hf he
  · exact h

-- The hypotheses are met by a response with an extension, for a client without extensions.
example : AllLists ExtItem [p!"x-test"] [(p!"x-test", [])] ∧
    ∀ f ∈ exampleClient.extensions.getD [], f.name ≠ p!"x-test" := by
  refine ⟨?_, by simp [exampleClient]⟩
  rcases parseAll_spec C33_extension [p!"x-test"] with ⟨as, h1, h2, _⟩ | ⟨_, _, _, _, _, h, _⟩
  · have : as = [(p!"x-test", [])] := by
      have e : parseAll parseExtension [p!"x-test"] = .ok [(p!"x-test", [])] := by decide +kernel
      rw [e] at h1
      cases h1
      rfl
    rwa [this] at h2
  · have e : parseAll parseExtension [p!"x-test"] = .ok [(p!"x-test", [])] := by decide +kernel
    rw [e] at h
    cases h

end WS
