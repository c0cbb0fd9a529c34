import Verif.Lemmas.ConnOut

/-! Helper lemmas: what receiving data does, frame by frame. -/

namespace WS

open Spec

variable {X E H : Type}

/-! ## Coroutines: properties of results and exceptions -/

/-- Every value returned satisfies `P` and every exception raised satisfies `Q`. -/
def Coro.All {α : Type} (P : α → Prop) (Q : Exc → Prop) : Coro α → Prop
  | .ret a => P a
  | .raise e => Q e
  | .readLine _ k => (∀ d, (k (.ok d)).All P Q) ∧ (k (.error .eofError)).All P Q
  | .readExact n k => (∀ d, d.length = n → (k (.ok d)).All P Q) ∧ (k (.error .eofError)).All P Q
  | .readToEof k => ∀ d, (k d).All P Q

theorem Coro.run_all {α : Type} {P : α → Prop} {Q : Exc → Prop} {c : Coro α} (h : c.All P Q)
    (r : Reader) :
    match c.run r with
    | .done a _ => P a
    | .raised e _ => Q e
    | .blocked c' _ => c'.All P Q := by
  induction c generalizing r with
  | ret a => exact h
  | raise e => exact h
  | readLine p k ih =>
    simp only [Coro.run]
    cases findLF r.buf p with
    | some i => exact ih _ (h.1 _) _
    | none =>
      cases r.eof with
      | true => exact ih _ h.2 _
      | false => exact h
  | readExact n k ih =>
    simp only [Coro.run]
    by_cases hlt : r.buf.length < n
    · simp only [hlt, if_true]
      cases r.eof with
      | true => exact ih _ h.2 _
      | false => exact h
    · simp only [hlt, if_false]
      exact ih _ (h.1 _ (by simp; omega)) _
  | readToEof k ih =>
    simp only [Coro.run]
    cases r.eof with
    | true => exact ih _ (h _) _
    | false => exact h

theorem Coro.All.bind {α β : Type} {P : α → Prop} {P' : β → Prop} {Q : Exc → Prop} {c : Coro α}
    {f : α → Coro β} (hc : c.All P Q) (hf : ∀ a, P a → (f a).All P' Q) :
    (c.bind f).All P' Q := by
  induction c with
  | ret a => exact hf a hc
  | raise e => exact hc
  | readLine p k ih => exact ⟨fun d => ih _ (hc.1 d), ih _ hc.2⟩
  | readExact n k ih => exact ⟨fun d hd => ih _ (hc.1 d hd), ih _ hc.2⟩
  | readToEof k ih => exact fun d => ih _ (hc d)

theorem Coro.exact_all {Q : Exc → Prop} (n : Nat) (hq : Q .eofError) :
    (Coro.exact n).All (fun d => d.length = n) Q :=
  ⟨fun _ h => h, hq⟩

/-- The exceptions of the raw frame parser, with their messages. -/
def RawErr (limit : Option Int) (e : Exc) : Prop :=
  e = .eofError ∨ e = .protocolError p!"invalid opcode" ∨
  e = .protocolError p!"incorrect masking" ∨
  ∃ (n : Nat) (m : Int), limit = some m ∧ n < 2 ^ 64 ∧ (n : Int) > m ∧ e = .payloadTooBig (tooBigMsg n m)

theorem unpackBE_lt (d : Bytes) : unpackBE d < 256 ^ d.length := by
  have key : ∀ (d : Bytes) (acc : Nat),
      d.foldl (fun acc b => acc * 256 + b.toNat) acc < (acc + 1) * 256 ^ d.length := by
    intro d
    induction d with
    | nil => intro acc; simp
    | cons b d ih =>
      intro acc
      simp only [List.foldl_cons, List.length_cons]
      have h1 := ih (acc * 256 + b.toNat)
      have h2 : b.toNat < 256 := b.toNat_lt
      have h3 : (acc * 256 + b.toNat + 1) * 256 ^ d.length ≤
          ((acc + 1) * 256) * 256 ^ d.length := Nat.mul_le_mul_right _ (by omega)
      have h4 : 256 ^ (d.length + 1) = 256 * 256 ^ d.length := by rw [Nat.pow_succ, Nat.mul_comm]
      rw [h4, ← Nat.mul_assoc]
      omega
  have := key d 0
  simpa [unpackBE] using this

theorem Frame.parseBody_all (mask : Bool) (limit : Option Int) (fin rsv1 rsv2 rsv3 : Bool)
    (opcode : Opcode) (n : Nat) (hn : n < 2 ^ 64) :
    (Frame.parseBody mask limit fin rsv1 rsv2 rsv3 opcode n).All
      (fun f => Within f.data.length limit ∧ f.data.length < 2 ^ 64) (RawErr limit) := by
  unfold Frame.parseBody
  cases he : exceeds n limit with
  | some m =>
    refine .inr (.inr (.inr ⟨n, m, ?_, hn, ?_, rfl⟩)) <;>
    · unfold exceeds at he
      split at he
      · cases he
      · split at he
        · simp only [Option.some.injEq] at he; subst he; first | rfl | assumption
        · cases he
  | none =>
    have hw := (exceeds_none_iff _ _).1 he
    simp only
    split
    · refine (Coro.exact_all 4 (.inl rfl)).bind fun key hk => ?_
      refine (Coro.exact_all n (.inl rfl)).bind fun data hd => ?_
      rw [applyMask_eq hk]
      simp only
      refine ⟨?_, ?_⟩ <;> simp only [maskOctets_length, hd]
      · exact hw
      · exact hn
    · refine (Coro.exact_all n (.inl rfl)).bind fun data hd => ?_
      refine ⟨?_, ?_⟩ <;> simp only [hd]
      · exact hw
      · exact hn

theorem Frame.parseRaw_all (mask : Bool) (limit : Option Int) :
    (Frame.parseRaw mask limit).All
      (fun f => Within f.data.length limit ∧ f.data.length < 2 ^ 64) (RawErr limit) := by
  unfold Frame.parseRaw
  refine (Coro.exact_all 2 (.inl rfl)).bind fun d hd => ?_
  match d, hd with
  | [h1, h2], _ =>
    simp only
    cases Opcode.ofNat? (h1 &&& 0b00001111).toNat with
    | none => exact .inr (.inl rfl)
    | some op =>
      simp only
      split
      · exact .inr (.inr (.inl rfl))
      · split
        · refine (Coro.exact_all 2 (.inl rfl)).bind fun e he => ?_
          have := unpackBE_lt e
          rw [he] at this
          exact Frame.parseBody_all _ _ _ _ _ _ _ _ (by omega)
        · split
          · refine (Coro.exact_all 8 (.inl rfl)).bind fun e he => ?_
            have := unpackBE_lt e
            rw [he] at this
            exact Frame.parseBody_all _ _ _ _ _ _ _ _ (by omega)
          · refine Frame.parseBody_all _ _ _ _ _ _ _ _ ?_
            have := (h2 &&& 0b01111111).toNat_lt
            omega

/-! ## Parts of the state that sending does not touch -/

/-- Nothing that concerns received data changes. -/
structure Core.Quiet (c c' : Core X E) : Prop where
  side : c'.side = c.side
  maxSize : c'.maxSize = c.maxSize
  curSize : c'.curSize = c.curSize
  closeReceived : c'.closeReceived = c.closeReceived
  closeCode : c'.closeCode = c.closeCode
  closeReason : c'.closeReason = c.closeReason
  events : c'.events = c.events

theorem Core.Quiet.refl {c : Core X E} : Core.Quiet c c := ⟨rfl, rfl, rfl, rfl, rfl, rfl, rfl⟩

theorem Core.Quiet.trans {a b c : Core X E} (h1 : Core.Quiet a b) (h2 : Core.Quiet b c) :
    Core.Quiet a c :=
  ⟨h2.1.trans h1.1, h2.2.trans h1.2, h2.3.trans h1.3, h2.4.trans h1.4, h2.5.trans h1.5,
    h2.6.trans h1.6, h2.7.trans h1.7⟩

theorem Core.sendFrame_recvQuiet (env : Env X E H) (c : Core X E) (f : Frame) :
    Core.Quiet c (c.sendFrame env f).2 := by
  rcases Core.sendFrame_cases env c f with ⟨_, xs, n, _, h⟩ | ⟨_, _, _, f', xs, w, _, _, h⟩ <;>
    rw [h] <;> exact ⟨rfl, rfl, rfl, rfl, rfl, rfl, rfl⟩

theorem Core.sendEof_recvQuiet (c : Core X E) : Core.Quiet c c.sendEof.2 := by
  unfold Core.sendEof
  split
  · exact .refl
  · exact ⟨rfl, rfl, rfl, rfl, rfl, rfl, rfl⟩

theorem Core.sendCloseFrame_recvQuiet (env : Env X E H) (c : Core X E) (d : Bytes) :
    Core.Quiet c (c.sendCloseFrame env d).2 := by
  unfold Core.sendCloseFrame
  have h := Core.sendFrame_recvQuiet env c { fin := true, opcode := .close, data := d }
  cases hx : c.sendFrame env { fin := true, opcode := .close, data := d } with
  | mk e c1 =>
    rw [hx] at h
    cases e with
    | some e => exact h
    | none =>
      have h2 : Core.Quiet c { c1 with state := .closing } :=
        ⟨h.1, h.2, h.3, h.4, h.5, h.6, h.7⟩
      simp only
      split
      · exact h2.trans (Core.sendEof_recvQuiet _)
      · exact h2

theorem Core.failEof_recvQuiet (c : Core X E) : Core.Quiet c c.failEof.2 := by
  unfold Core.failEof
  split
  · exact Core.sendEof_recvQuiet c
  · exact .refl

theorem Core.failConnection_recvQuiet (env : Env X E H) (c : Core X E) (code : Int)
    (reason : PyStr) : Core.Quiet c (c.failConnection env code reason).2 := by
  unfold Core.failConnection
  split
  · split
    · exact .refl
    · rename_i data _
      have h := Core.sendFrame_recvQuiet env c { fin := true, opcode := .close, data }
      cases hx : c.sendFrame env { fin := true, opcode := .close, data } with
      | mk e c1 =>
        rw [hx] at h
        cases e with
        | some e => exact h
        | none =>
          have h2 : Core.Quiet c { c1 with state := .closing } :=
            ⟨h.1, h.2, h.3, h.4, h.5, h.6, h.7⟩
          exact h2.trans (Core.failEof_recvQuiet _)
  · exact Core.failEof_recvQuiet c

theorem Core.Quiet.frameLimit {c c' : Core X E} (h : Core.Quiet c c') :
    c'.frameLimit = c.frameLimit := by
  unfold Core.frameLimit
  rw [h.maxSize, h.curSize]

/-- API calls that send frames do not touch what concerns received data. -/
theorem Conn.send_recvQuiet (env : Env X E H) (k : Conn X E) (op : Op H) (hs : op.isSend = true)
    (hh : ∀ h, op ≠ .handshake h) :
    Core.Quiet k.core (k.apply env op).2.core ∧ (k.apply env op).2.reader = k.reader ∧
      (k.apply env op).2.pstate = k.pstate := by
  refine ⟨?_, ?_⟩
  · cases op with
    | sendContinuation d fin =>
      simp only [Conn.apply, Conn.onCore, Core.sendContinuation]
      split
      · exact .refl
      · refine Core.Quiet.trans ?_ (Core.sendFrame_recvQuiet env _ _)
        exact ⟨rfl, rfl, rfl, rfl, rfl, rfl, rfl⟩
    | sendText d fin =>
      simp only [Conn.apply, Conn.onCore, Core.sendData]
      split
      · exact .refl
      · refine Core.Quiet.trans ?_ (Core.sendFrame_recvQuiet env _ _)
        exact ⟨rfl, rfl, rfl, rfl, rfl, rfl, rfl⟩
    | sendBinary d fin =>
      simp only [Conn.apply, Conn.onCore, Core.sendData]
      split
      · exact .refl
      · refine Core.Quiet.trans ?_ (Core.sendFrame_recvQuiet env _ _)
        exact ⟨rfl, rfl, rfl, rfl, rfl, rfl, rfl⟩
    | sendClose code reason =>
      simp only [Conn.apply, Conn.onCore, Core.sendClose]
      split
      · exact .refl
      · split
        · split
          · exact .refl
          · exact Core.sendCloseFrame_recvQuiet env _ _
        · split
          · exact .refl
          · exact Core.sendCloseFrame_recvQuiet env _ _
    | sendPing d => exact Core.sendFrame_recvQuiet env _ _
    | sendPong d => exact Core.sendFrame_recvQuiet env _ _
    | handshake x => exact absurd rfl (hh x)
    | _ => cases hs
  · cases op with
    | handshake x => exact absurd rfl (hh x)
    | receiveData d => cases hs
    | receiveEof => cases hs
    | _ => exact ⟨rfl, rfl⟩

/-! ## Decomposition of a run of the parser -/

/-- The local variable `max_size` and the suspended frame parser agree with the connection. -/
def PState.Sound (c : Core X E) : PState X E → Prop
  | .inFrame co lim _ => lim = c.frameLimit ∧
      co.All (fun f => Within f.data.length lim ∧ f.data.length < 2 ^ 64) (RawErr lim)
  | _ => True

def Conn.Sound (k : Conn X E) : Prop := k.pstate.Sound k.core

theorem PState.Sound.mono {c c' : Core X E} {p : PState X E} (h : p.Sound c)
    (hc : c'.frameLimit = c.frameLimit) : p.Sound c' := by
  cases p with
  | inFrame co lim stale => exact ⟨by rw [hc]; exact h.1, h.2⟩
  | _ => trivial

theorem PState.Sound.rebind {c : Core X E} {p : PState X E} (h : p.Sound c) (old : List X) :
    (p.rebind old).Sound c := by
  cases p with
  | inFrame co lim stale => cases stale <;> exact h
  | _ => trivial

/-- Received frame `raw` is accepted and delivered as `f`. -/
def Core.Accept (env : Env X E H) (c : Core X E) (f : Frame) (c' : Core X E) : Prop :=
  ∃ (stale : Option (List X)) (raw : Frame) (xs : List X) (c1 : Core X E), Within raw.data.length c.frameLimit ∧ raw.data.length < 2 ^ 64 ∧
    Frame.finish env.ops (stale.getD c.exts) c.frameLimit raw = (.ok f, xs) ∧
    Core.handleFrame env (if stale.isNone then { c with exts := xs } else c) f = (none, c1) ∧
    c' = c1.addEvent (.frame f)

/-- Received frame `raw` is refused. -/
def Core.Refuse (env : Env X E H) (c : Core X E) (e : Exc) (c' : Core X E) : Prop :=
  ∃ stale raw, Within raw.data.length c.frameLimit ∧ raw.data.length < 2 ^ 64 ∧
    c.frameRead env c.frameLimit stale raw = (some e, c')

theorem Core.frameRead_accept {env : Env X E H} {c c' : Core X E} {stale : Option (List X)}
    {raw : Frame} (hw : Within raw.data.length c.frameLimit) (hlt : raw.data.length < 2 ^ 64)
    (h : c.frameRead env c.frameLimit stale raw = (none, c')) :
    ∃ f, c.Accept env f c' := by
  unfold Core.frameRead at h
  cases hf : Frame.finish env.ops (stale.getD c.exts) c.frameLimit raw with
  | mk res xs =>
    rw [hf] at h
    cases res with
    | error e => simp at h
    | ok f =>
      simp only at h
      cases hx : Core.handleFrame env (if stale.isNone then { c with exts := xs } else c) f with
      | mk e c1 =>
        rw [hx] at h
        cases e with
        | some e => simp at h
        | none =>
          simp only [Prod.mk.injEq, true_and] at h
          exact ⟨f, stale, raw, xs, c1, hw, hlt, hf, hx, h.symm⟩

/-- Successive frames accepted and delivered. -/
inductive Frames (env : Env X E H) : Core X E → List Frame → Core X E → Prop where
  | nil {c} : Frames env c [] c
  | cons {c f c1 fs c2} : c.Accept env f c1 → Frames env c1 fs c2 → Frames env c (f :: fs) c2

/-- How a run of the parser ends. -/
inductive Stop (env : Env X E H) (c : Core X E) : Option Exc → Conn X E → Prop where
  | wait {k} : k.core = c → k.pstate ≠ .dead → k.pstate ≠ .parked → Stop env c none k
  | parked {k} : c.closeReceived = true → k.core = c.failEof.2 → k.pstate = .parked →
      Stop env c none k
  | parse {k e} : RawErr c.frameLimit e → k.core = c → k.pstate = .dead → Stop env c (some e) k
  | frame {k e} : c.Refuse env e k.core → k.pstate = .dead → Stop env c (some e) k

theorem Conn.parseTop_frames (env : Env X E H) (c : Core X E) (r : Reader) :
    (∃ fs c1, Frames env c fs c1 ∧
      Stop env c1 (Conn.parseTop env c r).1 (Conn.parseTop env c r).2) ∧
    (Conn.parseTop env c r).2.Sound := by
  have key : ∀ (n : Nat) (c : Core X E) (r : Reader), r.buf.length ≤ n →
      (∃ fs c1, Frames env c fs c1 ∧
        Stop env c1 (Conn.parseTop env c r).1 (Conn.parseTop env c r).2) ∧
      (Conn.parseTop env c r).2.Sound := by
    intro n
    induction n with
    | zero =>
      intro c r hn
      have hb : r.buf = [] := List.eq_nil_of_length_eq_zero (by omega)
      rw [Conn.parseTop_eq env c r]
      cases he : r.eof with
      | false =>
        have h1 : r.atEof = none := by simp [Reader.atEof, hb, he]
        rw [h1]
        exact ⟨⟨[], c, .nil, .wait rfl (by simp) (by simp)⟩, trivial⟩
      | true =>
        have h1 : r.atEof = some true := by simp [Reader.atEof, hb, he]
        rw [h1]
        simp only [Core.atEnd]
        cases hc : c.closeReceived with
        | false => exact ⟨⟨[], c, .nil, .parse (.inl rfl) rfl rfl⟩, trivial⟩
        | true =>
          simp only [if_true]
          have h2 := (Core.failEof_tail (c := c)).2
          cases hx : c.failEof with
          | mk e c1 =>
            rw [hx] at h2
            simp only at h2
            subst h2
            exact ⟨⟨[], c, .nil, .parked hc (by rw [hx]) rfl⟩, trivial⟩
    | succ n ih =>
      intro c r hn
      rw [Conn.parseTop_eq env c r]
      by_cases hb : r.buf = []
      · cases he : r.eof with
        | false =>
          have h1 : r.atEof = none := by simp [Reader.atEof, hb, he]
          rw [h1]
          exact ⟨⟨[], c, .nil, .wait rfl (by simp) (by simp)⟩, trivial⟩
        | true =>
          have h1 : r.atEof = some true := by simp [Reader.atEof, hb, he]
          rw [h1]
          simp only [Core.atEnd]
          cases hc : c.closeReceived with
          | false => exact ⟨⟨[], c, .nil, .parse (.inl rfl) rfl rfl⟩, trivial⟩
          | true =>
            simp only [if_true]
            have h2 := (Core.failEof_tail (c := c)).2
            cases hx : c.failEof with
            | mk e c1 =>
              rw [hx] at h2
              simp only at h2
              subst h2
              exact ⟨⟨[], c, .nil, .parked hc (by rw [hx]) rfl⟩, trivial⟩
      · have h1 : r.atEof = some false := by simp [Reader.atEof, hb]
        rw [h1]
        simp only
        have hall := Coro.run_all (Frame.parseRaw_all c.maskIn c.frameLimit) r
        cases hr : (Frame.parseRaw c.maskIn c.frameLimit).run r with
        | raised e r1 =>
          rw [hr] at hall
          exact ⟨⟨[], c, .nil, .parse hall rfl rfl⟩, trivial⟩
        | blocked co r1 =>
          rw [hr] at hall
          exact ⟨⟨[], c, .nil, .wait rfl (by simp) (by simp)⟩, rfl, hall⟩
        | done raw r1 =>
          have hlt := Frame.parseRaw_done_lt hr
          rw [hr] at hall
          simp only
          cases hf : c.frameRead env c.frameLimit none raw with
          | mk e c' =>
            cases e with
            | some e =>
              exact ⟨⟨[], c, .nil, .frame ⟨none, raw, hall.1, hall.2, hf⟩ rfl⟩, trivial⟩
            | none =>
              obtain ⟨f, ha⟩ := Core.frameRead_accept hall.1 hall.2 hf
              obtain ⟨⟨fs, c1, h2, h3⟩, h4⟩ := ih c' r1 (by omega)
              exact ⟨⟨f :: fs, c1, .cons ha h2, h3⟩, h4⟩
  exact key _ c r (Nat.le_refl _)

/-- A run of the parser: possibly the end of the handshake, then frames. -/
inductive Resumes (env : Env X E H) (c : Core X E) : Option Exc → Conn X E → Prop where
  | hsWait {k} : k.core = c → k.pstate ≠ .dead → k.pstate ≠ .parked → Resumes env c none k
  | hsRaise {k e} : k.core = c → k.pstate = .dead → Resumes env c (some e) k
  | hsFail {k ev e} : env.onHs ev c = (some e, k.core) → k.pstate = .dead →
      Resumes env c (some e) k
  | frames {c0 fs c1 e k} : (c0 = c ∨ ∃ ev, env.onHs ev c = (none, c0)) →
      Frames env c0 fs c1 → Stop env c1 e k → Resumes env c e k

/-- The parser is past the handshake. -/
def PState.Past : PState X E → Prop
  | .hs _ => False
  | _ => True

theorem Conn.resume_frames (env : Env X E H) (k : Conn X E) (hs : k.Sound)
    (hd : k.pstate ≠ .dead) (hp : k.pstate ≠ .parked) :
    Resumes env k.core (k.resume env).1 (k.resume env).2 ∧ (k.resume env).2.Sound ∧
    (k.pstate.Past → (k.resume env).2.pstate.Past ∧ ∃ fs c1, Frames env k.core fs c1 ∧
      Stop env c1 (k.resume env).1 (k.resume env).2) := by
  have topPast : ∀ c r, (Conn.parseTop env c r).2.pstate.Past := by
    intro c r
    obtain ⟨⟨fs, c1, _, h⟩, h2⟩ := Conn.parseTop_frames env c r
    have key : ∀ (n : Nat) (c : Core X E) (r : Reader),
        (Conn.loop env n c r).2.pstate.Past := by
      intro n
      induction n with
      | zero => intro c r; trivial
      | succ n ih =>
        intro c r
        simp only [Conn.loop]
        split
        · trivial
        · split <;> trivial
        · split
          · trivial
          · trivial
          · split
            · trivial
            · exact ih _ _
    exact key _ c r
  have top : ∀ (c0 : Core X E) (r : Reader),
      Resumes env c0 (Conn.parseTop env c0 r).1 (Conn.parseTop env c0 r).2 := by
    intro c0 r
    obtain ⟨⟨fs, c1, h1, h2⟩, _⟩ := Conn.parseTop_frames env c0 r
    exact .frames (.inl rfl) h1 h2
  unfold Conn.resume
  cases hps : k.pstate with
  | dead => exact absurd hps hd
  | parked => exact absurd hps hp
  | top =>
    obtain ⟨⟨fs, c1, h1, h2⟩, h3⟩ := Conn.parseTop_frames env k.core k.reader
    exact ⟨top _ _, h3, fun _ => ⟨topPast _ _, fs, c1, h1, h2⟩⟩
  | inFrame co lim stale =>
    unfold Conn.Sound at hs
    rw [hps] at hs
    obtain ⟨rfl, hall⟩ := hs
    have hall := Coro.run_all hall k.reader
    simp only
    cases hr : co.run k.reader with
    | blocked co r1 =>
      rw [hr] at hall
      have : Stop env k.core none ⟨k.core, r1, .inFrame co k.core.frameLimit stale⟩ :=
        .wait rfl (by simp) (by simp)
      exact ⟨.frames (.inl rfl) .nil this, ⟨rfl, hall⟩, fun _ => ⟨trivial, [], _, .nil, this⟩⟩
    | raised e r1 =>
      rw [hr] at hall
      have : Stop env k.core (some e) ⟨k.core, r1, .dead⟩ := .parse hall rfl rfl
      exact ⟨.frames (.inl rfl) .nil this, trivial, fun _ => ⟨trivial, [], _, .nil, this⟩⟩
    | done raw r1 =>
      rw [hr] at hall
      simp only
      cases hf : k.core.frameRead env k.core.frameLimit stale raw with
      | mk e c' =>
        cases e with
        | some e =>
          have : Stop env k.core (some e) ⟨c', r1, .dead⟩ :=
            .frame ⟨stale, raw, hall.1, hall.2, hf⟩ rfl
          exact ⟨.frames (.inl rfl) .nil this, trivial, fun _ => ⟨trivial, [], _, .nil, this⟩⟩
        | none =>
          obtain ⟨f, ha⟩ := Core.frameRead_accept hall.1 hall.2 hf
          obtain ⟨⟨fs, c1, h2, h3⟩, h4⟩ := Conn.parseTop_frames env c' r1
          exact ⟨.frames (.inl rfl) (.cons ha h2) h3, h4,
            fun _ => ⟨topPast _ _, f :: fs, c1, .cons ha h2, h3⟩⟩
  | hs co =>
    simp only
    cases hr : co.run k.reader with
    | blocked co r1 => exact ⟨.hsWait rfl (by simp) (by simp), trivial, fun h => h.elim⟩
    | raised e r1 => exact ⟨.hsRaise rfl rfl, trivial, fun h => h.elim⟩
    | done ev r1 =>
      simp only
      cases hx : env.onHs ev k.core with
      | mk e c0 =>
        cases e with
        | some e => exact ⟨.hsFail hx rfl, trivial, fun h => h.elim⟩
        | none =>
          obtain ⟨⟨fs, c1, h2, h3⟩, h4⟩ := Conn.parseTop_frames env c0 r1
          exact ⟨.frames (.inr ⟨ev, hx⟩) h2 h3, h4, fun h => h.elim⟩

end WS
