import Verif.Lemmas.Brief
import Verif.Props.Output

/-! Helper lemmas: the exact effect of receiving data. -/

namespace WS

open Spec

variable {X E H : Type}

/-- Laws of extensions needed to describe failures. -/
structure ExtOps.Tame (ops : ExtOps X) : Prop where
  lawful : ops.Lawful
  transparent : ops.CtrlTransparent
  brief : ops.DecodeBrief
  sane : ops.DecodeSane

theorem noExts_tame : noExts.Tame :=
  ⟨noExts_lawful, noExts_ctrlTransparent, noExts_decodeBrief, noExts_decodeSane⟩

theorem Frames.eofOk {env : Env X E H} (hl : env.ops.Lawful) {c c' : Core X E} {fs : List Frame}
    (h : Frames env c fs c') (he : c.EofOk) : c'.EofOk := by
  induction h with
  | nil => exact he
  | @cons c f c1 fs c2 ha _ ih =>
    have ha := ha.accepted hl
    refine ih fun hx => ?_
    rw [ha.eofSent] at hx
    rw [ha.state]
    by_cases h1 : f.opcode = .close ∧ c.state = .opened
    · rw [if_pos h1]; decide
    · rw [if_neg h1]
      refine he ?_
      simp only [Bool.or_eq_true, decide_eq_true_eq] at hx
      rcases hx with hx | hx
      · exact hx
      · exact absurd ⟨hx.1, hx.2.1⟩ h1

theorem Frames.bounded {env : Env X E H} (hl : env.ops.Lawful) (hd : env.ops.DecodeSane)
    {c c' : Core X E} {fs : List Frame} (h : Frames env c fs c') (hb : c.Bounded) :
    c'.Bounded := h.recvPath.bounded hl hd hb

theorem Core.EofOk.cases {c : Core X E} (h : c.EofOk) : c.eofSent = false ∨ c.state ≠ .opened := by
  cases he : c.eofSent with
  | false => exact .inl rfl
  | true =>
    have := h he
    refine .inr fun hs => ?_
    rw [hs] at this
    exact absurd this (by decide)

/-- What happens when the parser stops with an exception, once the connection is failed. -/
structure FailedWith (env : Env X E H) (c1 : Core X E) (e : Exc) (k : Conn X E) : Prop where
  dead : k.pstate = .dead
  exc : k.core.parserExc = some e
  eofSent : k.core.eofSent = true
  events : k.core.events = c1.events
  state : k.core.state =
    if (failCode e).1 ≠ 1006 ∧ c1.state = .opened then .closing else c1.state
  emits : ∃ d, ((failCode e).1 ≠ 1006 →
      serializeClose (failCode e).1 (failCode e).2 = .ok d ∧ d.length ≤ 125) ∧
    c1.Emits env (failOuts c1 (failCode e).1 d) k.core

theorem Conn.step_exact {env : Env X E H} (hx : env.ops.Tame) (k : Conn X E) (hs : k.Sound)
    (hp : k.pstate.Past) (hd : k.pstate ≠ .dead) (hpk : k.pstate ≠ .parked) (he : k.core.EofOk)
    (hb : k.core.Bounded) :
    ∃ fs c1, Frames env k.core fs c1 ∧
      (∀ k', k.step env = (none, k') →
        (k'.core = c1 ∧ k'.pstate ≠ .dead ∧ k'.pstate ≠ .parked) ∨
        (c1.closeReceived = true ∧ k'.pstate = .parked ∧ k'.core = c1.failEof.2)) ∧
      (∀ e k', k.step env = (some e, k') → FailedWith env c1 e k') := by
  have hl := hx.lawful
  obtain ⟨_, _, h⟩ := Conn.resume_frames env k hs hd hpk
  obtain ⟨_, fs, c1, hf, hst⟩ := h hp
  refine ⟨fs, c1, hf, ?_, ?_⟩
  · intro k' hk
    rw [Conn.step_alive env k hd] at hk
    cases hr : k.resume env with
    | mk e k1 =>
      rw [hr] at hk hst
      cases e with
      | some e =>
        simp only at hk
        split at hk <;> simp at hk
      | none =>
        simp only [Prod.mk.injEq, true_and] at hk
        subst hk
        cases hst with
        | wait h h1 h2 => exact .inl ⟨h, h1, h2⟩
        | parked h1 h2 h3 => exact .inr ⟨h1, h3, h2⟩
  · intro e k' hk
    rw [Conn.step_alive env k hd] at hk
    cases hr : k.resume env with
    | mk e1 k1 =>
      rw [hr] at hk hst
      cases e1 with
      | none => simp at hk
      | some e1 =>
        have hfd := (hf.bounded hl hx.sane hb).fewDigits
        have heo := (hf.eofOk hl he).cases
        have key : BriefExc e1 ∧ c1.Emits env [] k1.core ∧ k1.core.state = c1.state ∧
            k1.core.eofSent = c1.eofSent ∧ k1.core.events = c1.events ∧ k1.pstate = .dead := by
          cases hst with
          | parse h1 h2 h3 =>
            exact ⟨h1.brief hfd, by rw [h2]; exact .refl, by rw [h2], by rw [h2], by rw [h2], h3⟩
          | frame h1 h3 =>
            have := (h1.emits hl).2 heo
            exact ⟨h1.brief hx.transparent hx.brief hfd, this.1, this.2.1, this.2.2, h1.same.2, h3⟩
        obtain ⟨hbr, hem, hsta, heof, hev, hdd⟩ := key
        have hser : ∃ d, (failCode e1).1 ≠ 1006 →
            serializeClose (failCode e1).1 (failCode e1).2 = .ok d ∧ d.length ≤ 125 := by
          by_cases hc : (failCode e1).1 = 1006
          · exact ⟨[], fun h => absurd hc h⟩
          · obtain ⟨d, h⟩ := hbr.serialize hc
            exact ⟨d, fun _ => h⟩
        obtain ⟨d, hser⟩ := hser
        obtain ⟨f1, f2, f3, f4⟩ := Core.failConnection_ok hl hx.transparent k1.core
          (failCode e1).1 (failCode e1).2 d hser
        have hq := Core.failConnection_recvQuiet env k1.core (failCode e1).1 (failCode e1).2
        cases hfc : k1.core.failConnection env (failCode e1).1 (failCode e1).2 with
        | mk e2 c2 =>
          rw [hfc] at f1 f2 f3 f4 hq
          simp only at f1 f2 f3 f4
          subst f1
          simp only at hk
          rw [hfc] at hk
          simp only [Prod.mk.injEq, Option.some.injEq] at hk
          obtain ⟨rfl, rfl⟩ := hk
          refine ⟨hdd, rfl, f3, by rw [← hev]; exact hq.events, by rw [← hsta]; exact f4,
            d, hser, ?_⟩
          have : failOuts k1.core (failCode e1).1 d = failOuts c1 (failCode e1).1 d := by
            unfold failOuts; rw [hsta, heof]
          rw [← this]
          exact hem.trans (f2.congr rfl rfl rfl rfl)

/-! ## Reachable connections -/

theorem Conn.ended_mono (env : Env X E H) (k : Conn X E) (hk : k.Ended) (op : Op H) :
    (k.apply env op).2.Ended := by
  cases hs : op.isSend with
  | false => exact (Conn.ended_apply env k hk op hs).1
  | true =>
    cases op with
    | handshake h =>
      simp only [Conn.apply]
      split
      · exact hk
      · rcases hk with hk | hk
        · exact .inl hk
        · refine .inr ?_
          show k.pstate.rebind _ = _
          rw [hk]; rfl
    | receiveData d => cases hs
    | receiveEof => cases hs
    | eventsReceived => cases hs
    | dataToSend => cases hs
    | _ => exact hk

/-- Invariants of connections after the handshake. -/
structure Conn.Sane (k : Conn X E) : Prop where
  settled : k.Settled
  sound : k.Sound
  past : k.pstate.Past
  bounded : k.core.Bounded
  eofOk : k.core.EofOk ∨ k.Ended

theorem PState.Past.rebind {p : PState X E} (h : p.Past) (old : List X) :
    (p.rebind old).Past := by
  cases p with
  | inFrame co lim stale => cases stale <;> trivial
  | hs co => exact h
  | _ => trivial

theorem Conn.step_past (env : Env X E H) (k : Conn X E) (hs : k.Sound) (hp : k.pstate.Past) :
    (k.step env).2.pstate.Past := by
  by_cases hd : k.pstate = .dead
  · rw [Conn.step_dead env k hd]; exact hp
  · rw [Conn.step_alive env k hd]
    have key : (k.resume env).2.pstate.Past := by
      by_cases hpk : k.pstate = .parked
      · have : k.resume env = (some .assertionError, { k with pstate := .dead }) := by
          unfold Conn.resume; rw [hpk]
        rw [this]; trivial
      · exact ((Conn.resume_frames env k hs hd hpk).2.2 hp).1
    cases hr : k.resume env with
    | mk e k1 =>
      rw [hr] at key
      cases e with
      | none => exact key
      | some e =>
        simp only
        split <;> exact key

theorem Conn.Sane.apply {env : Env X E H} (hl : env.Lawful) (hx : env.ops.Tame) {k : Conn X E}
    (h : k.Sane) (op : Op H) (ho : op.HsOk k.core) : (k.apply env op).2.Sane := by
  obtain ⟨hr, hsound⟩ := Conn.apply_receives hl k h.sound op ho
  refine ⟨Conn.apply_settled env h.settled op, hsound, ?_, ?_, ?_⟩
  · cases op with
    | receiveData d =>
      simp only [Conn.apply, Conn.receiveData_eq]
      split
      · exact h.past
      · exact Conn.step_past env (k.push d) h.sound h.past
    | receiveEof =>
      simp only [Conn.apply, Conn.receiveEof_eq]
      split
      · exact h.past
      · exact Conn.step_past env { k with reader := { k.reader with eof := true } } h.sound h.past
    | handshake x =>
      simp only [Conn.apply]
      split
      · exact h.past
      · exact h.past.rebind _
    | _ => exact h.past
  · by_cases he : op = .eventsReceived
    · subst he; exact h.bounded.same ⟨rfl, rfl, id⟩
    · obtain ⟨evs, _, hp⟩ := hr he
      exact hp.bounded hl.ops hx.sane h.bounded
  · rcases h.eofOk with hq | hq
    · cases hs : op.isSend with
      | true =>
        obtain ⟨fs, i1, w1, p1, _⟩ := Conn.send_does hl k op hs ho
        exact .inl (p1.strict hq).2
      | false =>
        by_cases hf : op = .dataToSend
        · subst hf; exact .inl hq
        · obtain ⟨c1, ⟨⟨i1, w1, p1, _⟩, _⟩, h1⟩ := Conn.recv_does hl k h.settled op hs hf
          rcases h1 with h1 | ⟨hp, _⟩
          · rw [h1]; exact .inl (p1.strict hq).2
          · rcases hp with hp | hp
            · rcases Conn.apply_settled env h.settled op with ⟨a, _⟩ | ⟨_, a⟩ | ⟨_, _, _, a⟩
              · exact .inr (.inl a)
              · exact .inr (.inr a)
              · rw [hp] at a; exact a.elim
            · exact .inr (.inr hp)
    · exact .inr (Conn.ended_mono env k hq op)

theorem Conn.Sane.exec {env : Env X E H} (hl : env.Lawful) (hx : env.ops.Tame) {k : Conn X E}
    (h : k.Sane) (ops : List (Op H)) (ho : k.HsOk env ops) : (k.exec env ops).2.Sane := by
  induction ops generalizing k with
  | nil => exact h
  | cons op ops ih => exact ih (h.apply hl hx op ho.1) ho.2

theorem Conn.init_sane (side : Side) (state : State) (m : Option Int)
    (hm : ∀ n, m = some n → n.natAbs < 10 ^ 40) : (Conn.init side state m : Conn X E).Sane :=
  ⟨Conn.init_settled side state m, trivial, trivial,
    fun n hn => ⟨hm n hn, nofun⟩, .inl nofun⟩

/-- A connection that hasn't ended: the parser can be resumed. -/
theorem Conn.Sane.alive {k : Conn X E} (h : k.Sane) (hk : ¬ k.Ended) :
    k.reader.eof = false ∧ k.pstate ≠ .dead ∧ k.pstate ≠ .parked ∧ k.core.EofOk := by
  have h1 : k.reader.eof = false := by
    cases he : k.reader.eof with
    | false => rfl
    | true => exact absurd (.inl he) hk
  have h2 : k.pstate ≠ .dead := fun hd => hk (.inr hd)
  refine ⟨h1, h2, fun hp => ?_, h.eofOk.resolve_right hk⟩
  rcases h.settled with ⟨a, _⟩ | ⟨_, a⟩ | ⟨_, _, a, b⟩
  · rw [h1] at a; cases a
  · exact h2 a
  · rw [hp] at b; exact b

end WS
