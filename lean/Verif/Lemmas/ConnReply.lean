import Verif.Lemmas.ConnRecv
import Verif.Spec.Receive

/-! Helper lemmas: what an accepted frame does, and invariants of received frames. -/

namespace WS

open Spec

variable {X E H : Type}

/-! ## Output with known contents -/

/-- From `c` to `c'`, exactly this is written. -/
def Core.Emits (env : Env X E H) (c : Core X E) (outs : List Out) (c' : Core X E) : Prop :=
  c'.side = c.side ∧ ∃ is ws, is.map Item.out = outs ∧ Writes env.rand c.side is ws ∧
    c'.writes = c.writes ++ ws

theorem Core.Emits.quiet {env : Env X E H} {c c' : Core X E} (h1 : c'.side = c.side)
    (h2 : c'.writes = c.writes) : c.Emits env [] c' :=
  ⟨h1, [], [], rfl, .nil, by simp [h2]⟩

theorem Core.Emits.refl {env : Env X E H} {c : Core X E} : c.Emits env [] c := .quiet rfl rfl

theorem Core.Emits.trans {env : Env X E H} {c c1 c2 : Core X E} {o1 o2 : List Out}
    (h1 : c.Emits env o1 c1) (h2 : c1.Emits env o2 c2) : c.Emits env (o1 ++ o2) c2 := by
  obtain ⟨s1, i1, w1, m1, e1, a1⟩ := h1
  obtain ⟨s2, i2, w2, m2, e2, a2⟩ := h2
  rw [s1] at e2
  exact ⟨s2.trans s1, i1 ++ i2, w1 ++ w2, by simp [m1, m2], e1.append e2,
    by rw [a2, a1, List.append_assoc]⟩

theorem Core.Emits.congr {env : Env X E H} {c c' a b : Core X E} {o : List Out}
    (h : a.Emits env o b) (h1 : a.side = c.side) (h2 : a.writes = c.writes)
    (h3 : c'.side = b.side) (h4 : c'.writes = b.writes) : c.Emits env o c' := by
  obtain ⟨s, i, w, m, e, x⟩ := h
  exact ⟨by rw [h3, s, h1], i, w, m, by rw [← h1]; exact e, by rw [h4, x, h2]⟩

/-- A control frame that is sent is written as is. -/
theorem Core.sendFrame_emits {env : Env X E H} (hl : env.ops.Lawful) {c c' : Core X E}
    {f : Frame} (hf : f.opcode.isCtrl = true) (h : c.sendFrame env f = (none, c')) :
    c.state = .opened ∧ c.Emits env [.frame f] c' ∧ c'.state = c.state ∧
      c'.eofSent = c.eofSent ∧ c'.parserExc = c.parserExc := by
  rcases Core.sendFrame_cases env c f with ⟨h0, _⟩ | ⟨_, ho, _, f', xs, w, ha, hw, h1⟩
  · rw [h] at h0; simp at h0
  · rw [h] at h1
    simp only at h1
    have := (applyExts_encode hl ha).2.2 hf
    subst this
    refine ⟨ho, ⟨by rw [h1], [.frame f' c.nmask], [w], rfl, ?_, by rw [h1]⟩, by rw [h1],
      by rw [h1], by rw [h1]⟩
    refine .cons ?_ .nil
    exact ((Frame.wire_iff _ _ _).1 hw).2

theorem Core.sendEof_emits {env : Env X E H} {c c' : Core X E} (h : c.sendEof = (none, c')) :
    c.eofSent = false ∧ c.Emits env [.eof] c' ∧ c'.state = c.state ∧ c'.eofSent = true ∧
      c'.parserExc = c.parserExc := by
  unfold Core.sendEof at h
  split at h
  · simp at h
  · rename_i he
    simp only [Prod.mk.injEq, true_and] at h
    subst h
    exact ⟨by simpa using he, ⟨rfl, [.eof], [[]], rfl, .cons rfl .nil, rfl⟩, rfl, rfl, rfl⟩

theorem Core.failEof_emits {env : Env X E H} {c : Core X E} :
    c.Emits env (if c.eofSent then [] else [.eof]) c.failEof.2 ∧
      c.failEof.2.state = c.state ∧ c.failEof.2.eofSent = true ∧
      c.failEof.2.parserExc = c.parserExc := by
  unfold Core.failEof Core.sendEof
  cases he : c.eofSent with
  | true => exact ⟨.refl, rfl, he, rfl⟩
  | false =>
    exact ⟨⟨rfl, [.eof], [[]], rfl, .cons rfl .nil, rfl⟩, rfl, rfl, rfl⟩

theorem Core.sendCloseFrame_emits {env : Env X E H} (hl : env.ops.Lawful) {c c' : Core X E}
    {d : Bytes} (h : c.sendCloseFrame env d = (none, c')) :
    c.state = .opened ∧
      c.Emits env (.frame (ctrlFrame .close d) :: (if c.side = .server then [.eof] else [])) c' ∧
      c'.state = .closing ∧
      c'.eofSent = (c.eofSent || decide (c.side = .server)) ∧ c'.parserExc = c.parserExc := by
  unfold Core.sendCloseFrame at h
  cases hx : c.sendFrame env { fin := true, opcode := .close, data := d } with
  | mk e c1 =>
    rw [hx] at h
    cases e with
    | some e => simp at h
    | none =>
      obtain ⟨ho, he, hst, heof, hpe⟩ := Core.sendFrame_emits hl rfl hx
      simp only at h
      rw [he.1] at h
      split at h
      · rename_i hsrv
        obtain ⟨h1, h2, h3, h4, h5⟩ := Core.sendEof_emits (env := env) h
        refine ⟨ho, ?_, by rw [h3], by rw [h4]; simp [hsrv], by rw [h5]; exact hpe⟩
        rw [if_pos hsrv]
        exact he.trans (h2.congr he.1.symm rfl rfl rfl)
      · rename_i hsrv
        simp only [Prod.mk.injEq, true_and] at h
        subst h
        refine ⟨ho, ?_, rfl, by simp [heof, hsrv], hpe⟩
        rw [if_neg hsrv]
        exact he.congr rfl rfl he.1.symm rfl

/-! ## Accepted frames -/

/-- How the size of the current message evolves. -/
def nextCur (cur : Option Nat) (f : Frame) : Option Nat :=
  match f.opcode with
  | .text | .binary => if f.fin then none else some f.data.length
  | .cont => if f.fin then none else some (cur.getD 0 + f.data.length)
  | _ => cur

/-- What is required of a frame to be accepted, depending on those received before. -/
structure Admissible (cur : Option Nat) (closed opened : Bool) (f : Frame) : Prop where
  check : f.check = .ok ()
  data : isDataFrame f = true → closed = false
  first : f.opcode = .text ∨ f.opcode = .binary → cur = none
  cont : f.opcode = .cont → cur ≠ none
  ping : f.opcode = .ping → closed = false → opened = true
  close : f.opcode = .close → cur = none

structure Accepted (env : Env X E H) (c : Core X E) (f : Frame) (c' : Core X E) : Prop where
  ok : Admissible c.curSize c.closeReceived (decide (c.state = .opened)) f
  maxSize : c'.maxSize = c.maxSize
  events : c'.events = c.events ++ [.frame f]
  emits : c.Emits env (replies c.side (decide (c.state = .opened)) c.closeReceived [f]) c'
  state : c'.state = if f.opcode = .close ∧ c.state = .opened then .closing else c.state
  closeReceived : c'.closeReceived = (c.closeReceived || f.opcode == .close)
  curSize : c'.curSize = nextCur c.curSize f
  parserExc : c'.parserExc = c.parserExc
  eofSent : c'.eofSent = (c.eofSent ||
    decide (f.opcode = .close ∧ c.state = .opened ∧ c.side = .server))
  closeCode : match f.opcode with
    | .close => ∃ code reason, parseClose f.data = .ok (code, reason) ∧
        c'.closeCode = some code ∧ c'.closeReason = some reason
    | _ => c'.closeCode = c.closeCode ∧ c'.closeReason = c.closeReason

theorem Frame.finish_check {ops : ExtOps X} {xs xs' : List X} {lim : Option Int}
    {raw f : Frame} (h : Frame.finish ops xs lim raw = (.ok f, xs')) : f.check = .ok () := by
  unfold Frame.finish at h
  cases ha : applyExts (fun x fr => ops.decode x fr lim) xs.reverse raw with
  | mk r ys =>
    rw [ha] at h
    cases r with
    | error e => simp at h
    | ok f' =>
      simp only at h
      cases hc : f'.check with
      | error e => rw [hc] at h; simp at h
      | ok u =>
        rw [hc] at h
        simp only [Prod.mk.injEq, Except.ok.injEq] at h
        rw [← h.1, hc]

theorem Core.handleFrame_accepted {env : Env X E H} (hl : env.ops.Lawful) {c c1 : Core X E}
    {f : Frame} (hc : f.check = .ok ()) (h : c.handleFrame env f = (none, c1)) :
    Accepted env c f (c1.addEvent (.frame f)) := by
  unfold Core.handleFrame at h
  have dat : ∀ (op : Opcode), f.opcode = op → op = .text ∨ op = .binary →
      (if c.closeReceived then
        (some (Exc.protocolError p!"data frame after close frame"), c)
      else if c.curSize ≠ none then
        (some (.protocolError p!"expected a continuation frame"), c)
      else if f.fin then (none, { c with curSize := none })
      else (none, { c with curSize := some f.data.length })) = (none, c1) →
      Accepted env c f (c1.addEvent (.frame f)) := by
    intro op hop hop2 h
    split at h
    · simp at h
    · rename_i hcr
      split at h
      · simp at h
      · rename_i hcs
        have hc0 : c.curSize = none := by
          rcases Option.eq_none_or_eq_some c.curSize with h | ⟨_, h⟩
          · exact h
          · exact absurd (by rw [h]; simp) hcs
        have hne : f.opcode ≠ .close := by rw [hop]; rcases hop2 with rfl | rfl <;> decide
        have hc1 : c1 = { c with curSize := nextCur c.curSize f } := by
          unfold nextCur
          split at h <;> rename_i hfin <;> simp only [Prod.mk.injEq, true_and] at h <;>
            rcases hop2 with rfl | rfl <;> rw [hop] <;> simp [← h, hfin]
        subst hc1
        have hr : replies c.side (decide (c.state = .opened)) c.closeReceived [f] = [] := by
          rcases hop2 with rfl | rfl <;> simp [replies, hop]
        refine ⟨⟨hc, fun _ => by simpa using hcr, fun _ => hc0, fun hx => ?_, fun hx => ?_,
          fun hx => absurd hx hne⟩, rfl, rfl, by rw [hr]; exact .quiet rfl rfl, ?_, ?_, rfl,
          rfl, ?_, ?_⟩
        · rw [hop] at hx; rcases hop2 with rfl | rfl <;> cases hx
        · rw [hop] at hx; rcases hop2 with rfl | rfl <;> cases hx
        · simp [hne, Core.addEvent]
        · simp [hne, Core.addEvent]
        · simp [hne, Core.addEvent]
        · rcases hop2 with rfl | rfl <;> rw [hop] <;> exact ⟨rfl, rfl⟩
  cases hop : f.opcode with
  | text => rw [hop] at h; exact dat _ hop (.inl rfl) h
  | binary => rw [hop] at h; exact dat _ hop (.inr rfl) h
  | cont =>
    rw [hop] at h
    simp only at h
    split at h
    · simp at h
    · rename_i hcr
      cases hcs : c.curSize with
      | none => rw [hcs] at h; simp at h
      | some cur =>
        rw [hcs] at h
        simp only at h
        have hc1 : c1 = { c with curSize := nextCur c.curSize f } := by
          unfold nextCur
          rw [hop, hcs]
          split at h <;> rename_i hfin <;> simp only [Prod.mk.injEq, true_and] at h <;>
            simp [← h, hfin]
        subst hc1
        have hr : replies c.side (decide (c.state = .opened)) c.closeReceived [f] = [] := by
          simp [replies, hop]
        refine ⟨⟨hc, fun _ => by simpa using hcr, ?_, ?_, ?_, ?_⟩, rfl, rfl,
          by rw [hr]; exact .quiet rfl rfl, ?_, ?_, rfl, rfl, ?_, ?_⟩
        · rw [hop]; rintro (h | h) <;> cases h
        · rw [hcs]; simp
        · rw [hop]; intro h; cases h
        · rw [hop]; intro h; cases h
        · simp [hop, Core.addEvent]
        · simp [hop, Core.addEvent]
        · simp [hop, Core.addEvent]
        · rw [hop]; exact ⟨rfl, rfl⟩
  | pong =>
    rw [hop] at h
    simp only [Prod.mk.injEq, true_and] at h
    subst h
    have hr : replies c.side (decide (c.state = .opened)) c.closeReceived [f] = [] := by
      simp [replies, hop]
    refine ⟨⟨hc, ?_, ?_, ?_, ?_, ?_⟩, rfl, rfl, by rw [hr]; exact .quiet rfl rfl, ?_, ?_, ?_,
      rfl, ?_, ?_⟩
    · unfold isDataFrame; rw [hop]; intro h; cases h
    · rw [hop]; rintro (h | h) <;> cases h
    · rw [hop]; intro h; cases h
    · rw [hop]; intro h; cases h
    · rw [hop]; intro h; cases h
    · simp [hop, Core.addEvent]
    · simp [hop, Core.addEvent]
    · simp [nextCur, hop, Core.addEvent]
    · simp [hop, Core.addEvent]
    · rw [hop]; exact ⟨rfl, rfl⟩
  | ping =>
    rw [hop] at h
    simp only at h
    have adm : ∀ (hp : c.closeReceived = false → c.state = .opened),
        Admissible c.curSize c.closeReceived (decide (c.state = .opened)) f := by
      intro hp
      refine ⟨hc, ?_, ?_, ?_, fun _ h => by simpa using hp h, ?_⟩
      · unfold isDataFrame; rw [hop]; intro h; cases h
      · rw [hop]; rintro (h | h) <;> cases h
      · rw [hop]; intro h; cases h
      · rw [hop]; intro h; cases h
    split at h
    · rename_i hcr
      have hcr : c.closeReceived = false := by simpa using hcr
      have hq := Core.sendFrame_recvQuiet env c { fin := true, opcode := .pong, data := f.data }
      obtain ⟨ho, he, hst, heof, hpe⟩ := Core.sendFrame_emits hl rfl h
      rw [h] at hq
      simp only at hq
      have hr : replies c.side (decide (c.state = .opened)) c.closeReceived [f] =
          [.frame (ctrlFrame .pong f.data)] := by
        simp [replies, hop, hcr]
      refine ⟨adm (fun _ => ho), ?_, ?_, ?_, ?_, ?_, ?_, hpe, ?_, ?_⟩
      · exact hq.maxSize
      · show c1.events ++ [_] = _; rw [hq.events]
      · rw [hr]; exact he.congr rfl rfl rfl rfl
      · show c1.state = _; rw [hst]; simp [hop]
      · show c1.closeReceived = _; rw [hq.closeReceived]; simp [hop]
      · show c1.curSize = _; rw [hq.curSize]; simp [hop, nextCur]
      · show c1.eofSent = _; rw [heof]; simp [hop]
      · rw [hop]; exact ⟨hq.closeCode, hq.closeReason⟩
    · rename_i hcr
      have hcr : c.closeReceived = true := by simpa using hcr
      simp only [Prod.mk.injEq, true_and] at h
      subst h
      have hr : replies c.side (decide (c.state = .opened)) c.closeReceived [f] = [] := by
        simp [replies, hop, hcr]
      refine ⟨adm (fun h => by rw [hcr] at h; cases h), rfl, rfl, by rw [hr]; exact .quiet rfl rfl,
        ?_, ?_, ?_, rfl, ?_, ?_⟩
      · simp [hop, Core.addEvent]
      · simp [hop, Core.addEvent]
      · simp [nextCur, hop, Core.addEvent]
      · simp [hop, Core.addEvent]
      · rw [hop]; exact ⟨rfl, rfl⟩
  | close =>
    rw [hop] at h
    simp only at h
    cases hp : parseClose f.data with
    | error e => rw [hp] at h; simp at h
    | ok r =>
      obtain ⟨code, reason⟩ := r
      rw [hp] at h
      simp only at h
      split at h
      · simp at h
      · rename_i hcs
        have hc0 : c.curSize = none := by
          rcases Option.eq_none_or_eq_some c.curSize with h | ⟨_, h⟩
          · exact h
          · exact absurd (by rw [h]; simp) hcs
        have adm : Admissible c.curSize c.closeReceived (decide (c.state = .opened)) f := by
          refine ⟨hc, ?_, ?_, ?_, ?_, fun _ => hc0⟩
          · unfold isDataFrame; rw [hop]; intro h; cases h
          · rw [hop]; rintro (h | h) <;> cases h
          · rw [hop]; intro h; cases h
          · rw [hop]; intro h; cases h
        split at h
        · rename_i ho
          have hq := Core.sendCloseFrame_recvQuiet env
            ({ c with closeReceived := true, closeCode := some code,
                      closeReason := some reason }) f.data
          obtain ⟨_, he, hst, heof, hpe⟩ := Core.sendCloseFrame_emits hl h
          rw [h] at hq
          simp only at hq
          refine ⟨adm, ?_, ?_, ?_, ?_, ?_, ?_, hpe, ?_, ?_⟩
          · exact hq.maxSize
          · show c1.events ++ [_] = _; rw [hq.events]
          · have hr : replies c.side (decide (c.state = .opened)) c.closeReceived [f] =
                .frame (ctrlFrame .close f.data) ::
                  (if c.side = .server then [.eof] else []) := by
              simp [replies, hop, ho]
            rw [hr]; exact he.congr rfl rfl rfl rfl
          · show c1.state = _; rw [hst]; simp [hop, ho]
          · show c1.closeReceived = _; rw [hq.closeReceived]; simp [hop]
          · show c1.curSize = _; rw [hq.curSize]; simp [hop, nextCur]
          · show c1.eofSent = _; rw [heof]; simp [hop, ho]
          · rw [hop]; exact ⟨code, reason, hp, hq.closeCode, hq.closeReason⟩
        · rename_i ho
          simp only [Prod.mk.injEq, true_and] at h
          subst h
          have ho : c.state ≠ .opened := ho
          have hr : replies c.side (decide (c.state = .opened)) c.closeReceived [f] = [] := by
            simp [replies, hop, ho]
          refine ⟨adm, rfl, rfl, by rw [hr]; exact .quiet rfl rfl, ?_, ?_, ?_, rfl, ?_, ?_⟩
          · simp [ho, Core.addEvent]
          · simp [hop, Core.addEvent]
          · simp [nextCur, hop, Core.addEvent]
          · simp [ho, Core.addEvent]
          · rw [hop]; exact ⟨code, reason, hp, rfl, rfl⟩

theorem Core.Accept.accepted {env : Env X E H} (hl : env.ops.Lawful) {c c' : Core X E}
    {f : Frame} (h : c.Accept env f c') : Accepted env c f c' := by
  obtain ⟨stale, raw, xs, c1, _, _, hf, hx, rfl⟩ := h
  have hc := Frame.finish_check hf
  have := Core.handleFrame_accepted hl hc hx
  cases stale with
  | none =>
    obtain ⟨a, b, c, d, e, f, g, h, i, j⟩ := this
    exact ⟨a, b, c, d.congr rfl rfl rfl rfl, e, f, g, h, i, j⟩
  | some s => exact this

theorem replies_cons (side : Side) (o cl : Bool) (f : Frame) (fs : List Frame) :
    replies side o cl (f :: fs) =
      replies side o cl [f] ++ replies side (o && f.opcode != .close) (cl || f.opcode == .close) fs := by
  have h : ∀ op : Opcode, op ≠ .close → (o && op != .close) = o ∧ (cl || op == .close) = cl := by
    intro op; cases o <;> cases cl <;> cases op <;> decide
  cases hop : f.opcode with
  | close => simp [replies, hop]
  | _ =>
    rw [(h _ (by decide)).1, (h _ (by decide)).2]
    simp [replies, hop]

/-! ## Sequences of accepted frames -/

/-- The net effect of accepted frames. -/
structure Took (env : Env X E H) (c : Core X E) (fs : List Frame) (c' : Core X E) : Prop where
  maxSize : c'.maxSize = c.maxSize
  events : c'.events = c.events ++ fs.map .frame
  emits : c.Emits env (replies c.side (decide (c.state = .opened)) c.closeReceived fs) c'
  state : c'.state = if (∃ f ∈ fs, f.opcode = .close) ∧ c.state = .opened then .closing
    else c.state
  closeReceived : c'.closeReceived = (c.closeReceived || fs.any (·.opcode == .close))
  curSize : c'.curSize = fs.foldl nextCur c.curSize
  parserExc : c'.parserExc = c.parserExc

theorem Frames.took {env : Env X E H} (hl : env.ops.Lawful) {c c' : Core X E} {fs : List Frame}
    (h : Frames env c fs c') : Took env c fs c' := by
  induction h with
  | nil => exact ⟨rfl, by simp, .refl, by simp, by simp, rfl, rfl⟩
  | @cons c f c1 fs c2 ha hf ih =>
    have ha := ha.accepted hl
    refine ⟨by rw [ih.maxSize, ha.maxSize], by rw [ih.events, ha.events]; simp, ?_, ?_, ?_,
      by rw [ih.curSize, ha.curSize]; rfl, by rw [ih.parserExc, ha.parserExc]⟩
    · rw [replies_cons]
      refine ha.emits.trans ?_
      have := ih.emits
      rw [ha.emits.1, ha.closeReceived, ha.state] at this
      have hb : (decide ((if f.opcode = .close ∧ c.state = .opened then State.closing else c.state)
          = .opened)) = (decide (c.state = .opened) && f.opcode != .close) := by
        by_cases h1 : f.opcode = .close <;> by_cases h2 : c.state = .opened <;> simp [h1, h2]
      rw [hb] at this
      exact this
    · rw [ih.state, ha.state]
      by_cases h1 : f.opcode = .close <;> by_cases h2 : c.state = .opened <;> simp [h1, h2]
    · rw [ih.closeReceived, ha.closeReceived]
      simp [Bool.or_assoc]

end WS
