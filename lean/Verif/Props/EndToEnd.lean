import Verif.Props.Conform

/-!
# End-to-end delivery: C23
-/

namespace WS

open Spec

variable {X E H : Type}

/-! ## Receiving frames, conforming or not -/

theorem Coro.run_setEof {α : Type} {c c' : Coro α} {r r' : Reader} (hb : c.run r = .blocked c' r') :
    c'.run { r' with eof := true } = c.run { r with eof := true } := by
  induction c generalizing r with
  | ret a => simp [Coro.run] at hb
  | raise e => simp [Coro.run] at hb
  | readLine p k ih =>
    simp only [Coro.run] at hb ⊢
    cases hf : findLF r.buf p with
    | some i => rw [hf] at hb; exact ih _ hb
    | none =>
      rw [hf] at hb
      simp only at hb
      split at hb
      · rename_i he
        have : ({ r with eof := true } : Reader) = r := by cases r; simp_all
        simp only [if_true]
        rw [ih _ hb, this]
      · simp only [Outcome.blocked.injEq] at hb
        obtain ⟨rfl, rfl⟩ := hb
        simp [Coro.run, findLF]
  | readExact n k ih =>
    simp only [Coro.run] at hb ⊢
    split at hb
    · rename_i hlt
      rw [if_pos hlt]
      split at hb
      · rename_i he
        have : ({ r with eof := true } : Reader) = r := by cases r; simp_all
        simp only [if_true]
        rw [ih _ hb, this]
      · simp only [Outcome.blocked.injEq] at hb
        obtain ⟨rfl, rfl⟩ := hb
        simp [Coro.run, hlt]
    · rename_i hlt
      rw [if_neg hlt]
      exact ih _ hb
  | readToEof k ih =>
    simp only [Coro.run] at hb ⊢
    split at hb
    · rename_i he
      rw [he] at hb
      simp only [if_true]
      exact ih _ hb
    · simp only [Outcome.blocked.injEq] at hb
      obtain ⟨rfl, rfl⟩ := hb
      simp [Coro.run]

/-- A frame above the limit is refused as soon as it is received. -/
theorem Frame.parseRaw_big {masked : Bool} {f : Frame} {w : Bytes} {m : Int}
    (hw : Wire masked f w) (hm : m < (f.data.length : Int)) (rest : Bytes) (eof : Bool) :
    ∃ e r, (Frame.parseRaw masked (some m)).run ⟨w ++ rest, eof⟩ = .raised e r := by
  obtain ⟨key, hk, h1, h2, len7, ext, e1, e2, hl, _, hb⟩ := hw
  obtain ⟨tail, ht⟩ : ∃ tail, w ++ rest = [h1, h2] ++ ext ++ tail := by
    cases key with
    | none => exact ⟨f.data ++ rest, by simp only at hb; rw [hb]; simp⟩
    | some k => exact ⟨k ++ (maskOctets k f.data ++ rest), by
        simp only at hb; rw [hb.2]; simp⟩
  have hop : h1.toNat % 16 = opcodeNumber f.opcode := by
    rw [e1]
    cases f.opcode <;> cases f.fin <;> cases f.rsv1 <;> cases f.rsv2 <;> cases f.rsv3 <;> rfl
  rw [hk] at e2
  obtain ⟨msg, h⟩ := C04_too_big_from_header masked m h1 h2 len7 f.data.length ext tail eof
    f.opcode hop e2 hl hm
  rw [← ht, Frame.parse_run] at h
  cases hr : (Frame.parseRaw masked (some m)).run ⟨w ++ rest, eof⟩ with
  | raised e r => exact ⟨e, r, rfl⟩
  | blocked c r => rw [hr] at h; cases h
  | done g r =>
    obtain ⟨bytes, hbb, _, hwr, hlim⟩ := Frame.parseRaw_done hr
    have h3 := Frame.parseRaw_wire (limit := none)
      (show Wire masked f w from ⟨key, hk, h1, h2, len7, ext, e1, by rw [hk]; exact e2, hl, nofun, hb⟩)
      (fun m hm => by cases hm) rest eof
    have h4 := Frame.parseRaw_wire (limit := none) hwr (fun m hm => by cases hm) r.buf eof
    simp only at hbb
    rw [← hbb, h3] at h4
    simp only [Outcome.done.injEq] at h4
    have := hlim m rfl
    rw [← h4.1] at this
    omega

/-- Everything that has been completely received has been delivered, or an error has been
raised. -/
theorem Conn.parseTop_wires {env : Env X E H} {masked : Bool} {rest : List Frame}
    {ws : List Bytes} (hl : env.ops.Lawful) (hw : Wires masked rest ws)
    (c : Core X E) (hm : c.maskIn = masked) (hx : c.exts = [])
    (b q : Bytes) (hb : b ++ q = ws.flatten) :
    ∃ fs1 fs2 ws1 ws2 e k', Conn.parseTop env c ⟨b, false⟩ = (e, k') ∧ rest = fs1 ++ fs2 ∧
      ws = ws1 ++ ws2 ∧ Wires masked fs2 ws2 ∧
      k'.core.events = c.events ++ fs1.map .frame ∧
      match e with
      | some _ => k'.pstate = .dead
      | none => ∃ b', b = ws1.flatten ++ b' ∧ (∀ w ws', ws2 = w :: ws' → b'.length < w.length) ∧
          k'.At b' ∧ k'.core.exts = [] ∧ k'.core.maskIn = masked := by
  induction hw generalizing c b with
  | nil =>
    have : b = [] := by
      have := List.append_eq_nil_iff.1 (show b ++ q = [] by simpa using hb)
      exact this.1
    subst this
    refine ⟨[], [], [], [], none, ⟨c, ⟨[], false⟩, .top⟩, ?_, rfl, rfl, .nil, by simp, [], rfl,
      nofun, ⟨rfl, .inl ⟨rfl, rfl, rfl⟩⟩, hx, hm⟩
    rw [Conn.parseTop_eq]
    rfl
  | @cons f w fs ws hwf hws ih =>
    by_cases hbn : b = []
    · subst hbn
      refine ⟨[], f :: fs, [], w :: ws, none, ⟨c, ⟨[], false⟩, .top⟩, ?_, rfl, rfl,
        .cons hwf hws, by simp, [], rfl, ?_, ⟨rfl, .inl ⟨rfl, rfl, rfl⟩⟩, hx, hm⟩
      · rw [Conn.parseTop_eq]
        rfl
      · intro w' ws' he
        simp only [List.cons.injEq] at he
        rw [← he.1]
        exact List.length_pos_iff.2 (wire_pos hwf)
    · have htop : Conn.parseTop env c ⟨b, false⟩ =
          match (Frame.parseRaw c.maskIn c.frameLimit).run ⟨b, false⟩ with
          | .blocked co r => (none, ⟨c, r, .inFrame co c.frameLimit none⟩)
          | .raised e r => (some e, ⟨c, r, .dead⟩)
          | .done raw r =>
            match c.frameRead env c.frameLimit none raw with
            | (some e, c) => (some e, ⟨c, r, .dead⟩)
            | (none, c) => Conn.parseTop env c r := by
        rw [Conn.parseTop_eq]
        simp only [Reader.atEof, ne_eq, hbn, not_false_eq_true, if_true]
        cases (Frame.parseRaw c.maskIn c.frameLimit).run ⟨b, false⟩ <;> rfl
      cases hrun : (Frame.parseRaw c.maskIn c.frameLimit).run ⟨b, false⟩ with
      | raised e r =>
        rw [hrun] at htop
        exact ⟨[], f :: fs, [], w :: ws, some e, _, htop, rfl, rfl, .cons hwf hws, by simp, rfl⟩
      | blocked co r =>
        rw [hrun] at htop
        have hre : r.eof = false :=
          (Coro.run_ready (.fresh (Frame.parseRaw_fresh _ _)) hrun).2.1.trans rfl
        refine ⟨[], f :: fs, [], w :: ws, none, _, htop, rfl, rfl, .cons hwf hws, by simp, b,
          rfl, ?_, ⟨hre, .inr ⟨hbn, co, hrun, rfl⟩⟩, hx, hm⟩
        intro w' ws' he
        simp only [List.cons.injEq] at he
        rw [← he.1]
        -- otherwise the whole frame would have been read
        refine Nat.lt_of_not_le fun hle => ?_
        rw [List.flatten_cons] at hb
        obtain ⟨b1, hb1⟩ : ∃ b1, b = w ++ b1 := by
          rcases List.append_eq_append_iff.1 hb with ⟨l, h1, h2⟩ | ⟨l, h1, h2⟩
          · have h3 := congrArg List.length h1
            simp only [List.length_append] at h3
            have : l = [] := List.length_eq_zero_iff.1 (by omega)
            subst this
            exact ⟨[], by simpa using h1.symm⟩
          · exact ⟨l, h1⟩
        by_cases hlim : Within f.data.length c.frameLimit
        · have hr := Frame.parseRaw_wire (limit := c.frameLimit) hwf hlim b1 false
          rw [← hm, ← hb1, hrun] at hr
          cases hr
        · -- too big: the parser doesn't wait
          obtain ⟨m, hm1, hm2⟩ : ∃ m, c.frameLimit = some m ∧ m < (f.data.length : Int) := by
            cases hfl : c.frameLimit with
            | none => rw [hfl] at hlim; exact absurd (fun m hm => by cases hm) hlim
            | some m =>
              refine ⟨m, rfl, ?_⟩
              rw [hfl] at hlim
              refine Int.not_le.1 fun h => hlim fun m' hm' => ?_
              cases hm'
              exact h
          have hbig := Frame.parseRaw_big (m := m) hwf hm2 b1 false
          rw [← hm, ← hb1, ← hm1, hrun] at hbig
          obtain ⟨e, r', h⟩ := hbig
          cases h
      | done raw r =>
        rw [hrun] at htop
        obtain ⟨bytes, hbb, hre, hwr, hlim⟩ := Frame.parseRaw_done hrun
        simp only at hbb
        -- the frame read is the first frame
        rw [List.flatten_cons] at hb
        have hfw : raw = f ∧ r = ⟨b.drop w.length, false⟩ ∧ w.length ≤ b.length := by
          have hwf' := hwf
          by_cases hlt : b.length < w.length
          · exfalso
            obtain ⟨q', hq'⟩ : ∃ q', w = b ++ q' := by
              rcases List.append_eq_append_iff.1 hb with ⟨l, h1, h2⟩ | ⟨l, h1, h2⟩
              · exact ⟨l, h1⟩
              · have := congrArg List.length h1
                simp at this
                omega
            have h2 := Coro.run_push (r := ⟨b, false⟩) rfl
              (.fresh (Frame.parseRaw_fresh c.maskIn none)) q'
            have h3 := Frame.parseRaw_wire (limit := none) hwf (fun m hm => by cases hm) [] false
            have h4 := Frame.parseRaw_wire (limit := none) hwr (fun m hm => by cases hm) r.buf false
            rw [← hbb] at h4
            have h5 : (⟨b, false⟩ : Reader).push q' = ⟨w, false⟩ := by rw [hq']; rfl
            rw [List.append_nil, ← hm] at h3
            rw [h5, h3, h4] at h2
            simp only [Outcome.resume, Outcome.done.injEq, Reader.push] at h2
            have := congrArg (fun r => r.buf.length) h2.2
            rw [hq'] at hlt
            simp only [List.length_nil, List.length_append] at this hlt
            omega
          · obtain ⟨b1, hb1⟩ : ∃ b1, b = w ++ b1 := by
              rcases List.append_eq_append_iff.1 hb with ⟨l, h1, h2⟩ | ⟨l, h1, h2⟩
              · have h3 := congrArg List.length h1
                simp only [List.length_append] at h3
                have : l = [] := List.length_eq_zero_iff.1 (by omega)
                subst this
                exact ⟨[], by simpa using h1.symm⟩
              · exact ⟨l, h1⟩
            have h3 := Frame.parseRaw_wire (limit := none) hwf (fun m hm => by cases hm) b1 false
            have h4 := Frame.parseRaw_wire (limit := none) hwr (fun m hm => by cases hm) r.buf false
            rw [← hbb, hb1, hm, h3] at h4
            simp only [Outcome.done.injEq, Reader.mk.injEq, and_true] at h4
            refine ⟨h4.1.symm, ?_, by omega⟩
            cases r with
            | mk rb re =>
              simp only at h4 hre
              rw [hb1, hre, List.drop_left, h4.2]
        obtain ⟨rfl, hr, hle⟩ := hfw
        cases hfr : c.frameRead env c.frameLimit none raw with
        | mk e c1 =>
          simp only [hfr] at htop
          have hlen := wire_len hwf
          cases e with
          | some e =>
            refine ⟨[], raw :: fs, [], w :: ws, some e, _, htop, rfl, rfl, .cons hwf hws, ?_, rfl⟩
            have := (Core.Refuse.same ⟨none, raw, hlim, hlen, hfr⟩).2
            simpa using this
          | none =>
            simp only at htop
            obtain ⟨g, hacc⟩ := Core.frameRead_accept hlim hlen hfr
            -- without extensions, the frame is unchanged
            have hg : c1.events = c.events ++ [.frame raw] ∧ c1.exts = [] ∧ c1.side = c.side := by
              unfold Core.frameRead at hfr
              simp only [Option.getD_none, hx, Option.isNone_none, if_true] at hfr
              cases hck : raw.check with
              | error e =>
                unfold Frame.finish at hfr
                simp [applyExts, hck] at hfr
              | ok u =>
                rw [Frame.finish_nil hck] at hfr
                simp only at hfr
                have hcc : { c with exts := [] } = c := by rw [← hx]
                rw [hcc] at hfr
                have hxn := Core.handleFrame_exts_nil env c raw hx
                cases hh : c.handleFrame env raw with
                | mk e c2 =>
                  rw [hh] at hfr hxn
                  cases e with
                  | some e => simp at hfr
                  | none =>
                    simp only [Prod.mk.injEq, true_and] at hfr
                    rw [← hfr]
                    have ha : Accepted env c raw (c2.addEvent (.frame raw)) :=
                      Core.Accept.accepted hl ⟨none, raw, [], c2, hlim, hlen,
                        (by simp only [Option.getD_none, hx, Frame.finish_nil hck]),
                        (by simp only [Option.isNone_none, if_true]; rw [hcc, hh]), rfl⟩
                    exact ⟨ha.events, hxn, ha.emits.1⟩
            obtain ⟨hev, hxn, hsd⟩ := hg
            have hb2 : b.drop w.length ++ q = ws.flatten := by
              have := congrArg (List.drop w.length) hb
              rw [List.drop_append_of_le_length hle, List.drop_left] at this
              exact this
            obtain ⟨fs1, fs2, ws1, ws2, e, k', g1, g2, g3, g4, g5, g6⟩ :=
              ih c1 (by rw [← hm]; unfold Core.maskIn; rw [hsd]) hxn (b.drop w.length) hb2
            refine ⟨raw :: fs1, fs2, w :: ws1, ws2, e, k', ?_, by rw [g2]; rfl, by rw [g3]; rfl, g4,
              by rw [g5, hev]; simp, ?_⟩
            · rw [htop, hr]; exact g1
            · cases e with
              | some e => exact g6
              | none =>
                obtain ⟨b', j1, j2, j3, j4, j5⟩ := g6
                refine ⟨b', ?_, j2, j3, j4, j5⟩
                have hw' : b.take w.length = w := by
                  have := congrArg (List.take w.length) hb
                  rw [List.take_append_of_le_length hle, List.take_left] at this
                  exact this
                rw [List.flatten_cons, List.append_assoc, ← j1]
                conv => lhs; rw [← List.take_append_drop w.length b, hw']

/-! ## Executions of the receiver -/

def Op.isFlush : Op H → Bool
  | .dataToSend => true
  | _ => false

def Op.isEvents : Op H → Bool
  | .eventsReceived => true
  | _ => false

theorem Conn.ended_events (env : Env X E H) (k : Conn X E) (hk : k.Ended) (op : Op H)
    (hh : op.isHandshake = false) (hn : op ≠ .eventsReceived) :
    (k.apply env op).2.core.events = k.core.events := by
  cases op with
  | receiveData d =>
    simp only [Conn.apply, Conn.receiveData_eq]
    split
    · rfl
    · rcases hk with hk | hk
      · contradiction
      · rw [Conn.step_dead env (k.push d) hk]; rfl
  | receiveEof =>
    simp only [Conn.apply, Conn.receiveEof_eq]
    split
    · rfl
    · rcases hk with hk | hk
      · contradiction
      · rw [Conn.step_dead env _ (by exact hk)]
  | eventsReceived => exact absurd rfl hn
  | dataToSend => rfl
  | handshake h => cases hh
  | _ => exact (Conn.send_recvQuiet env k _ rfl (by simp)).1.events

theorem Conn.delivered_cons (env : Env X E H) (k : Conn X E) (op : Op H) (ops : List (Op H))
    (hn : op ≠ .eventsReceived) :
    k.delivered env (op :: ops) = (k.apply env op).2.delivered env ops := by
  cases op <;> first | rfl | exact absurd rfl hn

theorem Conn.delivered_events (env : Env X E H) (k : Conn X E) (ops : List (Op H)) :
    k.delivered env (.eventsReceived :: ops) =
      k.core.events ++ (k.apply env .eventsReceived).2.delivered env ops := by
  simp only [Conn.delivered, Conn.exec, List.append_assoc]

theorem Conn.ended_delivered (env : Env X E H) (k : Conn X E) (hk : k.Ended) (ops : List (Op H))
    (hh : ∀ op ∈ ops, op.isHandshake = false) : k.delivered env ops = k.core.events := by
  induction ops generalizing k with
  | nil => simp [Conn.delivered, Conn.exec]
  | cons op ops ih =>
    have h1 := ih _ (Conn.ended_mono env k hk op) (fun o ho => hh o (List.mem_cons_of_mem _ ho))
    by_cases hn : op.isEvents = true
    · cases op with
      | eventsReceived => rw [Conn.delivered_events, h1]; simp [Conn.apply]
      | _ => cases hn
    · have hn' : op ≠ .eventsReceived := by rintro rfl; exact hn rfl
      rw [Conn.delivered_cons env k op ops hn', h1]
      exact Conn.ended_events env k hk op (hh op (by simp)) hn'

/-- The end of the stream never completes a frame. -/
theorem Conn.At.receiveEof {env : Env X E H} {k : Conn X E} {b : Bytes} (h : k.At b) :
    (k.receiveEof env).2.core.events = k.core.events ∧ (k.receiveEof env).2.Ended := by
  rw [Conn.receiveEof_eq, h.eof]
  simp only [Bool.false_eq_true, if_false]
  have key : ∃ e k', Conn.resume env { k with reader := { k.reader with eof := true } } = (e, k') ∧
      k'.core.events = k.core.events ∧ k'.Ended := by
    have hatend : ∀ c : Core X E, c.atEnd.2.events = c.events := by
      intro c
      unfold Core.atEnd Core.failEof Core.sendEof
      split
      · cases c.eofSent <;> rfl
      · rfl
    rcases h.state with ⟨rfl, hb, hp⟩ | ⟨hb, co, hr, hp⟩
    · unfold Conn.resume
      simp only [hp]
      rw [Conn.parseTop_eq]
      simp only [Reader.atEof, hb, ne_eq, not_true_eq_false, if_false, if_true]
      have := hatend k.core
      cases hx : k.core.atEnd with
      | mk e c =>
        rw [hx] at this
        cases e with
        | none => exact ⟨_, _, rfl, this, .inl rfl⟩
        | some e => exact ⟨_, _, rfl, this, .inr rfl⟩
    · unfold Conn.resume
      simp only [hp]
      have hse := Coro.run_setEof hr
      simp only at hse
      rw [hse]
      cases hx : (Frame.parseRaw k.core.maskIn k.core.frameLimit).run ⟨b, true⟩ with
      | raised e r => exact ⟨_, _, rfl, rfl, .inr rfl⟩
      | blocked co r =>
        exact absurd (Coro.run_ready (.fresh (Frame.parseRaw_fresh _ _)) hx).2.2 (by simp)
      | done raw r =>
        obtain ⟨bytes, hbb, hre, hwr, hlim⟩ := Frame.parseRaw_done hx
        have h4 := Frame.parseRaw_wire hwr hlim r.buf false
        simp only at hbb
        rw [← hbb, hr] at h4
        cases h4
  obtain ⟨e, k', h1, h2, h3⟩ := key
  have halive : k.pstate ≠ .dead := h.alive
  rw [Conn.step_alive env { k with reader := { k.reader with eof := true } } halive, h1]
  cases e with
  | none => exact ⟨h2, h3⟩
  | some e =>
    simp only
    have hq := Core.failConnection_recvQuiet env k'.core (failCode e).1 (failCode e).2
    cases hx : k'.core.failConnection env (failCode e).1 (failCode e).2 with
    | mk e2 c2 =>
      rw [hx] at hq
      cases e2 <;> exact ⟨by rw [← h2]; exact hq.events, h3⟩

/-- A call that receives data. -/
theorem Conn.At.receiveData {env : Env X E H} {k : Conn X E} {b : Bytes} (h : k.At b) (d : Bytes) :
    k.receiveData env d =
      match Conn.parseTop env k.core ⟨b ++ d, false⟩ with
      | (none, c) => (none, c)
      | (some e, c) =>
        match c.core.failConnection env (failCode e).1 (failCode e).2 with
        | (some e', core) => (some e', { c with core })
        | (none, core) => (some e, { c with core := { core with parserExc := some e } }) := by
  have h1 := Conn.parseTop_push env k.core ⟨b, false⟩ rfl d
  rw [h.parseTop] at h1
  have h2 : (⟨b, false⟩ : Reader).push d = ⟨b ++ d, false⟩ := rfl
  rw [h2] at h1
  simp only at h1
  rw [Conn.receiveData_eq, h.eof]
  simp only [Bool.false_eq_true, if_false]
  rw [Conn.step_alive env (k.push d) h.alive, ← h1]
  cases Conn.parseTop env k.core ⟨b ++ d, false⟩ with
  | mk e c =>
    cases e with
    | none => rfl
    | some e => rfl

/-- Frames delivered in an execution when the beginning of `ws` is received. -/
theorem Conn.exec_wires {env : Env X E H} (hl : env.Lawful) {masked : Bool}
    (ops : List (Op H)) (hops : ∀ op ∈ ops, op.isHandshake = false)
    {rest : List Frame} {ws : List Bytes} (hw : Wires masked rest ws)
    (k : Conn X E) (hm : k.core.maskIn = masked) (hx : k.core.exts = []) (b q : Bytes)
    (ha : k.At b) (hlt : ∀ w ws', ws = w :: ws' → b.length < w.length)
    (hb : b ++ received ops ++ q = ws.flatten) :
    ∃ fs1 fs2, rest = fs1 ++ fs2 ∧
      eventFrames (k.delivered env ops) = eventFrames k.core.events ++ fs1 ∧
      (q = [] → (∀ pre op post, ops = pre ++ op :: post → op.isRecv = true →
        ((k.exec env pre).2.apply env op).1 = none) → fs2 = []) := by
  induction ops generalizing k rest ws b with
  | nil =>
    refine ⟨[], rest, rfl, by simp [Conn.delivered, Conn.exec], fun hq _ => ?_⟩
    cases hw with
    | nil => rfl
    | @cons f w _ ws' hwf hws =>
      have h1 := hlt w ws' rfl
      have h2 := congrArg List.length hb
      rw [hq] at h2
      simp [received] at h2
      omega
  | cons op ops ih =>
    have hop := hops op (by simp)
    have hops' := fun o ho => hops o (List.mem_cons_of_mem _ ho)
    -- how the last part follows for the rest of the execution
    have hall : (∀ pre o post, op :: ops = pre ++ o :: post → o.isRecv = true →
        ((k.exec env pre).2.apply env o).1 = none) →
        ∀ pre o post, ops = pre ++ o :: post → o.isRecv = true →
          (((k.apply env op).2.exec env pre).2.apply env o).1 = none := by
      intro h pre o post he ho
      exact h (op :: pre) o post (by rw [he]; rfl) ho
    cases hr : op.isRecv with
    | false =>
      have hrec : received (op :: ops) = received ops := by
        have : op.bytes = [] := by cases op <;> first | rfl | cases hr
        simp [received, this]
      rw [hrec] at hb
      cases hs : op.isSend with
      | true =>
        have hne : ∀ x, op ≠ .handshake x := by rintro x rfl; cases hop
        have hnev : op ≠ .eventsReceived := by rintro rfl; cases hs
        obtain ⟨h1, h2, h3⟩ := Conn.send_recvQuiet env k op hs hne
        obtain ⟨h4, _⟩ := Conn.send_fwd env k op hs hop hx
        obtain ⟨fs1, fs2, g1, g2, g3⟩ := ih hops' hw (k.apply env op).2
          (by rw [← hm]; unfold Core.maskIn; rw [h1.side]) h4 b (ha.quiet h1 h2 h3) hlt hb
        refine ⟨fs1, fs2, g1, ?_, fun hq h => g3 hq (hall h)⟩
        rw [Conn.delivered_cons env k op ops hnev, g2, h1.events]
      | false =>
        cases op with
        | eventsReceived =>
          obtain ⟨fs1, fs2, g1, g2, g3⟩ := ih hops' hw (k.apply env .eventsReceived).2 hm hx b
            ⟨ha.eof, ha.state⟩ hlt hb
          refine ⟨fs1, fs2, g1, ?_, fun hq h => g3 hq (hall h)⟩
          rw [Conn.delivered_events, eventFrames_append, g2]
          simp [Conn.apply, eventFrames]
        | dataToSend =>
          obtain ⟨fs1, fs2, g1, g2, g3⟩ := ih hops' hw (k.apply env .dataToSend).2 hm hx b
            (ha.quiet (k' := { k with core := { k.core with writes := [] } })
              ⟨rfl, rfl, rfl, rfl, rfl, rfl, rfl⟩ rfl rfl) hlt hb
          exact ⟨fs1, fs2, g1, g2, fun hq h => g3 hq (hall h)⟩
        | receiveData d => cases hr
        | receiveEof => cases hr
        | _ => cases hs
    | true =>
      cases op with
      | receiveEof =>
        obtain ⟨h1, h2⟩ := ha.receiveEof (env := env)
        refine ⟨[], rest, rfl, ?_, fun hq h => ?_⟩
        · rw [Conn.delivered_cons env k _ ops (by simp)]
          rw [Conn.ended_delivered env (k.apply env .receiveEof).2 h2 ops hops']
          rw [List.append_nil]
          exact congrArg eventFrames h1
        · -- nothing can be received after the end of the stream
          by_cases hrc : received ops = []
          · have hrec : received (Op.receiveEof :: ops) = received ops := rfl
            rw [hrec, hrc, hq, List.append_nil, List.append_nil] at hb
            cases hw with
            | nil => rfl
            | @cons f w _ ws' hwf hws =>
              have h1 := hlt w ws' rfl
              have h2 := congrArg List.length hb
              simp at h2
              omega
          · obtain ⟨pre, d, post, he⟩ : ∃ pre d post, ops = pre ++ .receiveData d :: post := by
              clear ih hops hops' hb h hall
              induction ops with
              | nil => exact absurd rfl hrc
              | cons o ops ih =>
                cases o with
                | receiveData d => exact ⟨[], d, ops, rfl⟩
                | _ =>
                  obtain ⟨pre, d, post, he⟩ := ih hrc
                  exact ⟨_ :: pre, d, post, by rw [he]; rfl⟩
            have hend : ∀ (ops : List (Op H)) (k : Conn X E), k.Ended → (k.exec env ops).2.Ended := by
              intro ops
              induction ops with
              | nil => intro k hk; exact hk
              | cons o ops ih => intro k hk; exact ih _ (Conn.ended_mono env k hk o)
            have h3 := hall h pre _ post he rfl
            have h4 := hend pre _ h2
            have h5 : ((k.receiveEof env).2.exec env pre).2.receiveData env d =
              ((k.receiveEof env).2.exec env pre).2.apply env (.receiveData d) := rfl
            exfalso
            revert h3
            show (((k.receiveEof env).2.exec env pre).2.apply env (.receiveData d)).1 ≠ none
            simp only [Conn.apply, Conn.receiveData_eq]
            split
            · simp
            · rcases h4 with h4 | h4
              · contradiction
              · rw [Conn.step_dead env _ (by exact h4)]
                simp only
                split <;> simp
      | receiveData d =>
        have hrec : received (Op.receiveData d :: ops) = d ++ received ops := rfl
        rw [hrec, ← List.append_assoc, List.append_assoc (b ++ d)] at hb
        obtain ⟨fs1, fs2, ws1, ws2, e, k', g1, g2, g3, g4, g5, g6⟩ :=
          Conn.parseTop_wires hl.ops hw k.core hm hx (b ++ d) _ hb
        have hap : k.apply env (.receiveData d) = _ := ha.receiveData (env := env) d
        rw [g1] at hap
        cases e with
        | none =>
          simp only at hap g6
          obtain ⟨b', j1, j2, j3, j4, j5⟩ := g6
          have hb2 : b' ++ received ops ++ q = ws2.flatten := by
            rw [j1, g3, List.flatten_append, List.append_assoc] at hb
            rw [List.append_assoc]
            exact List.append_cancel_left hb
          obtain ⟨fs3, fs4, i1, i2, i3⟩ := ih hops' g4 k' j5 j4 b' j3 j2 hb2
          refine ⟨fs1 ++ fs3, fs4, by rw [g2, i1, List.append_assoc], ?_, fun hq h => i3 hq ?_⟩
          · rw [Conn.delivered_cons env k _ ops (by simp), hap, i2, g5, eventFrames_append,
              eventFrames_frames, List.append_assoc]
          · have := hall h
            rw [hap] at this
            exact this
        | some e =>
          simp only at hap g6
          have hq := Core.failConnection_recvQuiet env k'.core (failCode e).1 (failCode e).2
          cases hfc : k'.core.failConnection env (failCode e).1 (failCode e).2 with
          | mk e2 c2 =>
            rw [hfc] at hq hap
            have hres : (k.apply env (.receiveData d)).1 ≠ none ∧
                (k.apply env (.receiveData d)).2.Ended ∧
                (k.apply env (.receiveData d)).2.core.events = k'.core.events := by
              rw [hap]
              cases e2 <;> exact ⟨by simp, .inr g6, hq.events⟩
            obtain ⟨r1, r2, r3⟩ := hres
            refine ⟨fs1, fs2, g2, ?_, fun _ h => absurd (h [] _ ops rfl rfl) r1⟩
            rw [Conn.delivered_cons env k _ ops (by simp),
              Conn.ended_delivered env _ r2 ops hops', r3, g5, eventFrames_append,
              eventFrames_frames]
      | _ => cases hr

/-! ## Executions of the sender -/

theorem Core.frameRead_exts_nil {env : Env X E H} {c : Core X E} {lim : Option Int}
    {stale : Option (List X)} {raw : Frame} (h : c.exts = []) :
    (c.frameRead env lim stale raw).2.exts = [] := by
  unfold Core.frameRead
  cases hf : Frame.finish env.ops (stale.getD c.exts) lim raw with
  | mk res xs =>
    have h1 : (if stale.isNone then { c with exts := xs } else c).exts = [] := by
      cases stale with
      | some s => exact h
      | none =>
        simp only [Option.getD_none, h] at hf
        unfold Frame.finish at hf
        simp only [List.reverse_nil, applyExts] at hf
        have : xs = [] := by
          cases hc : raw.check <;> rw [hc] at hf <;> simp at hf <;> exact hf.2
        exact this
    simp only
    cases res with
    | error e => exact h1
    | ok f =>
      have h2 := Core.handleFrame_exts_nil env _ f h1
      simp only
      cases hh : (if stale.isNone then { c with exts := xs } else c).handleFrame env f with
      | mk e c2 =>
        rw [hh] at h2
        cases e <;> exact h2

theorem Core.failConnection_exts_nil (env : Env X E H) (c : Core X E) (code : Int)
    (reason : PyStr) (h : c.exts = []) : (c.failConnection env code reason).2.exts = [] := by
  have hf : ∀ c : Core X E, c.exts = [] → c.failEof.2.exts = [] := by
    intro c hc
    unfold Core.failEof Core.sendEof
    cases c.eofSent <;> exact hc
  unfold Core.failConnection
  split
  · cases serializeClose code reason with
    | error e => exact h
    | ok d =>
      simp only
      have := Core.sendFrame_exts_nil env c { fin := true, opcode := .close, data := d } h
      cases hx : c.sendFrame env { fin := true, opcode := .close, data := d } with
      | mk e c2 =>
        rw [hx] at this
        cases e with
        | some e => exact this
        | none => exact hf _ this
  · exact hf _ h

theorem Conn.parseTop_exts_nil {env : Env X E H} (c : Core X E) (r : Reader) (h : c.exts = []) :
    (Conn.parseTop env c r).2.core.exts = [] := by
  unfold Conn.parseTop
  generalize r.buf.length + 1 = n
  induction n generalizing c r with
  | zero => exact h
  | succ n ih =>
    unfold Conn.loop
    cases r.atEof with
    | none => exact h
    | some b =>
      cases b with
      | true =>
        have : c.atEnd.2.exts = [] := by
          unfold Core.atEnd Core.failEof Core.sendEof
          split
          · cases c.eofSent <;> exact h
          · exact h
        simp only
        cases hx : c.atEnd with
        | mk e c2 =>
          rw [hx] at this
          cases e <;> exact this
      | false =>
        simp only
        cases (Frame.parseRaw c.maskIn c.frameLimit).run r with
        | blocked co r => exact h
        | raised e r => exact h
        | done raw r =>
          have := Core.frameRead_exts_nil (env := env) (lim := c.frameLimit) (stale := none)
            (raw := raw) h
          simp only
          cases hx : c.frameRead env c.frameLimit none raw with
          | mk e c2 =>
            rw [hx] at this
            cases e with
            | some e => exact this
            | none => exact ih _ _ this

theorem Conn.step_exts_nil {env : Env X E H} (k : Conn X E) (hp : k.pstate.Past)
    (h : k.core.exts = []) : (k.step env).2.core.exts = [] := by
  by_cases hd : k.pstate = .dead
  · rw [Conn.step_dead env k hd]; exact h
  · rw [Conn.step_alive env k hd]
    have key : (k.resume env).2.core.exts = [] := by
      unfold Conn.resume
      split
      · exact h
      · exact h
      · exact Conn.parseTop_exts_nil _ _ h
      · rename_i co lim stale heq
        cases co.run k.reader with
        | blocked co r => exact h
        | raised e r => exact h
        | done raw r =>
          have := Core.frameRead_exts_nil (env := env) (lim := lim) (stale := stale)
            (raw := raw) h
          simp only
          cases hx : k.core.frameRead env lim stale raw with
          | mk e c2 =>
            rw [hx] at this
            cases e with
            | some e => exact this
            | none => exact Conn.parseTop_exts_nil _ _ this
      · rename_i heq
        rw [heq] at hp
        exact hp.elim
    cases hx : k.resume env with
    | mk e k' =>
      rw [hx] at key
      cases e with
      | none => exact key
      | some e =>
        have := Core.failConnection_exts_nil env k'.core (failCode e).1 (failCode e).2 key
        simp only
        cases hy : k'.core.failConnection env (failCode e).1 (failCode e).2 with
        | mk e2 c2 =>
          rw [hy] at this
          cases e2 <;> exact this

theorem Conn.apply_exts_nil {env : Env X E H} (k : Conn X E) (hs : k.Sound) (hp : k.pstate.Past)
    (h : k.core.exts = []) (op : Op H) (hh : op.isHandshake = false) :
    (k.apply env op).2.core.exts = [] ∧ (k.apply env op).2.pstate.Past := by
  cases hsend : op.isSend with
  | true =>
    have hne : ∀ x, op ≠ .handshake x := by rintro x rfl; cases hh
    exact ⟨(Conn.send_fwd env k op hsend hh h).1, by
      rw [(Conn.send_recvQuiet env k op hsend hne).2.2]; exact hp⟩
  | false =>
    cases op with
    | receiveData d =>
      simp only [Conn.apply, Conn.receiveData_eq]
      split
      · exact ⟨h, hp⟩
      · exact ⟨Conn.step_exts_nil (k.push d) hp h, Conn.step_past env (k.push d) hs hp⟩
    | receiveEof =>
      simp only [Conn.apply, Conn.receiveEof_eq]
      split
      · exact ⟨h, hp⟩
      · exact ⟨Conn.step_exts_nil _ hp h, Conn.step_past env _ hs hp⟩
    | eventsReceived => exact ⟨h, hp⟩
    | dataToSend => exact ⟨h, hp⟩
    | _ => cases hsend

/-- The data frame that a call asks to send. -/
def Spec.dataCall : Op H → Option Frame
  | .sendContinuation data fin => some { fin, opcode := .cont, data }
  | .sendText data fin => some { fin, opcode := .text, data }
  | .sendBinary data fin => some { fin, opcode := .binary, data }
  | _ => none

/-- The data frames requested in an execution by the calls that didn't raise an exception. -/
def Spec.dataCalls : List (Op H) → List (Option Exc) → List Frame
  | op :: ops, none :: rs => (dataCall op).toList ++ dataCalls ops rs
  | _ :: ops, some _ :: rs => dataCalls ops rs
  | _, _ => []

/-- The frames of a sequence of items. -/
def Spec.frames (items : List Item) : List Frame :=
  items.filterMap fun
    | .frame f _ => some f
    | _ => none

theorem Core.sendFrame_nil_does {env : Env X E H} (c : Core X E) (hx : c.exts = [])
    {f : Frame} (hf : f.opcode = .cont ∨ f.opcode = .text ∨ f.opcode = .binary) :
    ((c.sendFrame env f).1 ≠ none ∧ DoesG env true c (c.sendFrame env f).2 [] []) ∨
    ((c.sendFrame env f).1 = none ∧ DoesG env true c (c.sendFrame env f).2 [] [f]) := by
  rcases Core.sendFrame_cases env c f with ⟨h0, xs, n, hn, h⟩ | ⟨h0, ho, _, f', xs, w, ha, hw, h⟩
  · rw [h]; exact .inl ⟨h0, .quiet rfl rfl rfl rfl hn⟩
  · rw [hx] at ha
    simp only [applyExts, Prod.mk.injEq, Except.ok.injEq] at ha
    obtain ⟨rfl, rfl⟩ := ha
    refine .inr ⟨h0, ?_⟩
    rw [h]
    have h2 := (Frame.wire_iff _ _ _).1 hw
    have := Micro.doesG (env := env) (s := true) (c := c)
      (c1 := { c with exts := [], nmask := c.nmask + 1, writes := c.writes ++ [w] })
      (Micro.send ho (show f.opcode ≠ .close by rcases hf with h | h | h <;> simp [h]) h2.2
        rfl rfl rfl rfl rfl) rfl
    have e1 : rawItems [Item.frame f c.nmask] = [] := rfl
    have e2 : dataFrames [Item.frame f c.nmask] = [f] := by
      rcases hf with h | h | h <;> simp [dataFrames, h]
    rw [e1, e2] at this
    exact this

/-- What a call writes, on a connection without extensions. -/
theorem Conn.apply_writes {env : Env X E H} (hl : env.Lawful) (k : Conn X E) (hk : k.Settled)
    (hx : k.core.exts = []) (op : Op H) (hh : op.isHandshake = false) (hd : op ≠ .dataToSend) :
    DoesG env false k.core (k.apply env op).2.core []
      (dataCalls [op] [(k.apply env op).1]) := by
  by_cases hdata : op.isData = true
  · -- calls that send data
    have key : ∀ (c : Core X E) (f : Frame), c.exts = [] →
        (f.opcode = .cont ∨ f.opcode = .text ∨ f.opcode = .binary) →
        DoesG env false c k.core [] [] ∨ True → dataCall op = some f →
        DoesG env false c (c.sendFrame env f).2 [] (dataCalls [op] [(c.sendFrame env f).1]) := by
      intro c f hc hf _ ho
      rcases Core.sendFrame_nil_does (env := env) c hc hf with ⟨h1, h2⟩ | ⟨h1, h2⟩
      · cases he : (c.sendFrame env f).1 with
        | none => exact absurd he h1
        | some e => exact h2.weaken
      · rw [h1]
        simp only [dataCalls, ho, Option.toList, List.append_nil]
        exact h2.weaken
    have quiet : ∀ fin : Bool, DoesG env false k.core { k.core with expectCont := !fin } [] [] :=
      fun fin => DoesG.quiet rfl rfl rfl rfl (Nat.le_refl _)
    cases op with
    | sendContinuation d fin =>
      simp only [Conn.apply, Conn.onCore, Core.sendContinuation]
      split
      · exact .refl
      · exact (quiet fin).trans (key _ _ hx (.inl rfl) (.inr trivial) rfl)
    | sendText d fin =>
      simp only [Conn.apply, Conn.onCore, Core.sendData]
      split
      · exact .refl
      · exact (quiet fin).trans (key _ _ hx (.inr (.inl rfl)) (.inr trivial) rfl)
    | sendBinary d fin =>
      simp only [Conn.apply, Conn.onCore, Core.sendData]
      split
      · exact .refl
      · exact (quiet fin).trans (key _ _ hx (.inr (.inr rfl)) (.inr trivial) rfl)
    | _ => cases hdata
  · have hnil : ∀ r, dataCalls [op] [r] = [] := by
      intro r
      cases r <;> cases op <;> first | rfl | exact absurd rfl hdata
    rw [hnil]
    cases hs : op.isSend with
    | true =>
      exact (Conn.ctrl_does hl k op hs (by simpa using hdata)
        (by rintro x rfl; cases hh)).1.weaken
    | false => exact (Conn.recv_does hl k hk op hs hd).does.1

theorem Spec.dataCalls_cons (op : Op H) (ops : List (Op H)) (r : Option Exc)
    (rs : List (Option Exc)) :
    dataCalls (op :: ops) (r :: rs) = dataCalls [op] [r] ++ dataCalls ops rs := by
  cases r <;> simp [dataCalls]

/-- What an execution writes, on a connection without extensions. -/
theorem Conn.exec_writes {env : Env X E H} (hl : env.Lawful) (k : Conn X E) (hk : k.Settled)
    (hsd : k.Sound) (hp : k.pstate.Past) (hx : k.core.exts = []) (ops : List (Op H))
    (hops : ∀ op ∈ ops, op.isHandshake = false) :
    ∃ is ws, Path env false k.core is ws (k.exec env ops).2.core ∧
      k.output env ops = k.core.writes ++ ws ∧ rawItems is = [] ∧
      dataFrames is = dataCalls ops (k.exec env ops).1.raised := by
  induction ops generalizing k with
  | nil => exact ⟨[], [], .refl, by simp [Conn.output, Conn.exec], rfl, rfl⟩
  | cons op ops ih =>
    have hop := hops op (by simp)
    have hho : op.HsOk k.core := by cases op <;> first | trivial | cases hop
    obtain ⟨hx', hp'⟩ := Conn.apply_exts_nil (env := env) k hsd hp hx op hop
    obtain ⟨is, ws, g1, g2, g3, g4⟩ := ih _ (Conn.apply_settled env hk op)
      (Conn.apply_receives hl k hsd op hho).2 hp' hx'
      (fun o ho => hops o (List.mem_cons_of_mem _ ho))
    have hra : (k.exec env (op :: ops)).1.raised =
        (k.apply env op).1 :: ((k.apply env op).2.exec env ops).1.raised := rfl
    rw [hra, dataCalls_cons]
    by_cases hds : op.isFlush = true
    · cases op with
      | dataToSend =>
        refine ⟨_, _, .step .flush g1, ?_, g3, ?_⟩
        · simp only [Conn.output, Conn.exec] at g2 ⊢
          rw [List.append_assoc, g2]
          simp [Conn.apply]
        · rw [List.nil_append, g4]; rfl
      | _ => cases hds
    · have hd : op ≠ .dataToSend := by rintro rfl; exact hds rfl
      obtain ⟨i1, w1, p1, e1, e2, e3⟩ := Conn.apply_writes hl k hk hx op hop hd
      refine ⟨i1 ++ is, w1 ++ ws, p1.trans g1, ?_, ?_, ?_⟩
      · rw [← List.append_assoc, ← e1, ← g2]
        cases op <;> first | rfl | exact absurd rfl hd
      · rw [rawItems_append, e2, g3]; rfl
      · rw [dataFrames_append, e3, g4]

theorem Spec.Writes.wires {rand : Nat → Bytes} {side : Side} {is : List Item} {ws : List Bytes}
    (h : Writes rand side is ws) (hr : rawItems is = []) :
    ∃ ws', Wires (side = .client) (frames is) ws' ∧ ws'.flatten = ws.flatten := by
  induction h with
  | nil => exact ⟨[], .nil, rfl⟩
  | @cons i w is ws he hw ih =>
    cases i with
    | raw b => simp [rawItems] at hr
    | eof =>
      obtain ⟨ws', h1, h2⟩ := ih (by simpa [rawItems] using hr)
      refine ⟨ws', by simpa [frames] using h1, ?_⟩
      have : w = [] := he
      rw [h2, this]; rfl
    | frame f n =>
      obtain ⟨ws', h1, h2⟩ := ih (by simpa [rawItems] using hr)
      refine ⟨w :: ws', ?_, by simp [h2]⟩
      have hw' : Wire (side = .client) f w := by
        obtain ⟨a, b, c, d, e1, e2, e3, e4, e5⟩ := (he : WireWith true _ f w)
        refine ⟨keyFor rand side n, ?_, a, b, c, d, e1, e2, e3, nofun, e5⟩
        cases side <;> rfl
      exact .cons hw' h1

/-! ## C23 -/

/-- A connection without extensions, past its handshake, that hasn't sent or received anything. -/
structure Conn.Start (k : Conn X E) : Prop where
  reader : k.reader = .init
  pstate : k.pstate = .top
  exts : k.core.exts = []
  events : k.core.events = []
  writes : k.core.writes = []

theorem Conn.init_start (side : Side) (state : State) (limit : Option Int) :
    (Conn.init side state limit : Conn X E).Start := ⟨rfl, rfl, rfl, rfl, rfl⟩

/-- The data frames among frames. -/
def Spec.onlyData (fs : List Frame) : List Frame :=
  fs.filter fun f => f.opcode == .cont || f.opcode == .text || f.opcode == .binary

theorem Spec.dataFrames_frames (is : List Item) : dataFrames is = onlyData (frames is) := by
  induction is with
  | nil => rfl
  | cons i is ih =>
    cases i with
    | raw b => simpa [dataFrames, frames] using ih
    | eof => simpa [dataFrames, frames] using ih
    | frame f n =>
      simp only [dataFrames, frames, onlyData] at ih ⊢
      cases ho : f.opcode <;> simp [ho, ih]

/-- **C23.** `a` and `b` are the two sides of a connection without extensions. Both make any calls,
receive anything, in any order. `b` receives the beginning of what `a` writes, in any number of
pieces. There is a sequence of frames `fs` such that the writes of `a` are exactly these frames and
the end of the stream; its data frames are exactly the arguments of the successful calls to
`send_text()`, `send_binary()` and `send_continuation()` of `a`, in this order; `b` delivers
exactly the first `n` frames of `fs`, unchanged; and `b` delivers all of them if everything
was received and receiving never raised an exception. -/
theorem C23_end_to_end {Ha Hb Xa Xb Ea Eb : Type} {enva : Env Xa Ea Ha} {envb : Env Xb Eb Hb}
    (hla : enva.Lawful) (hlb : envb.Lawful) (a : Conn Xa Ea) (b : Conn Xb Eb)
    (ha : a.Start) (hb : b.Start) (hside : a.core.side ≠ b.core.side)
    (opsa : List (Op Ha)) (hopsa : ∀ op ∈ opsa, op.isHandshake = false)
    (opsb : List (Op Hb)) (hopsb : ∀ op ∈ opsb, op.isHandshake = false)
    (more : Bytes) (htransit : received opsb ++ more = (a.output enva opsa).flatten) :
    ∃ items n, Writes enva.rand a.core.side items (a.output enva opsa) ∧ rawItems items = [] ∧
      onlyData (frames items) = dataCalls opsa (a.exec enva opsa).1.raised ∧
      eventFrames (b.delivered envb opsb) = (frames items).take n ∧
      (more = [] → (∀ pre op post, opsb = pre ++ op :: post → op.isRecv = true →
          ((b.exec envb pre).2.apply envb op).1 = none) →
        eventFrames (b.delivered envb opsb) = frames items) := by
  have hset : a.Settled := .inr (.inr ⟨by rw [ha.reader]; rfl, by
    rw [ha.pstate]; simp, by rw [ha.pstate]; trivial, by rw [ha.pstate, ha.reader]; rfl⟩)
  have hsound : a.Sound := by unfold Conn.Sound; rw [ha.pstate]; trivial
  obtain ⟨is, ws, g1, g2, g3, g4⟩ := Conn.exec_writes hla a hset hsound
    (by rw [ha.pstate]; trivial) ha.exts opsa hopsa
  rw [ha.writes, List.nil_append] at g2
  have hw := g1.writes
  obtain ⟨ws', w1, w2⟩ := hw.wires g3
  have hm : b.core.maskIn = decide (a.core.side = .client) := by
    unfold Core.maskIn
    cases h1 : a.core.side <;> cases h2 : b.core.side <;> simp_all
  have hat : b.At [] := ⟨by rw [hb.reader]; rfl, .inl ⟨rfl, by rw [hb.reader]; rfl, hb.pstate⟩⟩
  obtain ⟨fs1, fs2, k1, k2, k3⟩ := Conn.exec_wires hlb opsb hopsb w1 b hm hb.exts [] more hat
    (by
      intro w ws'' he
      generalize frames is = fs at w1
      rw [he] at w1
      cases w1 with
      | cons hwf _ => exact List.length_pos_iff.2 (wire_pos hwf))
    (by rw [List.nil_append, htransit, g2, w2])
  have e2 : eventFrames (b.delivered envb opsb) = fs1 := by
    rw [k2, hb.events]; rfl
  refine ⟨is, fs1.length, by rw [g2]; exact hw, g3, by rw [← dataFrames_frames, g4], ?_, ?_⟩
  · rw [e2, k1, List.take_left]
  · intro hq hr
    rw [e2, k1, k3 hq hr, List.append_nil]

/-- Example: a client sends a fragmented message, with a ping between its fragments; the server
receives it in three pieces, one of which ends inside a frame header. -/
example :
    let env := Env.plain (fun _ => [1, 2, 3, 4]) (fun _ => rfl)
    let a : Conn Empty Empty := Conn.init .client .opened none
    let b : Conn Empty Empty := Conn.init .server .opened (some 4)
    let opsa := [.sendText [0x61] false, .sendPing [], .dataToSend, .sendText [0x63] true,
      .sendContinuation [0x62] true]
    let opsb := [.receiveData [0x01], .receiveData [0x81, 1, 2, 3, 4, 0x60, 0x89], .eventsReceived,
      .receiveData [0x80, 1, 2, 3, 4, 0x80, 0x81, 1, 2, 3, 4, 0x63]]
    a.Start ∧ b.Start ∧ env.Lawful ∧ a.core.side ≠ b.core.side ∧
      received opsb ++ [] = (a.output env opsa).flatten ∧
      (b.exec env opsb).1.raised = [none, none, none, none] ∧
      eventFrames (b.delivered env opsb) = [{ fin := false, opcode := .text, data := [0x61] },
        { fin := true, opcode := .ping, data := [] },
        { fin := true, opcode := .cont, data := [0x62] }] :=
  ⟨Conn.init_start _ _ _, Conn.init_start _ _ _, Env.plain_lawful _ _, by decide, by decide +kernel,
    by decide +kernel, by decide +kernel⟩

end WS
