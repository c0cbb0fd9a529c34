import Verif.Props.Session
import Verif.Lemmas.PmdTame

/-!
# The closing handshake: C80
-/

namespace WS

open Spec

variable {X E H : Type}

/-! ## Receiving frames with any extensions -/

/-- Frames `gs` accepted by a receiver when frames `fs` are received: extensions may only change
data frames. -/
inductive Heads : List Frame → List Frame → Prop where
  | nil : Heads [] []
  | cons {g f gs fs} : g.opcode = f.opcode → (f.opcode.isCtrl = true → g = f) → Heads gs fs →
      Heads (g :: gs) (f :: fs)

theorem Heads.append {gs fs gs' fs' : List Frame} (h : Heads gs fs) (h' : Heads gs' fs') :
    Heads (gs ++ gs') (fs ++ fs') := by
  induction h with
  | nil => exact h'
  | cons a b _ ih => exact .cons a b ih

theorem Heads.close {gs fs : List Frame} (h : Heads gs fs) {f : Frame} (hf : f ∈ fs)
    (hc : f.opcode.isCtrl = true) : f ∈ gs := by
  induction h with
  | nil => cases hf
  | @cons g f' gs fs a b _ ih =>
    rcases List.mem_cons.1 hf with rfl | hf
    · rw [b hc]; exact List.mem_cons_self ..
    · exact List.mem_cons_of_mem _ (ih hf)

theorem Core.frameRead_heads {env : Env X E H} (hl : env.ops.Lawful) {c c' : Core X E}
    {stale : Option (List X)} {raw : Frame} (hw : Within raw.data.length c.frameLimit)
    (hlt : raw.data.length < 2 ^ 64)
    (h : c.frameRead env c.frameLimit stale raw = (none, c')) :
    ∃ f, c.Accept env f c' ∧ f.opcode = raw.opcode ∧ (raw.opcode.isCtrl = true → f = raw) := by
  unfold Core.frameRead at h
  cases hf : Frame.finish env.ops (stale.getD c.exts) c.frameLimit raw with
  | mk res xs =>
    rw [hf] at h
    cases res with
    | error e => simp at h
    | ok f =>
      simp only at h
      cases hx : Core.handleFrame env (if stale.isNone then { c with exts := xs } else c) f with
      | mk e c1 =>
        rw [hx] at h
        cases e with
        | some e => simp at h
        | none =>
          simp only [Prod.mk.injEq, true_and] at h
          refine ⟨f, ⟨stale, raw, xs, c1, hw, hlt, hf, hx, h.symm⟩, ?_⟩
          unfold Frame.finish at hf
          cases ha : applyExts (fun x fr => env.ops.decode x fr c.frameLimit)
              (stale.getD c.exts).reverse raw with
          | mk r ys =>
            rw [ha] at hf
            cases r with
            | error e => simp at hf
            | ok g =>
              have hg := applyExts_decode hl ha
              simp only at hf
              split at hf
              · simp at hf
              · simp only [Prod.mk.injEq, Except.ok.injEq] at hf
                rw [← hf.1]
                exact hg.2

/-- Every frame that has been completely received has been accepted, or an error has been raised:
`Conn.parseTop_wires` for any extensions. -/
theorem Conn.parseTop_heads {env : Env X E H} {masked : Bool} {rest : List Frame}
    {ws : List Bytes} (hl : env.ops.Lawful) (hw : Wires masked rest ws)
    (c : Core X E) (hm : c.maskIn = masked)
    (b q : Bytes) (hb : b ++ q = ws.flatten) :
    ∃ fs1 fs2 ws1 ws2 e k', Conn.parseTop env c ⟨b, false⟩ = (e, k') ∧ rest = fs1 ++ fs2 ∧
      ws = ws1 ++ ws2 ∧ Wires masked fs2 ws2 ∧
      match e with
      | some _ => k'.pstate = .dead
      | none => ∃ b', b = ws1.flatten ++ b' ∧ (∀ w ws', ws2 = w :: ws' → b'.length < w.length) ∧
          k'.At b' ∧ k'.core.maskIn = masked ∧ ∃ gs, Heads gs fs1 ∧ Frames env c gs k'.core := by
  induction hw generalizing c b with
  | nil =>
    have : b = [] := by
      have := List.append_eq_nil_iff.1 (show b ++ q = [] by simpa using hb)
      exact this.1
    subst this
    refine ⟨[], [], [], [], none, ⟨c, ⟨[], false⟩, .top⟩, ?_, rfl, rfl, .nil, [], rfl,
      nofun, ⟨rfl, .inl ⟨rfl, rfl, rfl⟩⟩, hm, [], .nil, .nil⟩
    rw [Conn.parseTop_eq]
    rfl
  | @cons f w fs ws hwf hws ih =>
    by_cases hbn : b = []
    · subst hbn
      refine ⟨[], f :: fs, [], w :: ws, none, ⟨c, ⟨[], false⟩, .top⟩, ?_, rfl, rfl,
        .cons hwf hws, [], rfl, ?_, ⟨rfl, .inl ⟨rfl, rfl, rfl⟩⟩, hm, [], .nil, .nil⟩
      · rw [Conn.parseTop_eq]
        rfl
      · intro w' ws' he
        simp only [List.cons.injEq] at he
        rw [← he.1]
        exact List.length_pos_iff.2 (wire_pos hwf)
    · have htop : Conn.parseTop env c ⟨b, false⟩ =
          match (Frame.parseRaw c.maskIn c.frameLimit).run ⟨b, false⟩ with
          | .blocked co r => (none, ⟨c, r, .inFrame co c.frameLimit none⟩)
          | .raised e r => (some e, ⟨c, r, .dead⟩)
          | .done raw r =>
            match c.frameRead env c.frameLimit none raw with
            | (some e, c) => (some e, ⟨c, r, .dead⟩)
            | (none, c) => Conn.parseTop env c r := by
        rw [Conn.parseTop_eq]
        simp only [Reader.atEof, ne_eq, hbn, not_false_eq_true, if_true]
        cases (Frame.parseRaw c.maskIn c.frameLimit).run ⟨b, false⟩ <;> rfl
      cases hrun : (Frame.parseRaw c.maskIn c.frameLimit).run ⟨b, false⟩ with
      | raised e r =>
        rw [hrun] at htop
        exact ⟨[], f :: fs, [], w :: ws, some e, _, htop, rfl, rfl, .cons hwf hws, rfl⟩
      | blocked co r =>
        rw [hrun] at htop
        have hre : r.eof = false :=
          (Coro.run_ready (.fresh (Frame.parseRaw_fresh _ _)) hrun).2.1.trans rfl
        refine ⟨[], f :: fs, [], w :: ws, none, _, htop, rfl, rfl, .cons hwf hws, b,
          rfl, ?_, ⟨hre, .inr ⟨hbn, co, hrun, rfl⟩⟩, hm, [], .nil, .nil⟩
        intro w' ws' he
        simp only [List.cons.injEq] at he
        rw [← he.1]
        -- otherwise the whole frame would have been read
        refine Nat.lt_of_not_le fun hle => ?_
        rw [List.flatten_cons] at hb
        obtain ⟨b1, hb1⟩ : ∃ b1, b = w ++ b1 := by
          rcases List.append_eq_append_iff.1 hb with ⟨l, h1, h2⟩ | ⟨l, h1, h2⟩
          · have h3 := congrArg List.length h1
            simp only [List.length_append] at h3
            have : l = [] := List.length_eq_zero_iff.1 (by omega)
            subst this
            exact ⟨[], by simpa using h1.symm⟩
          · exact ⟨l, h1⟩
        by_cases hlim : Within f.data.length c.frameLimit
        · have hr := Frame.parseRaw_wire (limit := c.frameLimit) hwf hlim b1 false
          rw [← hm, ← hb1, hrun] at hr
          cases hr
        · -- too big: the parser doesn't wait
          obtain ⟨m, hm1, hm2⟩ : ∃ m, c.frameLimit = some m ∧ m < (f.data.length : Int) := by
            cases hfl : c.frameLimit with
            | none => rw [hfl] at hlim; exact absurd (fun m hm => by cases hm) hlim
            | some m =>
              refine ⟨m, rfl, ?_⟩
              rw [hfl] at hlim
              refine Int.not_le.1 fun h => hlim fun m' hm' => ?_
              cases hm'
              exact h
          have hbig := Frame.parseRaw_big (m := m) hwf hm2 b1 false
          rw [← hm, ← hb1, ← hm1, hrun] at hbig
          obtain ⟨e, r', h⟩ := hbig
          cases h
      | done raw r =>
        rw [hrun] at htop
        obtain ⟨bytes, hbb, hre, hwr, hlim⟩ := Frame.parseRaw_done hrun
        simp only at hbb
        -- the frame read is the first frame
        rw [List.flatten_cons] at hb
        have hfw : raw = f ∧ r = ⟨b.drop w.length, false⟩ ∧ w.length ≤ b.length := by
          have hwf' := hwf
          by_cases hlt : b.length < w.length
          · exfalso
            obtain ⟨q', hq'⟩ : ∃ q', w = b ++ q' := by
              rcases List.append_eq_append_iff.1 hb with ⟨l, h1, h2⟩ | ⟨l, h1, h2⟩
              · exact ⟨l, h1⟩
              · have := congrArg List.length h1
                simp at this
                omega
            have h2 := Coro.run_push (r := ⟨b, false⟩) rfl
              (.fresh (Frame.parseRaw_fresh c.maskIn none)) q'
            have h3 := Frame.parseRaw_wire (limit := none) hwf (fun m hm => by cases hm) [] false
            have h4 := Frame.parseRaw_wire (limit := none) hwr (fun m hm => by cases hm) r.buf false
            rw [← hbb] at h4
            have h5 : (⟨b, false⟩ : Reader).push q' = ⟨w, false⟩ := by rw [hq']; rfl
            rw [List.append_nil, ← hm] at h3
            rw [h5, h3, h4] at h2
            simp only [Outcome.resume, Outcome.done.injEq, Reader.push] at h2
            have := congrArg (fun r => r.buf.length) h2.2
            rw [hq'] at hlt
            simp only [List.length_nil, List.length_append] at this hlt
            omega
          · obtain ⟨b1, hb1⟩ : ∃ b1, b = w ++ b1 := by
              rcases List.append_eq_append_iff.1 hb with ⟨l, h1, h2⟩ | ⟨l, h1, h2⟩
              · have h3 := congrArg List.length h1
                simp only [List.length_append] at h3
                have : l = [] := List.length_eq_zero_iff.1 (by omega)
                subst this
                exact ⟨[], by simpa using h1.symm⟩
              · exact ⟨l, h1⟩
            have h3 := Frame.parseRaw_wire (limit := none) hwf (fun m hm => by cases hm) b1 false
            have h4 := Frame.parseRaw_wire (limit := none) hwr (fun m hm => by cases hm) r.buf false
            rw [← hbb, hb1, hm, h3] at h4
            simp only [Outcome.done.injEq, Reader.mk.injEq, and_true] at h4
            refine ⟨h4.1.symm, ?_, by omega⟩
            cases r with
            | mk rb re =>
              simp only at h4 hre
              rw [hb1, hre, List.drop_left, h4.2]
        obtain ⟨rfl, hr, hle⟩ := hfw
        cases hfr : c.frameRead env c.frameLimit none raw with
        | mk e c1 =>
          simp only [hfr] at htop
          have hlen := wire_len hwf
          cases e with
          | some e =>
            exact ⟨[], raw :: fs, [], w :: ws, some e, _, htop, rfl, rfl, .cons hwf hws, rfl⟩
          | none =>
            simp only at htop
            obtain ⟨g, hacc, hg⟩ := Core.frameRead_heads hl hlim hlen hfr
            have hsd := (hacc.accepted hl).emits.1
            have hb2 : b.drop w.length ++ q = ws.flatten := by
              have := congrArg (List.drop w.length) hb
              rw [List.drop_append_of_le_length hle, List.drop_left] at this
              exact this
            obtain ⟨fs1, fs2, ws1, ws2, e, k', g1, g2, g3, g4, g6⟩ :=
              ih c1 (by rw [← hm]; unfold Core.maskIn; rw [hsd]) (b.drop w.length) hb2
            refine ⟨raw :: fs1, fs2, w :: ws1, ws2, e, k', ?_, by rw [g2]; rfl, by rw [g3]; rfl, g4,
              ?_⟩
            · rw [htop, hr]; exact g1
            · cases e with
              | some e => exact g6
              | none =>
                obtain ⟨b', j1, j2, j3, j5, gs, j6, j7⟩ := g6
                refine ⟨b', ?_, j2, j3, j5, g :: gs, .cons hg.1 hg.2 j6, .cons hacc j7⟩
                have hw' : b.take w.length = w := by
                  have := congrArg (List.take w.length) hb
                  rw [List.take_append_of_le_length hle, List.take_left] at this
                  exact this
                rw [List.flatten_cons, List.append_assoc, ← j1]
                conv => lhs; rw [← List.take_append_drop w.length b, hw']


theorem Conn.ended_exec (env : Env X E H) (k : Conn X E) (hk : k.Ended) (ops : List (Op H)) :
    (k.exec env ops).2.Ended := by
  induction ops generalizing k with
  | nil => exact hk
  | cons op ops ih => exact ih _ (Conn.ended_mono env k hk op)

/-- A receiver that receives everything either stops because of an exception or the end of the
stream, or accepts all frames; then, it knows of every close frame. -/
theorem Conn.exec_heads {env : Env X E H} (hl : env.Lawful) {masked : Bool}
    (ops : List (Op H)) (hops : ∀ op ∈ ops, op.isHandshake = false)
    {rest : List Frame} {ws : List Bytes} (hw : Wires masked rest ws)
    (k : Conn X E) (hm : k.core.maskIn = masked) (b : Bytes)
    (ha : k.At b) (hlt : ∀ w ws', ws = w :: ws' → b.length < w.length)
    (hb : b ++ received ops = ws.flatten) :
    (k.exec env ops).2.Ended ∨
      ((k.core.closeReceived = true ∨ ∃ f ∈ rest, f.opcode = .close) →
        (k.exec env ops).2.core.closeReceived = true) := by
  induction ops generalizing k rest ws b with
  | nil =>
    refine .inr ?_
    rintro (h | ⟨f, hf, _⟩)
    · exact h
    · cases hw with
      | nil => cases hf
      | @cons f w _ ws' hwf hws =>
        have h1 := hlt w ws' rfl
        have h2 := congrArg List.length hb
        simp [received] at h2
        omega
  | cons op ops ih =>
    have hop := hops op (by simp)
    have hops' := fun o ho => hops o (List.mem_cons_of_mem _ ho)
    cases hr : op.isRecv with
    | false =>
      have hrec : received (op :: ops) = received ops := by
        have : op.bytes = [] := by cases op <;> first | rfl | cases hr
        simp [received, this]
      rw [hrec] at hb
      cases hs : op.isSend with
      | true =>
        have hne : ∀ x, op ≠ .handshake x := by rintro x rfl; cases hop
        obtain ⟨h1, h2, h3⟩ := Conn.send_recvQuiet env k op hs hne
        have := ih hops' hw (k.apply env op).2
          (by rw [← hm]; unfold Core.maskIn; rw [h1.side]) b (ha.quiet h1 h2 h3) hlt hb
        rw [h1.closeReceived] at this
        exact this
      | false =>
        cases op with
        | eventsReceived =>
          exact ih hops' hw (k.apply env .eventsReceived).2 hm b ⟨ha.eof, ha.state⟩ hlt hb
        | dataToSend =>
          exact ih hops' hw (k.apply env .dataToSend).2 hm b
            (ha.quiet (k' := { k with core := { k.core with writes := [] } })
              ⟨rfl, rfl, rfl, rfl, rfl, rfl, rfl⟩ rfl rfl) hlt hb
        | receiveData d => cases hr
        | receiveEof => cases hr
        | _ => cases hs
    | true =>
      cases op with
      | receiveEof => exact .inl (Conn.ended_exec env _ (ha.receiveEof (env := env)).2 ops)
      | receiveData d =>
        have hrec : received (Op.receiveData d :: ops) = d ++ received ops := rfl
        rw [hrec, ← List.append_assoc] at hb
        obtain ⟨fs1, fs2, ws1, ws2, e, k', g1, g2, g3, g4, g6⟩ :=
          Conn.parseTop_heads hl.ops hw k.core hm (b ++ d) _ hb
        have hap : k.apply env (.receiveData d) = _ := ha.receiveData (env := env) d
        rw [g1] at hap
        cases e with
        | none =>
          simp only at hap g6
          obtain ⟨b', j1, j2, j3, j5, gs, j6, j7⟩ := g6
          have hb2 : b' ++ received ops = ws2.flatten := by
            rw [j1, g3, List.flatten_append, List.append_assoc] at hb
            exact List.append_cancel_left hb
          have h := ih hops' g4 k' j5 b' j3 j2 hb2
          have he : (k.exec env (.receiveData d :: ops)).2 = (k'.exec env ops).2 := by
            show ((k.apply env (.receiveData d)).2.exec env ops).2 = _
            rw [hap]
          rw [he]
          refine h.imp id fun h hc => h ?_
          rw [(j7.took hl.ops).closeReceived]
          rcases hc with hc | ⟨f, hf, ho⟩
          · left; rw [hc]; rfl
          · rw [g2] at hf
            rcases List.mem_append.1 hf with hf | hf
            · left
              have : gs.any (·.opcode == .close) = true :=
                List.any_eq_true.2 ⟨f, j6.close hf (by rw [ho]; rfl), by rw [ho]; rfl⟩
              rw [this, Bool.or_true]
            · exact .inr ⟨f, hf, ho⟩
        | some e =>
          simp only at hap g6
          refine .inl (Conn.ended_exec env (k.apply env (.receiveData d)).2 ?_ ops)
          rw [hap]
          cases hfc : k'.core.failConnection env (failCode e).1 (failCode e).2 with
          | mk e2 c2 => cases e2 <;> exact .inr g6
      | _ => cases hr

/-! ## What each side guarantees -/

/-- Invariants of a connection after the handshake: when it has stopped reading, it has sent the end
of the stream; when it's still reading and it has received a close frame, it isn't open; when it's a server and it isn't
open, it has sent the end of the stream. -/
structure Conn.Shut (k : Conn X E) : Prop where
  ended : k.Ended → k.core.eofSent = true
  received : ¬ k.Ended → k.core.closeReceived = true → k.core.state ≠ .opened
  server : k.core.side = .server → k.core.state ≠ .opened → k.core.eofSent = true

theorem Core.sendFrame_shutKeeps (env : Env X E H) (c : Core X E) (f : Frame) :
    (c.sendFrame env f).2.eofSent = c.eofSent ∧ (c.sendFrame env f).2.side = c.side ∧
      (c.sendFrame env f).2.state = c.state := by
  rcases Core.sendFrame_cases env c f with ⟨_, xs, n, _, h⟩ | ⟨_, _, _, f', xs, w, _, _, h⟩ <;>
    rw [h] <;> exact ⟨rfl, rfl, rfl⟩

theorem Core.sendCloseFrame_shut (env : Env X E H) (c : Core X E) (d : Bytes) :
    (c.eofSent = true → (c.sendCloseFrame env d).2.eofSent = true) ∧
      (c.state ≠ .opened → (c.sendCloseFrame env d).2.state ≠ .opened) ∧
      (c.side = .server → (c.sendCloseFrame env d).2.state ≠ .opened →
        (c.state ≠ .opened → c.eofSent = true) → (c.sendCloseFrame env d).2.eofSent = true) := by
  unfold Core.sendCloseFrame
  obtain ⟨h1, h2, h3⟩ := Core.sendFrame_shutKeeps env c { fin := true, opcode := .close, data := d }
  cases hx : c.sendFrame env { fin := true, opcode := .close, data := d } with
  | mk e c1 =>
    rw [hx] at h1 h2 h3
    simp only at h1 h2 h3
    cases e with
    | some e =>
      simp only
      rw [h1, h3]
      exact ⟨id, id, fun _ a b => b a⟩
    | none =>
      simp only
      rw [h2]
      unfold Core.sendEof
      cases hs : c.side <;> cases he : c1.eofSent <;> simp [he, ← h1]

/-- Calls that send. -/
theorem Conn.send_shut (env : Env X E H) (k : Conn X E) (op : Op H) (hs : op.isSend = true)
    (hh : op.isHandshake = false) :
    (k.core.eofSent = true → (k.apply env op).2.core.eofSent = true) ∧
      (k.core.state ≠ .opened → (k.apply env op).2.core.state ≠ .opened) ∧
      (k.core.side = .server → (k.apply env op).2.core.state ≠ .opened →
        (k.core.state ≠ .opened → k.core.eofSent = true) →
        (k.apply env op).2.core.eofSent = true) := by
  have keep : ∀ {c c' : Core X E}, c'.eofSent = c.eofSent → c'.state = c.state →
      (c.eofSent = true → c'.eofSent = true) ∧ (c.state ≠ .opened → c'.state ≠ .opened) ∧
      (c.side = .server → c'.state ≠ .opened → (c.state ≠ .opened → c.eofSent = true) →
        c'.eofSent = true) := by
    intro c c' h1 h2
    rw [h1, h2]
    exact ⟨id, id, fun _ a b => b a⟩
  cases op with
  | sendContinuation d fin =>
    simp only [Conn.apply, Conn.onCore, Core.sendContinuation]
    split
    · exact keep rfl rfl
    · obtain ⟨h1, _, h3⟩ := Core.sendFrame_shutKeeps env { k.core with expectCont := !fin }
        { fin, opcode := .cont, data := d }
      exact keep h1 h3
  | sendText d fin =>
    simp only [Conn.apply, Conn.onCore, Core.sendData]
    split
    · exact keep rfl rfl
    · obtain ⟨h1, _, h3⟩ := Core.sendFrame_shutKeeps env { k.core with expectCont := !fin }
        { fin, opcode := .text, data := d }
      exact keep h1 h3
  | sendBinary d fin =>
    simp only [Conn.apply, Conn.onCore, Core.sendData]
    split
    · exact keep rfl rfl
    · obtain ⟨h1, _, h3⟩ := Core.sendFrame_shutKeeps env { k.core with expectCont := !fin }
        { fin, opcode := .binary, data := d }
      exact keep h1 h3
  | sendPing d =>
    obtain ⟨h1, _, h3⟩ := Core.sendFrame_shutKeeps env k.core { fin := true, opcode := .ping, data := d }
    exact keep h1 h3
  | sendPong d =>
    obtain ⟨h1, _, h3⟩ := Core.sendFrame_shutKeeps env k.core { fin := true, opcode := .pong, data := d }
    exact keep h1 h3
  | sendClose code reason =>
    simp only [Conn.apply, Conn.onCore, Core.sendClose]
    split
    · exact keep rfl rfl
    · split
      · split
        · exact keep rfl rfl
        · exact Core.sendCloseFrame_shut env k.core []
      · split
        · exact keep rfl rfl
        · exact Core.sendCloseFrame_shut env k.core _
  | handshake h => cases hh
  | _ => cases hs

/-- Accepting frames. -/
theorem Frames.shut {env : Env X E H} (hl : env.ops.Lawful) {c c' : Core X E} {fs : List Frame}
    (h : Frames env c fs c') (h1 : c.closeReceived = true → c.state ≠ .opened)
    (h2 : c.side = .server → c.state ≠ .opened → c.eofSent = true) :
    (c'.closeReceived = true → c'.state ≠ .opened) ∧
      (c'.side = .server → c'.state ≠ .opened → c'.eofSent = true) := by
  have ht := h.took hl
  have he := h.eofSent hl
  have hs := ht.emits.1
  refine ⟨fun hc => ?_, fun hsd hst => ?_⟩
  · rw [ht.state]
    split
    · simp
    · rename_i hn
      rw [ht.closeReceived, Bool.or_eq_true, List.any_eq_true] at hc
      rcases hc with hc | ⟨f, hf, ho⟩
      · exact h1 hc
      · intro hopen
        exact hn ⟨⟨f, hf, by simpa using ho⟩, hopen⟩
  · rw [hs] at hsd
    rw [he, Bool.or_eq_true, decide_eq_true_eq]
    rw [ht.state] at hst
    split at hst
    · rename_i hcl
      exact .inr ⟨hcl.1, hcl.2, hsd⟩
    · exact .inl (h2 hsd hst)

theorem Core.failEof_shut (c : Core X E) : c.failEof.2.eofSent = true ∧
    c.failEof.2.state = c.state ∧ c.failEof.2.closeReceived = c.closeReceived := by
  unfold Core.failEof Core.sendEof
  cases h : c.eofSent <;> simp [h]

theorem Conn.ended_core (env : Env X E H) (k : Conn X E) (hk : k.Ended) (op : Op H)
    (hop : op.isRecv = true) : (k.apply env op).2.core = k.core := by
  cases op with
  | receiveData d =>
    simp only [Conn.apply, Conn.receiveData_eq]
    split
    · rfl
    · rcases hk with hk | hk
      · contradiction
      · rw [Conn.step_dead env (k.push d) hk]; rfl
  | receiveEof =>
    simp only [Conn.apply, Conn.receiveEof_eq]
    split
    · rfl
    · rcases hk with hk | hk
      · contradiction
      · rw [Conn.step_dead env _ (by exact hk)]
  | _ => cases hop

/-- A call that receives data without raising doesn't stop the parser. -/
theorem Conn.recv_alive {env : Env X E H} (hx : env.ops.Tame) {k k' : Conn X E} (hk : k.Sane)
    (hE : ¬ k.Ended) {d : Bytes} (ha : k.apply env (.receiveData d) = (none, k')) : ¬ k'.Ended := by
  obtain ⟨h1, h2, h3, h4⟩ := hk.alive hE
  obtain ⟨fs, c1, _, b, _⟩ := Conn.step_exact hx (k.push d) hk.sound hk.past h2 h3 h4 hk.bounded
  have he : k.apply env (.receiveData d) = (k.push d).step env := by
    simp only [Conn.apply, Conn.receiveData_eq, h1, Bool.false_eq_true, if_false]
  have hr : (k.push d).pstate.Ready (k.push d).reader := by
    rcases hk.settled with ⟨a, _⟩ | ⟨_, a⟩ | ⟨_, _, a, _⟩
    · rw [h1] at a; cases a
    · exact absurd a h2
    · exact a.push d
  have hst := (Conn.step_settled env (k.push d) hr).2.1
  rw [← he, ha] at hst
  have hst' : k'.reader.eof = false := hst.trans h1
  rcases b k' (by rw [← he]; exact ha) with ⟨_, n1, _⟩ | ⟨_, n1, _⟩
  · rintro (h | h)
    · rw [hst'] at h; cases h
    · exact n1 h
  · rintro (h | h)
    · rw [hst'] at h; cases h
    · rw [n1] at h; cases h

/-- The end of the stream stops the parser. -/
theorem Conn.recvEof_ended {env : Env X E H} {k : Conn X E} (hk : k.Sane) :
    (k.apply env .receiveEof).2.Ended := by
  by_cases hE : k.Ended
  · exact Conn.ended_mono env k hE .receiveEof
  · obtain ⟨h1, h2, _, _⟩ := hk.alive hE
    have he : k.apply env .receiveEof =
        Conn.step env { k with reader := { k.reader with eof := true } } := by
      simp only [Conn.apply, Conn.receiveEof_eq, h1, Bool.false_eq_true, if_false]
    have hst := (Conn.step_settled env { k with reader := { k.reader with eof := true } }
      (by rcases hk.settled with ⟨a, _⟩ | ⟨_, a⟩ | ⟨_, _, a, _⟩
          · rw [h1] at a; cases a
          · exact absurd a h2
          · exact PState.Ready.setEof a true)).2.1
    rw [he]
    exact .inl hst

theorem Conn.Shut.apply {env : Env X E H} (hx : env.ops.Tame) {k : Conn X E}
    (hk : k.Sane) (h : k.Shut) (op : Op H) (hop : op.isHandshake = false) :
    (k.apply env op).2.Shut := by
  cases hs : op.isSend with
  | true =>
    have hne : ∀ x, op ≠ .handshake x := by rintro x rfl; cases hop
    obtain ⟨q1, q2, q3⟩ := Conn.send_recvQuiet env k op hs hne
    obtain ⟨h1, h2, h3⟩ := Conn.send_shut env k op hs hop
    have hend : (k.apply env op).2.Ended ↔ k.Ended := by
      unfold Conn.Ended; rw [q2, q3]
    refine ⟨fun he => h1 (h.ended (hend.1 he)), fun hn hc => h2 (h.received (mt hend.2 hn) ?_),
      fun hsd hst => h3 ?_ hst fun ho => h.server ?_ ho⟩
    · rw [← q1.closeReceived]; exact hc
    · rw [← q1.side]; exact hsd
    · rw [← q1.side]; exact hsd
  | false =>
    cases hr : op.isRecv with
    | false =>
      cases op with
      | eventsReceived => exact ⟨h.ended, h.received, h.server⟩
      | dataToSend => exact ⟨h.ended, h.received, h.server⟩
      | receiveData d => cases hr
      | receiveEof => cases hr
      | _ => cases hs
    | true =>
      by_cases hE : k.Ended
      · have hc := Conn.ended_core env k hE op hr
        have hE' := Conn.ended_mono env k hE op
        exact ⟨fun _ => by rw [hc]; exact h.ended hE, fun hn => absurd hE' hn,
          fun _ _ => by rw [hc]; exact h.ended hE⟩
      · obtain ⟨fs, c1, hf, hok, herr⟩ := Conn.recv_exact hx hk hE op hr
        obtain ⟨s1, s2⟩ := hf.shut hx.lawful (h.received hE) h.server
        cases ha : k.apply env op with
        | mk e k' =>
          cases e with
          | some e =>
            have hfw := herr e k' ha
            exact ⟨fun _ => hfw.eofSent, fun hn => absurd (.inr hfw.dead) hn,
              fun _ _ => hfw.eofSent⟩
          | none =>
            have hk' := hok k' ha
            cases he : op.isEof with
            | true =>
              rw [he, if_pos rfl] at hk'
              obtain ⟨f1, f2, f3⟩ := c1.failEof_shut
              show k'.Shut
              refine ⟨fun _ => by rw [hk'.2]; exact f1, fun _ _ => ?_,
                fun _ _ => by rw [hk'.2]; exact f1⟩
              rw [hk'.2, f2]
              exact s1 hk'.1
            | false =>
              rw [he, if_neg (by simp)] at hk'
              refine ⟨fun hE' => ?_, fun _ => by rw [hk']; exact s1, by rw [hk']; exact s2⟩
              cases op with
              | receiveData d => exact absurd hE' (Conn.recv_alive hx hk hE ha)
              | receiveEof => cases he
              | _ => cases hr

theorem Conn.hsOk_of (env : Env X E H) (k : Conn X E) (ops : List (Op H))
    (hops : ∀ op ∈ ops, op.isHandshake = false) : k.HsOk env ops ∧ k.hsWrites env ops = [] := by
  induction ops generalizing k with
  | nil => exact ⟨trivial, rfl⟩
  | cons op ops ih =>
    obtain ⟨h1, h2⟩ := ih (k.apply env op).2 fun o ho => hops o (List.mem_cons_of_mem _ ho)
    have hop := hops op (by simp)
    refine ⟨⟨(by cases op <;> first | trivial | cases hop), h1⟩, ?_⟩
    have : k.hsWrite env op = [] := by cases op <;> first | rfl | cases hop
    simp only [Conn.hsWrites, this, h2, List.append_nil]

theorem Conn.Shut.exec {env : Env X E H} (hl : env.Lawful) (hx : env.ops.Tame) {k : Conn X E}
    (hk : k.Sane) (h : k.Shut) (ops : List (Op H)) (hops : ∀ op ∈ ops, op.isHandshake = false) :
    (k.exec env ops).2.Shut ∧ (.receiveEof ∈ ops → (k.exec env ops).2.Ended) := by
  induction ops generalizing k with
  | nil => exact ⟨h, nofun⟩
  | cons op ops ih =>
    have hop := hops op (by simp)
    have hho : op.HsOk k.core := by cases op <;> first | trivial | cases hop
    obtain ⟨h1, h2⟩ := ih (hk.apply hl hx op hho) (h.apply hx hk op hop)
      fun o ho => hops o (List.mem_cons_of_mem _ ho)
    refine ⟨h1, fun hm => ?_⟩
    rcases List.mem_cons.1 hm with rfl | hm
    · exact Conn.ended_exec env _ (Conn.recvEof_ended hk) ops
    · exact h2 hm

/-! ## What each side writes -/

theorem Path.closes {env : Env X E H} {s : Bool} {c c' : Core X E} {is ws}
    (h : Path env s c is ws c') (ho : c.state = .opened) (hn : c'.state ≠ .opened) :
    ∃ f ∈ frames is, f.opcode = .close := by
  induction h with
  | refl => exact absurd ho hn
  | @step c c1 c2 i1 i2 w1 w2 h hp ih =>
    have hmem : ∀ {f}, f ∈ frames i1 ∨ f ∈ frames i2 → f ∈ frames (i1 ++ i2) := by
      intro f hf
      simp only [frames, List.filterMap_append, List.mem_append] at hf ⊢
      exact hf
    cases h with
    | close _ hf _ _ _ _ _ _ => exact ⟨_, hmem (.inl (by simp [frames])), hf⟩
    | hs hc _ => rw [ho] at hc; cases hc
    | quiet _ hs _ _ _ =>
      obtain ⟨f, hf, h⟩ := ih (hs.trans ho) hn
      exact ⟨f, hmem (.inr hf), h⟩
    | send _ _ _ _ hs _ _ _ =>
      obtain ⟨f, hf, h⟩ := ih (hs.trans ho) hn
      exact ⟨f, hmem (.inr hf), h⟩
    | eof _ _ _ hs _ _ _ =>
      obtain ⟨f, hf, h⟩ := ih (hs.trans ho) hn
      exact ⟨f, hmem (.inr hf), h⟩
    | flush =>
      obtain ⟨f, hf, h⟩ := ih ho hn
      exact ⟨f, hmem (.inr hf), h⟩

theorem Spec.Writes.nil_mem {rand : Nat → Bytes} {side : Side} {is : List Item} {ws : List Bytes}
    (h : Writes rand side is ws) (hr : rawItems is = []) : [] ∈ ws ↔ 0 < is.countP Item.isEof := by
  induction h with
  | nil => simp
  | @cons i w is ws he hw ih =>
    cases i with
    | raw b => simp [rawItems] at hr
    | eof =>
      have : w = [] := he
      rw [this]
      simp [Item.isEof]
    | frame f n =>
      have hne : w ≠ [] := by
        obtain ⟨a, b, c, d, _, _, _, _, h⟩ := (he : WireWith true (keyFor rand side n) f w)
        cases hk : keyFor rand side n with
        | none => rw [hk] at h; rw [h]; simp
        | some k => rw [hk] at h; rw [h.2]; simp
      have := ih (by simpa [rawItems] using hr)
      simp [Item.isEof, Ne.symm hne, this]

/-- A connection that has just been opened. The bytes of the handshake may not have been taken
yet. -/
structure Conn.JustOpened (k : Conn X E) : Prop where
  sane : k.Sane
  reader : k.reader = .init
  pstate : k.pstate = .top
  state : k.core.state = .opened
  closeReceived : k.core.closeReceived = false
  eofSent : k.core.eofSent = false
  writes : [] ∉ k.core.writes

theorem Conn.init_justOpened (side : Side) (m : Option Int)
    (hm : ∀ n, m = some n → n.natAbs < 10 ^ 40) : (Conn.init side .opened m : Conn X E).JustOpened :=
  ⟨Conn.init_sane _ _ _ hm, rfl, rfl, rfl, rfl, rfl, nofun⟩

theorem Conn.JustOpened.shut {k : Conn X E} (h : k.JustOpened) : k.Shut := by
  refine ⟨fun he => ?_, fun _ hc => ?_, fun _ ho => absurd h.state ho⟩
  · rcases he with he | he
    · rw [h.reader] at he; cases he
    · rw [h.pstate] at he; cases he
  · rw [h.closeReceived] at hc; cases hc

/-- What is known of an execution of one side. -/
theorem Conn.JustOpened.ran {env : Env X E H} (hl : env.Lawful) (hx : env.ops.Tame) {k : Conn X E}
    (h : k.JustOpened) (ops : List (Op H)) (hops : ∀ op ∈ ops, op.isHandshake = false) :
    (k.exec env ops).2.core.side = k.core.side ∧
      (k.exec env ops).2.Shut ∧ (.receiveEof ∈ ops → (k.exec env ops).2.core.eofSent = true) ∧
      ([] ∈ k.output env ops ↔ (k.exec env ops).2.core.eofSent = true) ∧
      ∃ fs ws, Wires (k.core.side = .client) fs ws ∧
        k.core.writes.flatten ++ ws.flatten = (k.output env ops).flatten ∧
        ((k.exec env ops).2.core.state ≠ .opened → ∃ f ∈ fs, f.opcode = .close) := by
  obtain ⟨ho, hw⟩ := Conn.hsOk_of env k ops hops
  obtain ⟨h1, h2⟩ := Conn.Shut.exec hl hx h.sane h.shut ops hops
  obtain ⟨is, ws, p1, p2, p3⟩ := Conn.exec_path hl k h.sane.settled ops ho
  rw [hw] at p3
  obtain ⟨ws', w1, w2⟩ := p1.writes.wires p3
  refine ⟨p1.side, h1, fun hm => h1.ended (h2 hm), ?_, frames is, ws', w1, ?_, fun hn =>
    p1.closes h.state hn⟩
  · rw [p2, List.mem_append, or_iff_right h.writes, p1.writes.nil_mem p3]
    have := p1.eofCount
    rw [h.eofSent] at this
    rw [Bool.toNat_false, Nat.add_zero] at this
    rw [this]
    cases (k.exec env ops).2.core.eofSent <;> decide
  · rw [p2, w2, List.flatten_append]

/-! ## C80 -/

/-- The connection is over for this side: it isn't open anymore, or it has sent or received the end of
the stream. -/
def Spec.Over (env : Env X E H) (k : Conn X E) (ops : List (Op H)) : Prop :=
  (k.exec env ops).2.core.state ≠ .opened ∨ [] ∈ k.output env ops ∨ .receiveEof ∈ ops

/-- **C80.** `a` is a client, `b` is a server. Both make any calls, receive anything, in any order. If
`b` has received everything that `a` wrote, and each side has been told of the end of the stream when
the other side has sent it, then either the connection isn't over for any side, or both sides have
sent and received the end of the stream: the closing handshake, or its failure, always terminates the
TCP connection. -/
theorem C80_closing {Ha Hb Xa Xb Ea Eb : Type} {enva : Env Xa Ea Ha} {envb : Env Xb Eb Hb}
    (hla : enva.Lawful) (hlb : envb.Lawful) (hxa : enva.ops.Tame) (hxb : envb.ops.Tame)
    (a : Conn Xa Ea) (b : Conn Xb Eb) (ha : a.JustOpened) (hb : b.JustOpened)
    (hca : a.core.side = .client) (hsb : b.core.side = .server)
    (opsa : List (Op Ha)) (hopsa : ∀ op ∈ opsa, op.isHandshake = false)
    (opsb : List (Op Hb)) (hopsb : ∀ op ∈ opsb, op.isHandshake = false)
    (hdata : a.core.writes.flatten ++ received opsb = (a.output enva opsa).flatten)
    (heofa : [] ∈ a.output enva opsa → .receiveEof ∈ opsb)
    (heofb : [] ∈ b.output envb opsb → .receiveEof ∈ opsa)
    (hover : Over enva a opsa ∨ Over envb b opsb) :
    ([] ∈ a.output enva opsa ∧ .receiveEof ∈ opsb) ∧
      ([] ∈ b.output envb opsb ∧ .receiveEof ∈ opsa) := by
  obtain ⟨-, sa, ra, ea, fs, ws, wa, da, ca⟩ := ha.ran hla hxa opsa hopsa
  obtain ⟨hsv, sb, rb, eb, -⟩ := hb.ran hlb hxb opsb hopsb
  -- when the server has sent the end of the stream, the client sends it too
  have key : [] ∈ b.output envb opsb → ([] ∈ a.output enva opsa ∧ .receiveEof ∈ opsb) ∧
      ([] ∈ b.output envb opsb ∧ .receiveEof ∈ opsa) := by
    intro h
    have h1 := ea.2 (ra (heofb h))
    exact ⟨⟨h1, heofa h1⟩, h, heofb h⟩
  refine key ?_
  rcases hover with (h | h | h) | (h | h | h)
  · -- the client has sent a close frame, which the server has received
    have hat : b.At [] := ⟨by rw [hb.reader]; rfl, .inl ⟨rfl, by rw [hb.reader]; rfl, hb.pstate⟩⟩
    have hm : b.core.maskIn = decide (a.core.side = .client) := by
      unfold Core.maskIn; rw [hca, hsb]; rfl
    have := Conn.exec_heads hlb opsb hopsb wa b hm [] hat
      (by
        intro w ws' he
        rw [he] at wa
        cases wa with
        | cons hwf _ => exact List.length_pos_iff.2 (wire_pos hwf))
      (by rw [← da] at hdata; exact List.append_cancel_left hdata)
    rw [eb]
    by_cases hE : (b.exec envb opsb).2.Ended
    · exact sb.ended hE
    · have hcr := this.resolve_left hE (.inr (ca h))
      exact sb.server (hsv.trans hsb) (sb.received hE hcr)
  · exact eb.2 (rb (heofa h))
  · exact eb.2 (rb (heofa (ea.2 (ra h))))
  · exact eb.2 (sb.server (hsv.trans hsb) h)
  · exact h
  · exact eb.2 (rb h)

/-- Example: the client closes, the server has a ping to send at the same time; the client fails because
of this ping, then everything ends. -/
example :
    let env := Env.plain (fun _ => [1, 2, 3, 4]) (fun _ => rfl)
    let a : Conn Empty Empty := Conn.init .client .opened none
    let b : Conn Empty Empty := Conn.init .server .opened (some 4)
    let opsa := [.sendClose (some 1000) [], .receiveData [0x89, 0], .dataToSend,
      .receiveData [0x88, 2, 3, 232], .receiveEof]
    let opsb := [.sendPing [], .receiveData [0x88], .dataToSend, .receiveData [0x82, 1, 2, 3, 4, 2, 234],
      .receiveEof]
    a.JustOpened ∧ b.JustOpened ∧ env.Lawful ∧ env.ops.Tame ∧
      a.core.side = .client ∧ b.core.side = .server ∧
      a.core.writes.flatten ++ received opsb = (a.output env opsa).flatten ∧
      (a.exec env opsa).2.core.state ≠ .opened ∧
      (a.exec env opsa).2.core.parserExc ≠ none ∧
      b.output env opsb = [[0x89, 0], [0x88, 2, 3, 232], []] ∧
      a.output env opsa = [[0x88, 0x82, 1, 2, 3, 4, 2, 234], []] :=
  ⟨Conn.init_justOpened _ _ nofun, Conn.init_justOpened _ _ (by intro n hn; cases hn; decide),
    Env.plain_lawful _ _, noExts_tame, rfl, rfl, by decide +kernel, by decide +kernel,
    by decide +kernel, by decide +kernel, by decide +kernel⟩

/-- C80 applies to permessage-deflate. -/
example (Z : Zlib) (hZ : Physical Z) (rand : Nat → Bytes) (h : ∀ i, (rand i).length = 4) :
    (Env.deflate Z rand h).Lawful ∧ (Env.deflate Z rand h).ops.Tame :=
  ⟨Env.deflate_lawful Z rand h, pmdOps_tame hZ⟩

end WS
