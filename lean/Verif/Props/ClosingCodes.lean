import Verif.Props.Closing

/-!
# Both sides of a connection report the same close code: C81
-/

namespace WS

open Spec

variable {X E H : Type}

/-! ## Specification -/

/-- The payloads of the close frames among frames. -/
def Spec.closes (fs : List Frame) : List Bytes :=
  fs.filterMap fun f => if f.opcode = .close then some f.data else none

/-- Calls that receive data never raise an exception. -/
def Spec.Smooth (env : Env X E H) (k : Conn X E) (ops : List (Op H)) : Prop :=
  ∀ pre op post, ops = pre ++ op :: post → op.isRecv = true →
    ((k.exec env pre).2.apply env op).1 = none

theorem Spec.Smooth.tail {env : Env X E H} {k : Conn X E} {op : Op H} {ops : List (Op H)}
    (h : Smooth env k (op :: ops)) : Smooth env (k.apply env op).2 ops :=
  fun pre o post he ho => h (op :: pre) o post (by rw [he]; rfl) ho

theorem Spec.Smooth.head {env : Env X E H} {k : Conn X E} {op : Op H} {ops : List (Op H)}
    (h : Smooth env k (op :: ops)) (ho : op.isRecv = true) : (k.apply env op).1 = none :=
  h [] op ops rfl ho

theorem Spec.closes_append (a b : List Frame) : closes (a ++ b) = closes a ++ closes b :=
  List.filterMap_append ..

theorem Heads.closes {gs fs : List Frame} (h : Heads gs fs) : closes gs = closes fs := by
  induction h with
  | nil => rfl
  | @cons g f gs fs a b _ ih =>
    simp only [Spec.closes] at ih ⊢
    simp only [List.filterMap_cons, ih, a]
    by_cases hc : f.opcode = .close
    · rw [b (by rw [hc]; rfl)]
    · rw [if_neg hc, if_neg hc]

/-! ## What is delivered -/

/-- When everything has been received without any exception, everything has been delivered. -/
theorem Conn.exec_delivers {env : Env X E H} (hl : env.Lawful) {masked : Bool}
    (ops : List (Op H)) (hops : ∀ op ∈ ops, op.isHandshake = false)
    {rest : List Frame} {ws : List Bytes} (hw : Wires masked rest ws)
    (k : Conn X E) (hm : k.core.maskIn = masked) (b : Bytes)
    (ha : k.At b) (hlt : ∀ w ws', ws = w :: ws' → b.length < w.length)
    (hb : b ++ received ops = ws.flatten) (hs : Smooth env k ops) :
    ∃ gs, Heads gs rest ∧
      eventFrames (k.delivered env ops) = eventFrames k.core.events ++ gs := by
  induction ops generalizing k rest ws b with
  | nil =>
    refine ⟨[], ?_, by simp [Conn.delivered, Conn.exec]⟩
    cases hw with
    | nil => exact .nil
    | @cons f w _ ws' hwf hws =>
      have h1 := hlt w ws' rfl
      have h2 := congrArg List.length hb
      simp [received] at h2
      omega
  | cons op ops ih =>
    have hop := hops op (by simp)
    have hops' := fun o ho => hops o (List.mem_cons_of_mem _ ho)
    cases hr : op.isRecv with
    | false =>
      have hrec : received (op :: ops) = received ops := by
        have : op.bytes = [] := by cases op <;> first | rfl | cases hr
        simp [received, this]
      rw [hrec] at hb
      cases hsd : op.isSend with
      | true =>
        have hne : ∀ x, op ≠ .handshake x := by rintro x rfl; cases hop
        have hnev : op ≠ .eventsReceived := by rintro rfl; cases hsd
        obtain ⟨h1, h2, h3⟩ := Conn.send_recvQuiet env k op hsd hne
        obtain ⟨gs, g1, g2⟩ := ih hops' hw (k.apply env op).2
          (by rw [← hm]; unfold Core.maskIn; rw [h1.side]) b (ha.quiet h1 h2 h3) hlt hb hs.tail
        exact ⟨gs, g1, by rw [Conn.delivered_cons env k op ops hnev, g2, h1.events]⟩
      | false =>
        cases op with
        | eventsReceived =>
          obtain ⟨gs, g1, g2⟩ := ih hops' hw (k.apply env .eventsReceived).2 hm b
            ⟨ha.eof, ha.state⟩ hlt hb hs.tail
          refine ⟨gs, g1, ?_⟩
          rw [Conn.delivered_events, eventFrames_append, g2]
          simp [Conn.apply, eventFrames]
        | dataToSend =>
          exact ih hops' hw (k.apply env .dataToSend).2 hm b
            (ha.quiet (k' := { k with core := { k.core with writes := [] } })
              ⟨rfl, rfl, rfl, rfl, rfl, rfl, rfl⟩ rfl rfl) hlt hb hs.tail
        | receiveData d => cases hr
        | receiveEof => cases hr
        | _ => cases hsd
    | true =>
      cases op with
      | receiveEof =>
        obtain ⟨h1, h2⟩ := ha.receiveEof (env := env)
        refine ⟨[], ?_, ?_⟩
        · -- nothing can be received after the end of the stream
          have hrc : received ops = [] := by
            refine Classical.byContradiction fun hrc => ?_
            obtain ⟨pre, d, post, he⟩ : ∃ pre d post, ops = pre ++ .receiveData d :: post := by
              clear ih hops hops' hb hs
              induction ops with
              | nil => exact absurd rfl hrc
              | cons o ops ih =>
                cases o with
                | receiveData d => exact ⟨[], d, ops, rfl⟩
                | _ =>
                  obtain ⟨pre, d, post, he⟩ := ih hrc
                  exact ⟨_ :: pre, d, post, by rw [he]; rfl⟩
            have h3 := hs.tail pre _ post he rfl
            have h4 := Conn.ended_exec env (k.apply env .receiveEof).2 h2 pre
            revert h3
            show (((k.apply env .receiveEof).2.exec env pre).2.receiveData env d).1 ≠ none
            rw [Conn.receiveData_eq]
            split
            · simp
            · rcases h4 with h4 | h4
              · contradiction
              · rw [Conn.step_dead env _ (by exact h4)]
                simp only
                split <;> simp
          have hrec : received (Op.receiveEof :: ops) = received ops := rfl
          rw [hrec, hrc, List.append_nil] at hb
          cases hw with
          | nil => exact .nil
          | @cons f w _ ws' hwf hws =>
            have h1 := hlt w ws' rfl
            have h2 := congrArg List.length hb
            simp at h2
            omega
        · rw [Conn.delivered_cons env k _ ops (by simp),
            Conn.ended_delivered env (k.apply env .receiveEof).2 h2 ops hops', List.append_nil]
          exact congrArg eventFrames h1
      | receiveData d =>
        have hrec : received (Op.receiveData d :: ops) = d ++ received ops := rfl
        rw [hrec, ← List.append_assoc] at hb
        obtain ⟨fs1, fs2, ws1, ws2, e, k', g1, g2, g3, g4, g6⟩ :=
          Conn.parseTop_heads hl.ops hw k.core hm (b ++ d) _ hb
        have hap : k.apply env (.receiveData d) = _ := ha.receiveData (env := env) d
        rw [g1] at hap
        cases e with
        | none =>
          simp only at hap g6
          obtain ⟨b', j1, j2, j3, j5, gs, j6, j7⟩ := g6
          have hb2 : b' ++ received ops = ws2.flatten := by
            rw [j1, g3, List.flatten_append, List.append_assoc] at hb
            exact List.append_cancel_left hb
          have ht := hs.tail
          rw [hap] at ht
          obtain ⟨gs', i1, i2⟩ := ih hops' g4 k' j5 b' j3 j2 hb2 ht
          refine ⟨gs ++ gs', by rw [g2]; exact j6.append i1, ?_⟩
          rw [Conn.delivered_cons env k _ ops (by simp), hap, i2, (j7.took hl.ops).events,
            eventFrames_append, eventFrames_frames, List.append_assoc]
        | some e =>
          simp only at hap g6
          have := hs.head rfl
          rw [hap] at this
          revert this
          cases hfc : k'.core.failConnection env (failCode e).1 (failCode e).2 with
          | mk e2 c2 => cases e2 <;> simp
      | _ => cases hr

/-! ## What is reported -/

/-- The close code and reason after close frames with these payloads. -/
def Spec.Reported (c : Core X E) : List Bytes → Core X E → Prop
  | [], c' => c'.closeCode = c.closeCode ∧ c'.closeReason = c.closeReason
  | d :: ds, c' => ∃ code reason, parseClose ((d :: ds).getLast (by simp)) = .ok (code, reason) ∧
      c'.closeCode = some code ∧ c'.closeReason = some reason

theorem Spec.Reported.trans {c c1 c2 : Core X E} {d1 d2 : List Bytes} (h1 : Reported c d1 c1)
    (h2 : Reported c1 d2 c2) : Reported c (d1 ++ d2) c2 := by
  cases d2 with
  | nil =>
    rw [List.append_nil]
    cases d1 with
    | nil => exact ⟨h2.1.trans h1.1, h2.2.trans h1.2⟩
    | cons d ds =>
      obtain ⟨code, reason, a, b, c⟩ := h1
      exact ⟨code, reason, a, h2.1.trans b, h2.2.trans c⟩
  | cons d ds =>
    obtain ⟨code, reason, a, b, c⟩ := h2
    cases d1 with
    | nil => exact ⟨code, reason, a, b, c⟩
    | cons d' ds' =>
      refine ⟨code, reason, ?_, b, c⟩
      rw [← a]
      congr 1
      show (d' :: (ds' ++ d :: ds)).getLast _ = _
      rw [List.getLast_cons (by simp), List.getLast_append_of_ne_nil (by simp)]

theorem Frames.reported {env : Env X E H} (hl : env.ops.Lawful) {c c' : Core X E}
    {fs : List Frame} (h : Frames env c fs c') : Reported c (closes fs) c' := by
  induction h with
  | nil => exact ⟨rfl, rfl⟩
  | @cons c f c1 fs c2 ha hf ih =>
    have h1 := (ha.accepted hl).closeCode
    have : closes (f :: fs) = closes [f] ++ closes fs := closes_append [f] fs
    rw [this]
    refine Reported.trans ?_ ih
    cases ho : f.opcode with
    | close =>
      rw [ho] at h1
      obtain ⟨code, reason, a, b, d⟩ := h1
      simp only [closes, List.filterMap_cons, ho, if_true, List.filterMap_nil]
      exact ⟨code, reason, a, b, d⟩
    | _ =>
      rw [ho] at h1
      simp only [closes, List.filterMap_cons, ho, reduceCtorEq, if_false, List.filterMap_nil]
      exact h1

theorem Spec.replies_closes (side : Side) (o cl : Bool) (fs : List Frame) :
    closes ((replies side o cl fs).filterMap fun | .frame f => some f | _ => none) =
      if o then (closes fs).take 1 else [] := by
  induction fs generalizing o cl with
  | nil => cases o <;> rfl
  | cons f fs ih =>
    have hc : closes (f :: fs) = closes [f] ++ closes fs := closes_append [f] fs
    rw [replies_cons, List.filterMap_append, closes_append, ih, hc]
    cases ho : f.opcode with
    | close =>
      cases o <;> cases side <;>
        simp [replies, ho, closes, ctrlFrame]
    | ping => cases o <;> cases cl <;> simp [replies, ho, closes, ctrlFrame]
    | _ => cases o <;> simp [replies, ho, closes]

theorem Spec.replies_raws (side : Side) (o cl : Bool) (fs : List Frame) :
    raws (replies side o cl fs) = [] := by
  induction fs generalizing o cl with
  | nil => rfl
  | cons f fs ih =>
    have : raws (replies side o cl [f]) = [] := by
      cases ho : f.opcode <;> cases o <;> cases cl <;> cases side <;> simp [replies, ho, raws]
    rw [replies_cons, raws, List.filterMap_append]
    simp only [raws] at this ih
    rw [this, ih]
    rfl

/-! ## What is sent -/

/-- What `k` writes consists of frames and ends of stream; the payloads of its close frames are
`cs`. -/
def Spec.ClosesWith (env : Env X E H) (k : Conn X E) (ops : List (Op H)) (cs : List Bytes) : Prop :=
  ∃ is ws, Writes env.rand k.core.side is ws ∧ rawItems is = [] ∧
    k.output env ops = k.core.writes ++ ws ∧ closes (frames is) = cs

theorem Spec.frames_append (a b : List Item) : frames (a ++ b) = frames a ++ frames b :=
  List.filterMap_append ..

theorem Spec.frames_out (is : List Item) :
    frames is = (is.map Item.out).filterMap fun | .frame f => some f | _ => none := by
  induction is with
  | nil => rfl
  | cons i is ih => cases i <;> simp [frames, Item.out] at ih ⊢ <;> exact ih

theorem Spec.rawItems_out (is : List Item) : rawItems is = raws (is.map Item.out) := by
  induction is with
  | nil => rfl
  | cons i is ih => cases i <;> simp [rawItems, raws, Item.out] at ih ⊢ <;> exact ih

theorem Spec.ClosesWith.cons {env : Env X E H} {k : Conn X E} {op : Op H} {ops : List (Op H)}
    {outs : List Out} {cs : List Bytes} (hd : op ≠ .dataToSend)
    (he : k.core.Emits env outs (k.apply env op).2.core) (hr : raws outs = [])
    (h : ClosesWith env (k.apply env op).2 ops cs) :
    ClosesWith env k (op :: ops)
      (closes (outs.filterMap fun | .frame f => some f | _ => none) ++ cs) := by
  obtain ⟨hs, i1, w1, m1, e1, a1⟩ := he
  obtain ⟨i2, w2, e2, r2, o2, c2⟩ := h
  rw [hs] at e2
  refine ⟨i1 ++ i2, w1 ++ w2, e1.append e2, ?_, ?_, ?_⟩
  · rw [rawItems_append, r2, rawItems_out, m1, hr]; rfl
  · have : k.output env (op :: ops) = (k.apply env op).2.output env ops := by
      cases op with
      | dataToSend => exact absurd rfl hd
      | _ => simp only [Conn.output, Conn.exec, List.nil_append]
    rw [this, o2, a1, List.append_assoc]
  · rw [frames_append, closes_append, c2, frames_out i1, m1]

theorem Spec.ClosesWith.flush {env : Env X E H} {k : Conn X E} {ops : List (Op H)}
    {cs : List Bytes} (h : ClosesWith env (k.apply env .dataToSend).2 ops cs) :
    ClosesWith env k (.dataToSend :: ops) cs := by
  obtain ⟨i2, w2, e2, r2, o2, c2⟩ := h
  refine ⟨i2, w2, e2, r2, ?_, c2⟩
  simp only [Conn.output, Conn.exec] at o2 ⊢
  rw [List.append_assoc, o2]
  rfl

theorem Conn.exec_append (env : Env X E H) (k : Conn X E) (a b : List (Op H)) :
    (k.exec env (a ++ b)).2 = ((k.exec env a).2.exec env b).2 ∧
      (k.exec env (a ++ b)).1.sent = (k.exec env a).1.sent ++ ((k.exec env a).2.exec env b).1.sent := by
  induction a generalizing k with
  | nil => exact ⟨rfl, rfl⟩
  | cons op a ih =>
    obtain ⟨h1, h2⟩ := ih (k.apply env op).2
    refine ⟨h1, ?_⟩
    simp only [List.cons_append, Conn.exec, h2, List.append_assoc]

theorem Spec.ClosesWith.append {env : Env X E H} {k : Conn X E} {a b : List (Op H)}
    {cs ds : List Bytes} (hs : (k.exec env a).2.core.side = k.core.side)
    (ha : ClosesWith env k a cs) (hb : ClosesWith env (k.exec env a).2 b ds) :
    ClosesWith env k (a ++ b) (cs ++ ds) := by
  obtain ⟨i1, w1, e1, r1, o1, c1⟩ := ha
  obtain ⟨i2, w2, e2, r2, o2, c2⟩ := hb
  rw [hs] at e2
  refine ⟨i1 ++ i2, w1 ++ w2, e1.append e2, by rw [rawItems_append, r1, r2]; rfl, ?_,
    by rw [frames_append, closes_append, c1, c2]⟩
  obtain ⟨h1, h2⟩ := Conn.exec_append env k a b
  unfold Conn.output at o1 o2 ⊢
  rw [h1, h2, List.append_assoc, o2, ← List.append_assoc, o1, List.append_assoc]

/-- A connection that was opened never becomes open again. -/
theorem Path.stays {env : Env X E H} {s : Bool} {c c' : Core X E} {is ws}
    (h : Path env s c is ws c') (hc : c.state ≠ .connecting) (ho : c.state ≠ .opened) :
    c'.state ≠ .opened ∧ c'.state ≠ .connecting := by
  induction h with
  | refl => exact ⟨ho, hc⟩
  | @step c c1 c2 i1 i2 w1 w2 h hp ih =>
    cases h with
    | close h _ _ _ _ _ _ _ => exact absurd h ho
    | send h _ _ _ _ _ _ _ => exact absurd h ho
    | hs h _ => exact absurd h hc
    | quiet _ hs _ _ _ => exact ih (by rw [hs]; exact hc) (by rw [hs]; exact ho)
    | eof _ _ _ hs _ _ _ => exact ih (by rw [hs]; exact hc) (by rw [hs]; exact ho)
    | flush => exact ih hc ho

theorem Path.noClose {env : Env X E H} {s : Bool} {c c' : Core X E} {is ws}
    (h : Path env s c is ws c') (hc : c.state ≠ .connecting)
    (ho : c'.state = .opened ∨ c.state ≠ .opened) : Spec.closes (frames is) = [] := by
  induction h with
  | refl => rfl
  | @step c c1 c2 i1 i2 w1 w2 h hp ih =>
    rw [frames_append, closes_append]
    cases h with
    | close h _ _ _ hs _ _ _ =>
      rcases ho with ho | ho
      · exact absurd ho (hp.stays (by rw [hs]; simp) (by rw [hs]; simp)).1
      · exact absurd h ho
    | hs h _ => exact absurd h hc
    | send h hf _ _ hs _ _ _ =>
      rw [ih (by rw [hs]; exact hc) (by rw [hs]; exact ho)]
      simp [frames, Spec.closes, hf]
    | quiet _ hs _ _ _ =>
      rw [ih (by rw [hs]; exact hc) (by rw [hs]; exact ho)]
      rfl
    | eof _ _ _ hs _ _ _ =>
      rw [ih (by rw [hs]; exact hc) (by rw [hs]; exact ho)]
      rfl
    | flush => rw [ih hc ho]; rfl

theorem Conn.exec_noClose {env : Env X E H} (hl : env.Lawful) (k : Conn X E) (hk : k.Settled)
    (ops : List (Op H)) (hops : ∀ op ∈ ops, op.isHandshake = false)
    (hc : k.core.state ≠ .connecting)
    (ho : (k.exec env ops).2.core.state = .opened ∨ k.core.state ≠ .opened) :
    ClosesWith env k ops [] ∧ (k.exec env ops).2.core.side = k.core.side := by
  obtain ⟨h1, h2⟩ := Conn.hsOk_of env k ops hops
  obtain ⟨is, ws, p1, p2, p3⟩ := Conn.exec_path hl k hk ops h1
  exact ⟨⟨is, ws, p1.writes, p3.trans h2, p2, p1.noClose hc ho⟩, p1.side⟩

theorem Path.notConnecting {env : Env X E H} {s : Bool} {c c' : Core X E} {is ws}
    (h : Path env s c is ws c') (hc : c.state ≠ .connecting) : c'.state ≠ .connecting := by
  induction h with
  | refl => exact hc
  | @step c c1 c2 i1 i2 w1 w2 h hp ih =>
    cases h with
    | close _ _ _ _ hs _ _ _ => exact ih (by rw [hs]; simp)
    | hs h _ => exact absurd h hc
    | send _ _ _ _ hs _ _ _ => exact ih (by rw [hs]; exact hc)
    | quiet _ hs _ _ _ => exact ih (by rw [hs]; exact hc)
    | eof _ _ _ hs _ _ _ => exact ih (by rw [hs]; exact hc)
    | flush => exact ih hc

theorem Conn.exec_notConnecting {env : Env X E H} (hl : env.Lawful) (k : Conn X E) (hk : k.Settled)
    (ops : List (Op H)) (hops : ∀ op ∈ ops, op.isHandshake = false)
    (hc : k.core.state ≠ .connecting) : (k.exec env ops).2.core.state ≠ .connecting := by
  obtain ⟨h1, _⟩ := Conn.hsOk_of env k ops hops
  obtain ⟨is, ws, p1, _, _⟩ := Conn.exec_path hl k hk ops h1
  exact p1.notConnecting hc

theorem Conn.send_sameState (env : Env X E H) (k : Conn X E) (op : Op H) (hs : op.isSend = true)
    (hh : op.isHandshake = false) (hc : op.isSendClose = false) :
    (k.apply env op).2.core.state = k.core.state := by
  cases op with
  | sendContinuation d fin =>
    simp only [Conn.apply, Conn.onCore, Core.sendContinuation]
    split
    · rfl
    · exact (Core.sendFrame_shutKeeps env _ _).2.2
  | sendText d fin =>
    simp only [Conn.apply, Conn.onCore, Core.sendData]
    split
    · rfl
    · exact (Core.sendFrame_shutKeeps env _ _).2.2
  | sendBinary d fin =>
    simp only [Conn.apply, Conn.onCore, Core.sendData]
    split
    · rfl
    · exact (Core.sendFrame_shutKeeps env _ _).2.2
  | sendPing d => exact (Core.sendFrame_shutKeeps env _ _).2.2
  | sendPong d => exact (Core.sendFrame_shutKeeps env _ _).2.2
  | sendClose _ _ => cases hc
  | handshake h => cases hh
  | _ => cases hs

/-- Nothing can be received once the parser has stopped. -/
theorem Conn.ended_raises (env : Env X E H) (k : Conn X E) (hk : k.Ended) (op : Op H)
    (hop : op.isRecv = true) : (k.apply env op).1 ≠ none := by
  cases op with
  | receiveData d =>
    simp only [Conn.apply, Conn.receiveData_eq]
    split
    · simp
    · rcases hk with hk | hk
      · contradiction
      · rw [Conn.step_dead env (k.push d) hk]
        simp only
        split <;> simp
  | receiveEof =>
    simp only [Conn.apply, Conn.receiveEof_eq]
    split
    · simp
    · rcases hk with hk | hk
      · contradiction
      · rw [Conn.step_dead env _ (by exact hk)]
        simp only
        split <;> simp
  | _ => cases hop

theorem Spec.closes_nil {fs : List Frame} :
    closes fs = [] ↔ ¬ ∃ f ∈ fs, f.opcode = .close := by
  unfold closes
  rw [List.filterMap_eq_nil_iff]
  constructor
  · rintro h ⟨f, hf, ho⟩
    have := h f hf
    rw [if_pos ho] at this
    cases this
  · intro h f hf
    exact if_neg fun ho => h ⟨f, hf, ho⟩

/-- What a side reports, and what it sends when it doesn't call `send_close()`. -/
theorem Conn.exec_closing {env : Env X E H} (hl : env.Lawful) (hx : env.ops.Tame) (k : Conn X E)
    (hk : k.Sane) (hc : k.core.state ≠ .connecting) (ops : List (Op H))
    (hops : ∀ op ∈ ops, op.isHandshake = false) (hs : Smooth env k ops) :
    ∃ gs, eventFrames (k.delivered env ops) = eventFrames k.core.events ++ gs ∧
      Reported k.core (closes gs) (k.exec env ops).2.core ∧
      ((∀ op ∈ ops, op.isSendClose = false) →
        ClosesWith env k ops (if k.core.state = .opened then (closes gs).take 1 else [])) := by
  induction ops generalizing k with
  | nil =>
    refine ⟨[], by simp [Conn.delivered, Conn.exec], ⟨rfl, rfl⟩, fun _ => ?_⟩
    refine ⟨[], [], .nil, rfl, by simp [Conn.output, Conn.exec], ?_⟩
    split <;> rfl
  | cons op ops ih =>
    have hop := hops op (by simp)
    have hops' := fun o ho => hops o (List.mem_cons_of_mem _ ho)
    have hho : op.HsOk k.core := by cases op <;> first | trivial | cases hop
    have hc' : (k.apply env op).2.core.state ≠ .connecting :=
      Conn.exec_notConnecting hl k hk.settled [op] (by simpa using hop) hc
    obtain ⟨gs, g1, g2, g3⟩ := ih _ (hk.apply hl hx op hho) hc' hops' hs.tail
    cases hr : op.isRecv with
    | false =>
      cases hsd : op.isSend with
      | true =>
        have hne : ∀ x, op ≠ .handshake x := by rintro x rfl; cases hop
        have hnev : op ≠ .eventsReceived := by rintro rfl; cases hsd
        obtain ⟨h1, _, _⟩ := Conn.send_recvQuiet env k op hsd hne
        refine ⟨gs, by rw [Conn.delivered_cons env k op ops hnev, g1, h1.events],
          Reported.trans (d1 := []) ⟨h1.closeCode, h1.closeReason⟩ g2, fun hsc => ?_⟩
        have h2 := Conn.send_sameState env k op hsd hop (hsc op (by simp))
        have h3 := g3 fun o ho => hsc o (List.mem_cons_of_mem _ ho)
        rw [h2] at h3
        obtain ⟨h4, h5⟩ := Conn.exec_noClose hl k hk.settled [op] (by simpa using hop) hc (by
          show (k.apply env op).2.core.state = _ ∨ _
          rw [h2]
          exact Classical.em _)
        exact ClosesWith.append (a := [op]) h5 h4 h3
      | false =>
        cases op with
        | eventsReceived =>
          refine ⟨gs, ?_, g2, fun hsc => ?_⟩
          · rw [Conn.delivered_events, eventFrames_append, g1]
            simp [Conn.apply, eventFrames]
          · have h3 := g3 fun o ho => hsc o (List.mem_cons_of_mem _ ho)
            exact ClosesWith.cons (outs := []) (by simp) (.quiet rfl rfl) rfl h3
        | dataToSend =>
          exact ⟨gs, g1, g2, fun hsc =>
            ClosesWith.flush (g3 fun o ho => hsc o (List.mem_cons_of_mem _ ho))⟩
        | receiveData d => cases hr
        | receiveEof => cases hr
        | _ => cases hsd
    | true =>
      have hnone := hs.head hr
      have hE : ¬ k.Ended := fun hE => Conn.ended_raises env k hE op hr hnone
      have hnev : op ≠ .eventsReceived := by rintro rfl; cases hr
      have hnd : op ≠ .dataToSend := by rintro rfl; cases hr
      obtain ⟨fs, c1, hf, hok, _⟩ := Conn.recv_exact hx hk hE op hr
      have hap : k.apply env op = (none, (k.apply env op).2) := by rw [← hnone]
      have hk1 := hok _ hap
      have ht := hf.took hl.ops
      have hrep := hf.reported hl.ops
      -- what differs at the end of the stream
      obtain ⟨eofs, he1, he2, he3, he4, he5, he6⟩ : ∃ eofs : List Out,
          c1.Emits env eofs (k.apply env op).2.core ∧ (eofs = [] ∨ eofs = [.eof]) ∧
          (k.apply env op).2.core.state = c1.state ∧
          (k.apply env op).2.core.events = c1.events ∧
          (k.apply env op).2.core.closeCode = c1.closeCode ∧
          (k.apply env op).2.core.closeReason = c1.closeReason := by
        split at hk1
        · rw [hk1.2]
          refine ⟨_, Core.failEof_emits.1, ?_, ?_⟩
          · cases c1.eofSent <;> simp
          · unfold Core.failEof Core.sendEof
            cases c1.eofSent <;> exact ⟨rfl, rfl, rfl, rfl⟩
        · rw [hk1]
          exact ⟨[], .refl, .inl rfl, rfl, rfl, rfl, rfl⟩
      refine ⟨fs ++ gs, ?_, ?_, fun hsc => ?_⟩
      · rw [Conn.delivered_cons env k op ops hnev, g1, he4, ht.events, eventFrames_append,
          eventFrames_frames, List.append_assoc]
      · rw [closes_append]
        have := Reported.trans hrep (d2 := []) ⟨he5, he6⟩
        rw [List.append_nil] at this
        exact this.trans g2
      · have h3 := g3 fun o ho => hsc o (List.mem_cons_of_mem _ ho)
        have h4 := ClosesWith.cons hnd (ht.emits.trans he1) (by
          have := replies_raws k.core.side (decide (k.core.state = .opened)) k.core.closeReceived fs
          rcases he2 with rfl | rfl <;>
            simp only [raws, List.filterMap_append] at this ⊢ <;> simp [this]) h3
        have h5 : ∀ l : List Out, (l = [] ∨ l = [.eof]) →
            l.filterMap (fun | .frame f => some f | _ => none) = ([] : List Frame) := by
          rintro l (rfl | rfl) <;> rfl
        rw [List.filterMap_append, h5 eofs he2, List.append_nil, replies_closes, he3, ht.state] at h4
        have hcs : (if k.core.state = .opened then (closes (fs ++ gs)).take 1 else []) =
            (if decide (k.core.state = .opened) = true then (closes fs).take 1 else []) ++
              if (if (∃ f ∈ fs, f.opcode = .close) ∧ k.core.state = .opened then State.closing
                else k.core.state) = .opened then (closes gs).take 1 else [] := by
          by_cases ho : k.core.state = .opened
          · by_cases hcl : ∃ f ∈ fs, f.opcode = .close
            · have hif : (if (∃ f ∈ fs, f.opcode = .close) ∧ k.core.state = .opened then State.closing
                else k.core.state) = .closing := if_pos ⟨hcl, ho⟩
              rw [hif, if_pos ho, decide_eq_true ho, closes_append]
              have hne := mt closes_nil.1 (fun h => h hcl)
              cases hcf : closes fs with
              | nil => exact absurd hcf hne
              | cons d ds => simp
            · have hif : (if (∃ f ∈ fs, f.opcode = .close) ∧ k.core.state = .opened then State.closing
                else k.core.state) = k.core.state := if_neg fun h => hcl h.1
              rw [hif, if_pos ho, decide_eq_true ho, closes_append, closes_nil.2 hcl, if_pos ho]
              simp
          · have hif : (if (∃ f ∈ fs, f.opcode = .close) ∧ k.core.state = .opened then State.closing
              else k.core.state) = k.core.state := if_neg fun h => ho h.2
            rw [hif, if_neg ho, decide_eq_false ho, if_neg ho]
            simp
        rw [hcs]
        exact h4

/-- A call to `send_close()` that succeeds. -/
theorem Conn.sendClose_ok {env : Env X E H} (hl : env.ops.Lawful) {k : Conn X E}
    {code : Option Int} {reason : PyStr} (h : (k.apply env (.sendClose code reason)).1 = none) :
    k.core.state = .opened ∧ (k.apply env (.sendClose code reason)).2.core.state = .closing ∧
      ∃ d outs, k.core.Emits env outs (k.apply env (.sendClose code reason)).2.core ∧
        raws outs = [] ∧
        closes (outs.filterMap fun | .frame f => some f | _ => none) = [d] ∧
        parseClose d = .ok (code.getD 1005, reason) := by
  have key : ∀ d, (k.core.sendCloseFrame env d).1 = none →
      k.core.state = .opened ∧ (k.core.sendCloseFrame env d).2.state = .closing ∧
      ∃ outs, k.core.Emits env outs (k.core.sendCloseFrame env d).2 ∧ raws outs = [] ∧
        closes (outs.filterMap fun | .frame f => some f | _ => none) = [d] := by
    intro d h
    have he : k.core.sendCloseFrame env d = (none, (k.core.sendCloseFrame env d).2) := by rw [← h]
    obtain ⟨h1, h2, h3, _, _⟩ := Core.sendCloseFrame_emits hl he
    refine ⟨h1, h3, _, h2, ?_, ?_⟩ <;>
      cases k.core.side <;> simp [raws, closes, ctrlFrame]
  simp only [Conn.apply, Conn.onCore, Core.sendClose] at h ⊢
  cases hc : k.core.expectCont with
  | true => rw [hc] at h; simp at h
  | false =>
    rw [hc] at h
    simp only [Bool.false_eq_true, if_false] at h ⊢
    cases code with
    | none =>
      simp only at h ⊢
      by_cases hr : reason = []
      · rw [if_neg (by simp [hr])] at h ⊢
        obtain ⟨h1, h2, outs, h3, h4, h5⟩ := key _ h
        exact ⟨h1, h2, [], outs, h3, h4, h5, by rw [hr]; rfl⟩
      · rw [if_pos hr] at h; cases h
    | some code =>
      simp only at h ⊢
      cases hs : serializeClose code reason with
      | error e => rw [hs] at h; cases h
      | ok d =>
        rw [hs] at h
        obtain ⟨h1, h2, outs, h3, h4, h5⟩ := key _ h
        exact ⟨h1, h2, d, outs, h3, h4, h5, ((C06_close_roundtrip ..).1 hs).1⟩

/-- The receiver of everything delivers the same close frames. -/
theorem Spec.ClosesWith.delivered {Ha Hb Xa Xb Ea Eb : Type} {enva : Env Xa Ea Ha}
    {envb : Env Xb Eb Hb} (hlb : envb.Lawful) {a : Conn Xa Ea} {b : Conn Xb Eb}
    (hb : b.JustOpened) (hside : a.core.side ≠ b.core.side) {opsa : List (Op Ha)}
    {opsb : List (Op Hb)} (hopsb : ∀ op ∈ opsb, op.isHandshake = false) {cs : List Bytes}
    (h : ClosesWith enva a opsa cs)
    (hdata : a.core.writes.flatten ++ received opsb = (a.output enva opsa).flatten)
    (hs : Smooth envb b opsb) {gs : List Frame}
    (hgs : eventFrames (b.delivered envb opsb) = eventFrames b.core.events ++ gs) :
    closes gs = cs := by
  obtain ⟨is, ws, h1, h2, h3, h4⟩ := h
  obtain ⟨ws', w1, w2⟩ := h1.wires h2
  have hm : b.core.maskIn = decide (a.core.side = .client) := by
    unfold Core.maskIn
    cases h1 : a.core.side <;> cases h2 : b.core.side <;> simp_all
  have hat : b.At [] := ⟨by rw [hb.reader]; rfl, .inl ⟨rfl, by rw [hb.reader]; rfl, hb.pstate⟩⟩
  obtain ⟨gs', g1, g2⟩ := Conn.exec_delivers hlb opsb hopsb w1 b hm [] hat
    (by
      intro w ws'' he
      generalize frames is = fs at w1
      rw [he] at w1
      cases w1 with
      | cons hwf _ => exact List.length_pos_iff.2 (wire_pos hwf))
    (by
      rw [h3, List.flatten_append] at hdata
      rw [List.nil_append, w2]
      exact List.append_cancel_left hdata) hs
  rw [hgs] at g2
  rw [List.append_cancel_left g2, g1.closes, h4]

/-! ## C81 -/

/-- **C81.** `a` and `b` are the two sides of a connection, with any extensions. Both make any calls,
in any order; each has received everything that the other wrote, in any number of pieces, and
receiving never raised an exception. If `a` closed the connection with `send_close(code, reason)` and
`b` didn't call `send_close()`, then both sides report this code and this reason. -/
theorem C81_codes_partial {Ha Hb Xa Xb Ea Eb : Type} {enva : Env Xa Ea Ha} {envb : Env Xb Eb Hb}
    (hla : enva.Lawful) (hlb : envb.Lawful) (hxa : enva.ops.Tame) (hxb : envb.ops.Tame)
    (a : Conn Xa Ea) (b : Conn Xb Eb) (ha : a.JustOpened) (hb : b.JustOpened)
    (hside : a.core.side ≠ b.core.side)
    (pre post : List (Op Ha)) (code : Option Int) (reason : PyStr) (opsb : List (Op Hb))
    (hopsa : ∀ op ∈ pre ++ .sendClose code reason :: post, op.isHandshake = false)
    (hopsb : ∀ op ∈ opsb, op.isHandshake = false)
    (hab : a.core.writes.flatten ++ received opsb =
      (a.output enva (pre ++ .sendClose code reason :: post)).flatten)
    (hba : b.core.writes.flatten ++ received (pre ++ .sendClose code reason :: post) =
      (b.output envb opsb).flatten)
    (hsa : Smooth enva a (pre ++ .sendClose code reason :: post)) (hsb : Smooth envb b opsb)
    (hclose : ((a.exec enva pre).2.apply enva (.sendClose code reason)).1 = none)
    (hquiet : ∀ op ∈ opsb, op.isSendClose = false) :
    let a' := (a.exec enva (pre ++ .sendClose code reason :: post)).2
    let b' := (b.exec envb opsb).2
    a'.core.closeCode = some (code.getD 1005) ∧ a'.core.closeReason = some reason ∧
      b'.core.closeCode = some (code.getD 1005) ∧ b'.core.closeReason = some reason := by
  intro a' b'
  have hna : a.core.state ≠ .connecting := by rw [ha.state]; simp
  have hnb : b.core.state ≠ .connecting := by rw [hb.state]; simp
  have hpre : ∀ op ∈ pre, op.isHandshake = false := fun o ho => hopsa o (by simp [ho])
  have hpost : ∀ op ∈ post, op.isHandshake = false := fun o ho => hopsa o (by simp [ho])
  -- what `a` sends
  obtain ⟨o1, o2, d, outs, o3, o4, o5, o6⟩ := Conn.sendClose_ok hla.ops hclose
  obtain ⟨s1, s2⟩ := Conn.exec_noClose hla a ha.sane.settled pre hpre hna (.inl o1)
  have hk1 := ha.sane.exec hla hxa pre (Conn.hsOk_of enva a pre hpre).1
  have hk2 := hk1.apply hla hxa (.sendClose code reason) trivial
  obtain ⟨s3, _⟩ := Conn.exec_noClose hla _ hk2.settled post hpost
    (by rw [o2]; simp) (.inr (by rw [o2]; simp))
  have hcw : ClosesWith enva a (pre ++ .sendClose code reason :: post) [d] := by
    have := ClosesWith.append s2 s1 (ClosesWith.cons (by simp) o3 o4 s3)
    rw [o5] at this
    exact this
  -- what each side receives
  obtain ⟨ga, a1, a2, _⟩ := Conn.exec_closing hla hxa a ha.sane hna _ hopsa hsa
  obtain ⟨gb, b1, b2, b3⟩ := Conn.exec_closing hlb hxb b hb.sane hnb _ hopsb hsb
  have hgb : closes gb = [d] := hcw.delivered hlb hb hside hopsb hab hsb b1
  have hcb := b3 hquiet
  rw [hb.state, if_pos rfl, hgb] at hcb
  have hga : closes ga = [d] := hcb.delivered hla ha (Ne.symm hside) hopsa hba hsa a1
  rw [hga] at a2
  rw [hgb] at b2
  obtain ⟨c1, r1, p1, q1, q2⟩ := a2
  obtain ⟨c2, r2, p2, q3, q4⟩ := b2
  simp only [List.getLast_singleton] at p1 p2
  rw [o6] at p1 p2
  simp only [Except.ok.injEq, Prod.mk.injEq] at p1 p2
  obtain ⟨rfl, rfl⟩ := p1
  obtain ⟨rfl, rfl⟩ := p2
  exact ⟨q1, q2, q3, q4⟩

/-- Without the condition that receiving never raises an exception, C81 doesn't hold, even though both
sides use this library and make a single call each: when the ping of the client and the close frame of
the server cross each other, `receive_data()` raises `InvalidState` in the server, because it isn't
open anymore and cannot send a pong. The server doesn't report any code. -/
theorem C81_codes_false :
    ∃ (env : Env Empty Empty Empty) (a b : Conn Empty Empty) (toa tob : Bytes),
      env.Lawful ∧ env.ops.Tame ∧ a.JustOpened ∧ b.JustOpened ∧ a.core.side ≠ b.core.side ∧
      (a.output env [.sendClose (some 1000) [], .receiveData toa]).flatten = tob ∧
      (b.output env [.sendPing [], .receiveData tob]).flatten = toa ∧
      (∃ m, (a.exec env [.sendClose (some 1000) [], .receiveData toa]).1.raised =
        [none, some (.invalidState m)]) ∧
      (b.exec env [.sendPing [], .receiveData tob]).1.raised = [none, none] ∧
      (b.exec env [.sendPing [], .receiveData tob]).2.core.closeCode = some 1000 ∧
      (a.exec env [.sendClose (some 1000) [], .receiveData toa]).2.core.closeCode = none := by
  refine ⟨Env.plain (fun _ => [1, 2, 3, 4]) (fun _ => rfl), Conn.init .server .opened none,
    Conn.init .client .opened none, [0x89, 0x80, 1, 2, 3, 4, 0x88, 0x82, 1, 2, 3, 4, 2, 234],
    [0x88, 2, 3, 232], Env.plain_lawful _ _, noExts_tame,
    Conn.init_justOpened _ _ nofun, Conn.init_justOpened _ _ nofun, by decide, by decide +kernel,
    by decide +kernel, ⟨p!"cannot write to a WebSocket in the CLOSING state", by decide +kernel⟩,
    by decide +kernel, by decide +kernel, by decide +kernel⟩

/-- Example: the server closes while the client sends a message. -/
example :
    let env := Env.plain (fun _ => [1, 2, 3, 4]) (fun _ => rfl)
    let a : Conn Empty Empty := Conn.init .server .opened none
    let b : Conn Empty Empty := Conn.init .client .opened (some 4)
    let opsa : List (Op Empty) := [.dataToSend, .sendPing [7]] ++
      .sendClose (some 3000) p!"é" :: [.receiveData [0x81, 0x81, 1], .dataToSend,
        .receiveData [2, 3, 4, 0x60, 0x8A, 0x81, 1, 2, 3, 4, 6, 0x88, 0x84, 1, 2, 3, 4, 10, 186, 192,
          173], .receiveEof]
    let opsb : List (Op Empty) := [.sendText [0x61] true, .receiveData [0x89, 1, 7, 0x88],
      .receiveData [4, 11, 184, 0xC3, 0xA9], .dataToSend, .receiveEof]
    a.JustOpened ∧ b.JustOpened ∧ env.Lawful ∧ env.ops.Tame ∧
      a.core.writes.flatten ++ received opsb = (a.output env opsa).flatten ∧
      b.core.writes.flatten ++ received opsa = (b.output env opsb).flatten ∧
      (a.exec env opsa).1.raised = [none, none, none, none, none, none, none] ∧
      (b.exec env opsb).1.raised = [none, none, none, none, none] ∧
      (a.exec env opsa).2.core.closeCode = some 3000 ∧
      (b.exec env opsb).2.core.closeCode = some 3000 :=
  ⟨Conn.init_justOpened _ _ nofun, Conn.init_justOpened _ _ (by intro n hn; cases hn; decide),
    Env.plain_lawful _ _, noExts_tame, by decide +kernel, by decide +kernel, by decide +kernel,
    by decide +kernel, by decide +kernel, by decide +kernel⟩

end WS
