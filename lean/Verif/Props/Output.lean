import Verif.Lemmas.ConnOut

/-!
# C11, C12, C13, C14, C24: what a connection writes

`Conn.output env k ops` is everything that `data_to_send()` returned during the API calls `ops`,
followed by what it would return now.
-/

namespace WS

open Spec

variable {X E H : Type}

/-! ## Facts about paths -/

theorem Path.side {env : Env X E H} {s : Bool} {c c' : Core X E} {is ws}
    (h : Path env s c is ws c') : c'.side = c.side := by
  induction h with
  | refl => rfl
  | step h _ ih =>
    rw [ih]
    cases h with
    | quiet a => exact a
    | send _ _ _ a => exact a
    | close _ _ _ a => exact a
    | eof _ _ a => exact a
    | hs _ a => exact a.side
    | flush => rfl

theorem Spec.Writes.raws {rand : Nat → Bytes} {side : Side} (l : List Bytes) :
    Writes rand side (l.map Item.raw) l := by
  induction l with
  | nil => exact .nil
  | cons r rs ih => exact .cons rfl ih

theorem Path.writes {env : Env X E H} {s : Bool} {c c' : Core X E} {is ws}
    (h : Path env s c is ws c') : Writes env.rand c.side is ws := by
  induction h with
  | refl => exact .nil
  | @step c c1 c2 i1 i2 w1 w2 h hp ih =>
    have hside : c1.side = c.side := (Path.step h .refl).side
    rw [hside] at ih
    refine Writes.append ?_ ih
    cases h with
    | quiet => exact .nil
    | send _ _ a => exact .cons a .nil
    | close _ _ a => exact .cons a .nil
    | eof => exact .cons rfl .nil
    | flush => exact .nil
    | hs _ _ => exact Writes.raws w1

/-- The order of states: connection.py 46. -/
def State.rank : State → Nat
  | .connecting => 0 | .opened => 1 | .closing => 2 | .closed => 3

theorem Micro.rank {env : Env X E H} {s : Bool} {c c' : Core X E} {is ws}
    (h : Micro env s c is ws c') : c.state.rank ≤ c'.state.rank := by
  cases h with
  | quiet _ a => rw [a]; exact Nat.le_refl _
  | send _ _ _ _ a => rw [a]; exact Nat.le_refl _
  | close a _ _ _ b => rw [a, b]; decide
  | eof _ _ _ a => rw [a]; exact Nat.le_refl _
  | hs a b => rw [a]; simp [State.rank]
  | flush => exact Nat.le_refl _

theorem Path.rank {env : Env X E H} {s : Bool} {c c' : Core X E} {is ws}
    (h : Path env s c is ws c') : c.state.rank ≤ c'.state.rank := by
  induction h with
  | refl => exact Nat.le_refl _
  | step h _ ih => exact Nat.le_trans h.rank ih

/-- Once the closing handshake has started, no more frames. -/
theorem Path.closing {env : Env X E H} {s : Bool} {c c' : Core X E} {is ws}
    (h : Path env s c is ws c') (hc : 2 ≤ c.state.rank) : ∀ i ∈ is, i.isFrame = false := by
  induction h with
  | refl => simp
  | step h _ ih =>
    have := ih (Nat.le_trans hc h.rank)
    intro i hi
    rcases List.mem_append.1 hi with hi | hi
    · cases h with
      | quiet => cases hi
      | flush => cases hi
      | send a => rw [a] at hc; simp [State.rank] at hc
      | close a => rw [a] at hc; simp [State.rank] at hc
      | hs a => rw [a] at hc; simp [State.rank] at hc
      | eof => simp at hi; rw [hi]; rfl
    · exact this i hi

theorem Path.closeIsLast {env : Env X E H} {s : Bool} {c c' : Core X E} {is ws}
    (h : Path env s c is ws c') : CloseIsLast is := by
  induction h with
  | refl => intro pre c post h; simp at h
  | @step c c1 c2 i1 i2 w1 w2 h hp ih =>
    intro pre x post he hx
    rcases List.append_eq_append_iff.1 he with ⟨a, h1, h2⟩ | ⟨a, h1, h2⟩
    · exact ih a x post h2 hx
    · cases a with
      | nil =>
        simp at h1 h2
        exact ih [] x post (by simp [h2]) hx
      | cons y ys =>
        simp only [List.cons_append, List.cons.injEq] at h2
        obtain ⟨rfl, rfl⟩ := h2
        have hmem : x ∈ i1 := by rw [h1]; simp
        cases h with
        | quiet => cases hmem
        | flush => cases hmem
        | send _ hf =>
          simp at hmem; rw [hmem] at hx
          simp [Item.isClose] at hx
          exact absurd hx hf
        | eof => simp at hmem; rw [hmem] at hx; cases hx
        | hs =>
          obtain ⟨b, _, rfl⟩ := List.mem_map.1 hmem
          cases hx
        | close _ _ _ _ a =>
          have hys : ys = [] := by
            have := congrArg List.length h1
            simp at this
            exact List.eq_nil_of_length_eq_zero (by omega)
          subst hys
          simp only [List.nil_append]
          exact hp.closing (by rw [a]; decide)

theorem Path.eofCount {env : Env X E H} {s : Bool} {c c' : Core X E} {is ws}
    (h : Path env s c is ws c') :
    is.countP Item.isEof + c.eofSent.toNat = c'.eofSent.toNat := by
  induction h with
  | refl => simp
  | @step c c1 c2 i1 i2 w1 w2 h _ ih =>
    have h1 : i1.countP Item.isEof + c.eofSent.toNat = c1.eofSent.toNat := by
      cases h with
      | quiet _ _ a => simp [a]
      | flush => simp
      | send _ _ _ _ _ a => simp [Item.isEof, a]
      | close _ _ _ _ _ a => simp [Item.isEof, a]
      | eof _ a _ _ b => simp [Item.isEof, a, b]
      | hs _ a =>
        rw [a.eofSent]
        have : ∀ l : List Bytes, (l.map Item.raw).countP Item.isEof = 0 := by
          intro l
          rw [List.countP_eq_zero]
          intro x hx
          obtain ⟨b, _, rfl⟩ := List.mem_map.1 hx
          simp [Item.isEof]
        rw [this]; omega
    rw [List.countP_append]; omega

/-- The indices of the masking keys used in a sequence of items. -/
def keyIndices (items : List Item) : List Nat :=
  items.filterMap fun | .frame _ i => some i | _ => none

theorem Path.keys {env : Env X E H} {s : Bool} {c c' : Core X E} {is ws}
    (h : Path env s c is ws c') :
    c.nmask ≤ c'.nmask ∧ (∀ i ∈ keyIndices is, c.nmask ≤ i ∧ i < c'.nmask) ∧
      (keyIndices is).Pairwise (· < ·) := by
  induction h with
  | refl => simp [keyIndices]
  | @step c c1 c2 i1 i2 w1 w2 h _ ih =>
    obtain ⟨h1, h2, h3⟩ := ih
    have h4 : c.nmask ≤ c1.nmask ∧ (∀ i ∈ keyIndices i1, c.nmask ≤ i ∧ i < c1.nmask) ∧
        (keyIndices i1).Pairwise (· < ·) := by
      cases h with
      | quiet _ _ _ _ a => exact ⟨a, by simp [keyIndices], by simp [keyIndices]⟩
      | flush => simp [keyIndices]
      | send _ _ _ _ _ _ _ a => exact ⟨by omega, by simp [keyIndices]; omega, by simp [keyIndices]⟩
      | close _ _ _ _ _ _ _ a => exact ⟨by omega, by simp [keyIndices]; omega, by simp [keyIndices]⟩
      | eof _ _ _ _ _ _ a => exact ⟨by omega, by simp [keyIndices], by simp [keyIndices]⟩
      | hs _ a =>
        have : ∀ l : List Bytes, keyIndices (l.map Item.raw) = [] := by
          intro l; simp [keyIndices, List.filterMap_map, Function.comp_def]
        exact ⟨by rw [a.nmask]; exact Nat.le_refl _, by simp [this], by simp [this]⟩
    obtain ⟨h5, h6, h7⟩ := h4
    have happ : keyIndices (i1 ++ i2) = keyIndices i1 ++ keyIndices i2 := by
      simp [keyIndices]
    refine ⟨Nat.le_trans h5 h1, ?_, ?_⟩
    · intro i hi
      rw [happ] at hi
      rcases List.mem_append.1 hi with hi | hi
      · have := h6 i hi; omega
      · have := h2 i hi; omega
    · rw [happ]
      refine List.pairwise_append.2 ⟨h7, h3, ?_⟩
      intro a ha b hb
      have := h6 a ha
      have := h2 b hb
      omega

/-! ## C11 -/

/-- **C11.** In any execution of a new connection (client or server, any extensions, with or
without a handshake), everything written is a sequence of handshake data, frames and end-of-
stream markers, in which no frame of any kind follows a close frame; in particular there is at
most one close frame. -/
theorem C11_close_last {env : Env X E H} (hl : env.Lawful) (k : Conn X E) (hk : k.Settled)
    (hw : k.core.writes = []) (ops : List (Op H)) (ho : k.HsOk env ops) :
    ∃ items, Writes env.rand k.core.side items (k.output env ops) ∧
      rawItems items = k.hsWrites env ops ∧ CloseIsLast items := by
  obtain ⟨is, ws, hp, h, hr⟩ := Conn.exec_path hl k hk ops ho
  rw [h, hw]
  exact ⟨is, hp.writes, hr, hp.closeIsLast⟩

/-- A sequence where the close frame comes last has at most one close frame. -/
theorem C11_at_most_one (items : List Item) (h : CloseIsLast items) :
    items.countP Item.isClose ≤ 1 := by
  induction items with
  | nil => simp
  | cons x xs ih =>
    cases hx : x.isClose with
    | false =>
      have : CloseIsLast xs := fun pre c post he hc => h (x :: pre) c post (by simp [he]) hc
      simpa [List.countP_cons, hx] using ih this
    | true =>
      have h1 := h [] x xs rfl hx
      have : xs.countP Item.isClose = 0 := by
        rw [List.countP_eq_zero]
        intro y hy hc
        have := h1 y hy
        cases y with
        | frame f i => cases this
        | raw b => cases hc
        | eof => cases hc
      simp [List.countP_cons, hx, this]

/-- Example: the peer closes, then the application tries to send: one close frame, nothing after
it but the end of the stream. -/
example :
    let env := Env.plain (fun _ => [0, 0, 0, 0]) (fun _ => rfl)
    let k : Conn Empty Empty := .init .server .opened none
    k.output env [.sendText b!"a" true, .receiveData [0x88, 0x82, 0, 0, 0, 0, 3, 0xE8],
      .sendText b!"b" true, .sendClose (some 1001) []] =
    [[0x81, 1, 0x61], [0x88, 2, 3, 0xE8], []] := by
  decide +kernel

/-! ## C13 -/

/-- **C13.** The state only moves forward during any execution. -/
theorem C13_forward {env : Env X E H} (hl : env.Lawful) (k : Conn X E) (hk : k.Settled)
    (ops : List (Op H)) (ho : k.HsOk env ops) :
    k.core.state.rank ≤ (k.exec env ops).2.core.state.rank := by
  obtain ⟨is, ws, hp, h⟩ := Conn.exec_path hl k hk ops ho
  exact hp.rank

/-- API calls that send a frame. -/
def Op.sendsFrame : Op H → Bool
  | .sendContinuation _ _ | .sendText _ _ | .sendBinary _ _ | .sendClose _ _ | .sendPing _
  | .sendPong _ => true
  | _ => false

/-- **C13.** In every state but OPEN - in particular once the closing handshake has started -
every attempt to send a frame raises an exception and writes nothing. -/
theorem C13_refused (env : Env X E H) (k : Conn X E) (hc : k.core.state ≠ .opened) (op : Op H)
    (hop : op.sendsFrame = true) :
    (k.apply env op).1 ≠ none ∧ (k.apply env op).2.core.writes = k.core.writes ∧
      (k.apply env op).2.core.state = k.core.state ∧
      (k.apply env op).2.core.eofSent = k.core.eofSent := by
  have sf : ∀ (c : Core X E) f, c.state ≠ .opened → ∃ e, c.sendFrame env f = (some e, c) := by
    intro c f hc
    simp [Core.sendFrame, hc]
  have sc : ∀ (c : Core X E) d, c.state ≠ .opened → ∃ e, c.sendCloseFrame env d = (some e, c) := by
    intro c d hc
    obtain ⟨e, he⟩ := sf c { fin := true, opcode := .close, data := d } hc
    exact ⟨e, by simp [Core.sendCloseFrame, he]⟩
  cases op with
  | sendContinuation d fin =>
    simp only [Conn.apply, Conn.onCore, Core.sendContinuation]
    split
    · simp
    · obtain ⟨e, he⟩ := sf { k.core with expectCont := !fin } { fin, opcode := .cont, data := d } hc
      simp [he]
  | sendText d fin =>
    simp only [Conn.apply, Conn.onCore, Core.sendData]
    split
    · simp
    · obtain ⟨e, he⟩ := sf { k.core with expectCont := !fin } { fin, opcode := .text, data := d } hc
      simp [he]
  | sendBinary d fin =>
    simp only [Conn.apply, Conn.onCore, Core.sendData]
    split
    · simp
    · obtain ⟨e, he⟩ := sf { k.core with expectCont := !fin } { fin, opcode := .binary, data := d } hc
      simp [he]
  | sendClose code reason =>
    simp only [Conn.apply, Conn.onCore, Core.sendClose]
    split
    · simp
    · split
      · split
        · simp
        · obtain ⟨e, he⟩ := sc k.core [] hc
          simp [he]
      · split
        · simp
        · rename_i d _
          obtain ⟨e, he⟩ := sc k.core d hc
          simp [he]
  | sendPing d =>
    obtain ⟨e, he⟩ := sf k.core { fin := true, opcode := .ping, data := d } hc
    simp [Conn.apply, Conn.onCore, Core.sendCtrl, he]
  | sendPong d =>
    obtain ⟨e, he⟩ := sf k.core { fin := true, opcode := .pong, data := d } hc
    simp [Conn.apply, Conn.onCore, Core.sendCtrl, he]
  | _ => cases hop

/-- Example: a closing client refuses to send. -/
example :
    let env := Env.plain (fun _ => [0, 0, 0, 0]) (fun _ => rfl)
    let k : Conn Empty Empty := .init .client .opened none
    (k.exec env [.sendClose none [], .sendPing b!"p"]).1.raised =
      [none, some (.invalidState p!"cannot write to a WebSocket in the CLOSING state")] := by
  decide +kernel

/-! ## C12 -/

theorem Spec.EofIsLast.append {a b : List Item} (ha : EofIsLast a) (hb : EofIsLast b)
    (h : 0 < a.countP Item.isEof → b = []) : EofIsLast (a ++ b) := by
  intro pre x post he hx
  rcases List.append_eq_append_iff.1 he with ⟨l, h1, h2⟩ | ⟨l, h1, h2⟩
  · exact hb l x post h2 hx
  · cases l with
    | nil => exact hb [] x post (by simpa using h2.symm) hx
    | cons y ys =>
      simp only [List.cons_append, List.cons.injEq] at h2
      obtain ⟨rfl, rfl⟩ := h2
      rw [ha pre x ys h1 hx, List.nil_append]
      apply h
      rw [h1, List.countP_append, List.countP_cons, hx]
      simp only [if_true]
      omega

theorem Spec.EofIsLast.nil : EofIsLast [] := by
  intro pre x post he hx
  simp at he

theorem Path.ended {env : Env X E H} {c c' : Core X E} {is ws} (h : Path env true c is ws c')
    (he : c.eofSent = true) (hc : 2 ≤ c.state.rank) : is = [] := by
  induction h with
  | refl => rfl
  | step h hp ih =>
    have h1 := (Path.step h .refl).eofCount
    simp only [List.append_nil, he, Bool.toNat_true] at h1
    have h2 := ih (by
      cases hx : Core.eofSent _ with
      | true => rfl
      | false => rw [hx] at h1; simp at h1) (Nat.le_trans hc h.rank)
    subst h2
    cases h with
    | quiet => rfl
    | flush => rfl
    | send a => rw [a] at hc; simp [State.rank] at hc
    | close a => rw [a] at hc; simp [State.rank] at hc
    | hs a => rw [a] at hc; simp [State.rank] at hc
    | eof _ a => rw [a] at he; cases he

/-- The end of the stream was not signalled, or the closing handshake has started. -/
def Core.EofOk (c : Core X E) : Prop := c.eofSent = true → 2 ≤ c.state.rank

theorem Micro.eofOk {env : Env X E H} {c c' : Core X E} {is ws} (h : Micro env true c is ws c')
    (hc : c.EofOk) : c'.EofOk := by
  intro he
  cases h with
  | quiet _ a b => rw [a]; exact hc (by rw [← b]; exact he)
  | flush => exact hc he
  | send _ _ _ _ a b => rw [a]; exact hc (by rw [← b]; exact he)
  | close _ _ _ _ a b => rw [a]; decide
  | eof a _ _ b => rw [b, a rfl]; decide
  | hs a b =>
    rw [b.eofSent] at he
    have := hc he
    rw [a] at this
    simp [State.rank] at this

theorem Path.strict {env : Env X E H} {c c' : Core X E} {is ws} (h : Path env true c is ws c')
    (hc : c.EofOk) : EofIsLast is ∧ c'.EofOk := by
  induction h with
  | refl => exact ⟨.nil, hc⟩
  | @step c c1 c2 i1 i2 w1 w2 h hp ih =>
    have h1 := h.eofOk hc
    refine ⟨EofIsLast.append ?_ (ih h1).1 ?_, (ih h1).2⟩
    · intro pre x post he hx
      cases h with
      | quiet => simp at he
      | flush => simp at he
      | send =>
        cases pre with
        | nil => simp at he; rw [← he.1] at hx; cases hx
        | cons y ys => simp at he
      | close =>
        cases pre with
        | nil => simp at he; rw [← he.1] at hx; cases hx
        | cons y ys => simp at he
      | eof =>
        cases pre with
        | nil => simp at he; exact he.2
        | cons y ys => simp at he
      | hs =>
        have : x ∈ w1.map Item.raw := by rw [he]; simp
        obtain ⟨b, _, rfl⟩ := List.mem_map.1 this
        cases hx
    · intro hpos
      have := (Path.step h .refl).eofCount
      rw [List.append_nil] at this
      have he : c1.eofSent = true := by
        cases hx : c1.eofSent with
        | true => rfl
        | false => rw [hx, Bool.toNat_false] at this; omega
      exact hp.ended he (h1 he)

/-- The application has been told that the connection has ended: it has called `receive_eof()`,
or receiving data has raised an exception. -/
def Conn.Ended (k : Conn X E) : Prop := k.reader.eof = true ∨ k.pstate = .dead

/-- An execution in which nothing is sent, and no handshake method is called, once the
application has been told that the connection has ended. -/
def Conn.Careful (env : Env X E H) : Conn X E → List (Op H) → Prop
  | _, [] => True
  | k, op :: ops =>
    (op.isSend = true → ¬ k.Ended) ∧ Conn.Careful env (k.apply env op).2 ops

theorem Conn.ended_apply (env : Env X E H) (k : Conn X E) (hk : k.Ended) (op : Op H)
    (hs : op.isSend = false) :
    (k.apply env op).2.Ended ∧
      (op ≠ .dataToSend → (k.apply env op).2.core.writes = k.core.writes) := by
  cases op with
  | receiveData d =>
    simp only [Conn.apply, Conn.receiveData_eq]
    split
    · exact ⟨hk, fun _ => rfl⟩
    · rcases hk with hk | hk
      · contradiction
      · rw [Conn.step_dead env (k.push d) hk]; exact ⟨.inr hk, fun _ => rfl⟩
  | receiveEof =>
    simp only [Conn.apply, Conn.receiveEof_eq]
    split
    · exact ⟨hk, fun _ => rfl⟩
    · rcases hk with hk | hk
      · contradiction
      · rw [Conn.step_dead env _ (by exact hk)]; exact ⟨.inr hk, fun _ => rfl⟩
  | eventsReceived => exact ⟨hk, fun _ => rfl⟩
  | dataToSend => exact ⟨hk, fun h => absurd rfl h⟩
  | _ => cases hs

theorem Conn.ended_output (env : Env X E H) (k : Conn X E) (hk : k.Ended) (ops : List (Op H))
    (hc : k.Careful env ops) : k.output env ops = k.core.writes := by
  induction ops generalizing k with
  | nil => simp [Conn.output, Conn.exec]
  | cons op ops ih =>
    have hs : op.isSend = false := by
      cases h : op.isSend with
      | false => rfl
      | true => exact absurd hk (hc.1 h)
    obtain ⟨h1, h2⟩ := Conn.ended_apply env k hk op hs
    have h3 := ih _ h1 hc.2
    simp only [Conn.output, Conn.exec] at h3 ⊢
    rw [List.append_assoc, h3]
    by_cases hd : op = .dataToSend
    · subst hd; simp [Conn.apply]
    · rw [h2 hd]
      cases op with
      | dataToSend => exact absurd rfl hd
      | _ => rfl

theorem Conn.careful_path {env : Env X E H} (hl : env.Lawful) (k : Conn X E) (hk : k.Settled)
    (hq : k.core.EofOk ∨ k.Ended) (ops : List (Op H)) (ho : k.HsOk env ops)
    (hc : k.Careful env ops) :
    ∃ is ws, Writes env.rand k.core.side is ws ∧ k.output env ops = k.core.writes ++ ws ∧
      rawItems is = k.hsWrites env ops ∧ EofIsLast is ∧ (k.core.eofSent = true → is = []) := by
  induction ops generalizing k with
  | nil => exact ⟨[], [], .nil, by simp [Conn.output, Conn.exec], rfl, .nil, fun _ => rfl⟩
  | cons op ops ih =>
    by_cases hend : k.Ended
    · have hs : op.isSend = false := by
        cases h : op.isSend with
        | false => rfl
        | true => exact absurd hend (hc.1 h)
      obtain ⟨h1, h2⟩ := Conn.ended_apply env k hend op hs
      obtain ⟨is, ws, a1, a2, a3, a4, a5⟩ :=
        ih _ (Conn.apply_settled env hk op) (.inr h1) ho.2 hc.2
      have b2 := Conn.ended_output env _ h1 ops hc.2
      rw [b2] at a2
      have : ws = [] := by simpa using a2
      subst this
      have : is = [] := by cases a1; rfl
      subst this
      refine ⟨[], [], .nil, ?_, ?_, .nil, fun _ => rfl⟩
      · rw [List.append_nil]; exact Conn.ended_output env k hend _ hc
      · simp only [Conn.hsWrites]
        rw [← a3]
        cases op <;> first | rfl | cases hs
    · have hq : k.core.EofOk := hq.resolve_right hend
      -- the first call
      have hstep : op ≠ .dataToSend → ∃ i1 w1, Path env false k.core i1 w1 (k.apply env op).2.core ∧
          (k.apply env op).2.core.writes = k.core.writes ++ w1 ∧ rawItems i1 = k.hsWrite env op ∧
          EofIsLast i1 ∧ (k.core.eofSent = true → i1 = []) ∧
          ((k.apply env op).2.core.EofOk ∨ (k.apply env op).2.Ended) := by
        intro hd
        cases hs : op.isSend with
        | true =>
          obtain ⟨fs, i1, w1, p1, e1, e2, e3⟩ := Conn.send_does hl k op hs ho.1
          exact ⟨i1, w1, p1.weaken, e1, e2, (p1.strict hq).1, fun he => p1.ended he (hq he),
            .inl (p1.strict hq).2⟩
        | false =>
          have hw : k.hsWrite env op = [] := by cases op <;> first | rfl | cases hs
          rw [hw]
          obtain ⟨c1, ⟨⟨i1, w1, p1, e1, e2, e3⟩, _⟩, h⟩ := Conn.recv_does hl k hk op hs hd
          rcases h with h | ⟨hp, ht⟩
          · rw [h]
            exact ⟨i1, w1, p1.weaken, e1, e2, (p1.strict hq).1, fun he => p1.ended he (hq he),
              .inl (p1.strict hq).2⟩
          · have hset := Conn.apply_settled env hk op
            have hended : (k.apply env op).2.Ended := by
              rcases hp with hp | hp
              · rcases hset with ⟨a, _⟩ | ⟨_, a⟩ | ⟨_, _, _, a⟩
                · exact .inl a
                · exact .inr a
                · rw [hp] at a; exact a.elim
              · exact .inr hp
            obtain ⟨⟨i2, w2, p2, f1, f2, f3⟩, _⟩ := ht.does (env := env)
            have hcount := p1.eofCount
            have key : EofIsLast i2 ∧ (c1.eofSent = true → i2 = []) := by
              have hi : ∀ i w c', Path env false c1 i w c' → w = [] →
                  Writes env.rand c1.side i w → i = [] := by
                intro i w c' _ hw hx
                subst hw
                cases hx; rfl
              rcases ht.writes with ⟨a, b⟩ | ⟨a, b, d⟩
              · have : w2 = [] := by rw [b] at f1; simpa using f1
                have := hi _ _ _ p2 this p2.writes
                rw [this]; exact ⟨.nil, fun _ => rfl⟩
              · have : w2 = [[]] := by rw [d] at f1; exact (List.append_cancel_left f1).symm
                have hx := p2.writes
                rw [this] at hx
                refine ⟨?_, fun he => by rw [he] at a; cases a⟩
                cases hx with
                | cons hx1 hx2 =>
                  cases hx2
                  intro pre x post he _
                  cases pre with
                  | nil => simp at he; exact he.2
                  | cons y ys => simp at he
            refine ⟨i1 ++ i2, w1 ++ w2, p1.weaken.trans p2, by rw [f1, e1, List.append_assoc],
              by rw [rawItems_append, e2, f2]; rfl, ?_, ?_, .inr hended⟩
            · refine EofIsLast.append (p1.strict hq).1 key.1 ?_
              intro hpos
              refine key.2 ?_
              cases hx : c1.eofSent with
              | true => rfl
              | false => rw [hx, Bool.toNat_false] at hcount; omega
            · intro he
              have := p1.ended he (hq he)
              subst this
              refine key.2 ?_
              cases hx : c1.eofSent with
              | true => rfl
              | false => rw [hx, he] at hcount; simp at hcount
      by_cases hd : op = .dataToSend
      · subst hd
        obtain ⟨is, ws, a1, a2, a3, a4, a5⟩ :=
          ih _ (Conn.apply_settled env hk .dataToSend) (.inl hq) ho.2 hc.2
        refine ⟨is, ws, a1, ?_, a3, a4, a5⟩
        simp only [Conn.output, Conn.exec] at a2 ⊢
        rw [List.append_assoc, a2]
        rfl
      · obtain ⟨i1, w1, p1, e1, e2, e3, e4, e5⟩ := hstep hd
        obtain ⟨is, ws, a1, a2, a3, a4, a5⟩ :=
          ih _ (Conn.apply_settled env hk op) e5 ho.2 hc.2
        rw [p1.side] at a1
        have hcount := p1.eofCount
        refine ⟨i1 ++ is, w1 ++ ws, p1.writes.append a1, ?_, ?_, ?_, ?_⟩
        · simp only [Conn.output, Conn.exec] at a2 ⊢
          cases op with
          | dataToSend => exact absurd rfl hd
          | _ => simp only [List.nil_append]; rw [a2, e1, List.append_assoc]
        · rw [rawItems_append, e2, a3]; rfl
        · refine EofIsLast.append e3 a4 ?_
          intro hpos
          refine a5 ?_
          cases hx : (k.apply env op).2.core.eofSent with
          | true => rfl
          | false => rw [hx, Bool.toNat_false] at hcount; omega
        · intro he
          rw [e4 he] at hcount ⊢
          refine a5 ?_
          cases hx : (k.apply env op).2.core.eofSent with
          | true => rfl
          | false => rw [hx, he] at hcount; simp at hcount

/-- **C12.** In every execution, the end of the stream is signalled at most once. -/
theorem C12_eof_once {env : Env X E H} (hl : env.Lawful) (k : Conn X E) (hk : k.Settled)
    (hw : k.core.writes = []) (ops : List (Op H)) (ho : k.HsOk env ops) :
    ∃ items, Writes env.rand k.core.side items (k.output env ops) ∧
      rawItems items = k.hsWrites env ops ∧ items.countP Item.isEof ≤ 1 := by
  obtain ⟨is, ws, hp, h, hr⟩ := Conn.exec_path hl k hk ops ho
  rw [h, hw]
  refine ⟨is, hp.writes, hr, ?_⟩
  have := hp.eofCount
  have h1 : ∀ b : Bool, b.toNat ≤ 1 := by decide
  have := h1 (Core.eofSent (k.exec env ops).2.core)
  omega

/-- **C12, partial.** Nothing follows the end of the stream in the outgoing data, provided that
the application sends nothing once it has been told that the connection has ended.  What is
missing: applications that keep sending, for which the property is false
(`C12_nothing_after_eof_false`). -/
theorem C12_nothing_after_eof_partial {env : Env X E H} (hl : env.Lawful) (k : Conn X E)
    (hk : k.Settled) (hw : k.core.writes = []) (he : k.core.eofSent = false) (ops : List (Op H))
    (ho : k.HsOk env ops) (hc : k.Careful env ops) :
    ∃ items, Writes env.rand k.core.side items (k.output env ops) ∧
      rawItems items = k.hsWrites env ops ∧ EofIsLast items := by
  obtain ⟨is, ws, h1, h2, h3, h4, _⟩ :=
    Conn.careful_path hl k hk (.inl (by intro h; rw [he] at h; cases h)) ops ho hc
  rw [h2, hw]
  exact ⟨is, h1, h3, h4⟩

/-- **C12 is false in general.** When the peer drops the connection, the stream is ended but the
state remains OPEN: a later `send_text` succeeds and writes a frame after the end of the
stream. -/
theorem C12_nothing_after_eof_false :
    let env := Env.plain (fun _ => [0, 0, 0, 0]) (fun _ => rfl)
    let k : Conn Empty Empty := .init .server .opened none
    (k.exec env [.receiveEof, .sendText b!"hi" true]).1.raised = [some .eofError, none] ∧
      k.output env [.receiveEof, .sendText b!"hi" true] = [[], [0x81, 2, 0x68, 0x69]] := by
  decide +kernel

/-- Example: a careful execution with a close handshake. -/
example :
    let env := Env.plain (fun _ => [0, 0, 0, 0]) (fun _ => rfl)
    let k : Conn Empty Empty := .init .client .opened none
    k.output env [.sendText b!"hi" true, .sendClose (some 1000) [], .receiveData [0x88, 0x00],
      .receiveEof] = [[0x81, 0x82, 0, 0, 0, 0, 0x68, 0x69], [0x88, 0x82, 0, 0, 0, 0, 3, 0xE8], []] := by
  decide +kernel

/-! ## C14 -/

/-- Every call that sends data is made outside of the `CONNECTING` state and does not fail
because of the payload itself (an exception in an extension, or a payload of 2^64 bytes): if
it raises in the `OPEN` state, it raises `ProtocolError`. -/
def Conn.DataOk (env : Env X E H) : Conn X E → List (Op H) → Prop
  | _, [] => True
  | k, op :: ops =>
    (op.isData = true → k.core.state ≠ .connecting ∧
      (k.core.state = .opened → (k.apply env op).1 = none ∨
        ∃ m, (k.apply env op).1 = some (.protocolError m))) ∧
    Conn.DataOk env (k.apply env op).2 ops

theorem dataFrames_of_no_frame {items : List Item} (h : ∀ i ∈ items, i.isFrame = false) :
    dataFrames items = [] := by
  induction items with
  | nil => rfl
  | cons x xs ih =>
    have h1 := ih fun i hi => h i (by simp [hi])
    have h2 := h x (by simp)
    cases x with
    | frame f i => cases h2
    | raw b => exact h1
    | eof => exact h1

theorem Conn.data_path {env : Env X E H} (hl : env.Lawful) (hq : env.ops.EncodeQuiet)
    (k : Conn X E) (hk : k.Settled) (ops : List (Op H)) (ho : k.HsOk env ops)
    (hd : k.DataOk env ops) (fs : List Frame) (hm : Messages fs k.core.expectCont) :
    ∃ is ws, Path env false k.core is ws (k.exec env ops).2.core ∧
      k.output env ops = k.core.writes ++ ws ∧ rawItems is = k.hsWrites env ops ∧
      (∃ b, Messages (fs ++ dataFrames is) b) ∧
      ((k.exec env ops).2.core.state = .opened →
        Messages (fs ++ dataFrames is) (k.exec env ops).2.core.expectCont) := by
  induction ops generalizing k fs with
  | nil =>
    exact ⟨[], [], .refl, by simp [Conn.output, Conn.exec], rfl,
      ⟨_, by simpa [dataFrames] using hm⟩, fun _ => by simpa [dataFrames, Conn.exec] using hm⟩
  | cons op ops ih =>
    by_cases hds : op = .dataToSend
    · subst hds
      obtain ⟨is, ws, hp, hw, hr, ⟨b, hb⟩, hf⟩ :=
        ih _ (Conn.apply_settled env hk .dataToSend) ho.2 hd.2 fs hm
      refine ⟨_, _, .step .flush hp, ?_, hr, ⟨b, hb⟩, hf⟩
      simp only [Conn.output, Conn.exec] at hw ⊢
      rw [List.append_assoc, hw]
      rfl
    · have fin : ∀ i1 w1 fs1, Path env false k.core i1 w1 (k.apply env op).2.core →
          (k.apply env op).2.core.writes = k.core.writes ++ w1 →
          rawItems i1 = k.hsWrite env op → dataFrames i1 = fs1 →
          Messages (fs ++ fs1) (k.apply env op).2.core.expectCont →
          ∃ is ws, Path env false k.core is ws (k.exec env (op :: ops)).2.core ∧
            k.output env (op :: ops) = k.core.writes ++ ws ∧
            rawItems is = k.hsWrites env (op :: ops) ∧
            (∃ b, Messages (fs ++ dataFrames is) b) ∧
            ((k.exec env (op :: ops)).2.core.state = .opened →
              Messages (fs ++ dataFrames is) (k.exec env (op :: ops)).2.core.expectCont) := by
        intro i1 w1 fs1 p1 e1 e2 e3 e4
        obtain ⟨is, ws, hp, hw, hr, ⟨b, hb⟩, hf⟩ :=
          ih _ (Conn.apply_settled env hk op) ho.2 hd.2 _ e4
        refine ⟨_, _, p1.trans hp, ?_, by rw [rawItems_append, e2, hr]; rfl, ⟨b, ?_⟩, ?_⟩
        · simp only [Conn.output, Conn.exec] at hw ⊢
          cases op with
          | dataToSend => exact absurd rfl hds
          | _ => simp only [List.nil_append]; rw [hw, e1, List.append_assoc]
        · rw [dataFrames_append, e3, ← List.append_assoc]; exact hb
        · rw [dataFrames_append, e3, ← List.append_assoc]; exact hf
      cases hdat : op.isData with
      | true =>
        have hw : k.hsWrite env op = [] := by cases op <;> first | rfl | cases hdat
        obtain ⟨hnc, hop⟩ := hd.1 hdat
        rcases Conn.data_does hl k op hdat with ⟨h, _⟩ | ⟨⟨h0, h0'⟩, h⟩ | ⟨h0, hopen, f, h1, h2, h⟩
        · refine fin [] [] [] (by rw [h]; exact .refl) (by rw [h]; simp) (by rw [hw]; rfl) rfl ?_
          rw [h]; simpa using hm
        · -- refused after the closing handshake has started
          have hrank : 2 ≤ k.core.state.rank := by
            cases hst : k.core.state with
            | connecting => exact absurd hst hnc
            | opened =>
              rcases hop hst with h3 | ⟨m, h3⟩
              · exact absurd h3 h0
              · exact absurd h3 (h0' hq m)
            | closing => decide
            | closed => decide
          obtain ⟨is, ws, hp, hw', hr⟩ := Conn.exec_path hl k hk (op :: ops) ho
          refine ⟨is, ws, hp, hw', hr, ⟨k.core.expectCont, ?_⟩, fun hopen => ?_⟩
          · rw [dataFrames_of_no_frame (hp.closing hrank), List.append_nil]
            exact hm
          · have := C13_forward hl k hk (op :: ops) ho
            rw [hopen] at this
            have h1 : State.opened.rank = 1 := rfl
            omega
        · obtain ⟨i1, w1, p1, e1, e2, e3⟩ := h
          refine fin i1 w1 [f] p1.weaken e1 (by rw [hw, e2]) e3 ?_
          rw [h2]
          rcases h1 with ⟨ha, hb⟩ | ⟨ha, hb⟩
          · rw [hb] at hm
            cases hf : f.fin with
            | true => exact .last hm ha hf
            | false => exact .middle hm ha hf
          · rw [hb] at hm
            cases hf : f.fin with
            | true => exact .whole hm ha hf
            | false => exact .first hm ha hf
      | false =>
        have other : ∃ i1 w1, Path env false k.core i1 w1 (k.apply env op).2.core ∧
            (k.apply env op).2.core.writes = k.core.writes ++ w1 ∧
            rawItems i1 = k.hsWrite env op ∧ dataFrames i1 = [] ∧
            (k.apply env op).2.core.expectCont = k.core.expectCont := by
          cases hs : op.isSend with
          | false =>
            have hw : k.hsWrite env op = [] := by cases op <;> first | rfl | cases hs
            obtain ⟨⟨i1, w1, p1, e1, e2, e3⟩, e4⟩ := (Conn.recv_does hl k hk op hs hds).does
            exact ⟨i1, w1, p1, e1, by rw [hw, e2], e3, e4⟩
          | true =>
            by_cases hh : ∃ x, op = .handshake x
            · obtain ⟨x, rfl⟩ := hh
              obtain ⟨⟨i1, w1, p1, e1, e2, e3⟩, e4⟩ := Conn.hs_does hl k x ho.1
              exact ⟨i1, w1, p1.weaken, e1, e2, e3, e4⟩
            · have hw : k.hsWrite env op = [] := by
                cases op <;> first | rfl | exact absurd ⟨_, rfl⟩ hh
              obtain ⟨⟨i1, w1, p1, e1, e2, e3⟩, e4⟩ :=
                Conn.ctrl_does hl k op hs hdat (fun x hx => hh ⟨x, hx⟩)
              exact ⟨i1, w1, p1.weaken, e1, by rw [hw, e2], e3, e4⟩
        obtain ⟨i1, w1, p1, e1, e2, e3, e4⟩ := other
        exact fin i1 w1 [] p1 e1 e2 e3 (by rw [e4, List.append_nil]; exact hm)

/-- **C14, partial.** The data frames in the outgoing stream form a sequence of messages, each
one text or binary frame followed by continuation frames, with FIN only on the last.  What is
missing: executions that call `send_text` or `send_binary` in the `CONNECTING` state or with a
payload that cannot be serialized, for which it is false
(`C14_fragmentation_false`). -/
theorem C14_fragmentation_partial {env : Env X E H} (hl : env.Lawful)
    (hq : env.ops.EncodeQuiet) (k : Conn X E) (hk : k.Settled) (hw : k.core.writes = [])
    (hx : k.core.expectCont = false) (ops : List (Op H)) (ho : k.HsOk env ops)
    (hd : k.DataOk env ops) :
    ∃ items, Writes env.rand k.core.side items (k.output env ops) ∧
      rawItems items = k.hsWrites env ops ∧ ∃ b, Messages (dataFrames items) b := by
  obtain ⟨is, ws, hp, h, hr, ⟨b, hb⟩, _⟩ :=
    Conn.data_path hl hq k hk ops ho hd [] (by rw [hx]; exact .nil)
  rw [h, hw]
  exact ⟨is, hp.writes, hr, b, by simpa using hb⟩

/-- **C14, partial.** A close frame is never sent inside a fragmented message: when `send_close()`
doesn't raise an exception, the data frames sent before form complete messages. The executions
are those of `C14_fragmentation_partial`. -/
theorem C14_close_between_messages_partial {env : Env X E H} (hl : env.Lawful)
    (hq : env.ops.EncodeQuiet) (k : Conn X E) (hk : k.Settled) (hw : k.core.writes = [])
    (hx : k.core.expectCont = false) (ops : List (Op H)) (ho : k.HsOk env ops)
    (hd : k.DataOk env ops) (code : Option Int) (reason : PyStr)
    (hc : ((k.exec env ops).2.apply env (.sendClose code reason)).1 = none) :
    ∃ items, Writes env.rand k.core.side items (k.output env ops) ∧
      rawItems items = k.hsWrites env ops ∧ Messages (dataFrames items) false := by
  obtain ⟨is, ws, hp, h, hr, _, hb⟩ :=
    Conn.data_path hl hq k hk ops ho hd [] (by rw [hx]; exact .nil)
  rw [h, hw]
  have hsc : ∀ d, ((k.exec env ops).2.core.sendCloseFrame env d).1 = none →
      (k.exec env ops).2.core.state = .opened := by
    intro d hd
    unfold Core.sendCloseFrame at hd
    rcases Core.sendFrame_cases env (k.exec env ops).2.core
      { fin := true, opcode := .close, data := d } with ⟨h0, _⟩ | ⟨_, ho, _⟩
    · cases hs : (k.exec env ops).2.core.sendFrame env
        { fin := true, opcode := .close, data := d } with
      | mk e c =>
        rw [hs] at hd h0
        cases e with
        | none => exact absurd rfl h0
        | some e => cases hd
    · exact ho
  have key : (k.exec env ops).2.core.state = .opened ∧
      (k.exec env ops).2.core.expectCont = false := by
    simp only [Conn.apply, Conn.onCore, Core.sendClose] at hc
    cases he : (k.exec env ops).2.core.expectCont with
    | true => rw [he] at hc; cases hc
    | false =>
      rw [he] at hc
      simp only [Bool.false_eq_true, if_false] at hc
      refine ⟨?_, rfl⟩
      cases code with
      | none =>
        simp only at hc
        split at hc
        · cases hc
        · exact hsc _ hc
      | some code =>
        simp only at hc
        cases hs : serializeClose code reason with
        | error e => rw [hs] at hc; cases hc
        | ok d => rw [hs] at hc; exact hsc _ hc
  refine ⟨is, hp.writes, hr, ?_⟩
  have := hb key.1
  rw [key.2] at this
  simpa using this

/-- Example for `C14_close_between_messages_partial`: `send_close()` is refused in the middle of a
message and accepted after it. -/
example :
    let k : Conn Empty Empty := .init .server .opened none
    let t := k.exec (Env.plain (fun _ => [0, 0, 0, 0]) (fun _ => rfl)) [.sendText b!"a" false,
      .sendClose (some 1000) [], .sendContinuation b!"b" true, .sendClose (some 1000) []]
    t.1.raised = [none, some (.protocolError p!"expected a continuation frame"), none, none] := by
  decide +kernel

/-- Data sent by this call. -/
def Op.payload : Op H → Bytes
  | .sendContinuation d _ | .sendText d _ | .sendBinary d _ => d
  | _ => []

theorem Conn.plain_dataOk (rand : Nat → Bytes) (hr : ∀ i, (rand i).length = 4)
    (k : Conn Empty Empty) (hk : k.Settled) (hs : k.core.state ≠ .connecting)
    (ops : List (Op Empty)) (hlen : ∀ op ∈ ops, op.payload.length < 2 ^ 64) :
    k.DataOk (Env.plain rand hr) ops ∧ k.HsOk (Env.plain rand hr) ops := by
  have ho : ∀ (ops : List (Op Empty)) k, Conn.HsOk (Env.plain rand hr) k ops := by
    intro ops
    induction ops with
    | nil => intro k; trivial
    | cons op ops ih =>
      intro k
      refine ⟨?_, ih _⟩
      cases op with
      | handshake x => cases x
      | _ => trivial
  refine ⟨?_, ho _ _⟩
  induction ops generalizing k with
  | nil => trivial
  | cons op ops ih =>
    refine ⟨fun hdat => ⟨hs, fun hopen => ?_⟩, ih _ (Conn.apply_settled _ hk op) ?_
      (fun o h => hlen o (by simp [h]))⟩
    · have hpl := hlen op (by simp)
      have key : ∀ (c : Core Empty Empty) (f : Frame), c.state = .opened → f.check = .ok () →
          f.data.length < 2 ^ 64 → (c.sendFrame (Env.plain rand hr) f).1 = none := by
        intro c f hc hck hf
        have he : c.exts = [] := by
          cases h : c.exts with
          | nil => rfl
          | cons x xs => cases x
        obtain ⟨w, hw⟩ : ∃ w, f.wire (if c.side = .client then some (rand c.nmask) else none) = .ok w := by
          unfold Frame.wire
          cases hsd : c.side with
          | server => simp [hf]
          | client =>
            simp only [hf, if_true]
            obtain ⟨d, hd⟩ : ∃ d, applyMask f.data (rand c.nmask) = .ok d := by
              unfold applyMask
              rw [if_neg (by rw [hr]; simp)]
              exact ⟨_, rfl⟩
            rw [hd]
            exact ⟨_, rfl⟩
        have hrand : (Env.plain rand hr).rand = rand := rfl
        simp only [Core.sendFrame, hc, ne_eq, not_true_eq_false, if_false, Frame.serializeExt, hck, he,
          applyExts, hrand, hw]
      cases op with
      | sendContinuation d fin =>
        simp only [Conn.apply, Conn.onCore, Core.sendContinuation]
        split
        · exact .inr ⟨_, rfl⟩
        · exact .inl (key _ _ hopen rfl hpl)
      | sendText d fin =>
        simp only [Conn.apply, Conn.onCore, Core.sendData]
        split
        · exact .inr ⟨_, rfl⟩
        · exact .inl (key _ _ hopen rfl hpl)
      | sendBinary d fin =>
        simp only [Conn.apply, Conn.onCore, Core.sendData]
        split
        · exact .inr ⟨_, rfl⟩
        · exact .inl (key _ _ hopen rfl hpl)
      | _ => cases hdat
    · have := C13_forward (Env.plain_lawful rand hr) k hk [op] (ho _ _)
      simp only [Conn.exec] at this
      intro h
      rw [h] at this
      cases hx : k.core.state with
      | connecting => exact hs hx
      | _ => rw [hx] at this; simp [State.rank] at this

/-- **C14, partial.** For a `Connection` without extensions that starts in any state but
`CONNECTING` - in particular after the handshake - and payloads under 2^64 bytes, there is no
other hypothesis: whatever the sequence of API calls, the data frames form messages. -/
theorem C14_no_extension_partial (rand : Nat → Bytes) (hr : ∀ i, (rand i).length = 4)
    (side : Side) (state : State) (hs : state ≠ .connecting) (m : Option Int)
    (ops : List (Op Empty)) (hlen : ∀ op ∈ ops, op.payload.length < 2 ^ 64) :
    let k : Conn Empty Empty := .init side state m
    ∃ items, Writes rand side items (k.output (Env.plain rand hr) ops) ∧
      rawItems items = [] ∧ ∃ b, Messages (dataFrames items) b := by
  intro k
  have hk : k.Settled := Conn.init_settled side state m
  obtain ⟨h1, h2⟩ := Conn.plain_dataOk rand hr k hk hs ops hlen
  obtain ⟨items, a, b, c⟩ := C14_fragmentation_partial (Env.plain_lawful rand hr)
    (fun x => nomatch x) k hk rfl rfl ops h2 h1
  refine ⟨items, a, ?_, c⟩
  rw [b]
  clear b h1 h2 hlen a c
  have : ∀ (ops : List (Op Empty)) (k : Conn Empty Empty),
      k.hsWrites (Env.plain rand hr) ops = [] := by
    intro ops
    induction ops with
    | nil => intro k; rfl
    | cons op ops ih =>
      intro k
      simp only [Conn.hsWrites, ih, List.append_nil]
      cases op with
      | handshake x => cases x
      | _ => rfl
  exact this ops k

/-- **C14.** A call refused because it would break the fragmentation has no effect at all, and
it is refused exactly when it would: `send_continuation` when no message is unfinished,
`send_text`, `send_binary` and `send_close` when one is. -/
theorem C14_refused_without_effect (env : Env X E H) (k : Conn X E) (d : Bytes) (fin : Bool) :
    (k.core.expectCont = false →
      k.apply env (.sendContinuation d fin) =
        (some (.protocolError p!"unexpected continuation frame"), k)) ∧
    (k.core.expectCont = true →
      k.apply env (.sendText d fin) =
        (some (.protocolError p!"expected a continuation frame"), k) ∧
      k.apply env (.sendBinary d fin) =
        (some (.protocolError p!"expected a continuation frame"), k) ∧
      ∀ code reason, k.apply env (.sendClose code reason) =
        (some (.protocolError p!"expected a continuation frame"), k)) := by
  refine ⟨fun h => ?_, fun h => ⟨?_, ?_, fun _ _ => ?_⟩⟩ <;>
    simp [Conn.apply, Conn.onCore, Core.sendContinuation, Core.sendData, Core.sendClose, h]

/-- The handshake of the examples below: a single call, which opens the connection. -/
def exampleHsEnv : Env Empty Empty Unit where
  ops := noExts
  rand := fun _ => [0, 0, 0, 0]
  rand_len := fun _ => rfl
  onHs := nofun
  hsOp := fun _ c => (none, { c with state := .opened, writes := c.writes ++ [b!"HTTP"] }, false)

/-- **C14 is false in general.** `send_text(..., fin=False)` during the opening handshake raises
`InvalidState`, but it has an effect: once the connection is open, a continuation frame that
continues nothing can be sent, and a text frame cannot. -/
theorem C14_fragmentation_false :
    let k : Conn Empty Empty := .init .server .connecting none
    let t := (k.exec exampleHsEnv [.sendText b!"a" false, .handshake (), .sendText b!"b" true,
      .sendContinuation b!"c" true])
    t.1.raised = [some (.invalidState p!"cannot write to a WebSocket in the CONNECTING state"),
        none, some (.protocolError p!"expected a continuation frame"), none] ∧
      t.2.core.writes = [b!"HTTP", [0x80, 0x01, 0x63]] := by
  decide +kernel

/-- Example for `C14_fragmentation_partial`: fragments, an interleaved ping and a refused call. -/
example :
    let k : Conn Empty Empty := .init .server .opened none
    k.output (Env.plain (fun _ => [0, 0, 0, 0]) (fun _ => rfl)) [.sendText b!"a" false,
      .sendPing b!"p", .sendText b!"x" true, .sendContinuation b!"b" true] =
    [[0x01, 1, 0x61], [0x89, 1, 0x70], [0x80, 1, 0x62]] := by
  decide +kernel

/-! ## C24 -/

/-- **C24.** Everything a client writes as a frame is masked with a key drawn from the random
source, each draw being used for at most one frame; nothing a server writes is masked. -/
theorem C24_masking {env : Env X E H} (hl : env.Lawful) (k : Conn X E) (hk : k.Settled)
    (hw : k.core.writes = []) (ops : List (Op H)) (ho : k.HsOk env ops) :
    ∃ items, Writes env.rand k.core.side items (k.output env ops) ∧
      rawItems items = k.hsWrites env ops ∧ (keyIndices items).Pairwise (· < ·) := by
  obtain ⟨is, ws, hp, h, hr⟩ := Conn.exec_path hl k hk ops ho
  rw [h, hw]
  exact ⟨is, hp.writes, hr, hp.keys.2.2⟩

/-- The MASK bit of a written frame tells the side. -/
theorem C24_mask_bit (rand : Nat → Bytes) (side : Side) (f : Frame) (i : Nat) (w : Bytes)
    (h : Encodes rand side (.frame f i) w) :
    ∃ h1 h2 rest, w = h1 :: h2 :: rest ∧ (128 ≤ h2.toNat ↔ side = .client) := by
  obtain ⟨h1, h2, l7, ext, _, hm, hl, _, e⟩ := h
  have := hl.lt
  cases side with
  | client =>
    refine ⟨h1, h2, _, by simpa [keyFor] using e.2, ?_⟩
    simp [keyFor, bit] at hm ⊢
    omega
  | server =>
    refine ⟨h1, h2, _, by simpa [keyFor] using e, ?_⟩
    simp [keyFor, bit] at hm ⊢
    omega

/-- **C24.** A received frame whose MASK bit is wrong for the side that receives it is a protocol
error as soon as its first two bytes are there, whatever else it contains. -/
theorem C24_reject_mismasked (side : Side) (limit : Option Int) (h1 h2 : UInt8) (rest : Bytes)
    (eof : Bool) (hm : 128 ≤ h2.toNat ↔ side = .client) :
    ∃ m r, (Frame.parse (decide (side = .server)) limit).run ⟨h1 :: h2 :: rest, eof⟩ =
      .raised (.protocolError m) r := by
  have hbit : (h2 &&& 0b10000000 != 0) = decide (128 ≤ h2.toNat) := by
    clear hm
    exact u8_forall (P := fun h2 => (h2 &&& 0b10000000 != 0) = decide (128 ≤ h2.toNat))
      (by decide +kernel) h2
  unfold Frame.parse
  rw [Coro.run_bind]
  unfold Frame.parseRaw
  have hcons : h1 :: h2 :: rest = [h1, h2] ++ rest := rfl
  rw [hcons, Coro.run_exact_append 2 _ [h1, h2] rest eof rfl]
  simp only
  cases Opcode.ofNat? (h1 &&& 0b00001111).toNat with
  | none => exact ⟨_, _, rfl⟩
  | some op =>
    have : ((h2 &&& 0b10000000 != 0) != decide (side = .server)) = true := by
      rw [hbit]
      cases side <;> simp_all
    simp only [this, if_true]
    exact ⟨_, _, rfl⟩

/-- Example: two frames of a client use two different keys. -/
example :
    let env := Env.plain (fun i => [0, 0, 0, UInt8.ofNat i]) (fun _ => rfl)
    let k : Conn Empty Empty := .init .client .opened none
    k.output env [.sendPing b!"abcd", .sendPing b!"abcd"] =
      [[0x89, 0x84, 0, 0, 0, 0, 0x61, 0x62, 0x63, 0x64],
       [0x89, 0x84, 0, 0, 0, 1, 0x61, 0x62, 0x63, 0x65]] := by
  decide +kernel

end WS
