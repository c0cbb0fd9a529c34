import Verif.Lemmas.ConnChunk
import Verif.Lemmas.Wire
import Verif.Spec.Output

/-! Helper lemmas: everything a connection writes is described by elementary steps. -/

namespace WS

open Spec

variable {X E H : Type}

theorem Spec.Writes.append {rand : Nat → Bytes} {side : Side} {i1 i2 : List Item} {w1 w2 : List Bytes}
    (h1 : Writes rand side i1 w1) (h2 : Writes rand side i2 w2) :
    Writes rand side (i1 ++ i2) (w1 ++ w2) := by
  induction h1 with
  | nil => exact h2
  | cons h _ ih => exact .cons h ih

/-- Laws of extensions used by properties of connections: the type of frames is preserved and
control frames are left alone (RFC 6455 section 5.4 forbids fragmenting them, and RFC 7692
section 6.1 forbids compressing them). -/
structure ExtOps.Lawful (ops : ExtOps X) : Prop where
  encode_head : ∀ {x f f' x'}, ops.encode x f = (.ok f', x') →
    f'.fin = f.fin ∧ f'.opcode = f.opcode ∧ (f.opcode.isCtrl = true → f' = f)
  decode_head : ∀ {x f m f' x'}, ops.decode x f m = (.ok f', x') →
    f'.fin = f.fin ∧ f'.opcode = f.opcode ∧ (f.opcode.isCtrl = true → f' = f)

theorem noExts_lawful : noExts.Lawful where
  encode_head {x} := nomatch x
  decode_head {x} := nomatch x

theorem applyExts_encode {ops : ExtOps X} (hl : ops.Lawful) {xs xs' : List X} {f f' : Frame}
    (h : applyExts ops.encode xs f = (.ok f', xs')) :
    f'.fin = f.fin ∧ f'.opcode = f.opcode ∧ (f.opcode.isCtrl = true → f' = f) := by
  induction xs generalizing f f' xs' with
  | nil => simp only [applyExts, Prod.mk.injEq, Except.ok.injEq] at h; simp [h.1]
  | cons x xs ih =>
    simp only [applyExts] at h
    cases hx : ops.encode x f with
    | mk r x1 =>
      cases r with
      | error e => rw [hx] at h; simp at h
      | ok f1 =>
        rw [hx] at h
        simp only [Prod.mk.injEq] at h
        have h1 := hl.encode_head hx
        have h2 := ih (f := f1) (f' := f') (xs' := (applyExts ops.encode xs f1).2)
          (by rw [← h.1])
        refine ⟨by rw [h2.1, h1.1], by rw [h2.2.1, h1.2.1], fun hc => ?_⟩
        have e1 := h1.2.2 hc
        subst e1
        exact h2.2.2 hc

theorem applyExts_decode {ops : ExtOps X} (hl : ops.Lawful) {m : Option Int} {xs xs' : List X}
    {f f' : Frame} (h : applyExts (fun x fr => ops.decode x fr m) xs f = (.ok f', xs')) :
    f'.fin = f.fin ∧ f'.opcode = f.opcode ∧ (f.opcode.isCtrl = true → f' = f) := by
  induction xs generalizing f f' xs' with
  | nil => simp only [applyExts, Prod.mk.injEq, Except.ok.injEq] at h; simp [h.1]
  | cons x xs ih =>
    simp only [applyExts] at h
    cases hx : ops.decode x f m with
    | mk r x1 =>
      cases r with
      | error e => rw [hx] at h; simp at h
      | ok f1 =>
        rw [hx] at h
        simp only [Prod.mk.injEq] at h
        have h1 := hl.decode_head hx
        have h2 := ih (f := f1) (f' := f')
          (xs' := (applyExts (fun x fr => ops.decode x fr m) xs f1).2) (by rw [← h.1])
        refine ⟨by rw [h2.1, h1.1], by rw [h2.2.1, h1.2.1], fun hc => ?_⟩
        have e1 := h1.2.2 hc
        subst e1
        exact h2.2.2 hc

/-- Laws of the handshake part of a connection, stated for calls made in the `CONNECTING`
state: it writes raw data, may move the state to `OPEN`, and does not touch the parts used to
exchange frames. -/
structure HsStep (c c' : Core X E) (raws : List Bytes) : Prop where
  side : c'.side = c.side
  state : c'.state = .connecting ∨ c'.state = .opened
  maxSize : c'.maxSize = c.maxSize
  curSize : c'.curSize = c.curSize
  expectCont : c'.expectCont = c.expectCont
  closeReceived : c'.closeReceived = c.closeReceived
  eofSent : c'.eofSent = c.eofSent
  parserExc : c'.parserExc = c.parserExc
  nmask : c'.nmask = c.nmask
  writes : c'.writes = c.writes ++ raws
  events : ∃ evs, c'.events = c.events ++ evs ∧ ∀ ev ∈ evs, ∃ e, ev = .handshake e

structure Env.Lawful (env : Env X E H) : Prop where
  ops : env.ops.Lawful
  onHs_connecting : ∀ {e c}, c.state = .connecting → HsStep c (env.onHs e c).2 []
  onHs_other : ∀ {e c}, c.state ≠ .connecting →
    (env.onHs e c).1 ≠ none ∧ (env.onHs e c).2 = c
  hsOp : ∀ {h c}, c.state = .connecting → ∃ raws, HsStep c (env.hsOp h c).2.1 raws

theorem Env.plain_lawful (rand : Nat → Bytes) (h : ∀ i, (rand i).length = 4) :
    (Env.plain rand h).Lawful where
  ops := noExts_lawful
  onHs_connecting {e} := nomatch e
  onHs_other {e} := nomatch e
  hsOp {e} := nomatch e

/-- Elementary steps.  In `strict` mode, the stream is ended only in the `CLOSING` state. -/
inductive Micro (env : Env X E H) (strict : Bool) :
    Core X E → List Item → List Bytes → Core X E → Prop where
  | quiet {c c'} : c'.side = c.side → c'.state = c.state → c'.eofSent = c.eofSent →
      c'.writes = c.writes → c.nmask ≤ c'.nmask → Micro env strict c [] [] c'
  | send {c c' : Core X E} {f : Frame} {w : Bytes} : c.state = .opened → f.opcode ≠ .close →
      WireWith true (keyFor env.rand c.side c.nmask) f w →
      c'.side = c.side → c'.state = c.state → c'.eofSent = c.eofSent →
      c'.writes = c.writes ++ [w] → c'.nmask = c.nmask + 1 →
      Micro env strict c [.frame f c.nmask] [w] c'
  | close {c c' : Core X E} {f : Frame} {w : Bytes} : c.state = .opened → f.opcode = .close →
      WireWith true (keyFor env.rand c.side c.nmask) f w →
      c'.side = c.side → c'.state = .closing → c'.eofSent = c.eofSent →
      c'.writes = c.writes ++ [w] → c'.nmask = c.nmask + 1 →
      Micro env strict c [.frame f c.nmask] [w] c'
  | eof {c c' : Core X E} : (strict = true → c.state = .closing) → c.eofSent = false →
      c'.side = c.side → c'.state = c.state → c'.eofSent = true →
      c'.writes = c.writes ++ [[]] → c'.nmask = c.nmask →
      Micro env strict c [.eof] [[]] c'
  | hs {c c' : Core X E} {raws : List Bytes} : c.state = .connecting → HsStep c c' raws →
      Micro env strict c (raws.map .raw) raws c'
  | flush {c : Core X E} : Micro env strict c [] [] { c with writes := [] }

inductive Path (env : Env X E H) (strict : Bool) :
    Core X E → List Item → List Bytes → Core X E → Prop where
  | refl {c} : Path env strict c [] [] c
  | step {c c1 c2 i1 i2 w1 w2} : Micro env strict c i1 w1 c1 → Path env strict c1 i2 w2 c2 →
      Path env strict c (i1 ++ i2) (w1 ++ w2) c2

theorem Micro.weaken {env : Env X E H} {s : Bool} {c c' : Core X E} {is ws}
    (h : Micro env s c is ws c') : Micro env false c is ws c' := by
  cases h with
  | quiet a b c d e => exact .quiet a b c d e
  | send a b c d e f g h => exact .send a b c d e f g h
  | close a b c d e f g h => exact .close a b c d e f g h
  | eof a b c d e f g => exact .eof (by simp) b c d e f g
  | hs a b => exact .hs a b
  | flush => exact .flush

theorem Path.weaken {env : Env X E H} {s : Bool} {c c' : Core X E} {is ws}
    (h : Path env s c is ws c') : Path env false c is ws c' := by
  induction h with
  | refl => exact .refl
  | step h _ ih => exact .step h.weaken ih

theorem Path.trans {env : Env X E H} {s : Bool} {c c1 c2 : Core X E} {i1 i2 w1 w2}
    (h1 : Path env s c i1 w1 c1) (h2 : Path env s c1 i2 w2 c2) :
    Path env s c (i1 ++ i2) (w1 ++ w2) c2 := by
  induction h1 with
  | refl => exact h2
  | step h _ ih =>
    rw [List.append_assoc, List.append_assoc]
    exact .step h (ih h2)

theorem rawItems_append (a b : List Item) : rawItems (a ++ b) = rawItems a ++ rawItems b := by
  simp [rawItems]

theorem dataFrames_append (a b : List Item) :
    dataFrames (a ++ b) = dataFrames a ++ dataFrames b := by
  simp [dataFrames]

theorem rawItems_raw (l : List Bytes) : rawItems (l.map Item.raw) = l := by
  induction l with
  | nil => rfl
  | cons b l ih =>
    have : rawItems ((b :: l).map Item.raw) = b :: rawItems (l.map Item.raw) := rfl
    rw [this, ih]

theorem dataFrames_raw (l : List Bytes) : dataFrames (l.map Item.raw) = [] := by
  induction l with
  | nil => rfl
  | cons b l ih =>
    have : dataFrames ((b :: l).map Item.raw) = dataFrames (l.map Item.raw) := rfl
    rw [this, ih]

/-- A sequence of elementary steps exists, which writes this handshake data and these data
frames. -/
def DoesG (env : Env X E H) (strict : Bool) (c c' : Core X E) (raws : List Bytes)
    (fs : List Frame) : Prop :=
  ∃ is ws, Path env strict c is ws c' ∧ c'.writes = c.writes ++ ws ∧ rawItems is = raws ∧
    dataFrames is = fs

/-- A sequence of elementary steps exists, which writes no handshake data and no data frames. -/
def Does (env : Env X E H) (strict : Bool) (c c' : Core X E) : Prop :=
  DoesG env strict c c' [] [] ∧ c'.expectCont = c.expectCont

theorem DoesG.refl {env : Env X E H} {s : Bool} {c : Core X E} : DoesG env s c c [] [] :=
  ⟨[], [], .refl, by simp, rfl, rfl⟩

theorem Does.refl {env : Env X E H} {s : Bool} {c : Core X E} : Does env s c c :=
  ⟨.refl, rfl⟩

theorem DoesG.trans {env : Env X E H} {s : Bool} {c c1 c2 : Core X E} {r1 r2 f1 f2}
    (h1 : DoesG env s c c1 r1 f1) (h2 : DoesG env s c1 c2 r2 f2) :
    DoesG env s c c2 (r1 ++ r2) (f1 ++ f2) := by
  obtain ⟨i1, w1, p1, e1, a1, b1⟩ := h1
  obtain ⟨i2, w2, p2, e2, a2, b2⟩ := h2
  exact ⟨_, _, p1.trans p2, by rw [e2, e1, List.append_assoc],
    by rw [rawItems_append, a1, a2], by rw [dataFrames_append, b1, b2]⟩

theorem Does.trans {env : Env X E H} {s : Bool} {c c1 c2 : Core X E}
    (h1 : Does env s c c1) (h2 : Does env s c1 c2) : Does env s c c2 :=
  ⟨h1.1.trans h2.1, by rw [h2.2, h1.2]⟩

theorem DoesG.weaken {env : Env X E H} {s : Bool} {c c1 : Core X E} {r f}
    (h : DoesG env s c c1 r f) : DoesG env false c c1 r f := by
  obtain ⟨i1, w1, p1, e1⟩ := h
  exact ⟨_, _, p1.weaken, e1⟩

theorem Does.weaken {env : Env X E H} {s : Bool} {c c1 : Core X E} (h : Does env s c c1) :
    Does env false c c1 := ⟨h.1.weaken, h.2⟩

theorem Micro.doesG {env : Env X E H} {s : Bool} {c c1 : Core X E} {is ws}
    (h : Micro env s c is ws c1) (hw : c1.writes = c.writes ++ ws) :
    DoesG env s c c1 (rawItems is) (dataFrames is) :=
  ⟨is ++ [], ws ++ [], .step h .refl, by simpa using hw, by simp, by simp⟩

theorem Micro.does {env : Env X E H} {s : Bool} {c c1 : Core X E} {is ws}
    (h : Micro env s c is ws c1) (hw : c1.writes = c.writes ++ ws) (hr : rawItems is = [])
    (hd : dataFrames is = []) (he : c1.expectCont = c.expectCont) : Does env s c c1 := by
  have := h.doesG hw
  rw [hr, hd] at this
  exact ⟨this, he⟩

theorem Does.quiet {env : Env X E H} {s : Bool} {c c' : Core X E} (h1 : c'.side = c.side)
    (h2 : c'.state = c.state) (h3 : c'.eofSent = c.eofSent) (h4 : c'.writes = c.writes)
    (h5 : c.nmask ≤ c'.nmask) (h6 : c'.expectCont = c.expectCont) : Does env s c c' :=
  (Micro.quiet h1 h2 h3 h4 h5).does (by simp [h4]) rfl rfl h6

theorem DoesG.quiet {env : Env X E H} {s : Bool} {c c' : Core X E} (h1 : c'.side = c.side)
    (h2 : c'.state = c.state) (h3 : c'.eofSent = c.eofSent) (h4 : c'.writes = c.writes)
    (h5 : c.nmask ≤ c'.nmask) : DoesG env s c c' [] [] :=
  (Micro.quiet h1 h2 h3 h4 h5).doesG (by simp [h4])

/-- What `send_frame` does. -/
theorem Core.sendFrame_cases (env : Env X E H) (c : Core X E) (f : Frame) :
    ((c.sendFrame env f).1 ≠ none ∧ ∃ xs n, c.nmask ≤ n ∧
      (c.sendFrame env f).2 = { c with exts := xs, nmask := n }) ∨
    ((c.sendFrame env f).1 = none ∧ c.state = .opened ∧ f.check = .ok () ∧
      ∃ f' xs w, applyExts env.ops.encode c.exts f = (.ok f', xs) ∧
        f'.wire (keyFor env.rand c.side c.nmask) = .ok w ∧
        (c.sendFrame env f).2 =
          { c with exts := xs, nmask := c.nmask + 1, writes := c.writes ++ [w] }) := by
  have hk : keyFor env.rand c.side c.nmask =
      if c.side = .client then some (env.rand c.nmask) else none := by
    cases c.side <;> rfl
  rw [hk]
  unfold Core.sendFrame
  by_cases hs : c.state = .opened
  · simp only [hs, ne_eq, not_true_eq_false, if_false]
    unfold Frame.serializeExt
    cases hc : f.check with
    | error e => exact .inl ⟨by simp, _, _, by simp, rfl⟩
    | ok u =>
      cases ha : applyExts env.ops.encode c.exts f with
      | mk r xs =>
        cases r with
        | error e => exact .inl ⟨by simp, _, _, by simp, rfl⟩
        | ok f' =>
          simp only
          cases hw : f'.wire (if c.side = .client then some (env.rand c.nmask) else none) with
          | error e => exact .inl ⟨by simp, _, _, by simp, rfl⟩
          | ok w =>
            exact .inr ⟨rfl, trivial, trivial, f', xs, w, rfl, hw, rfl⟩
  · simp only [hs, ne_eq, not_false_eq_true, if_true]
    exact .inl ⟨by simp, c.exts, c.nmask, Nat.le_refl _, rfl⟩

theorem Core.sendFrame_does {env : Env X E H} (hl : env.Lawful) {s : Bool} {c : Core X E}
    {f : Frame} (hf : f.opcode = .ping ∨ f.opcode = .pong) :
    Does env s c (c.sendFrame env f).2 := by
  rcases Core.sendFrame_cases env c f with ⟨_, xs, n, hn, h⟩ | ⟨_, ho, _, f', xs, w, ha, hw, h⟩
  · rw [h]; exact .quiet rfl rfl rfl rfl hn rfl
  · rw [h]
    have h1 := applyExts_encode hl.ops ha
    have h2 := (Frame.wire_iff _ _ _).1 hw
    refine Micro.does (Micro.send (f := f') (w := w) ho ?_ h2.2 rfl rfl rfl rfl rfl) rfl rfl ?_ rfl
    · rw [h1.2.1]; rcases hf with hf | hf <;> rw [hf] <;> decide
    · have : f'.opcode = .ping ∨ f'.opcode = .pong := by rw [h1.2.1]; exact hf
      rcases this with h | h <;> simp [dataFrames, h]

/-- Sending a data frame. -/
theorem Core.sendFrame_data_does {env : Env X E H} (hl : env.Lawful) {s : Bool} {c : Core X E}
    {f : Frame} (hf : f.opcode = .cont ∨ f.opcode = .text ∨ f.opcode = .binary) :
    ((c.sendFrame env f).1 ≠ none ∧ DoesG env s c (c.sendFrame env f).2 [] []) ∨
    ((c.sendFrame env f).1 = none ∧ c.state = .opened ∧
      ∃ f', f'.fin = f.fin ∧ f'.opcode = f.opcode ∧
        DoesG env s c (c.sendFrame env f).2 [] [f']) := by
  rcases Core.sendFrame_cases env c f with ⟨h0, xs, n, hn, h⟩ | ⟨h0, ho, _, f', xs, w, ha, hw, h⟩
  · rw [h]; exact .inl ⟨h0, .quiet rfl rfl rfl rfl hn⟩
  · have h1 := applyExts_encode hl.ops ha
    refine .inr ⟨h0, ho, f', h1.1, h1.2.1, ?_⟩
    rw [h]
    have h2 := (Frame.wire_iff _ _ _).1 hw
    have h3 : f'.opcode = .cont ∨ f'.opcode = .text ∨ f'.opcode = .binary := by
      rw [h1.2.1]; exact hf
    have h4 : dataFrames [.frame f' c.nmask] = [f'] := by
      rcases h3 with h | h | h <;> simp [dataFrames, h]
    have := Micro.doesG (env := env) (s := s) (c := c)
      (c1 := { c with exts := xs, nmask := c.nmask + 1, writes := c.writes ++ [w] })
      (Micro.send (f := f') (w := w) ho
        (by rcases h3 with h | h | h <;> rw [h] <;> decide) h2.2 rfl rfl rfl rfl rfl) rfl
    rw [h4] at this
    exact this

/-- A successful close frame followed by the change of state. -/
theorem Core.sendFrame_close_does {env : Env X E H} (hl : env.Lawful) {s : Bool} {c : Core X E}
    {f : Frame} (hf : f.opcode = .close) :
    ((c.sendFrame env f).1 ≠ none ∧ Does env s c (c.sendFrame env f).2) ∨
    ((c.sendFrame env f).1 = none ∧ c.state = .opened ∧
      (c.sendFrame env f).2.eofSent = c.eofSent ∧
      Does env s c { (c.sendFrame env f).2 with state := .closing }) := by
  rcases Core.sendFrame_cases env c f with ⟨h0, xs, n, hn, h⟩ | ⟨h0, ho, _, f', xs, w, ha, hw, h⟩
  · rw [h]; exact .inl ⟨h0, .quiet rfl rfl rfl rfl hn rfl⟩
  · refine .inr ⟨h0, ho, by rw [h], ?_⟩
    rw [h]
    have h1 := applyExts_encode hl.ops ha
    have h2 := (Frame.wire_iff _ _ _).1 hw
    have h3 : f'.opcode = .close := by rw [h1.2.1]; exact hf
    exact Micro.does (Micro.close (f := f') (w := w) ho h3 h2.2 rfl rfl rfl rfl rfl) rfl rfl
      (by simp [dataFrames, h3]) rfl

theorem Core.sendEof_does {env : Env X E H} {s : Bool} {c : Core X E}
    (hs : s = true → c.state = .closing) : Does env s c c.sendEof.2 := by
  unfold Core.sendEof
  cases he : c.eofSent with
  | true => exact .refl
  | false => exact Micro.does (Micro.eof hs he rfl rfl rfl rfl rfl) rfl rfl rfl rfl

theorem Core.sendCloseFrame_does {env : Env X E H} (hl : env.Lawful) {s : Bool} {c : Core X E}
    {data : Bytes} : Does env s c (c.sendCloseFrame env data).2 := by
  unfold Core.sendCloseFrame
  rcases Core.sendFrame_close_does (s := s) (c := c) hl
    (f := { fin := true, opcode := .close, data }) rfl with ⟨h, hd⟩ | ⟨h, _, he, hd⟩
  · cases hx : c.sendFrame env { fin := true, opcode := .close, data } with
    | mk e c' =>
      rw [hx] at h hd
      cases e with
      | none => exact absurd rfl h
      | some e => exact hd
  · cases hx : c.sendFrame env { fin := true, opcode := .close, data } with
    | mk e c' =>
      rw [hx] at h hd
      cases e with
      | some e => cases h
      | none =>
        simp only
        split
        · exact hd.trans (Core.sendEof_does (fun _ => rfl))
        · exact hd

theorem Core.handleFrame_does {env : Env X E H} (hl : env.Lawful) {c : Core X E} {f : Frame} :
    Does env true c (c.handleFrame env f).2 := by
  have data : Does env true c
      (if c.closeReceived then (some (.protocolError p!"data frame after close frame"), c)
        else if c.curSize ≠ none then
          (some (.protocolError p!"expected a continuation frame"), c)
        else if f.fin then (none, { c with curSize := none })
        else (none, { c with curSize := some f.data.length }) : Option Exc × Core X E).2 := by
    split
    · exact .refl
    · split
      · exact .refl
      · split <;> exact .quiet rfl rfl rfl rfl (Nat.le_refl _) rfl
  unfold Core.handleFrame
  cases hop : f.opcode with
  | text => exact data
  | binary => exact data
  | cont =>
    simp only
    split
    · exact .refl
    · split
      · exact .refl
      · split <;> exact .quiet rfl rfl rfl rfl (Nat.le_refl _) rfl
  | ping =>
    simp only
    split
    · exact Core.sendFrame_does hl (by simp)
    · exact .refl
  | pong => exact .refl
  | close =>
    simp only
    cases parseClose f.data with
    | error e => exact .quiet rfl rfl rfl rfl (Nat.le_refl _) rfl
    | ok p =>
      obtain ⟨code, reason⟩ := p
      simp only
      split
      · exact .quiet rfl rfl rfl rfl (Nat.le_refl _) rfl
      · split
        · refine Does.trans ?_ (Core.sendCloseFrame_does hl)
          exact .quiet rfl rfl rfl rfl (Nat.le_refl _) rfl
        · exact .quiet rfl rfl rfl rfl (Nat.le_refl _) rfl

theorem Core.frameRead_does {env : Env X E H} (hl : env.Lawful) {c : Core X E}
    {lim : Option Int} {stale : Option (List X)} {raw : Frame} :
    Does env true c (c.frameRead env lim stale raw).2 := by
  unfold Core.frameRead
  cases Frame.finish env.ops (stale.getD c.exts) lim raw with
  | mk res xs =>
    simp only
    have h1 : Does env true c (if stale.isNone then { c with exts := xs } else c) := by
      split
      · exact .quiet rfl rfl rfl rfl (Nat.le_refl _) rfl
      · exact .refl
    cases res with
    | error e => exact h1
    | ok f =>
      simp only
      have h2 := h1.trans (Core.handleFrame_does (f := f) hl)
      cases hx : Core.handleFrame env (if stale.isNone then { c with exts := xs } else c) f with
      | mk e c' =>
        rw [hx] at h2
        cases e with
        | some e => exact h2
        | none => exact h2.trans (.quiet rfl rfl rfl rfl (Nat.le_refl _) rfl)

/-- Possibly the end of the stream, and nothing else visible. -/
structure Tail (c c' : Core X E) : Prop where
  side : c'.side = c.side
  state : c'.state = c.state
  nmask : c'.nmask = c.nmask
  expectCont : c'.expectCont = c.expectCont
  writes : (c'.eofSent = c.eofSent ∧ c'.writes = c.writes) ∨
    (c.eofSent = false ∧ c'.eofSent = true ∧ c'.writes = c.writes ++ [[]])

theorem Tail.does {env : Env X E H} {c c' : Core X E} (h : Tail c c') : Does env false c c' := by
  rcases h.writes with ⟨a, b⟩ | ⟨a, b, d⟩
  · exact .quiet h.side h.state a b (by rw [h.nmask]; exact Nat.le_refl _) h.expectCont
  · exact Micro.does (Micro.eof (by simp) a h.side h.state b d h.nmask) d rfl rfl h.expectCont

/-- What running the parser does: strict steps, then possibly the end of the stream, after which
the parser is finished. -/
def DoesEnd (env : Env X E H) (c : Core X E) (k : Conn X E) : Prop :=
  ∃ c1, Does env true c c1 ∧
    (k.core = c1 ∨ ((k.pstate = .parked ∨ k.pstate = .dead) ∧ Tail c1 k.core))

theorem DoesEnd.does {env : Env X E H} {c : Core X E} {k : Conn X E} (h : DoesEnd env c k) :
    Does env false c k.core := by
  obtain ⟨c1, h1, h2 | ⟨_, h2⟩⟩ := h
  · rw [h2]; exact h1.weaken
  · exact h1.weaken.trans h2.does

theorem Core.failEof_tail {c : Core X E} : Tail c c.failEof.2 ∧ c.failEof.1 = none := by
  unfold Core.failEof
  cases h : c.eofSent
  · simp only [Bool.not_false, if_true, Core.sendEof, h, Bool.false_eq_true, if_false]
    exact ⟨⟨rfl, rfl, rfl, rfl, .inr ⟨h, rfl, rfl⟩⟩, trivial⟩
  · simp only [Bool.not_true, Bool.false_eq_true, if_false]
    exact ⟨⟨rfl, rfl, rfl, rfl, .inl ⟨rfl, rfl⟩⟩, trivial⟩

theorem Core.atEnd_tail {c : Core X E} :
    (c.atEnd.1 = none ∧ Tail c c.atEnd.2) ∨ (c.atEnd = (some .eofError, c)) := by
  unfold Core.atEnd
  split
  · exact .inl ⟨Core.failEof_tail.2, Core.failEof_tail.1⟩
  · exact .inr rfl

/-- The result of running the parser. -/
def Runs (env : Env X E H) (c : Core X E) (r : Option Exc × Conn X E) : Prop :=
  match r.1 with
  | some _ => Does env true c r.2.core
  | none => Does env true c r.2.core ∨
      (r.2.pstate = .parked ∧ ∃ c1, Does env true c c1 ∧ Tail c1 r.2.core)

theorem Runs.pre {env : Env X E H} {c c1 : Core X E} {r : Option Exc × Conn X E}
    (h1 : Does env true c c1) (h2 : Runs env c1 r) : Runs env c r := by
  unfold Runs at *
  cases h : r.1 with
  | some e => rw [h] at h2; exact h1.trans h2
  | none =>
    rw [h] at h2
    rcases h2 with h2 | ⟨hp, c2, h2, h3⟩
    · exact .inl (h1.trans h2)
    · exact .inr ⟨hp, c2, h1.trans h2, h3⟩

theorem Runs.ofEq {env : Env X E H} {c : Core X E} {e : Option Exc} {k : Conn X E}
    (h : Does env true c k.core) : Runs env c (e, k) := by
  cases e with
  | some e => exact h
  | none => exact .inl h

theorem Conn.loop_does {env : Env X E H} (hl : env.Lawful) (n : Nat) (c : Core X E)
    (r : Reader) : Runs env c (Conn.loop env n c r) := by
  induction n generalizing c r with
  | zero => exact .ofEq .refl
  | succ n ih =>
    simp only [Conn.loop]
    cases r.atEof with
    | none => exact .ofEq .refl
    | some b =>
      cases b with
      | true =>
        simp only
        rcases Core.atEnd_tail (c := c) with ⟨h1, h2⟩ | h
        · cases hx : c.atEnd with
          | mk e c' =>
            rw [hx] at h1 h2
            simp only at h1
            subst h1
            exact .inr ⟨rfl, c, .refl, h2⟩
        · rw [h]; exact .ofEq .refl
      | false =>
        simp only
        cases (Frame.parseRaw c.maskIn c.frameLimit).run r with
        | blocked co r1 => exact .ofEq .refl
        | raised e r1 => exact .ofEq .refl
        | done raw r1 =>
          simp only
          have h1 := Core.frameRead_does hl (c := c) (lim := c.frameLimit) (stale := none)
            (raw := raw)
          cases hx : c.frameRead env c.frameLimit none raw with
          | mk e c' =>
            rw [hx] at h1
            cases e with
            | some e => exact .ofEq h1
            | none => exact .pre h1 (ih c' r1)

theorem Conn.parseTop_does {env : Env X E H} (hl : env.Lawful) (c : Core X E)
    (r : Reader) : Runs env c (Conn.parseTop env c r) := Conn.loop_does hl _ c r

theorem Conn.onHs_does {env : Env X E H} (hl : env.Lawful) (c : Core X E) (ev : E) :
    Does env true c (env.onHs ev c).2 := by
  by_cases hc : c.state = .connecting
  · have hs := hl.onHs_connecting (e := ev) hc
    exact Micro.does (Micro.hs hc hs) (by simp [hs.writes]) rfl rfl hs.expectCont
  · rw [(hl.onHs_other (e := ev) hc).2]; exact .refl

theorem Conn.resume_does {env : Env X E H} (hl : env.Lawful) (k : Conn X E) :
    Runs env k.core (k.resume env) := by
  unfold Conn.resume
  cases hp : k.pstate with
  | dead => exact .ofEq .refl
  | parked => exact .ofEq .refl
  | top => exact Conn.parseTop_does hl _ _
  | inFrame co lim stale =>
    simp only
    cases co.run k.reader with
    | blocked co r1 => exact .ofEq .refl
    | raised e r1 => exact .ofEq .refl
    | done raw r1 =>
      simp only
      have h1 := Core.frameRead_does hl (c := k.core) (lim := lim) (stale := stale) (raw := raw)
      cases hx : k.core.frameRead env lim stale raw with
      | mk e c' =>
        rw [hx] at h1
        cases e with
        | some e => exact .ofEq h1
        | none => exact .pre h1 (Conn.parseTop_does hl c' r1)
  | hs co =>
    simp only
    cases co.run k.reader with
    | blocked co r1 => exact .ofEq .refl
    | raised e r1 => exact .ofEq .refl
    | done ev r1 =>
      simp only
      have h1 := Conn.onHs_does hl k.core ev
      cases hx : env.onHs ev k.core with
      | mk e c' =>
        rw [hx] at h1
        cases e with
        | some e => exact .ofEq h1
        | none => exact .pre h1 (Conn.parseTop_does hl c' r1)

/-- Failing the connection: strict steps, then possibly the end of the stream. -/
theorem Core.failConnection_does {env : Env X E H} (hl : env.Lawful) (c : Core X E) (code : Int)
    (reason : PyStr) : ∃ c1, Does env true c c1 ∧
      Tail c1 (c.failConnection env code reason).2 := by
  unfold Core.failConnection
  have triv : ∀ c : Core X E, Tail c c := fun c => ⟨rfl, rfl, rfl, rfl, .inl ⟨rfl, rfl⟩⟩
  split
  · cases serializeClose code reason with
    | error e => exact ⟨c, .refl, triv c⟩
    | ok data =>
      simp only
      rcases Core.sendFrame_close_does (s := true) (c := c) hl
        (f := { fin := true, opcode := .close, data }) rfl with ⟨h, hd⟩ | ⟨h, _, he, hd⟩
      · cases hx : c.sendFrame env { fin := true, opcode := .close, data } with
        | mk e c' =>
          rw [hx] at h hd
          cases e with
          | none => exact absurd rfl h
          | some e => exact ⟨c', hd, triv _⟩
      · cases hx : c.sendFrame env { fin := true, opcode := .close, data } with
        | mk e c' =>
          rw [hx] at h hd
          cases e with
          | some e => cases h
          | none => exact ⟨_, hd, Core.failEof_tail.1⟩
  · exact ⟨c, .refl, Core.failEof_tail.1⟩

/-- What `receive_data` and `receive_eof` do. -/
theorem Conn.step_does {env : Env X E H} (hl : env.Lawful) (k : Conn X E)
    (h : k.pstate.Ready k.reader) : DoesEnd env k.core (k.step env).2 := by
  by_cases hd : k.pstate = .dead
  · rw [Conn.step_dead env k hd]; exact ⟨_, .refl, .inl rfl⟩
  · rw [Conn.step_alive env k hd]
    have h1 := Conn.resume_does hl k
    have h3 := Conn.resume_settled env k h hd
    cases hr : k.resume env with
    | mk e k1 =>
      rw [hr] at h1 h3
      cases e with
      | none =>
        rcases h1 with h1 | ⟨hp, c1, h1, h2⟩
        · exact ⟨_, h1, .inl rfl⟩
        · exact ⟨c1, h1, .inr ⟨.inl hp, h2⟩⟩
      | some e =>
        have hdead : k1.pstate = .dead := h3.2.1.1 (by simp)
        obtain ⟨c2, h4, h5⟩ := Core.failConnection_does hl k1.core (failCode e).1 (failCode e).2
        have h6 := Does.trans h1 h4
        simp only
        cases hx : k1.core.failConnection env (failCode e).1 (failCode e).2 with
        | mk e' c' =>
          rw [hx] at h5
          cases e' with
          | some e' => exact ⟨c2, h6, .inr ⟨.inr hdead, h5⟩⟩
          | none => exact ⟨c2, h6, .inr ⟨.inr hdead, ⟨h5.side, h5.state, h5.nmask, h5.expectCont, h5.writes⟩⟩⟩

/-- Calls of handshake methods are made in the `CONNECTING` state. -/
def Op.HsOk (c : Core X E) : Op H → Prop
  | .handshake _ => c.state = .connecting
  | _ => True

/-- Calls that may write frames or handshake data. -/
def Op.isSend : Op H → Bool
  | .receiveData _ | .receiveEof | .eventsReceived | .dataToSend => false
  | _ => true

/-- Calls that send data frames. -/
def Op.isData : Op H → Bool
  | .sendContinuation _ _ | .sendText _ _ | .sendBinary _ _ => true
  | _ => false

/-- The data written by a handshake call. -/
def Conn.hsWrite (env : Env X E H) (k : Conn X E) : Op H → List Bytes
  | .handshake h => (env.hsOp h k.core).2.1.writes.drop k.core.writes.length
  | _ => []

/-- The data written by the handshake calls of an execution. -/
def Conn.hsWrites (env : Env X E H) : Conn X E → List (Op H) → List Bytes
  | _, [] => []
  | k, op :: ops => k.hsWrite env op ++ Conn.hsWrites env (k.apply env op).2 ops

/-- Encoding never raises `ProtocolError`. -/
def ExtOps.EncodeQuiet (ops : ExtOps X) : Prop :=
  ∀ x f m x', ops.encode x f ≠ (.error (.protocolError m), x')

theorem applyExts_quiet {ops : ExtOps X} (hq : ops.EncodeQuiet) (xs : List X) (f : Frame)
    (m : PyStr) (xs' : List X) : applyExts ops.encode xs f ≠ (.error (.protocolError m), xs') := by
  induction xs generalizing f xs' with
  | nil => simp [applyExts]
  | cons x xs ih =>
    simp only [applyExts]
    cases hx : ops.encode x f with
    | mk r x1 =>
      cases r with
      | error e =>
        intro h
        simp only [Prod.mk.injEq, Except.error.injEq] at h
        exact hq x f m x1 (by rw [hx, h.1])
      | ok f1 =>
        intro h
        simp only [Prod.mk.injEq] at h
        exact ih f1 _ (Prod.ext h.1 rfl)

theorem Core.sendFrame_quiet {env : Env X E H} (hq : env.ops.EncodeQuiet) (c : Core X E)
    (f : Frame) (hc : f.check = .ok ()) (m : PyStr) :
    (c.sendFrame env f).1 ≠ some (.protocolError m) := by
  unfold Core.sendFrame
  split
  · simp
  · simp only [Frame.serializeExt, hc]
    cases ha : applyExts env.ops.encode c.exts f with
    | mk r xs =>
      cases r with
      | error e =>
        simp only [ne_eq, Option.some.injEq]
        intro h
        exact applyExts_quiet hq c.exts f m xs (by rw [ha, h])
      | ok f' =>
        simp only
        cases hw : f'.wire (if c.side = .client then some (env.rand c.nmask) else none) with
        | ok w => simp
        | error e =>
          simp only [ne_eq, Option.some.injEq]
          intro h
          subst h
          unfold Frame.wire at hw
          simp only at hw
          split at hw
          · cases hs : c.side with
            | server => simp [hs] at hw
            | client =>
              simp only [hs, if_true] at hw
              have := env.rand_len c.nmask
              unfold applyMask at hw
              simp [this] at hw
          · simp at hw

/-- What API calls that send data do. -/
theorem Conn.data_does {env : Env X E H} (hl : env.Lawful) (k : Conn X E) (op : Op H)
    (hs : op.isData = true) :
    ((k.apply env op).2 = k ∧ (∃ m, (k.apply env op).1 = some (.protocolError m))) ∨
    (((k.apply env op).1 ≠ none ∧ (env.ops.EncodeQuiet → ∀ m,
        (k.apply env op).1 ≠ some (.protocolError m))) ∧
      DoesG env true k.core (k.apply env op).2.core [] []) ∨
    ((k.apply env op).1 = none ∧ k.core.state = .opened ∧
      ∃ f, (f.opcode = .cont ∧ k.core.expectCont = true ∨
          (f.opcode = .text ∨ f.opcode = .binary) ∧ k.core.expectCont = false) ∧
        (k.apply env op).2.core.expectCont = !f.fin ∧
        DoesG env true k.core (k.apply env op).2.core [] [f]) := by
  have key : ∀ (fin : Bool) (f : Frame), f.check = .ok () →
      f.opcode = .cont ∨ f.opcode = .text ∨ f.opcode = .binary → f.fin = fin →
      (f.opcode = .cont ∧ k.core.expectCont = true ∨
          (f.opcode = .text ∨ f.opcode = .binary) ∧ k.core.expectCont = false) →
      let r := Core.sendFrame env { k.core with expectCont := !fin } f
      ((r.1 ≠ none ∧ (env.ops.EncodeQuiet → ∀ m, r.1 ≠ some (.protocolError m))) ∧
        DoesG env true k.core r.2 [] []) ∨
      (r.1 = none ∧ k.core.state = .opened ∧
        ∃ f, (f.opcode = .cont ∧ k.core.expectCont = true ∨
            (f.opcode = .text ∨ f.opcode = .binary) ∧ k.core.expectCont = false) ∧
          r.2.expectCont = !f.fin ∧ DoesG env true k.core r.2 [] [f]) := by
    intro fin f hck hf hfin hc
    have h0 : DoesG env true k.core { k.core with expectCont := !fin } [] [] :=
      DoesG.quiet rfl rfl rfl rfl (Nat.le_refl _)
    have he : (Core.sendFrame env { k.core with expectCont := !fin } f).2.expectCont = !fin := by
      rcases Core.sendFrame_cases env { k.core with expectCont := !fin } f with
        ⟨_, xs, n, _, h⟩ | ⟨_, _, _, f', xs, w, _, _, h⟩ <;> rw [h]
    rcases Core.sendFrame_data_does hl (s := true) (c := { k.core with expectCont := !fin }) hf with
      ⟨a, b⟩ | ⟨a, ho, f', h1, h2, b⟩
    · exact .inl ⟨⟨a, fun hq m => Core.sendFrame_quiet hq _ _ hck m⟩, h0.trans b⟩
    · refine .inr ⟨a, ho, f', ?_, ?_, h0.trans b⟩
      · rw [h2]; exact hc
      · rw [he, h1, hfin]
  cases op with
  | sendContinuation d fin =>
    simp only [Conn.apply, Conn.onCore, Core.sendContinuation]
    cases hx : k.core.expectCont with
    | false => exact .inl ⟨rfl, _, rfl⟩
    | true =>
      refine .inr ?_
      have := key fin { fin, opcode := .cont, data := d } rfl (by simp) rfl (by simp [hx])
      simpa [hx] using this
  | sendText d fin =>
    simp only [Conn.apply, Conn.onCore, Core.sendData]
    cases hx : k.core.expectCont with
    | true => exact .inl ⟨rfl, _, rfl⟩
    | false =>
      refine .inr ?_
      have := key fin { fin, opcode := .text, data := d } rfl (by simp) rfl (by simp [hx])
      simpa [hx] using this
  | sendBinary d fin =>
    simp only [Conn.apply, Conn.onCore, Core.sendData]
    cases hx : k.core.expectCont with
    | true => exact .inl ⟨rfl, _, rfl⟩
    | false =>
      refine .inr ?_
      have := key fin { fin, opcode := .binary, data := d } rfl (by simp) rfl (by simp [hx])
      simpa [hx] using this
  | _ => cases hs

/-- What API calls that send control frames do. -/
theorem Conn.ctrl_does {env : Env X E H} (hl : env.Lawful) (k : Conn X E) (op : Op H)
    (hs : op.isSend = true) (hd : op.isData = false) (hh : ∀ h, op ≠ .handshake h) :
    Does env true k.core (k.apply env op).2.core := by
  cases op with
  | sendClose code reason =>
    simp only [Conn.apply, Conn.onCore, Core.sendClose]
    split
    · exact .refl
    · split
      · split
        · exact .refl
        · exact Core.sendCloseFrame_does hl
      · split
        · exact .refl
        · exact Core.sendCloseFrame_does hl
  | sendPing d => exact Core.sendFrame_does hl (by simp)
  | sendPong d => exact Core.sendFrame_does hl (by simp)
  | handshake x => exact absurd rfl (hh x)
  | receiveData d => cases hs
  | receiveEof => cases hs
  | eventsReceived => cases hs
  | dataToSend => cases hs
  | _ => cases hd

/-- What API calls of the handshake do. -/
theorem Conn.hs_does {env : Env X E H} (hl : env.Lawful) (k : Conn X E) (x : H)
    (ho : k.core.state = .connecting) :
    DoesG env true k.core (k.apply env (.handshake x)).2.core (k.hsWrite env (.handshake x)) [] ∧
      (k.apply env (.handshake x)).2.core.expectCont = k.core.expectCont := by
  obtain ⟨raws, hr⟩ := hl.hsOp (h := x) ho
  have := Micro.doesG (env := env) (s := true) (Micro.hs ho hr) hr.writes
  rw [rawItems_raw, dataFrames_raw] at this
  have he : k.hsWrite env (.handshake x) = raws := by
    simp [Conn.hsWrite, hr.writes]
  rw [he]
  have hec := hr.expectCont
  simp only [Conn.apply]
  cases hx : env.hsOp x k.core with
  | mk e p =>
    obtain ⟨c', b⟩ := p
    rw [hx] at this hec
    cases b <;> exact ⟨this, hec⟩

/-- What API calls that send do. -/
theorem Conn.send_does {env : Env X E H} (hl : env.Lawful) (k : Conn X E) (op : Op H)
    (hs : op.isSend = true) (ho : op.HsOk k.core) :
    ∃ fs, DoesG env true k.core (k.apply env op).2.core (k.hsWrite env op) fs := by
  by_cases hd : op.isData = true
  · have hw : k.hsWrite env op = [] := by cases op <;> first | rfl | cases hd
    rw [hw]
    rcases Conn.data_does hl k op hd with ⟨h, _⟩ | ⟨_, h⟩ | ⟨_, _, f, _, _, h⟩
    · rw [h]; exact ⟨_, .refl⟩
    · exact ⟨_, h⟩
    · exact ⟨_, h⟩
  · by_cases hh : ∃ h, op = .handshake h
    · obtain ⟨x, rfl⟩ := hh
      exact ⟨_, (Conn.hs_does hl k x ho).1⟩
    · have hw : k.hsWrite env op = [] := by
        cases op <;> first | rfl | exact absurd ⟨_, rfl⟩ hh
      rw [hw]
      exact ⟨_, (Conn.ctrl_does hl k op hs (by simpa using hd) (fun x hx => hh ⟨x, hx⟩)).1⟩

/-- What API calls that receive do. -/
theorem Conn.recv_does {env : Env X E H} (hl : env.Lawful) (k : Conn X E) (hk : k.Settled)
    (op : Op H) (hs : op.isSend = false) (hf : op ≠ .dataToSend) :
    DoesEnd env k.core (k.apply env op).2 := by
  cases op with
  | receiveData d =>
    simp only [Conn.apply, Conn.receiveData_eq]
    split
    · exact ⟨_, .refl, .inl rfl⟩
    · rename_i he
      exact (Conn.step_does hl (k.push d) ((hk.ready (by simpa using he)).push d))
  | receiveEof =>
    simp only [Conn.apply, Conn.receiveEof_eq]
    split
    · exact ⟨_, .refl, .inl rfl⟩
    · rename_i he
      exact (Conn.step_does hl { k with reader := { k.reader with eof := true } }
        ((hk.ready (by simpa using he)).setEof true))
  | eventsReceived => exact ⟨{ k.core with events := [] }, Does.quiet rfl rfl rfl rfl (Nat.le_refl _) rfl, .inl rfl⟩
  | dataToSend => exact absurd rfl hf
  | _ => cases hs

theorem Conn.apply_does {env : Env X E H} (hl : env.Lawful) (k : Conn X E) (hk : k.Settled)
    (op : Op H) (ho : op.HsOk k.core) (hf : op ≠ .dataToSend) :
    ∃ fs, DoesG env false k.core (k.apply env op).2.core (k.hsWrite env op) fs := by
  cases hs : op.isSend with
  | true =>
    obtain ⟨fs, h⟩ := Conn.send_does hl k op hs ho
    exact ⟨fs, h.weaken⟩
  | false =>
    have hw : k.hsWrite env op = [] := by cases op <;> first | rfl | cases hs
    rw [hw]
    exact ⟨_, (Conn.recv_does hl k hk op hs hf).does.1⟩

/-- Every call of a handshake method in this execution is made in the `CONNECTING` state. -/
def Conn.HsOk (env : Env X E H) : Conn X E → List (Op H) → Prop
  | _, [] => True
  | k, op :: ops => op.HsOk k.core ∧ Conn.HsOk env (k.apply env op).2 ops

/-- The whole output of an execution, including what is still in `data_to_send()`. -/
def Conn.output (env : Env X E H) (k : Conn X E) (ops : List (Op H)) : List Bytes :=
  (k.exec env ops).1.sent ++ (k.exec env ops).2.core.writes

/-- An execution is described by elementary steps. -/
theorem Conn.exec_path {env : Env X E H} (hl : env.Lawful) (k : Conn X E) (hk : k.Settled)
    (ops : List (Op H)) (ho : k.HsOk env ops) :
    ∃ is ws, Path env false k.core is ws (k.exec env ops).2.core ∧
      k.output env ops = k.core.writes ++ ws ∧ rawItems is = k.hsWrites env ops := by
  induction ops generalizing k with
  | nil => exact ⟨[], [], .refl, by simp [Conn.output, Conn.exec], rfl⟩
  | cons op ops ih =>
    obtain ⟨is, ws, hp, hw, hr⟩ := ih _ (Conn.apply_settled env hk op) ho.2
    by_cases hd : op = .dataToSend
    · subst hd
      refine ⟨_, _, .step .flush hp, ?_, hr⟩
      simp only [Conn.output, Conn.exec] at hw ⊢
      rw [List.append_assoc, hw]
      rfl
    · obtain ⟨fs, i1, w1, p1, e1, e2, e3⟩ := Conn.apply_does hl k hk op ho.1 hd
      refine ⟨_, _, p1.trans hp, ?_, by rw [rawItems_append, e2, hr]; rfl⟩
      simp only [Conn.output, Conn.exec] at hw ⊢
      cases op with
      | dataToSend => exact absurd rfl hd
      | _ => simp only [List.nil_append]; rw [hw, e1, List.append_assoc]

end WS
