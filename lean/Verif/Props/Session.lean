import Verif.Props.EndToEnd
import Verif.Props.Pmd

/-!
# End-to-end delivery with extensions: C69
-/

namespace WS

open Spec

variable {X E H : Type}

/-! ## Specification -/

/-- One more frame of a sequence of messages. The booleans tell whether a message is in progress
before and after this frame. -/
inductive Spec.Next : Bool → Frame → Bool → Prop where
  | ctrl {u f} : f.opcode.isCtrl = true → Next u f u
  | start {f} : f.opcode = .text ∨ f.opcode = .binary → Next false f (!f.fin)
  | cont {f} : f.opcode = .cont → Next true f (!f.fin)

/-- A relation between the extensions of a sender and those of a receiver makes a channel if:

* the sender can encode every frame of at most `size` bytes that may come next, and then the
  receiver either decodes it to the original frame, or raises an exception because of its limit;
* decoding anything doesn't disturb the sender, and encoding anything doesn't disturb the receiver. -/
structure Spec.Channel (ops : ExtOps X) (size : Nat) (R : Bool → List X → List X → Prop) :
    Prop where
  send : ∀ {u xs ys f u'}, R u xs ys → Next u f u' → ValidFrame f → f.data.length ≤ size →
    ∃ g xs', applyExts ops.encode xs f = (.ok g, xs') ∧ g.data.length < 2 ^ 64 ∧
      (∃ ys', g.finish ops ys none = (.ok f, ys') ∧ R u' xs' ys') ∧
      ∀ limit, (∃ ys', g.finish ops ys limit = (.ok f, ys') ∧ R u' xs' ys') ∨
        ∃ e ys', g.finish ops ys limit = (.error e, ys')
  receive : ∀ {u xs ys}, R u xs ys → ∀ limit g, R u (Frame.finish ops xs limit g).2 ys
  answer : ∀ {u xs ys}, R u xs ys → ∀ f, R u xs (applyExts ops.encode ys f).2

/-- What the extensions of a sender go through: frames that are encoded, each with its encoded
form, and frames that are decoded. -/
inductive Sends (ops : ExtOps X) (size : Nat) :
    Bool → List X → List (Frame × Frame) → Bool → List X → Prop where
  | nil {u xs} : Sends ops size u xs [] u xs
  | send {u f u1 g xs xs1 l u' xs'} : Next u f u1 → ValidFrame f → f.data.length ≤ size →
      applyExts ops.encode xs f = (.ok g, xs1) → Sends ops size u1 xs1 l u' xs' →
      Sends ops size u xs ((f, g) :: l) u' xs'
  | receive {u xs l u' xs'} (limit : Option Int) (g : Frame) :
      Sends ops size u (g.finish ops xs limit).2 l u' xs' → Sends ops size u xs l u' xs'

theorem Sends.trans {ops : ExtOps X} {size : Nat} {u u1 u2 : Bool} {xs xs1 xs2 : List X}
    {l l' : List (Frame × Frame)} (h : Sends ops size u xs l u1 xs1)
    (h' : Sends ops size u1 xs1 l' u2 xs2) : Sends ops size u xs (l ++ l') u2 xs2 := by
  induction h with
  | nil => exact h'
  | send h1 h2 h3 h4 _ ih => exact .send h1 h2 h3 h4 (ih h')
  | receive limit g _ ih => exact .receive limit g (ih h')

/-- The receiver is ready for the frames `l`. -/
def Ready (ops : ExtOps X) (size : Nat) (R : Bool → List X → List X → Prop)
    (l : List (Frame × Frame)) (ys : List X) : Prop :=
  ∃ u xs u' xs', R u xs ys ∧ Sends ops size u xs l u' xs'

theorem Ready.answer {ops : ExtOps X} {size : Nat} {R : Bool → List X → List X → Prop}
    (hc : Channel ops size R) {l : List (Frame × Frame)} {ys : List X} (h : Ready ops size R l ys)
    (f : Frame) : Ready ops size R l (applyExts ops.encode ys f).2 := by
  obtain ⟨u, xs, u', xs', h1, h2⟩ := h
  exact ⟨u, xs, u', xs', hc.answer h1 f, h2⟩

theorem Ready.next {ops : ExtOps X} {size : Nat} {R : Bool → List X → List X → Prop}
    (hc : Channel ops size R) {f g : Frame} {l : List (Frame × Frame)} {ys : List X}
    (h : Ready ops size R ((f, g) :: l) ys) (limit : Option Int) :
    (∃ ys', g.finish ops ys limit = (.ok f, ys') ∧ Ready ops size R l ys') ∨
      ∃ e ys', g.finish ops ys limit = (.error e, ys') := by
  obtain ⟨u, xs, u', xs', h1, h2⟩ := h
  generalize he : (f, g) :: l = l0 at h2
  induction h2 with
  | nil => cases he
  | @send u f1 u1 g1 xs xs1 l1 u' xs' e1 e2 e3 e4 e5 _ =>
    simp only [List.cons.injEq, Prod.mk.injEq] at he
    obtain ⟨⟨rfl, rfl⟩, rfl⟩ := he
    obtain ⟨g2, xs2, k1, k2, _, k3⟩ := hc.send h1 e1 e2 e3
    rw [e4] at k1
    simp only [Prod.mk.injEq, Except.ok.injEq] at k1
    obtain ⟨rfl, rfl⟩ := k1
    rcases k3 limit with ⟨ys', j1, j2⟩ | hk
    · exact .inl ⟨ys', j1, _, _, _, _, j2, e5⟩
    · exact .inr hk
  | receive lim g1 _ ih => exact ih (hc.receive h1 lim g1) he

/-! ## The sender -/

/-- What a core sends between two states. -/
structure Chan (env : Env X E H) (size : Nat) (u : Bool) (c : Core X E) (l : List (Frame × Frame))
    (u' : Bool) (c' : Core X E) : Prop where
  side : c'.side = c.side
  sends : Sends env.ops size u c.exts l u' c'.exts
  writes : ∃ ws ws', c'.writes = c.writes ++ ws ∧ Wires (c.side = .client) (l.map (·.2)) ws' ∧
    ws'.flatten = ws.flatten

/-- `u` is right as long as frames may be sent. -/
structure Live (R : Bool → List X → List X → Prop) (u : Bool) (c : Core X E) : Prop where
  cont : c.state = .opened → u = c.expectCont
  state : c.state ≠ .connecting
  related : ∃ ys, R u c.exts ys

theorem Wires.append {masked : Bool} {fs gs : List Frame} {ws vs : List Bytes}
    (h : Wires masked fs ws) (h' : Wires masked gs vs) : Wires masked (fs ++ gs) (ws ++ vs) := by
  induction h with
  | nil => exact h'
  | cons hw _ ih => exact .cons hw ih

theorem Chan.trans {env : Env X E H} {size : Nat} {u u1 u2 : Bool} {c c1 c2 : Core X E}
    {l l' : List (Frame × Frame)} (h : Chan env size u c l u1 c1) (h' : Chan env size u1 c1 l' u2 c2) :
    Chan env size u c (l ++ l') u2 c2 := by
  obtain ⟨ws, vs, e1, e2, e3⟩ := h.writes
  obtain ⟨ws', vs', f1, f2, f3⟩ := h'.writes
  rw [h.side] at f2
  exact ⟨h'.side.trans h.side, h.sends.trans h'.sends, ws ++ ws', vs ++ vs', by
    rw [f1, e1, List.append_assoc], by rw [List.map_append]; exact e2.append f2, by
    rw [List.flatten_append, List.flatten_append, e3, f3]⟩

/-- Nothing follows a close frame. -/
def Spec.CloseLast (fs : List Frame) : Prop :=
  ∀ pre f post, fs = pre ++ f :: post → f.opcode = .close → post = []

/-- Nothing is sent unless the connection is open; it isn't open after sending a close frame. -/
structure Tidy (c : Core X E) (fs : List Frame) (c' : Core X E) : Prop where
  closed : c.state ≠ .opened → fs = [] ∧ c'.state ≠ .opened
  last : CloseLast fs
  ended : ∀ f ∈ fs, f.opcode = .close → c'.state ≠ .opened

theorem Tidy.trans {c c1 c2 : Core X E} {fs gs : List Frame} (h : Tidy c fs c1) (h' : Tidy c1 gs c2) :
    Tidy c (fs ++ gs) c2 := by
  by_cases hc : c1.state = .opened
  · have hn : ∀ f ∈ fs, f.opcode ≠ .close := fun f hf he => h.ended f hf he hc
    refine ⟨fun hx => absurd hc (h.closed hx).2, ?_, ?_⟩
    · intro pre f post he hf
      rcases List.append_eq_append_iff.1 he with ⟨as, rfl, h2⟩ | ⟨as, rfl, h2⟩
      · exact h'.last as f post h2 hf
      · cases as with
        | nil => exact h'.last [] f post h2.symm hf
        | cons a as =>
          simp only [List.cons_append, List.cons.injEq] at h2
          exact absurd hf (hn f (by simp [h2.1]))
    · intro f hf he
      rcases List.mem_append.1 hf with hf | hf
      · exact absurd he (hn f hf)
      · exact h'.ended f hf he
  · obtain ⟨rfl, h2⟩ := h'.closed hc
    rw [List.append_nil]
    exact ⟨fun hx => ⟨(h.closed hx).1, h2⟩, h.last, fun _ _ _ => h2⟩

theorem Tidy.nil {c c' : Core X E} (h : c.state ≠ .opened → c'.state ≠ .opened) : Tidy c [] c' :=
  ⟨fun hx => ⟨rfl, h hx⟩, (fun pre _ _ he => by cases pre <;> cases he), nofun⟩

/-- From one state to another, the data frames sent are exactly `fs`. -/
def Adv (env : Env X E H) (size : Nat) (R : Bool → List X → List X → Prop) (c c' : Core X E)
    (fs : List Frame) : Prop :=
  ∀ u, Live R u c → ∃ l u', Chan env size u c l u' c' ∧ Live R u' c' ∧ Tidy c (l.map (·.1)) c' ∧
    onlyData (l.map (·.1)) = fs

theorem Spec.onlyData_append (fs gs : List Frame) :
    onlyData (fs ++ gs) = onlyData fs ++ onlyData gs := List.filter_append ..

section
variable {env : Env X E H} {size : Nat} {R : Bool → List X → List X → Prop}

theorem Adv.trans {c c1 c2 : Core X E} {fs gs : List Frame} (h : Adv env size R c c1 fs)
    (h' : Adv env size R c1 c2 gs) : Adv env size R c c2 (fs ++ gs) := by
  intro u hu
  obtain ⟨l, u1, a1, a2, a4, a3⟩ := h u hu
  obtain ⟨l', u2, b1, b2, b4, b3⟩ := h' u1 a2
  exact ⟨l ++ l', u2, a1.trans b1, b2, by rw [List.map_append]; exact a4.trans b4, by
    rw [List.map_append, onlyData_append, a3, b3]⟩

theorem Adv.trans' {c c1 c2 : Core X E} (h : Adv env size R c c1 []) (h' : Adv env size R c1 c2 []) :
    Adv env size R c c2 [] := h.trans h'

/-- Changes that matter neither to the extensions nor to what is sent. -/
theorem Adv.quiet {c c' : Core X E} (h1 : c'.side = c.side) (h2 : c'.exts = c.exts)
    (h3 : ∃ ws, c'.writes = c.writes ++ ws ∧ ws.flatten = [])
    (h4 : c.state ≠ .connecting → c'.state ≠ .connecting)
    (h5 : c'.state = .opened → c.state = .opened ∧ c'.expectCont = c.expectCont) :
    Adv env size R c c' [] := by
  intro u hu
  obtain ⟨ws, e1, e2⟩ := h3
  refine ⟨[], u, ⟨h1, by rw [h2]; exact .nil, ws, [], e1, .nil, e2.symm⟩,
    ⟨fun h => ?_, h4 hu.state, by rw [h2]; exact hu.related⟩, .nil fun h h' => h (h5 h').1, rfl⟩
  rw [(h5 h).2]
  exact hu.cont (h5 h).1

theorem Adv.refl {c : Core X E} : Adv env size R c c [] :=
  .quiet rfl rfl ⟨[], by simp, rfl⟩ id fun h => ⟨h, rfl⟩

/-- Sending a frame, once `expect_continuation_frame` has been updated. -/
theorem Core.sendFrame_sends (hc : Channel env.ops size R) (c : Core X E) (x : Bool) (f : Frame)
    (hn : c.state = .opened → Next c.expectCont f x)
    (hck : f.opcode.isCtrl = false → ValidFrame f)
    (hs : ValidFrame f → f.data.length ≤ size) (u : Bool) (hu : Live R u c) :
    ∃ l u', Chan env size u c l u' (Core.sendFrame env { c with expectCont := x } f).2 ∧
      Live R u' (Core.sendFrame env { c with expectCont := x } f).2 ∧
      (l = [] ∨ l.map (·.1) = [f] ∧ c.state = .opened ∧
        (Core.sendFrame env { c with expectCont := x } f).1 = none) ∧
      (Core.sendFrame env { c with expectCont := x } f).2.state = c.state ∧
      onlyData (l.map (·.1)) =
        (if (Core.sendFrame env { c with expectCont := x } f).1 = none then onlyData [f] else []) := by
  by_cases ho : c.state = .opened
  · have hu' := hu.cont ho
    have hn := hn ho
    rw [← hu'] at hn
    unfold Core.sendFrame
    simp only [ho, ne_eq, not_true_eq_false, if_false]
    unfold Frame.serializeExt
    by_cases hv : ValidFrame f
    · rw [(Frame.check_ok_iff f).2 hv]
      obtain ⟨ys, hr⟩ := hu.related
      obtain ⟨g, xs', e1, e2, ⟨ys', _, e3⟩, _⟩ := hc.send hr hn hv (hs hv)
      simp only [e1]
      have hk : keyFor env.rand c.side c.nmask =
          if c.side = .client then some (env.rand c.nmask) else none := by
        cases c.side <;> rfl
      have hkl : ∀ k, keyFor env.rand c.side c.nmask = some k → k.length = 4 := by
        intro k hk
        cases hsd : c.side with
        | client => rw [hsd] at hk; cases hk; exact env.rand_len _
        | server => rw [hsd] at hk; cases hk
      rw [← hk]
      cases hw : g.wire (keyFor env.rand c.side c.nmask) with
      | error e =>
        exfalso
        unfold Frame.wire at hw
        rw [if_pos e2] at hw
        cases hkk : keyFor env.rand c.side c.nmask with
        | none => rw [hkk] at hw; simp at hw
        | some k => rw [hkk] at hw; simp [applyMask_eq (hkl k hkk)] at hw
      | ok w =>
        simp only [if_true]
        refine ⟨[(f, g)], x, ⟨rfl, .send hn hv (hs hv) e1 .nil, [w], [w], rfl, ?_, rfl⟩,
          ⟨fun _ => rfl, by simp [ho], _, e3⟩, .inr ⟨rfl, by simp⟩, by simp [ho], rfl⟩
        refine .cons ?_ .nil
        obtain ⟨a, b, c', d, k1, k2, k3, k4, k5⟩ := ((Frame.wire_iff _ _ _).1 hw).2
        refine ⟨keyFor env.rand c.side c.nmask, ?_, a, b, c', d, k1, k2, k3, nofun, k5⟩
        cases c.side <;> rfl
    · have hctrl : f.opcode.isCtrl = true := by
        cases h : f.opcode.isCtrl with
        | true => rfl
        | false => exact absurd (hck h) hv
      have hux : u = x := by
        cases hn with
        | ctrl _ => rfl
        | start h => rcases h with h | h <;> rw [h] at hctrl <;> cases hctrl
        | cont h => rw [h] at hctrl; cases hctrl
      cases hch : f.check with
      | ok v => exact absurd ((Frame.check_ok_iff f).1 hch) hv
      | error e =>
        simp only
        refine ⟨[], u, ⟨rfl, .nil, [], [], by simp, .nil, rfl⟩, ⟨fun _ => hux, by simp [ho],
          hu.related⟩, .inl rfl, by simp [ho], rfl⟩
  · unfold Core.sendFrame
    simp only [ho, ne_eq, not_false_eq_true, if_true]
    exact ⟨[], u, ⟨rfl, .nil, [], [], by simp, .nil, rfl⟩,
      ⟨fun h => absurd h ho, hu.state, hu.related⟩, .inl rfl, by simp, rfl⟩

theorem Tidy.one {c c' : Core X E} {f : Frame} {l : List (Frame × Frame)} {P : Prop}
    (h : l = [] ∨ l.map (·.1) = [f] ∧ c.state = .opened ∧ P)
    (hs : c.state ≠ .opened → c'.state ≠ .opened) (hf : f.opcode = .close → c'.state ≠ .opened) :
    Tidy c (l.map (·.1)) c' := by
  rcases h with rfl | ⟨h, ho, -⟩
  · exact .nil hs
  · rw [h]
    refine ⟨fun hx => absurd ho hx, ?_, ?_⟩
    · intro pre g post he _
      cases pre with
      | nil => cases he; rfl
      | cons a pre => cases pre <;> cases he
    · intro g hg hc
      rw [List.mem_singleton] at hg
      subst hg
      exact hf hc

theorem Core.sendFrame_adv (hc : Channel env.ops size R) (c : Core X E) (x : Bool) (f : Frame)
    (hn : c.state = .opened → Next c.expectCont f x)
    (hck : f.opcode.isCtrl = false → ValidFrame f)
    (hs : ValidFrame f → f.data.length ≤ size) (hcl : f.opcode ≠ .close) :
    Adv env size R c (Core.sendFrame env { c with expectCont := x } f).2
      (if (Core.sendFrame env { c with expectCont := x } f).1 = none then onlyData [f] else []) := by
  intro u hu
  obtain ⟨l, u', a1, a2, a3, a4, a5⟩ := Core.sendFrame_sends hc c x f hn hck hs u hu
  exact ⟨l, u', a1, a2, .one a3 (by rw [a4]; exact id) fun h => absurd h hcl, a5⟩

/-- Sending a close frame; then the connection is closing. -/
theorem Core.sendFrame_close_adv (hc : Channel env.ops size R) (h125 : 125 ≤ size) (c : Core X E)
    (d : Bytes) {e : Option Exc} {c2 : Core X E}
    (hx : c.sendFrame env { fin := true, opcode := .close, data := d } = (e, c2)) :
    Adv env size R c (if e = none then { c2 with state := .closing } else c2) [] := by
  intro u hu
  obtain ⟨l, u', a1, a2, a3, a4, a5⟩ := Core.sendFrame_sends (env := env) hc c c.expectCont
    { fin := true, opcode := .close, data := d } (fun _ => .ctrl rfl) (fun h => by cases h)
    (fun hv => Nat.le_trans (hv.2.2.2 (by simp [IsControl])).2 h125) u hu
  have hx : Core.sendFrame env { c with expectCont := c.expectCont }
    { fin := true, opcode := .close, data := d } = (e, c2) := hx
  rw [hx] at a1 a2 a3 a4 a5
  have hd : onlyData [({ fin := true, opcode := .close, data := d } : Frame)] = [] := by
    simp [onlyData]
  rw [hd, ite_self] at a5
  split
  · exact ⟨l, u', ⟨a1.side, a1.sends, a1.writes⟩, ⟨(fun h => by cases h), by simp, a2.related⟩,
      .one a3 (fun _ => by simp) fun _ => by simp, a5⟩
  · rename_i he
    have hl : l = [] := by
      rcases a3 with h | ⟨-, -, h⟩
      · exact h
      · exact absurd h he
    subst hl
    exact ⟨[], u', a1, a2, .nil (by rw [a4]; exact id), rfl⟩

theorem Core.sendFrame_ctrl_adv (hc : Channel env.ops size R) (h125 : 125 ≤ size) (c : Core X E)
    (f : Frame) (hf : f.opcode.isCtrl = true) (hcl : f.opcode ≠ .close) :
    Adv env size R c (Core.sendFrame env c f).2 [] := by
  have hd : onlyData [f] = [] := by
    cases ho : f.opcode <;> simp_all [onlyData, Opcode.isCtrl]
  have h := Core.sendFrame_adv hc c c.expectCont f (fun _ => .ctrl hf) (fun h => by rw [hf] at h; cases h)
    (fun hv => Nat.le_trans (hv.2.2.2 (by
      cases ho : f.opcode <;> simp_all [IsControl, Opcode.isCtrl])).2 h125) hcl
  rw [hd, ite_self] at h
  exact h

theorem Core.sendEof_adv (c : Core X E) (h : c.state ≠ .opened) : Adv env size R c c.sendEof.2 [] := by
  unfold Core.sendEof
  split
  · exact .refl
  · exact .quiet rfl rfl ⟨[[]], rfl, rfl⟩ id fun h' => absurd h' h

theorem Core.sendEof_adv' (c : Core X E) : Adv env size R c c.sendEof.2 [] := by
  unfold Core.sendEof
  split
  · exact .refl
  · exact .quiet rfl rfl ⟨[[]], rfl, rfl⟩ id fun h' => ⟨h', rfl⟩

theorem Core.failEof_adv (c : Core X E) : Adv env size R c c.failEof.2 [] := by
  unfold Core.failEof
  split
  · exact Core.sendEof_adv' c
  · exact .refl

theorem Core.sendCloseFrame_adv (hc : Channel env.ops size R) (h125 : 125 ≤ size) (c : Core X E)
    (d : Bytes) : Adv env size R c (c.sendCloseFrame env d).2 [] := by
  unfold Core.sendCloseFrame
  cases hx : c.sendFrame env { fin := true, opcode := .close, data := d } with
  | mk e c2 =>
    have h := Core.sendFrame_close_adv hc h125 c d hx
    cases e with
    | some e => exact h
    | none =>
      simp only [if_true] at h ⊢
      split
      · exact h.trans' (Core.sendEof_adv' _)
      · exact h

theorem Core.failConnection_adv (hc : Channel env.ops size R) (h125 : 125 ≤ size) (c : Core X E)
    (code : Int) (reason : PyStr) : Adv env size R c (c.failConnection env code reason).2 [] := by
  unfold Core.failConnection
  split
  · cases serializeClose code reason with
    | error e => exact .refl
    | ok d =>
      simp only
      cases hx : c.sendFrame env { fin := true, opcode := .close, data := d } with
      | mk e c2 =>
        have h := Core.sendFrame_close_adv hc h125 c d hx
        cases e with
        | some e => exact h
        | none =>
          simp only [if_true] at h
          exact h.trans' (Core.failEof_adv _)
  · exact Core.failEof_adv _

theorem Core.handleFrame_adv (hc : Channel env.ops size R) (h125 : 125 ≤ size) (c : Core X E)
    (f : Frame) : Adv env size R c (c.handleFrame env f).2 [] := by
  have q : ∀ c' : Core X E, c'.side = c.side → c'.exts = c.exts → c'.writes = c.writes →
      c'.state = c.state → c'.expectCont = c.expectCont → Adv env size R c c' [] := by
    intro c' h1 h2 h3 h4 h5
    exact .quiet h1 h2 ⟨[], by simp [h3], rfl⟩ (by rw [h4]; exact id) fun h => ⟨h4 ▸ h, h5⟩
  unfold Core.handleFrame
  split
  · repeat' split
    all_goals exact q _ rfl rfl rfl rfl rfl
  · repeat' split
    all_goals exact q _ rfl rfl rfl rfl rfl
  · split
    · exact q _ rfl rfl rfl rfl rfl
    · repeat' split
      all_goals exact q _ rfl rfl rfl rfl rfl
  · split
    · exact Core.sendFrame_ctrl_adv hc h125 c _ rfl (by simp)
    · exact .refl
  · exact .refl
  · simp only
    split
    · exact q _ rfl rfl rfl rfl rfl
    · split
      · exact q _ rfl rfl rfl rfl rfl
      · split
        · refine Adv.trans' (q _ ?_ ?_ ?_ ?_ ?_) (Core.sendCloseFrame_adv hc h125 _ _) <;> rfl
        · exact q _ rfl rfl rfl rfl rfl

theorem Core.frameRead_adv (hc : Channel env.ops size R) (h125 : 125 ≤ size) (c : Core X E)
    (lim : Option Int) (stale : Option (List X)) (raw : Frame) :
    Adv env size R c (c.frameRead env lim stale raw).2 [] := by
  unfold Core.frameRead
  cases hf : Frame.finish env.ops (stale.getD c.exts) lim raw with
  | mk res xs =>
    have h1 : Adv env size R c (if stale.isNone then { c with exts := xs } else c) [] := by
      cases stale with
      | some s => exact .refl
      | none =>
        simp only [Option.isNone_none, if_true, Option.getD_none] at hf ⊢
        intro u hu
        obtain ⟨ys, hr⟩ := hu.related
        have hx : (raw.finish env.ops c.exts lim).2 = xs := by rw [hf]
        have := hc.receive hr lim raw
        rw [hx] at this
        exact ⟨[], u, ⟨rfl, .receive lim raw (by rw [hx]; exact .nil), [], [], by simp, .nil, rfl⟩,
          ⟨hu.cont, hu.state, ys, this⟩, .nil id, rfl⟩
    simp only
    cases res with
    | error e => exact h1
    | ok f =>
      have h2 := Core.handleFrame_adv hc h125 (if stale.isNone then { c with exts := xs } else c) f
      simp only
      cases hh : (if stale.isNone then { c with exts := xs } else c).handleFrame env f with
      | mk e c2 =>
        rw [hh] at h2
        cases e with
        | some e => exact h1.trans' h2
        | none =>
          exact (h1.trans' h2).trans' (.quiet rfl rfl ⟨[], by simp [Core.addEvent], rfl⟩ id
            fun h => ⟨h, rfl⟩)

theorem Core.atEnd_adv (c : Core X E) : Adv env size R c c.atEnd.2 [] := by
  unfold Core.atEnd
  split
  · exact Core.failEof_adv c
  · exact .refl

theorem Conn.parseTop_adv (hc : Channel env.ops size R) (h125 : 125 ≤ size) (c : Core X E)
    (r : Reader) : Adv env size R c (Conn.parseTop env c r).2.core [] := by
  unfold Conn.parseTop
  generalize r.buf.length + 1 = n
  induction n generalizing c r with
  | zero => exact .refl
  | succ n ih =>
    unfold Conn.loop
    cases r.atEof with
    | none => exact .refl
    | some b =>
      cases b with
      | true =>
        have := Core.atEnd_adv (env := env) (size := size) (R := R) c
        simp only
        cases hx : c.atEnd with
        | mk e c2 =>
          rw [hx] at this
          cases e <;> exact this
      | false =>
        simp only
        cases (Frame.parseRaw c.maskIn c.frameLimit).run r with
        | blocked co r => exact .refl
        | raised e r => exact .refl
        | done raw r =>
          have := Core.frameRead_adv hc h125 c c.frameLimit none raw
          simp only
          cases hx : c.frameRead env c.frameLimit none raw with
          | mk e c2 =>
            rw [hx] at this
            cases e with
            | some e => exact this
            | none => exact this.trans' (ih _ _)

theorem Conn.step_adv (hc : Channel env.ops size R) (h125 : 125 ≤ size) (k : Conn X E)
    (hp : k.pstate.Past) : Adv env size R k.core (k.step env).2.core [] := by
  by_cases hd : k.pstate = .dead
  · rw [Conn.step_dead env k hd]; exact .refl
  · rw [Conn.step_alive env k hd]
    have key : Adv env size R k.core (k.resume env).2.core [] := by
      unfold Conn.resume
      split
      · exact .refl
      · exact .refl
      · exact Conn.parseTop_adv hc h125 _ _
      · rename_i co lim stale heq
        cases co.run k.reader with
        | blocked co r => exact .refl
        | raised e r => exact .refl
        | done raw r =>
          have := Core.frameRead_adv hc h125 k.core lim stale raw
          simp only
          cases hx : k.core.frameRead env lim stale raw with
          | mk e c2 =>
            rw [hx] at this
            cases e with
            | some e => exact this
            | none => exact this.trans' (Conn.parseTop_adv hc h125 _ _)
      · rename_i heq
        rw [heq] at hp
        exact hp.elim
    cases hx : k.resume env with
    | mk e k' =>
      rw [hx] at key
      cases e with
      | none => exact key
      | some e =>
        have := Core.failConnection_adv hc h125 k'.core (failCode e).1 (failCode e).2
        simp only
        cases hy : k'.core.failConnection env (failCode e).1 (failCode e).2 with
        | mk e2 c2 =>
          rw [hy] at this
          cases e2 with
          | some e2 => exact key.trans' this
          | none => exact (key.trans' this).trans' (.quiet rfl rfl ⟨[], by simp, rfl⟩ id
              fun h => ⟨h, rfl⟩)

theorem Conn.apply_past (hl : env.Lawful) (k : Conn X E) (hs : k.Sound) (hp : k.pstate.Past)
    (op : Op H) (hh : op.isHandshake = false) : (k.apply env op).2.pstate.Past := by
  cases hsend : op.isSend with
  | true =>
    have hne : ∀ x, op ≠ .handshake x := by rintro x rfl; cases hh
    rw [(Conn.send_recvQuiet env k op hsend hne).2.2]; exact hp
  | false =>
    cases op with
    | receiveData d =>
      simp only [Conn.apply, Conn.receiveData_eq]
      split
      · exact hp
      · exact Conn.step_past env (k.push d) hs hp
    | receiveEof =>
      simp only [Conn.apply, Conn.receiveEof_eq]
      split
      · exact hp
      · exact Conn.step_past env _ hs hp
    | eventsReceived => exact hp
    | dataToSend => exact hp
    | _ => cases hsend

/-- The size of the data given to a call. -/
def Spec.dataSize (op : Op H) : Nat := ((dataCall op).map (·.data.length)).getD 0

theorem Conn.apply_adv (hc : Channel env.ops size R) (h125 : 125 ≤ size) (k : Conn X E)
    (hp : k.pstate.Past) (op : Op H) (hh : op.isHandshake = false) (hd : op ≠ .dataToSend)
    (hs : dataSize op ≤ size) :
    Adv env size R k.core (k.apply env op).2.core (dataCalls [op] [(k.apply env op).1]) := by
  have hnil : dataCall op = none → ∀ r, dataCalls [op] [r] = [] := by
    intro h r
    cases r <;> simp [dataCalls, h]
  have key : ∀ f, dataCall op = some f → ∀ r : Option Exc,
      dataCalls [op] [r] = if r = none then onlyData [f] else [] := by
    intro f h r
    have hf : onlyData [f] = [f] := by
      cases op <;> simp [dataCall] at h <;> subst h <;> rfl
    cases r <;> simp [dataCalls, h, hf]
  cases op with
  | sendContinuation d fin =>
    rw [key _ rfl]
    simp only [Conn.apply, Conn.onCore, Core.sendContinuation]
    split
    · exact .refl
    · rename_i hx
      refine Core.sendFrame_adv hc k.core (!fin) _ (fun _ => ?_) (fun _ => ?_) (fun _ => hs) (by simp)
      · have : k.core.expectCont = true := by simpa using hx
        rw [this]
        exact .cont (f := { fin, opcode := .cont, data := d }) rfl
      · exact ⟨rfl, rfl, rfl, fun h => by rcases h with h | h | h <;> cases h⟩
  | sendText d fin =>
    rw [key _ rfl]
    simp only [Conn.apply, Conn.onCore, Core.sendData]
    split
    · exact .refl
    · rename_i hx
      refine Core.sendFrame_adv hc k.core (!fin) _ (fun _ => ?_) (fun _ => ?_) (fun _ => hs) (by simp)
      · have : k.core.expectCont = false := by simpa using hx
        rw [this]
        exact .start (f := { fin, opcode := .text, data := d }) (.inl rfl)
      · exact ⟨rfl, rfl, rfl, fun h => by rcases h with h | h | h <;> cases h⟩
  | sendBinary d fin =>
    rw [key _ rfl]
    simp only [Conn.apply, Conn.onCore, Core.sendData]
    split
    · exact .refl
    · rename_i hx
      refine Core.sendFrame_adv hc k.core (!fin) _ (fun _ => ?_) (fun _ => ?_) (fun _ => hs) (by simp)
      · have : k.core.expectCont = false := by simpa using hx
        rw [this]
        exact .start (f := { fin, opcode := .binary, data := d }) (.inr rfl)
      · exact ⟨rfl, rfl, rfl, fun h => by rcases h with h | h | h <;> cases h⟩
  | sendClose code reason =>
    rw [hnil rfl]
    simp only [Conn.apply, Conn.onCore, Core.sendClose]
    split
    · exact .refl
    · split
      · split
        · exact .refl
        · exact Core.sendCloseFrame_adv hc h125 _ _
      · split
        · exact .refl
        · exact Core.sendCloseFrame_adv hc h125 _ _
  | sendPing d => rw [hnil rfl]; exact Core.sendFrame_ctrl_adv hc h125 _ _ rfl (by simp)
  | sendPong d => rw [hnil rfl]; exact Core.sendFrame_ctrl_adv hc h125 _ _ rfl (by simp)
  | receiveData d =>
    rw [hnil rfl]
    simp only [Conn.apply, Conn.receiveData_eq]
    split
    · exact .refl
    · exact Conn.step_adv hc h125 (k.push d) hp
  | receiveEof =>
    rw [hnil rfl]
    simp only [Conn.apply, Conn.receiveEof_eq]
    split
    · exact .refl
    · exact Conn.step_adv hc h125 { k with reader := { k.reader with eof := true } } hp
  | eventsReceived =>
    rw [hnil rfl]
    exact .quiet rfl rfl ⟨[], by simp [Conn.apply], rfl⟩ id fun h => ⟨h, rfl⟩
  | dataToSend => exact absurd rfl hd
  | handshake h => cases hh

/-- What an execution sends. -/
theorem Conn.exec_adv (hl : env.Lawful) (hc : Channel env.ops size R) (h125 : 125 ≤ size)
    (k : Conn X E) (hsd : k.Sound) (hp : k.pstate.Past) (u : Bool) (hu : Live R u k.core)
    (ops : List (Op H)) (hops : ∀ op ∈ ops, op.isHandshake = false)
    (hsz : ∀ op ∈ ops, dataSize op ≤ size) :
    ∃ l u' xs' ws ws', Sends env.ops size u k.core.exts l u' xs' ∧
      k.output env ops = k.core.writes ++ ws ∧ Wires (k.core.side = .client) (l.map (·.2)) ws' ∧
      ws'.flatten = ws.flatten ∧
      onlyData (l.map (·.1)) = dataCalls ops (k.exec env ops).1.raised ∧
      Tidy k.core (l.map (·.1)) (k.exec env ops).2.core := by
  induction ops generalizing k u with
  | nil => exact ⟨[], u, _, [], [], .nil, by simp [Conn.output, Conn.exec], .nil, rfl, rfl, .nil id⟩
  | cons op ops ih =>
    have hop := hops op (by simp)
    have hho : op.HsOk k.core := by cases op <;> first | trivial | cases hop
    have hp' := Conn.apply_past hl k hsd hp op hop
    have hs' := (Conn.apply_receives hl k hsd op hho).2
    have hops' := fun o ho => hops o (List.mem_cons_of_mem op ho)
    have hsz' := fun o ho => hsz o (List.mem_cons_of_mem op ho)
    have hra : (k.exec env (op :: ops)).1.raised =
        (k.apply env op).1 :: ((k.apply env op).2.exec env ops).1.raised := rfl
    rw [hra, dataCalls_cons]
    by_cases hds : op.isFlush = true
    · cases op with
      | dataToSend =>
        obtain ⟨l, u', xs', ws, ws', g1, g2, g3, g4, g5, g6⟩ := ih (k.apply env .dataToSend).2 hs' hp' u
          ⟨hu.cont, hu.state, hu.related⟩ hops' hsz'
        refine ⟨l, u', xs', ws, ws', g1, ?_, g3, g4, ?_, ⟨g6.closed, g6.last, g6.ended⟩⟩
        · simp only [Conn.output, Conn.exec] at g2 ⊢
          rw [List.append_assoc, g2]
          simp [Conn.apply]
        · rw [g5]; rfl
      | _ => cases hds
    · have hd : op ≠ .dataToSend := by rintro rfl; exact hds rfl
      obtain ⟨l1, u1, a1, a2, a4, a3⟩ := Conn.apply_adv hc h125 k hp op hop hd (hsz op (by simp)) u hu
      obtain ⟨l, u', xs', ws, ws', g1, g2, g3, g4, g5, g6⟩ := ih _ hs' hp' u1 a2 hops' hsz'
      obtain ⟨ws1, vs1, b1, b2, b3⟩ := a1.writes
      rw [a1.side] at g3
      refine ⟨l1 ++ l, u', xs', ws1 ++ ws, vs1 ++ ws', a1.sends.trans g1, ?_, ?_, ?_, ?_, by
        rw [List.map_append]; exact a4.trans g6⟩
      · rw [← List.append_assoc, ← b1, ← g2]
        cases op <;> first | rfl | exact absurd rfl hd
      · rw [List.map_append]; exact b2.append g3
      · rw [List.flatten_append, List.flatten_append, b3, g4]
      · rw [List.map_append, onlyData_append, a3, g5]

/-! ## The receiver -/

/-- What sending does to the extensions. -/
theorem Core.sendFrame_exts (c : Core X E) (f : Frame) :
    (c.sendFrame env f).2.exts = c.exts ∨
      (c.sendFrame env f).2.exts = (applyExts env.ops.encode c.exts f).2 := by
  unfold Core.sendFrame
  split
  · exact .inl rfl
  · simp only
    unfold Frame.serializeExt
    cases f.check with
    | error e => exact .inl rfl
    | ok u =>
      cases ha : applyExts env.ops.encode c.exts f with
      | mk r xs =>
        cases r with
        | error e => exact .inr rfl
        | ok g =>
          simp only
          cases g.wire _ <;> exact .inr rfl

theorem Core.sendFrame_keepExts {P : List X → Prop}
    (hP : ∀ ys f, P ys → P (applyExts env.ops.encode ys f).2) (c : Core X E) (f : Frame)
    (h : P c.exts) : P (c.sendFrame env f).2.exts := by
  rcases Core.sendFrame_exts (env := env) c f with e | e <;> rw [e]
  · exact h
  · exact hP _ _ h

theorem Core.sendEof_exts (c : Core X E) : c.sendEof.2.exts = c.exts := by
  unfold Core.sendEof; cases c.eofSent <;> rfl

theorem Core.sendCloseFrame_keepExts {P : List X → Prop}
    (hP : ∀ ys f, P ys → P (applyExts env.ops.encode ys f).2) (c : Core X E) (d : Bytes)
    (h : P c.exts) : P (c.sendCloseFrame env d).2.exts := by
  have h1 := Core.sendFrame_keepExts hP c { fin := true, opcode := .close, data := d } h
  unfold Core.sendCloseFrame
  cases hx : c.sendFrame env { fin := true, opcode := .close, data := d } with
  | mk e c2 =>
    rw [hx] at h1
    cases e with
    | some e => exact h1
    | none =>
      simp only
      split
      · rw [Core.sendEof_exts]; exact h1
      · exact h1

theorem Core.handleFrame_keepExts {P : List X → Prop}
    (hP : ∀ ys f, P ys → P (applyExts env.ops.encode ys f).2) (c : Core X E) (f : Frame)
    (h : P c.exts) : P (c.handleFrame env f).2.exts := by
  unfold Core.handleFrame
  split
  · repeat' split
    all_goals exact h
  · repeat' split
    all_goals exact h
  · split
    · exact h
    · repeat' split
      all_goals exact h
  · split
    · exact Core.sendFrame_keepExts hP c _ h
    · exact h
  · exact h
  · simp only
    split
    · exact h
    · split
      · exact h
      · split
        · exact Core.sendCloseFrame_keepExts hP _ _ h
        · exact h

theorem Conn.send_keepExts {P : List X → Prop}
    (hP : ∀ ys f, P ys → P (applyExts env.ops.encode ys f).2) (k : Conn X E) (op : Op H)
    (hs : op.isSend = true) (hh : op.isHandshake = false) (h : P k.core.exts) :
    P (k.apply env op).2.core.exts := by
  cases op with
  | sendContinuation d fin =>
    simp only [Conn.apply, Conn.onCore, Core.sendContinuation]
    split
    · exact h
    · exact Core.sendFrame_keepExts hP _ _ h
  | sendText d fin =>
    simp only [Conn.apply, Conn.onCore, Core.sendData]
    split
    · exact h
    · exact Core.sendFrame_keepExts hP _ _ h
  | sendBinary d fin =>
    simp only [Conn.apply, Conn.onCore, Core.sendData]
    split
    · exact h
    · exact Core.sendFrame_keepExts hP _ _ h
  | sendClose code reason =>
    simp only [Conn.apply, Conn.onCore, Core.sendClose]
    split
    · exact h
    · split
      · split
        · exact h
        · exact Core.sendCloseFrame_keepExts hP _ _ h
      · split
        · exact h
        · exact Core.sendCloseFrame_keepExts hP _ _ h
  | sendPing d => exact Core.sendFrame_keepExts hP _ _ h
  | sendPong d => exact Core.sendFrame_keepExts hP _ _ h
  | handshake h => cases hh
  | _ => cases hs

/-- The next complete frame. -/
theorem Frame.parseRaw_next {masked : Bool} {limit : Option Int} {f raw : Frame} {w b q t : Bytes}
    {r : Reader} (hwf : Wire masked f w) (hb : b ++ q = w ++ t)
    (hrun : (Frame.parseRaw masked limit).run ⟨b, false⟩ = .done raw r) :
    raw = f ∧ r = ⟨b.drop w.length, false⟩ ∧ w.length ≤ b.length ∧ Within raw.data.length limit := by
  obtain ⟨bytes, hbb, hre, hwr, hlim⟩ := Frame.parseRaw_done hrun
  simp only at hbb
  by_cases hlt : b.length < w.length
  · exfalso
    obtain ⟨q', hq'⟩ : ∃ q', w = b ++ q' := by
      rcases List.append_eq_append_iff.1 hb with ⟨l, h1, h2⟩ | ⟨l, h1, h2⟩
      · exact ⟨l, h1⟩
      · have := congrArg List.length h1
        simp at this
        omega
    have h2 := Coro.run_push (r := ⟨b, false⟩) rfl
      (.fresh (Frame.parseRaw_fresh masked none)) q'
    have h3 := Frame.parseRaw_wire (limit := none) hwf (fun m hm => by cases hm) [] false
    have h4 := Frame.parseRaw_wire (limit := none) hwr (fun m hm => by cases hm) r.buf false
    rw [← hbb] at h4
    have h5 : (⟨b, false⟩ : Reader).push q' = ⟨w, false⟩ := by rw [hq']; rfl
    rw [List.append_nil] at h3
    rw [h5, h3, h4] at h2
    simp only [Outcome.resume, Outcome.done.injEq, Reader.push] at h2
    have := congrArg (fun r => r.buf.length) h2.2
    rw [hq'] at hlt
    simp only [List.length_nil, List.length_append] at this hlt
    omega
  · obtain ⟨b1, hb1⟩ : ∃ b1, b = w ++ b1 := by
      rcases List.append_eq_append_iff.1 hb with ⟨l, h1, h2⟩ | ⟨l, h1, h2⟩
      · have h3 := congrArg List.length h1
        simp only [List.length_append] at h3
        have : l = [] := List.length_eq_zero_iff.1 (by omega)
        subst this
        exact ⟨[], by simpa using h1.symm⟩
      · exact ⟨l, h1⟩
    have h3 := Frame.parseRaw_wire (limit := none) hwf (fun m hm => by cases hm) b1 false
    have h4 := Frame.parseRaw_wire (limit := none) hwr (fun m hm => by cases hm) r.buf false
    rw [← hbb, hb1, h3] at h4
    simp only [Outcome.done.injEq, Reader.mk.injEq, and_true] at h4
    refine ⟨h4.1.symm, ?_, by omega, hlim⟩
    cases r with
    | mk rb re =>
      simp only at h4 hre
      rw [hb1, hre, List.drop_left, h4.2]

/-- The parser only waits if a frame isn't complete. -/
theorem Frame.parseRaw_waits {masked : Bool} {limit : Option Int} {f : Frame} {w b q t : Bytes}
    {co : Coro Frame} {r : Reader} (hwf : Wire masked f w) (hb : b ++ q = w ++ t)
    (hrun : (Frame.parseRaw masked limit).run ⟨b, false⟩ = .blocked co r) : b.length < w.length := by
  refine Nat.lt_of_not_le fun hle => ?_
  obtain ⟨b1, hb1⟩ : ∃ b1, b = w ++ b1 := by
    rcases List.append_eq_append_iff.1 hb with ⟨l, h1, h2⟩ | ⟨l, h1, h2⟩
    · have h3 := congrArg List.length h1
      simp only [List.length_append] at h3
      have : l = [] := List.length_eq_zero_iff.1 (by omega)
      subst this
      exact ⟨[], by simpa using h1.symm⟩
    · exact ⟨l, h1⟩
  by_cases hlim : Within f.data.length limit
  · have hr := Frame.parseRaw_wire (limit := limit) hwf hlim b1 false
    rw [← hb1, hrun] at hr
    cases hr
  · obtain ⟨m, rfl, hm2⟩ : ∃ m, limit = some m ∧ m < (f.data.length : Int) := by
      cases limit with
      | none => exact absurd (fun m hm => by cases hm) hlim
      | some m =>
        refine ⟨m, rfl, Int.not_le.1 fun h => hlim fun m' hm' => ?_⟩
        cases hm'
        exact h
    obtain ⟨e, r', h⟩ := Frame.parseRaw_big (m := m) hwf hm2 b1 false
    rw [← hb1, hrun] at h
    cases h

/-- What follows the frames `l`, which haven't been received yet: nothing, or a frame that starts a message in
the middle of another. -/
def Broken (masked : Bool) (l : List (Frame × Frame)) (tail : Bytes) (c : Core X E) : Prop :=
  tail = [] ∨ (∃ hist, Messages (hist.filter isDataFrame) c.curSize.isSome ∧
      Messages ((hist ++ l.map (·.1)).filter isDataFrame) true) ∧
    ∃ g w rest, Wire masked g w ∧ (g.opcode = .text ∨ g.opcode = .binary) ∧ tail = w ++ rest

theorem Broken.congr {masked : Bool} {l : List (Frame × Frame)} {tail : Bytes} {c c' : Core X E}
    (h : Broken masked l tail c) (he : c'.curSize = c.curSize) : Broken masked l tail c' := by
  unfold Broken
  rw [he]
  exact h

/-- Such a frame is refused. -/
theorem Core.frameRead_broken (hl : env.ops.Lawful) (c : Core X E) (hcur : c.curSize ≠ none) {g : Frame}
    (hop : g.opcode = .text ∨ g.opcode = .binary) (lim : Option Int) :
    (c.frameRead env lim none g).1 ≠ none := by
  unfold Core.frameRead
  simp only [Option.getD_none, Option.isNone_none, if_true]
  cases hf : g.finish env.ops c.exts lim with
  | mk res xs =>
    cases res with
    | error e => simp
    | ok f =>
      have ho : f.opcode = .text ∨ f.opcode = .binary := by
        unfold Frame.finish at hf
        cases ha : applyExts (fun x fr => env.ops.decode x fr lim) c.exts.reverse g with
        | mk r ys =>
          rw [ha] at hf
          cases r with
          | error e => simp at hf
          | ok f' =>
            simp only at hf
            cases hck : f'.check with
            | error e => rw [hck] at hf; simp at hf
            | ok u =>
              rw [hck] at hf
              simp only [Prod.mk.injEq, Except.ok.injEq] at hf
              rw [← hf.1, (applyExts_decode hl ha).2.1]
              exact hop
      have he : (Core.handleFrame env { c with exts := xs } f).1 ≠ none := by
        unfold Core.handleFrame
        rcases ho with h | h <;> rw [h] <;> simp only <;> split <;> simp [hcur]
      simp only
      cases hh : Core.handleFrame env { c with exts := xs } f with
      | mk e c2 =>
        rw [hh] at he
        cases e with
        | none => exact absurd rfl he
        | some e => simp

/-- Everything that has been completely received has been delivered, or an error has been
raised. -/
theorem Conn.parseTop_session (hl : env.ops.Lawful) (hc : Channel env.ops size R) {masked : Bool}
    {l : List (Frame × Frame)} {ws : List Bytes} (hw : Wires masked (l.map (·.2)) ws)
    (c : Core X E) (hm : c.maskIn = masked) (hx : Ready env.ops size R l c.exts)
    {tail : Bytes} (ht : Broken masked l tail c) (b q : Bytes) (hb : b ++ q = ws.flatten ++ tail) :
    ∃ l1 l2 ws1 ws2 e k', Conn.parseTop env c ⟨b, false⟩ = (e, k') ∧ l = l1 ++ l2 ∧
      ws = ws1 ++ ws2 ∧ Wires masked (l2.map (·.2)) ws2 ∧
      k'.core.events = c.events ++ (l1.map (·.1)).map .frame ∧
      match e with
      | some _ => k'.pstate = .dead
      | none => ∃ b', b = ws1.flatten ++ b' ∧ ((∀ w ws', ws2 = w :: ws' → b'.length < w.length) ∧
          (ws2 = [] → tail ≠ [] → b'.length < tail.length) ∧ Broken masked l2 tail k'.core) ∧
          k'.At b' ∧ Ready env.ops size R l2 k'.core.exts ∧ k'.core.maskIn = masked := by
  have htops : ∀ (c : Core X E) (b : Bytes), b ≠ [] → Conn.parseTop env c ⟨b, false⟩ =
      match (Frame.parseRaw c.maskIn c.frameLimit).run ⟨b, false⟩ with
      | .blocked co r => (none, ⟨c, r, .inFrame co c.frameLimit none⟩)
      | .raised e r => (some e, ⟨c, r, .dead⟩)
      | .done raw r =>
        match c.frameRead env c.frameLimit none raw with
        | (some e, c) => (some e, ⟨c, r, .dead⟩)
        | (none, c) => Conn.parseTop env c r := by
    intro c b hbn
    rw [Conn.parseTop_eq]
    simp only [Reader.atEof, ne_eq, hbn, not_false_eq_true, if_true]
    cases (Frame.parseRaw c.maskIn c.frameLimit).run ⟨b, false⟩ <;> rfl
  induction l generalizing c b ws with
  | nil =>
    cases hw
    by_cases hbn : b = []
    · subst hbn
      refine ⟨[], [], [], [], none, ⟨c, ⟨[], false⟩, .top⟩, ?_, rfl, rfl, .nil, by simp, [], rfl,
        ⟨nofun, fun _ h => List.length_pos_iff.2 h, ht⟩, ⟨rfl, .inl ⟨rfl, rfl, rfl⟩⟩, hx, hm⟩
      rw [Conn.parseTop_eq]
      rfl
    · rcases ht with rfl | ⟨⟨hist, hh1, hh2⟩, g, w, rest, hwf, hop, rfl⟩
      · exact absurd (List.append_eq_nil_iff.1 (show b ++ q = [] by simpa using hb)).1 hbn
      · have htop := htops c b hbn
        cases hrun : (Frame.parseRaw c.maskIn c.frameLimit).run ⟨b, false⟩ with
        | raised e r =>
          rw [hrun] at htop
          exact ⟨[], [], [], [], some e, _, htop, rfl, rfl, .nil, by simp, rfl⟩
        | blocked co r =>
          rw [hrun] at htop
          have hre : r.eof = false :=
            (Coro.run_ready (.fresh (Frame.parseRaw_fresh _ _)) hrun).2.1.trans rfl
          refine ⟨[], [], [], [], none, _, htop, rfl, rfl, .nil, by simp, b, rfl,
            ⟨nofun, fun _ _ => ?_, .inr ⟨⟨hist, hh1, hh2⟩, g, w, rest, hwf, hop, rfl⟩⟩,
            ⟨hre, .inr ⟨hbn, co, hrun, rfl⟩⟩, hx, hm⟩
          rw [hm] at hrun
          have := Frame.parseRaw_waits hwf hb hrun
          rw [List.length_append]
          omega
        | done raw r =>
          rw [hrun] at htop
          have hrun' := hrun
          rw [hm] at hrun'
          obtain ⟨rfl, hr, hle, hlim⟩ := Frame.parseRaw_next hwf hb hrun'
          have hlen := wire_len hwf
          have hcur : c.curSize ≠ none := by
            rw [List.map_nil, List.append_nil] at hh2
            have := hh1.unique hh2
            intro hn
            rw [hn] at this
            cases this
          have hbad := Core.frameRead_broken (env := env) hl c hcur hop c.frameLimit
          cases hfr : c.frameRead env c.frameLimit none raw with
          | mk e c1 =>
            simp only [hfr] at htop hbad
            cases e with
            | none => exact absurd rfl hbad
            | some e =>
              refine ⟨[], [], [], [], some e, _, htop, rfl, rfl, .nil, ?_, rfl⟩
              have := (Core.Refuse.same ⟨none, raw, hlim, hlen, hfr⟩).2
              simpa using this
  | cons fg l ih =>
    obtain ⟨f, g⟩ := fg
    cases hw with
    | @cons _ w _ ws hwf hws =>
    by_cases hbn : b = []
    · subst hbn
      refine ⟨[], (f, g) :: l, [], w :: ws, none, ⟨c, ⟨[], false⟩, .top⟩, ?_, rfl, rfl,
        .cons hwf hws, by simp, [], rfl, ⟨?_, nofun, ht⟩, ⟨rfl, .inl ⟨rfl, rfl, rfl⟩⟩, hx, hm⟩
      · rw [Conn.parseTop_eq]
        rfl
      · intro w' ws' he
        simp only [List.cons.injEq] at he
        rw [← he.1]
        exact List.length_pos_iff.2 (wire_pos hwf)
    · have htop := htops c b hbn
      cases hrun : (Frame.parseRaw c.maskIn c.frameLimit).run ⟨b, false⟩ with
      | raised e r =>
        rw [hrun] at htop
        exact ⟨[], (f, g) :: l, [], w :: ws, some e, _, htop, rfl, rfl, .cons hwf hws, by simp, rfl⟩
      | blocked co r =>
        rw [hrun] at htop
        have hre : r.eof = false :=
          (Coro.run_ready (.fresh (Frame.parseRaw_fresh _ _)) hrun).2.1.trans rfl
        refine ⟨[], (f, g) :: l, [], w :: ws, none, _, htop, rfl, rfl, .cons hwf hws, by simp, b,
          rfl, ⟨?_, nofun, ht⟩, ⟨hre, .inr ⟨hbn, co, hrun, rfl⟩⟩, hx, hm⟩
        intro w' ws' he
        simp only [List.cons.injEq] at he
        rw [← he.1]
        rw [hm] at hrun
        rw [List.flatten_cons, List.append_assoc] at hb
        exact Frame.parseRaw_waits hwf hb hrun
      | done raw r =>
        rw [hrun] at htop
        have hrun' := hrun
        rw [hm] at hrun'
        rw [List.flatten_cons, List.append_assoc] at hb
        obtain ⟨rfl, hr, hle, hlim⟩ := Frame.parseRaw_next hwf hb hrun'
        have hlen := wire_len hwf
        cases hfr : c.frameRead env c.frameLimit none raw with
        | mk e c1 =>
          simp only [hfr] at htop
          cases e with
          | some e =>
            refine ⟨[], (f, raw) :: l, [], w :: ws, some e, _, htop, rfl, rfl, .cons hwf hws, ?_, rfl⟩
            have := (Core.Refuse.same ⟨none, raw, hlim, hlen, hfr⟩).2
            simpa using this
          | none =>
            simp only at htop
            have hg : c1.events = c.events ++ [.frame f] ∧ Ready env.ops size R l c1.exts ∧
                c1.side = c.side ∧ Broken masked l tail c1 := by
              unfold Core.frameRead at hfr
              simp only [Option.getD_none, Option.isNone_none, if_true] at hfr
              rcases hx.next hc c.frameLimit with ⟨ys', e1, e2⟩ | ⟨e, ys', e1⟩
              · rw [e1] at hfr
                simp only at hfr
                have hk := Core.handleFrame_keepExts (env := env) (P := Ready env.ops size R l)
                  (fun ys f h => h.answer hc f) { c with exts := ys' } f e2
                cases hh : Core.handleFrame env { c with exts := ys' } f with
                | mk e c2 =>
                  rw [hh] at hfr hk
                  cases e with
                  | some e => simp at hfr
                  | none =>
                    simp only [Prod.mk.injEq, true_and] at hfr
                    rw [← hfr]
                    have ha : Accepted env c f (c2.addEvent (.frame f)) :=
                      Core.Accept.accepted hl ⟨none, raw, ys', c2, hlim, hlen,
                        (by simp only [Option.getD_none, e1]),
                        (by simp only [Option.isNone_none, if_true]; rw [hh]), rfl⟩
                    refine ⟨ha.events, hk, ha.emits.1, ?_⟩
                    rcases ht with h | ⟨⟨hist, hh1, hh2⟩, hg⟩
                    · exact .inl h
                    · exact .inr ⟨⟨hist ++ [f], ha.msgs hh1, by simpa using hh2⟩, hg⟩
              · rw [e1] at hfr
                simp at hfr
            obtain ⟨hev, hxn, hsd, htn⟩ := hg
            have hb2 : b.drop w.length ++ q = ws.flatten ++ tail := by
              have := congrArg (List.drop w.length) hb
              rw [List.drop_append_of_le_length hle, List.drop_left] at this
              exact this
            obtain ⟨fs1, fs2, ws1, ws2, e, k', g1, g2, g3, g4, g5, g6⟩ :=
              ih hws c1 (by rw [← hm]; unfold Core.maskIn; rw [hsd]) hxn htn (b.drop w.length) hb2
            refine ⟨(f, raw) :: fs1, fs2, w :: ws1, ws2, e, k', ?_, by rw [g2]; rfl, by rw [g3]; rfl,
              g4, by rw [g5, hev]; simp, ?_⟩
            · rw [htop, hr]; exact g1
            · cases e with
              | some e => exact g6
              | none =>
                obtain ⟨b', j1, j2, j3, j4, j5⟩ := g6
                refine ⟨b', ?_, j2, j3, j4, j5⟩
                have hw' : b.take w.length = w := by
                  have := congrArg (List.take w.length) hb
                  rw [List.take_append_of_le_length hle, List.take_left] at this
                  exact this
                rw [List.flatten_cons, List.append_assoc, ← j1]
                conv => lhs; rw [← List.take_append_drop w.length b, hw']

/-- Frames delivered in an execution when the beginning of `ws` and `tail` is received. -/
theorem Conn.exec_tail (hl : env.Lawful) (hc : Channel env.ops size R) {masked : Bool}
    (ops : List (Op H)) (hops : ∀ op ∈ ops, op.isHandshake = false)
    {l : List (Frame × Frame)} {ws : List Bytes} (hw : Wires masked (l.map (·.2)) ws)
    (k : Conn X E) (hm : k.core.maskIn = masked) (hx : Ready env.ops size R l k.core.exts)
    {tail : Bytes} (ht : Broken masked l tail k.core) (b q : Bytes)
    (ha : k.At b) (hlt : ∀ w ws', ws = w :: ws' → b.length < w.length)
    (hlt2 : ws = [] → tail ≠ [] → b.length < tail.length)
    (hb : b ++ received ops ++ q = ws.flatten ++ tail) :
    ∃ l1 l2, l = l1 ++ l2 ∧
      eventFrames (k.delivered env ops) = eventFrames k.core.events ++ l1.map (·.1) ∧
      (q = [] → (∀ pre op post, ops = pre ++ op :: post → op.isRecv = true →
        ((k.exec env pre).2.apply env op).1 = none) → l2 = [] ∧ tail = []) := by
  induction ops generalizing k l ws b with
  | nil =>
    refine ⟨[], l, rfl, by simp [Conn.delivered, Conn.exec], fun hq _ => ?_⟩
    cases l with
    | nil =>
      cases hw
      refine ⟨rfl, ?_⟩
      by_cases htn : tail = []
      · exact htn
      · have h1 := hlt2 rfl htn
        have h2 := congrArg List.length hb
        rw [hq] at h2
        simp [received] at h2
        omega
    | cons fg l =>
      rw [List.map_cons] at hw
      cases hw with
      | @cons f w _ ws' hwf hws =>
      have h1 := hlt w ws' rfl
      have h2 := congrArg List.length hb
      rw [hq] at h2
      simp [received] at h2
      omega
  | cons op ops ih =>
    have hop := hops op (by simp)
    have hops' := fun o ho => hops o (List.mem_cons_of_mem _ ho)
    -- how the last part follows for the rest of the execution
    have hall : (∀ pre o post, op :: ops = pre ++ o :: post → o.isRecv = true →
        ((k.exec env pre).2.apply env o).1 = none) →
        ∀ pre o post, ops = pre ++ o :: post → o.isRecv = true →
          (((k.apply env op).2.exec env pre).2.apply env o).1 = none := by
      intro h pre o post he ho
      exact h (op :: pre) o post (by rw [he]; rfl) ho
    cases hr : op.isRecv with
    | false =>
      have hrec : received (op :: ops) = received ops := by
        have : op.bytes = [] := by cases op <;> first | rfl | cases hr
        simp [received, this]
      rw [hrec] at hb
      cases hs : op.isSend with
      | true =>
        have hne : ∀ x, op ≠ .handshake x := by rintro x rfl; cases hop
        have hnev : op ≠ .eventsReceived := by rintro rfl; cases hs
        obtain ⟨h1, h2, h3⟩ := Conn.send_recvQuiet env k op hs hne
        have h4 := Conn.send_keepExts (P := Ready env.ops size R l) (fun ys f h => h.answer hc f) k op hs
          hop hx
        obtain ⟨fs1, fs2, g1, g2, g3⟩ := ih hops' hw (k.apply env op).2
          (by rw [← hm]; unfold Core.maskIn; rw [h1.side]) h4 (ht.congr h1.curSize) b
          (ha.quiet h1 h2 h3) hlt hlt2 hb
        refine ⟨fs1, fs2, g1, ?_, fun hq h => g3 hq (hall h)⟩
        rw [Conn.delivered_cons env k op ops hnev, g2, h1.events]
      | false =>
        cases op with
        | eventsReceived =>
          obtain ⟨fs1, fs2, g1, g2, g3⟩ := ih hops' hw (k.apply env .eventsReceived).2 hm hx ht b
            ⟨ha.eof, ha.state⟩ hlt hlt2 hb
          refine ⟨fs1, fs2, g1, ?_, fun hq h => g3 hq (hall h)⟩
          rw [Conn.delivered_events, eventFrames_append, g2]
          simp [Conn.apply, eventFrames]
        | dataToSend =>
          obtain ⟨fs1, fs2, g1, g2, g3⟩ := ih hops' hw (k.apply env .dataToSend).2 hm hx ht b
            (ha.quiet (k' := { k with core := { k.core with writes := [] } })
              ⟨rfl, rfl, rfl, rfl, rfl, rfl, rfl⟩ rfl rfl) hlt hlt2 hb
          exact ⟨fs1, fs2, g1, g2, fun hq h => g3 hq (hall h)⟩
        | receiveData d => cases hr
        | receiveEof => cases hr
        | _ => cases hs
    | true =>
      cases op with
      | receiveEof =>
        obtain ⟨h1, h2⟩ := ha.receiveEof (env := env)
        refine ⟨[], l, rfl, ?_, fun hq h => ?_⟩
        · rw [Conn.delivered_cons env k _ ops (by simp)]
          rw [Conn.ended_delivered env (k.apply env .receiveEof).2 h2 ops hops']
          rw [List.map_nil, List.append_nil]
          exact congrArg eventFrames h1
        · -- nothing can be received after the end of the stream
          by_cases hrc : received ops = []
          · have hrec : received (Op.receiveEof :: ops) = received ops := rfl
            rw [hrec, hrc, hq, List.append_nil, List.append_nil] at hb
            cases l with
            | nil =>
              cases hw
              refine ⟨rfl, ?_⟩
              by_cases htn : tail = []
              · exact htn
              · have h1 := hlt2 rfl htn
                have h2 := congrArg List.length hb
                simp at h2
                omega
            | cons fg l =>
              rw [List.map_cons] at hw
              cases hw with
              | @cons f w _ ws' hwf hws =>
              have h1 := hlt w ws' rfl
              have h2 := congrArg List.length hb
              simp at h2
              omega
          · obtain ⟨pre, d, post, he⟩ : ∃ pre d post, ops = pre ++ .receiveData d :: post := by
              clear ih hops hops' hb h hall
              induction ops with
              | nil => exact absurd rfl hrc
              | cons o ops ih =>
                cases o with
                | receiveData d => exact ⟨[], d, ops, rfl⟩
                | _ =>
                  obtain ⟨pre, d, post, he⟩ := ih hrc
                  exact ⟨_ :: pre, d, post, by rw [he]; rfl⟩
            have hend : ∀ (ops : List (Op H)) (k : Conn X E), k.Ended → (k.exec env ops).2.Ended := by
              intro ops
              induction ops with
              | nil => intro k hk; exact hk
              | cons o ops ih => intro k hk; exact ih _ (Conn.ended_mono env k hk o)
            have h3 := hall h pre _ post he rfl
            have h4 := hend pre _ h2
            have h5 : ((k.receiveEof env).2.exec env pre).2.receiveData env d =
              ((k.receiveEof env).2.exec env pre).2.apply env (.receiveData d) := rfl
            exfalso
            revert h3
            show (((k.receiveEof env).2.exec env pre).2.apply env (.receiveData d)).1 ≠ none
            simp only [Conn.apply, Conn.receiveData_eq]
            split
            · simp
            · rcases h4 with h4 | h4
              · contradiction
              · rw [Conn.step_dead env _ (by exact h4)]
                simp only
                split <;> simp
      | receiveData d =>
        have hrec : received (Op.receiveData d :: ops) = d ++ received ops := rfl
        rw [hrec, ← List.append_assoc, List.append_assoc (b ++ d)] at hb
        obtain ⟨fs1, fs2, ws1, ws2, e, k', g1, g2, g3, g4, g5, g6⟩ :=
          Conn.parseTop_session hl.ops hc hw k.core hm hx ht (b ++ d) _ hb
        have hap : k.apply env (.receiveData d) = _ := ha.receiveData (env := env) d
        rw [g1] at hap
        cases e with
        | none =>
          simp only at hap g6
          obtain ⟨b', j1, j2, j3, j4, j5⟩ := g6
          have hb2 : b' ++ received ops ++ q = ws2.flatten ++ tail := by
            rw [j1, g3, List.flatten_append, List.append_assoc, List.append_assoc] at hb
            rw [List.append_assoc]
            exact List.append_cancel_left hb
          obtain ⟨fs3, fs4, i1, i2, i3⟩ := ih hops' g4 k' j5 j4 j2.2.2 b' j3 j2.1 j2.2.1 hb2
          refine ⟨fs1 ++ fs3, fs4, by rw [g2, i1, List.append_assoc], ?_, fun hq h => i3 hq ?_⟩
          · rw [Conn.delivered_cons env k _ ops (by simp), hap, i2, g5, eventFrames_append,
              eventFrames_frames, List.append_assoc, List.map_append]
          · have := hall h
            rw [hap] at this
            exact this
        | some e =>
          simp only at hap g6
          have hq := Core.failConnection_recvQuiet env k'.core (failCode e).1 (failCode e).2
          cases hfc : k'.core.failConnection env (failCode e).1 (failCode e).2 with
          | mk e2 c2 =>
            rw [hfc] at hq hap
            have hres : (k.apply env (.receiveData d)).1 ≠ none ∧
                (k.apply env (.receiveData d)).2.Ended ∧
                (k.apply env (.receiveData d)).2.core.events = k'.core.events := by
              rw [hap]
              cases e2 <;> exact ⟨by simp, .inr g6, hq.events⟩
            obtain ⟨r1, r2, r3⟩ := hres
            refine ⟨fs1, fs2, g2, ?_, fun _ h => absurd (h [] _ ops rfl rfl) r1⟩
            rw [Conn.delivered_cons env k _ ops (by simp),
              Conn.ended_delivered env _ r2 ops hops', r3, g5, eventFrames_append,
              eventFrames_frames]
      | _ => cases hr

/-- Frames delivered in an execution when the beginning of `ws` is received. -/
theorem Conn.exec_session (hl : env.Lawful) (hc : Channel env.ops size R) {masked : Bool}
    (ops : List (Op H)) (hops : ∀ op ∈ ops, op.isHandshake = false)
    {l : List (Frame × Frame)} {ws : List Bytes} (hw : Wires masked (l.map (·.2)) ws)
    (k : Conn X E) (hm : k.core.maskIn = masked) (hx : Ready env.ops size R l k.core.exts)
    (b q : Bytes)
    (ha : k.At b) (hlt : ∀ w ws', ws = w :: ws' → b.length < w.length)
    (hb : b ++ received ops ++ q = ws.flatten) :
    ∃ l1 l2, l = l1 ++ l2 ∧
      eventFrames (k.delivered env ops) = eventFrames k.core.events ++ l1.map (·.1) ∧
      (q = [] → (∀ pre op post, ops = pre ++ op :: post → op.isRecv = true →
        ((k.exec env pre).2.apply env op).1 = none) → l2 = []) := by
  obtain ⟨l1, l2, h1, h2, h3⟩ := Conn.exec_tail hl hc ops hops hw k hm hx (tail := []) (.inl rfl) b q ha hlt
    (fun _ h => absurd rfl h) (by rw [List.append_nil]; exact hb)
  exact ⟨l1, l2, h1, h2, fun hq h => (h3 hq h).1⟩

end

/-! ## C69 -/

/-- A connection past its handshake, that hasn't sent or received any frame. Events and bytes of
the handshake may not have been taken yet. -/
structure Conn.Opened (k : Conn X E) : Prop where
  reader : k.reader = .init
  pstate : k.pstate = .top
  state : k.core.state ≠ .connecting
  cont : k.core.expectCont = false
  cur : k.core.curSize = none
  frames : eventFrames k.core.events = []

/-- `b` delivers what `a` sends: there is a sequence of frames such that its data frames are exactly
the arguments of the successful calls to `send_text()`, `send_binary()` and `send_continuation()` of
`a`, in this order; `b` delivers exactly the first `n` frames of this sequence, unchanged; and `b`
delivers all of them if everything was received and receiving never raised an exception. -/
def Spec.Delivers {Ha Hb Ea Eb : Type} (enva : Env X Ea Ha) (envb : Env X Eb Hb)
    (a : Conn X Ea) (b : Conn X Eb) (opsa : List (Op Ha)) (opsb : List (Op Hb)) (more : Bytes) :
    Prop :=
  ∃ fs n, onlyData fs = dataCalls opsa (a.exec enva opsa).1.raised ∧
    eventFrames (b.delivered envb opsb) = fs.take n ∧
    (more = [] → (∀ pre op post, opsb = pre ++ op :: post → op.isRecv = true →
        ((b.exec envb pre).2.apply envb op).1 = none) →
      eventFrames (b.delivered envb opsb) = fs)

/-- **C69.** `a` and `b` are the two sides of a connection, with any extensions that make a channel
from `a` to `b`. Both make any calls, receive anything, in any order. `b` receives the beginning of
what `a` writes after the handshake, in any number of pieces. Then `b` delivers what `a` sends. -/
theorem C69_session {Ha Hb Ea Eb : Type} {enva : Env X Ea Ha} {envb : Env X Eb Hb}
    (hla : enva.Lawful) (hlb : envb.Lawful) (hops : envb.ops = enva.ops) {size : Nat}
    (h125 : 125 ≤ size) {R : Bool → List X → List X → Prop} (hc : Channel enva.ops size R)
    (a : Conn X Ea) (b : Conn X Eb) (ha : a.Opened) (hb : b.Opened)
    (hside : a.core.side ≠ b.core.side) (hR : R false a.core.exts b.core.exts)
    (opsa : List (Op Ha)) (hopsa : ∀ op ∈ opsa, op.isHandshake = false)
    (hsize : ∀ op ∈ opsa, dataSize op ≤ size)
    (opsb : List (Op Hb)) (hopsb : ∀ op ∈ opsb, op.isHandshake = false)
    (more : Bytes) (htransit : a.core.writes.flatten ++ received opsb ++ more =
      (a.output enva opsa).flatten) :
    Delivers enva envb a b opsa opsb more := by
  have hsound : a.Sound := by unfold Conn.Sound; rw [ha.pstate]; trivial
  obtain ⟨l, u', xs', ws, ws', g1, g2, g3, g4, g5, -⟩ := Conn.exec_adv hla hc h125 a hsound
    (by rw [ha.pstate]; trivial) false ⟨fun _ => ha.cont.symm, ha.state, _, hR⟩ opsa hopsa hsize
  have hm : b.core.maskIn = decide (a.core.side = .client) := by
    unfold Core.maskIn
    cases h1 : a.core.side <;> cases h2 : b.core.side <;> simp_all
  have hat : b.At [] := ⟨by rw [hb.reader]; rfl, .inl ⟨rfl, by rw [hb.reader]; rfl, hb.pstate⟩⟩
  rw [← hops] at g1 hc
  obtain ⟨l1, l2, k1, k2, k3⟩ := Conn.exec_session hlb hc opsb hopsb g3 b hm
    ⟨_, _, _, _, hR, g1⟩ [] more hat
    (by
      intro w ws'' he
      generalize l.map (·.2) = fs at g3
      rw [he] at g3
      cases g3 with
      | cons hwf _ => exact List.length_pos_iff.2 (wire_pos hwf))
    (by
      rw [List.nil_append, g4]
      rw [g2, List.flatten_append, List.append_assoc] at htransit
      exact List.append_cancel_left htransit)
  rw [hb.frames, List.nil_append] at k2
  refine ⟨l.map (·.1), l1.length, g5, ?_, ?_⟩
  · rw [k2, k1, List.map_append]
    have : (l1.map (·.1) : List Frame).length = l1.length := List.length_map ..
    rw [← this, List.take_left]
  · intro hq hr
    rw [k2, k1, k3 hq hr, List.append_nil]

end WS
