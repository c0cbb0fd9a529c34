import Verif.Lemmas.LegacyPings

/-!
# Data frames that concurrent calls to `send` write
-/

namespace WS.LegacyConn

/-- The frames of the rest of a fragmented message.  They end with a final frame, unless an item is
invalid. -/
def Spec.rest (text : Bool) : List Chunk → List Frame
  | [] => [{ fin := true, opcode := .cont, data := [] }]
  | .error :: _ => []
  | .data text' data :: items =>
    if text' = text then { fin := false, opcode := .cont, data } :: rest text items else []

/-- The frames of a fragmented message. -/
def Spec.fragments : List Chunk → List Frame
  | .data text data :: items =>
    { fin := false, opcode := if text then .text else .binary, data } :: rest text items
  | _ => []

/-- The frames of a message. -/
def Spec.frames : Msg → List Frame
  | .plain text data => [{ fin := true, opcode := if text then .text else .binary, data }]
  | .iter items => fragments items
  | .aiter _ items => fragments items

/-- A sequence of frames ends with a final frame. -/
def Spec.Complete (fs : List Frame) : Prop := ∃ init f, fs = init ++ [f] ∧ f.fin = true

/-- The frames of the message of a call. -/
def Spec.callFrames (calls : List Call) (i : Nat) : List Frame :=
  match calls[i]? with
  | some (.send m) => frames m
  | _ => []

def Msg.isPlain : Msg → Bool
  | .plain .. => true
  | _ => false

/-- The data frames that were written. -/
def Conn.dataFrames (s : Conn) : List Frame := (s.log.map (·.2)).filter (!·.opcode.isCtrl)

/-- In lines 606-627 or 647-669 -/
def Pc.inTry : Pc → Bool
  | .fragment .. => true
  | .anext .. => true
  | .final => true
  | .ensuring b => b
  | _ => false

/-- What is known about a suspended task. -/
def PcOk (s : Conn) (done : List Nat) (part : List Frame) (i : Nat) : Pc → Prop
  | .draining => ∀ m, s.calls[i]? = some (.send m) → i ∈ done
  | .waiting m _ => s.calls[i]? = some (.send m) ∧ i ∉ done
  | .first _ => False
  | .fragment _ text items => s.frag = some i ∧ i ∉ done ∧
      ∃ m, s.calls[i]? = some (.send m) ∧ m.isPlain = false ∧ part ++ Spec.rest text items = Spec.frames m
  | .anext text items => s.frag = some i ∧ i ∉ done ∧
      ∃ m, s.calls[i]? = some (.send m) ∧ m.isPlain = false ∧ part ++ Spec.rest text items = Spec.frames m
  | .final => s.frag = some i ∧ i ∉ done ∧
      ∃ m, s.calls[i]? = some (.send m) ∧ m.isPlain = false ∧ part = Spec.frames m ∧ Spec.Complete part
  | .pinging _ => ∃ e d, s.calls[i]? = some (.ping e d)
  | .ensuring false => True
  | .ensuring true => s.frag = some i ∧ i ∉ done ∧
      ∃ m, s.calls[i]? = some (.send m) ∧ m.isPlain = false

/-- Invariant. -/
structure Frags (s : Conn) (done : List Nat) (part : List Frame) (os : List Obs) : Prop where
  eq : s.dataFrames = done.flatMap (Spec.callFrames s.calls) ++ part
  nodup : done.Nodup
  complete : ∀ i ∈ done, i < s.calls.length ∧ Spec.Complete (Spec.callFrames s.calls i)
  pcs : ∀ i pc, s.tasks i = some pc → i < s.calls.length ∧ PcOk s done part i pc
  owner : ∀ i, s.frag = some i → ∃ pc, s.tasks i = some pc ∧ pc.inTry = true
  idle : s.frag = none → s.state = .opened → part = []
  part : part ≠ [] → ∃ j, j < s.calls.length ∧ j ∉ done ∧ part <+: Spec.callFrames s.calls j
  ret : ∀ i, .returned i ∈ os → i < s.calls.length ∧
    ∀ m, s.calls[i]? = some (.send m) → i ∈ done ∨ Spec.frames m = []

theorem Spec.callFrames_append {calls cs : List Call} {i : Nat} (h : i < calls.length) :
    callFrames (calls ++ cs) i = callFrames calls i := by
  simp [callFrames, List.getElem?_append_left h]

theorem Spec.callFrames_send {calls : List Call} {i : Nat} {m : Msg}
    (h : calls[i]? = some (.send m)) : callFrames calls i = frames m := by
  simp [callFrames, h]

theorem flatMap_congr' {α β : Type} {l : List α} {f g : α → List β} (h : ∀ x ∈ l, f x = g x) :
    l.flatMap f = l.flatMap g := by
  induction l with
  | nil => rfl
  | cons a l ih =>
    simp only [List.flatMap_cons]
    rw [h a (by simp), ih fun x hx => h x (by simp [hx])]

theorem PcOk.congr {s s' : Conn} {done : List Nat} {part : List Frame} {i : Nat} {pc : Pc}
    (h : PcOk s done part i pc) (h1 : s'.frag = s.frag) (h2 : s'.calls[i]? = s.calls[i]?) :
    PcOk s' done part i pc := by
  rcases pc with _ | _ | _ | _ | _ | _ | _ | (_ | _) <;> simp only [PcOk, h1, h2] at h ⊢ <;> exact h

theorem Frags.mono {s s' : Conn} {done : List Nat} {part : List Frame} {os os' : List Obs}
    (h : Frags s done part os) (h1 : s'.dataFrames = s.dataFrames) (h2 : s'.frag = s.frag)
    (h3 : ∃ cs, s'.calls = s.calls ++ cs) (h4 : s'.tasks = s.tasks)
    (h5 : s'.state = .opened → s.state = .opened)
    (h6 : ∀ i, .returned i ∈ os' → .returned i ∈ os ∨ (i < s'.calls.length ∧ ∀ m, s'.calls[i]? ≠ some (.send m))) :
    Frags s' done part os' := by
  obtain ⟨cs, h3⟩ := h3
  have hlen : ∀ i, i < s.calls.length → i < s'.calls.length := by
    intro i hi; rw [h3, List.length_append]; omega
  have hget : ∀ i, i < s.calls.length → s'.calls[i]? = s.calls[i]? := by
    intro i hi; rw [h3, List.getElem?_append_left hi]
  have hfr : ∀ i, i < s.calls.length → Spec.callFrames s'.calls i = Spec.callFrames s.calls i := by
    intro i hi; rw [h3, Spec.callFrames_append hi]
  refine ⟨?_, h.nodup, ?_, ?_, ?_, ?_, ?_, ?_⟩
  · rw [h1, h.eq]
    congr 1
    exact flatMap_congr' fun i hi => (hfr i (h.complete i hi).1).symm
  · intro i hi
    have := h.complete i hi
    exact ⟨hlen i this.1, by rw [hfr i this.1]; exact this.2⟩
  · intro i pc hi
    rw [h4] at hi
    obtain ⟨g1, g2⟩ := h.pcs i pc hi
    exact ⟨hlen i g1, g2.congr h2 (hget i g1)⟩
  · rw [h2, h4]; exact h.owner
  · rw [h2]; exact fun a b => h.idle a (h5 b)
  · intro hp
    obtain ⟨j, j1, j2, j3⟩ := h.part hp
    exact ⟨j, hlen j j1, j2, by rw [hfr j j1]; exact j3⟩
  · intro i hi
    rcases h6 i hi with hi | ⟨hi, hn⟩
    · obtain ⟨g1, g2⟩ := h.ret i hi
      exact ⟨hlen i g1, by rw [hget i g1]; exact g2⟩
    · exact ⟨hi, fun m hm => absurd hm (hn m)⟩

/-- Changing the state of a task. -/
theorem Frags.set {s : Conn} {done : List Nat} {part : List Frame} {os os' : List Obs}
    (h : Frags s done part os) {i : Nat} {pc' : Option Pc} (hi : i < s.calls.length)
    (hown : s.frag = some i → ∃ pc, pc' = some pc ∧ pc.inTry = true)
    (hnew : ∀ pc, pc' = some pc → PcOk s done part i pc)
    (hos : ∀ j, .returned j ∈ os' → .returned j ∈ os ∨
      (j = i ∧ ∀ m, s.calls[i]? = some (.send m) → i ∈ done ∨ Spec.frames m = [])) :
    Frags (s.setTask i pc') done part os' := by
  refine ⟨h.eq, h.nodup, h.complete, ?_, ?_, h.idle, h.part, ?_⟩
  · intro j pc hj
    simp only [Conn.setTask] at hj
    split at hj
    · rename_i he
      subst he
      exact ⟨hi, hnew pc hj⟩
    · exact h.pcs j pc hj
  · intro j hj
    simp only [Conn.setTask]
    split
    · rename_i he
      subst he
      exact hown hj
    · exact h.owner j hj
  · intro j hj
    rcases hos j hj with hj | ⟨rfl, hm⟩
    · exact h.ret j hj
    · exact ⟨hi, hm⟩

/-- Nobody is in the middle of a message. -/
theorem Frags.not_inTry {s : Conn} {done : List Nat} {part : List Frame} {os : List Obs}
    (h : Frags s done part os) {i : Nat} {pc : Pc} (hi : s.tasks i = some pc) (ht : pc.inTry = true) :
    s.frag = some i := by
  have := (h.pcs i pc hi).2
  cases pc <;> simp only [Pc.inTry, Bool.false_eq_true] at ht <;> (try subst ht) <;>
    simp only [PcOk] at this <;> exact this.1

theorem fail_1011_state (s : Conn) : (s.fail 1011).state ≠ .opened := by
  unfold Conn.fail
  split
  · have : serializeClose 1011 [] = .ok [3, 243] := by decide +kernel
    rw [this]
    simp
  · rename_i hc
    simp only [ne_eq, not_and] at hc
    exact hc (by decide)

theorem fail_dataFrames (s : Conn) (code : Int) : (s.fail code).dataFrames = s.dataFrames := by
  unfold Conn.fail
  split
  · split
    · rfl
    · simp [Conn.dataFrames, Opcode.isCtrl]
  · rfl

theorem fail_other (s : Conn) (code : Int) :
    (s.fail code).frag = s.frag ∧ (s.fail code).calls = s.calls ∧ (s.fail code).tasks = s.tasks ∧
      ((s.fail code).state = .opened → s.state = .opened) := by
  unfold Conn.fail
  split
  · split
    · exact ⟨rfl, rfl, rfl, id⟩
    · exact ⟨rfl, rfl, rfl, by simp⟩
  · exact ⟨rfl, rfl, rfl, id⟩

theorem Frags.fail {s : Conn} {done : List Nat} {part : List Frame} {os : List Obs}
    (h : Frags s done part os) (code : Int) : Frags (s.fail code) done part os := by
  obtain ⟨h1, h2, h3, h4⟩ := fail_other s code
  exact h.mono (fail_dataFrames s code) h1 ⟨[], by simp [h2]⟩ h3 h4 (fun i hi => .inl hi)

/-- The end of a fragmented message. -/
theorem Frags.releaseWith {s : Conn} {done : List Nat} {part : List Frame} {os os' : List Obs}
    (h : Frags s done part os) {i : Nat} (hf : s.frag = some i) (hst : s.state ≠ .opened)
    (hos : ∀ j, .returned j ∈ os' → .returned j ∈ os) (rel : List Nat) :
    Frags ({ s with frag := none, released := rel }.setTask i none) done part os' := by
  refine ⟨h.eq, h.nodup, h.complete, ?_, by simp [Conn.setTask], ?_, h.part, ?_⟩
  · intro j pc hj
    simp only [Conn.setTask] at hj
    split at hj
    · cases hj
    · rename_i hne
      obtain ⟨g1, g2⟩ := h.pcs j pc hj
      refine ⟨g1, ?_⟩
      cases ht : pc.inTry with
      | true =>
        have := h.not_inTry hj ht
        rw [hf] at this
        cases this
        exact absurd rfl hne
      | false =>
        rcases pc with _ | _ | _ | _ | _ | _ | _ | (_ | _) <;> simp only [Pc.inTry, Bool.true_eq_false] at ht <;>
          exact g2
  · intro _ ho; exact absurd ho hst
  · intro j hj; exact h.ret j (hos j hj)

theorem Frags.failFragment {s : Conn} {done : List Nat} {part : List Frame} {os : List Obs}
    (h : Frags s done part os) {i : Nat} (hf : s.frag = some i) (e : Exn) :
    Frags (s.failFragment i e).1 done part (os ++ (s.failFragment i e).2) := by
  have h' := h.fail 1011
  have hf' : (s.fail 1011).frag = some i := by rw [(fail_other s 1011).1, hf]
  unfold Conn.failFragment Conn.release
  rw [hf']
  exact h'.releaseWith hf' (fail_1011_state s) (by simp) _

theorem dataFrames_write {s s' : Conn} {i : Option Nat} {fin : Bool} {op : Opcode} {data : Bytes}
    (h : s.write i fin op data = .ok s') (hop : op.isCtrl = false) :
    s'.dataFrames = s.dataFrames ++ [{ fin, opcode := op, data }] := by
  obtain ⟨-, rfl⟩ := Conn.write_ok h
  simp [Conn.dataFrames, hop]

theorem dataFrames_write_ctrl {s s' : Conn} {i : Option Nat} {fin : Bool} {op : Opcode} {data : Bytes}
    {expected : State} (h : s.write i fin op data expected = .ok s') (hop : op.isCtrl = true) :
    s'.dataFrames = s.dataFrames := by
  obtain ⟨-, rfl⟩ := Conn.write_ok h
  simp [Conn.dataFrames, hop]

/-- A frame is added to the message that is being sent. -/
theorem Frags.extend {s s' : Conn} {done : List Nat} {part : List Frame} {os : List Obs}
    (h : Frags s done part os) {i : Nat} (hf : s.frag = some i) {f : Frame} {pc : Pc}
    (ht : pc.inTry = true)
    (hs : s' = { s with log := s.log ++ [(some i, f)] }) (hfr : f.opcode.isCtrl = false)
    (hi : i < s.calls.length) (hd : i ∉ done)
    (hpre : part ++ [f] <+: Spec.callFrames s.calls i)
    (hnew : PcOk s done (part ++ [f]) i pc) :
    Frags (s'.setTask i (some pc)) done (part ++ [f]) os := by
  subst hs
  refine ⟨?_, h.nodup, h.complete, ?_, ?_, ?_, ?_, h.ret⟩
  · have : ({ s with log := s.log ++ [(some i, f)] } : Conn).dataFrames = s.dataFrames ++ [f] := by
      simp [Conn.dataFrames, hfr]
    show ({ s with log := s.log ++ [(some i, f)] } : Conn).dataFrames = _
    rw [this, h.eq, List.append_assoc]
    rfl
  · intro j pc' hj
    simp only [Conn.setTask] at hj
    split at hj
    · rename_i he
      subst he
      cases hj
      exact ⟨hi, hnew.congr rfl rfl⟩
    · rename_i hne
      obtain ⟨g1, g2⟩ := h.pcs j pc' hj
      refine ⟨g1, ?_⟩
      cases ht' : pc'.inTry with
      | true =>
        have := h.not_inTry hj ht'
        rw [hf] at this
        cases this
        exact absurd rfl hne
      | false =>
        rcases pc' with _ | _ | _ | _ | _ | _ | _ | (_ | _) <;> simp only [Pc.inTry, Bool.true_eq_false] at ht' <;>
          exact g2
  · intro j hj
    simp only [Conn.setTask] at hj ⊢
    rw [hf] at hj
    cases hj
    exact ⟨pc, by simp, ht⟩
  · intro hn; simp only [Conn.setTask] at hn; rw [hf] at hn; cases hn
  · intro _; exact ⟨i, hi, hd, hpre⟩

theorem Frags.sendNext {s : Conn} {done : List Nat} {part : List Frame} {os : List Obs}
    (h : Frags s done part os) {i : Nat} (hi : i < s.calls.length) (hf : s.frag = some i)
    (hd : i ∉ done) {m : Msg} (hm : s.calls[i]? = some (.send m)) (hp : m.isPlain = false)
    (async text : Bool) (items : List Chunk) (hr : part ++ Spec.rest text items = Spec.frames m) :
    ∃ part', Frags (s.sendNext i async text items).1 done part'
      (os ++ (s.sendNext i async text items).2) := by
  unfold Conn.sendNext
  split
  · split
    · exact ⟨part, h.failFragment hf _⟩
    · rename_i hw
      obtain ⟨-, hs⟩ := Conn.write_ok hw
      simp only [Spec.rest] at hr
      refine ⟨part ++ [{ fin := true, opcode := .cont, data := [] }], ?_⟩
      simp only [List.append_nil]
      refine h.extend hf rfl hs rfl hi hd ?_ ?_
      · rw [Spec.callFrames_send hm, hr]; exact List.prefix_refl _
      · exact ⟨hf, hd, m, hm, hp, hr, _, _, rfl, rfl⟩
  · exact ⟨part, h.failFragment hf _⟩
  · rename_i text' data items
    split
    · exact ⟨part, h.failFragment hf _⟩
    · rename_i he
      simp only [ne_eq, Classical.not_not] at he
      subst he
      split
      · exact ⟨part, h.failFragment hf _⟩
      · rename_i hw
        obtain ⟨-, hs⟩ := Conn.write_ok hw
        simp only [Spec.rest, if_true] at hr
        refine ⟨part ++ [{ fin := false, opcode := .cont, data }], ?_⟩
        have hr' : part ++ [{ fin := false, opcode := .cont, data }] ++ Spec.rest text' items =
            Spec.frames m := by
          rw [← hr]; simp
        simp only [List.append_nil]
        refine h.extend hf rfl hs rfl hi hd ?_ ?_
        · rw [Spec.callFrames_send hm, ← hr']; exact List.prefix_append _ _
        · exact ⟨hf, hd, m, hm, hp, hr'⟩

theorem opcodeOf_ctrl (text : Bool) : (opcodeOf text).isCtrl = false := by
  cases text <;> rfl

/-- A new message starts. -/
theorem Frags.sendFirst {s : Conn} {done : List Nat} {part : List Frame} {os : List Obs}
    (h : Frags s done part os) {i : Nat} (hi : i < s.calls.length) (hf : s.frag = none)
    (hd : i ∉ done) {m : Msg} (hm : s.calls[i]? = some (.send m)) (hp : m.isPlain = false)
    (async : Bool) (items : List Chunk) (hr : Spec.fragments items = Spec.frames m) :
    ∃ part', Frags (s.sendFirst i async items).1 done part'
      (os ++ (s.sendFirst i async items).2) := by
  unfold Conn.sendFirst
  split
  · refine ⟨part, h.set hi (by simp [hf]) (by simp) ?_⟩
    intro j hj
    simp only [List.mem_append, List.mem_singleton, Obs.returned.injEq] at hj
    rcases hj with hj | rfl
    · exact .inl hj
    · refine .inr ⟨rfl, fun m' hm' => .inr ?_⟩
      rw [hm] at hm'
      cases hm'
      rw [← hr]
      rfl
  · exact ⟨part, h.set hi (by simp [hf]) (by simp) fun j hj => .inl (by simpa using hj)⟩
  · rename_i text data items
    simp only
    split
    · rename_i e hw
      obtain ⟨hst, -⟩ := Conn.write_error hw (opcodeOf_ctrl text)
      have hst : s.state ≠ .opened := hst
      refine ⟨part, ?_⟩
      have hfail : ({ s with frag := some i } : Conn).fail 1011 = { s with frag := some i } := by
        simp [Conn.fail, hst]
      unfold Conn.failFragment Conn.release
      rw [hfail]
      simp only
      have := h.set (i := i) (pc' := none) (os' := os ++ [.raised i e]) hi (by simp [hf]) (by simp)
        (fun j hj => .inl (by simpa using hj))
      exact this.mono rfl hf.symm ⟨[], by simp [Conn.setTask]⟩ rfl id (fun j hj => .inl hj)
    · rename_i hw
      obtain ⟨hst, hs⟩ := Conn.write_ok hw
      subst hs
      have hpart := h.idle hf hst
      subst hpart
      refine ⟨[{ fin := false, opcode := opcodeOf text, data }], ?_⟩
      have hr' : Spec.frames m =
          { fin := false, opcode := opcodeOf text, data } :: Spec.rest text items := by
        rw [← hr]; rfl
      have hnt : ∀ j pc, s.tasks j = some pc → pc.inTry = false := by
        intro j pc hj
        cases ht : pc.inTry with
        | false => rfl
        | true => have := h.not_inTry hj ht; rw [hf] at this; cases this
      refine ⟨?_, h.nodup, h.complete, ?_, ?_, ?_, ?_, ?_⟩
      · have he := h.eq
        rw [List.append_nil] at he
        have hc : (opcodeOf text).isCtrl = false := opcodeOf_ctrl text
        simp only [Conn.dataFrames, Conn.setTask, List.map_append, List.filter_append, List.map_cons,
          List.map_nil] at he ⊢
        rw [he]
        simp [hc]
      · intro j pc hj
        simp only [Conn.setTask] at hj
        split at hj
        · rename_i he
          subst he
          cases hj
          exact ⟨hi, rfl, hd, m, hm, hp, by rw [hr']; rfl⟩
        · obtain ⟨g1, g2⟩ := h.pcs j pc hj
          refine ⟨g1, ?_⟩
          have ht := hnt j pc hj
          rcases pc with _ | _ | _ | _ | _ | _ | _ | (_ | _) <;> simp only [Pc.inTry, Bool.true_eq_false] at ht <;>
            exact g2
      · intro j hj
        simp only [Conn.setTask] at hj ⊢
        cases hj
        exact ⟨_, by simp; rfl, rfl⟩
      · intro hn; simp [Conn.setTask] at hn
      · intro _
        refine ⟨i, hi, hd, ?_⟩
        show _ <+: Spec.callFrames s.calls i
        rw [Spec.callFrames_send hm, hr']
        exact ⟨Spec.rest text items, rfl⟩
      · intro j hj
        simp only [List.append_nil] at hj
        exact h.ret j hj

/-- A message that isn't fragmented. -/
theorem Frags.plain {s : Conn} {done : List Nat} {part : List Frame} {os : List Obs}
    (h : Frags s done part os) {i : Nat} (hi : i < s.calls.length) (hf : s.frag = none)
    (hst : s.state = .opened) (hd : i ∉ done) {text : Bool} {data : Bytes}
    (hm : s.calls[i]? = some (.send (.plain text data))) :
    Frags (Conn.setTask
      { s with log := s.log ++ [(some i, ({ fin := true, opcode := opcodeOf text, data } : Frame))] } i
      (some .draining)) (done ++ [i]) [] os := by
  have hpart := h.idle hf hst
  subst hpart
  have hnt : ∀ j pc, s.tasks j = some pc → pc.inTry = false := by
    intro j pc hj
    cases ht : pc.inTry with
    | false => rfl
    | true => have := h.not_inTry hj ht; rw [hf] at this; cases this
  have hfr : Spec.callFrames s.calls i = [{ fin := true, opcode := opcodeOf text, data }] := by
    rw [Spec.callFrames_send hm]; rfl
  refine ⟨?_, ?_, ?_, ?_, ?_, by simp, by simp, ?_⟩
  · have he := h.eq
    rw [List.append_nil] at he
    have hc : (opcodeOf text).isCtrl = false := opcodeOf_ctrl text
    simp only [Conn.dataFrames, Conn.setTask, List.map_append, List.filter_append, List.map_cons,
      List.map_nil, List.flatMap_append, List.flatMap_cons, List.flatMap_nil, List.append_nil] at he ⊢
    rw [he, hfr]
    simp [hc]
  · exact List.nodup_append.2 ⟨h.nodup, by simp, by
      intro x hx y hy; simp only [List.mem_singleton] at hy; subst hy; exact fun he => hd (he ▸ hx)⟩
  · intro j hj
    simp only [List.mem_append, List.mem_singleton] at hj
    rcases hj with hj | rfl
    · exact h.complete j hj
    · refine ⟨hi, ?_⟩
      show Spec.Complete (Spec.callFrames s.calls j)
      rw [hfr]
      exact ⟨[], _, rfl, rfl⟩
  · intro j pc hj
    simp only [Conn.setTask] at hj
    split at hj
    · rename_i he
      subst he
      cases hj
      exact ⟨hi, fun _ _ => by simp⟩
    · rename_i hne
      obtain ⟨g1, g2⟩ := h.pcs j pc hj
      refine ⟨g1, ?_⟩
      have ht := hnt j pc hj
      rcases pc with _ | _ | _ | _ | _ | _ | _ | (_ | _) <;> simp only [Pc.inTry, Bool.true_eq_false] at ht <;>
        simp only [PcOk, List.mem_append, List.mem_singleton, not_or] at g2 ⊢
      all_goals first
        | exact fun m hm => .inl (g2 m hm)
        | exact ⟨g2.1, g2.2, hne⟩
        | exact g2
  · intro j hj
    simp only [Conn.setTask] at hj
    rw [hf] at hj
    cases hj
  · intro j hj
    obtain ⟨g1, g2⟩ := h.ret j hj
    refine ⟨g1, fun m hm => ?_⟩
    rcases g2 m hm with g | g
    · exact .inl (List.mem_append_left _ g)
    · exact .inr g

/-- Asynchronous iterators that suspend `send` before their first item. -/
def Msg.isLate : Msg → Bool
  | .aiter true _ => true
  | _ => false

theorem Frags.sendLoop {s : Conn} {done : List Nat} {part : List Frame} {os : List Obs}
    (h : Frags s done part os) {i : Nat} (hi : i < s.calls.length) (hd : i ∉ done)
    (hnt : s.frag ≠ some i) {m : Msg} (hm : s.calls[i]? = some (.send m)) (hl : m.isLate = false) :
    ∃ done' part', done <+: done' ∧ Frags (s.sendLoop i m).1 done' part' (os ++ (s.sendLoop i m).2) := by
  unfold Conn.sendLoop
  split
  · refine ⟨done, part, List.prefix_refl _, h.set hi ?_ ?_ fun j hj => .inl (by simpa using hj)⟩
    · intro he; exact absurd he hnt
    · intro pc hpc
      cases hpc
      exact ⟨hm, hd⟩
  · rename_i hf
    split
    · split
      · exact ⟨done, part, List.prefix_refl _, h.set hi (by simp [hf]) (by simp) fun j hj => .inl (by simpa using hj)⟩
      · rename_i hw
        obtain ⟨hst, rfl⟩ := Conn.write_ok hw
        refine ⟨done ++ [i], [], List.prefix_append _ _, ?_⟩
        simp only [List.append_nil]
        exact h.plain hi hf hst hd hm
    · obtain ⟨part', h'⟩ := h.sendFirst hi hf hd hm rfl false _ rfl
      exact ⟨done, part', List.prefix_refl _, h'⟩
    · cases hl
    · obtain ⟨part', h'⟩ := h.sendFirst hi hf hd hm rfl true _ rfl
      exact ⟨done, part', List.prefix_refl _, h'⟩

/-- The last frame was written, and flow control lets `send` resume. -/
theorem Frags.release {s : Conn} {done : List Nat} {part : List Frame} {os : List Obs}
    (h : Frags s done part os) {i : Nat} (hi : i < s.calls.length) (hf : s.frag = some i)
    (hd : i ∉ done) {m : Msg} (hm : s.calls[i]? = some (.send m)) (hp : part = Spec.frames m)
    (hc : Spec.Complete part) :
    Frags (s.release i (.returned i)).1 (done ++ [i]) [] (os ++ (s.release i (.returned i)).2) := by
  unfold Conn.release
  rw [hf]
  simp only
  have hfr : Spec.callFrames s.calls i = part := by rw [Spec.callFrames_send hm, hp]
  refine ⟨?_, ?_, ?_, ?_, by simp [Conn.setTask], by simp, by simp, ?_⟩
  · have he := h.eq
    simp only [Conn.dataFrames, Conn.setTask, List.flatMap_append, List.flatMap_cons, List.flatMap_nil,
      List.append_nil] at he ⊢
    rw [he, hfr]
  · exact List.nodup_append.2 ⟨h.nodup, by simp, by
      intro x hx y hy; simp only [List.mem_singleton] at hy; subst hy; exact fun he => hd (he ▸ hx)⟩
  · intro j hj
    simp only [List.mem_append, List.mem_singleton] at hj
    rcases hj with hj | rfl
    · exact h.complete j hj
    · refine ⟨hi, ?_⟩
      show Spec.Complete (Spec.callFrames s.calls j)
      rw [hfr]
      exact hc
  · intro j pc hj
    simp only [Conn.setTask] at hj
    split at hj
    · cases hj
    · rename_i hne
      obtain ⟨g1, g2⟩ := h.pcs j pc hj
      refine ⟨g1, ?_⟩
      have ht : pc.inTry = false := by
        cases ht : pc.inTry with
        | false => rfl
        | true => have := h.not_inTry hj ht; rw [hf] at this; cases this; exact absurd rfl hne
      rcases pc with _ | _ | _ | _ | _ | _ | _ | (_ | _) <;> simp only [Pc.inTry, Bool.true_eq_false] at ht <;>
        simp only [PcOk, List.mem_append, List.mem_singleton, not_or] at g2 ⊢
      all_goals first
        | exact fun m hm => .inl (g2 m hm)
        | exact ⟨g2.1, g2.2, hne⟩
        | exact g2
  · intro j hj
    simp only [List.mem_append, List.mem_singleton, Obs.returned.injEq] at hj
    rcases hj with hj | rfl
    · obtain ⟨g1, g2⟩ := h.ret j hj
      refine ⟨g1, fun m hm => ?_⟩
      rcases g2 m hm with g | g
      · exact .inl (List.mem_append_left _ g)
      · exact .inr g
    · exact ⟨hi, fun _ _ => .inl (by simp)⟩

/-- Nothing that concerns `send` changes. -/
def Quiet (s s' : Conn) : Prop :=
  s'.dataFrames = s.dataFrames ∧ s'.frag = s.frag ∧ s'.calls = s.calls ∧ s'.tasks = s.tasks ∧
    (s'.state = .opened → s.state = .opened)

theorem Quiet.refl (s : Conn) : Quiet s s := ⟨rfl, rfl, rfl, rfl, id⟩

theorem Quiet.trans {a b c : Conn} (h : Quiet a b) (g : Quiet b c) : Quiet a c :=
  ⟨g.1.trans h.1, g.2.1.trans h.2.1, g.2.2.1.trans h.2.2.1, g.2.2.2.1.trans h.2.2.2.1,
    fun x => h.2.2.2.2 (g.2.2.2.2 x)⟩

theorem Frags.quiet {s s' : Conn} {done : List Nat} {part : List Frame} {os : List Obs}
    (h : Frags s done part os) (q : Quiet s s') : Frags s' done part os :=
  h.mono q.1 q.2.1 ⟨[], by simp [q.2.2.1]⟩ q.2.2.2.1 q.2.2.2.2 (fun _ hi => .inl hi)

theorem fail_quiet (s : Conn) (code : Int) : Quiet s (s.fail code) := by
  obtain ⟨h1, h2, h3, h4⟩ := fail_other s code
  exact ⟨fail_dataFrames s code, h1, h2, h3, h4⟩

theorem write_quiet {s s' : Conn} {i : Option Nat} {fin : Bool} {op : Opcode} {data : Bytes}
    {expected : State} (h : s.write i fin op data expected = .ok s') (hop : op.isCtrl = true) :
    Quiet s s' := by
  have h1 := dataFrames_write_ctrl h hop
  obtain ⟨-, rfl⟩ := Conn.write_ok h
  exact ⟨h1, rfl, rfl, rfl, id⟩

theorem writeClose_quiet (s : Conn) (i : Option Nat) (data : Bytes) :
    Quiet s (s.writeClose i data).1 := by
  unfold Conn.writeClose
  split
  · rename_i ho
    have q : Quiet s { s with state := .closing } := ⟨rfl, rfl, rfl, rfl, fun _ => ho⟩
    simp only
    split
    · exact q
    · rename_i hw
      exact q.trans (write_quiet hw rfl)
  · exact Quiet.refl s

theorem transferFails_quiet (s : Conn) (code : Int) : Quiet s (s.transferFails code) := by
  have := fail_quiet s code
  exact this

theorem recvClose_quiet (s : Conn) (data : Bytes) : Quiet s (s.recvClose data) := by
  unfold Conn.recvClose
  split
  · exact transferFails_quiet s _
  · exact transferFails_quiet s _
  · rename_i info _
    have q := writeClose_quiet { s with closeInfo := some info } none data
    have q : Quiet s ({ s with closeInfo := some info }.writeClose none data).1 := q
    split <;> rename_i he <;> rw [he] at q
    · exact q
    · exact q.trans (transferFails_quiet _ _)
    · exact q.trans (transferFails_quiet _ _)
    · exact q

theorem ensureTransfer_quiet {s a b : Conn} (ha : Quiet s a) (hb : Quiet s b) :
    Quiet s (s.ensureTransfer a b) := by
  unfold Conn.ensureTransfer
  split
  · exact ha
  · exact hb
  · exact Quiet.refl s

theorem recvPing_quiet (s : Conn) (data : Bytes) : Quiet s (s.recvPing data) := by
  unfold Conn.recvPing
  refine ensureTransfer_quiet ?_ (transferFails_quiet s _)
  split
  · exact transferFails_quiet s _
  · exact transferFails_quiet s _
  · rename_i hw
    have := write_quiet hw (by rfl)
    exact this

theorem recvPong_quiet (s : Conn) (data : Bytes) : Quiet s (s.recvPong data) := by
  unfold Conn.recvPong
  split
  · exact Quiet.refl s
  · exact Quiet.refl s

theorem resumeTransfer_quiet {s s' : Conn} {d : Drain} (h : s.resumeTransfer d = some s') :
    Quiet s s' := by
  unfold Conn.resumeTransfer at h
  split at h
  · split at h <;> cases h
    · exact Quiet.refl s
    · have q := fail_quiet s 1006
      exact q.trans (ensureTransfer_quiet (Quiet.refl _) (transferFails_quiet _ _))
    · exact transferFails_quiet s _
  · split at h <;> cases h
    · exact Quiet.refl s
    · have q := fail_quiet s 1006
      exact q.trans (ensureTransfer_quiet (Quiet.refl _) (Quiet.refl _))
    · exact transferFails_quiet s _
  · cases h

theorem Frags.callOpen {s : Conn} {r : Conn × List Obs} {done : List Nat} {part : List Frame} {os : List Obs}
    (h : Frags s done part os) {i : Nat} (hi : i < s.calls.length) (hd : i ∉ done)
    (hnt : s.frag ≠ some i) {c : Call} (hm : s.calls[i]? = some c)
    (hl : ∀ m, c = .send m → m.isLate = false) (hs : s.callOpen i c = some r) :
    ∃ done' part', done <+: done' ∧ Frags r.1 done' part' (os ++ r.2) := by
  unfold Conn.callOpen at hs
  split at hs
  · rename_i m
    cases hs
    exact h.sendLoop hi hd hnt hm (hl m rfl)
  · rename_i explicit data
    split at hs
    · split at hs
      · cases hs
        exact ⟨done, part, List.prefix_refl _, h.mono rfl rfl ⟨[], by simp⟩ rfl id fun j hj => .inl (by simpa using hj)⟩
      · cases hs
    · simp only at hs
      split at hs
      · cases hs
        exact ⟨done, part, List.prefix_refl _, h.mono rfl rfl ⟨[], by simp⟩ rfl id fun j hj => .inl (by simpa using hj)⟩
      · rename_i hw
        cases hs
        have q := write_quiet hw rfl
        have h := h.quiet (s' := { s with pings := s.pings ++ [(data, i)] }) (Quiet.refl s)
        refine ⟨done, part, List.prefix_refl _, (h.quiet q).set (by rw [q.2.2.1]; exact hi) ?_ ?_ fun j hj =>
          .inl (by simpa using hj)⟩
        · rw [q.2.1]; exact fun he => absurd he hnt
        · intro pc hpc
          cases hpc
          exact ⟨_, _, by rw [q.2.2.1]; exact hm⟩
  · split at hs
    · cases hs
      exact ⟨done, part, List.prefix_refl _, h.mono rfl rfl ⟨[], by simp⟩ rfl id fun j hj => .inl (by simpa using hj)⟩
    · rename_i hw
      cases hs
      have q := write_quiet hw rfl
      refine ⟨done, part, List.prefix_refl _, (h.quiet q).set (by rw [q.2.2.1]; exact hi) ?_ ?_ fun j hj =>
        .inl (by simpa using hj)⟩
      · rw [q.2.1]; exact fun he => absurd he hnt
      · intro pc hpc
        cases hpc
        intro m hm'
        rw [q.2.2.1, hm] at hm'
        cases hm'
  · cases hs

theorem Frags.call {s : Conn} {r : Conn × List Obs} {done : List Nat} {part : List Frame} {os : List Obs}
    (h : Frags s done part os) {c : Call} (hl : ∀ m, c = .send m → m.isLate = false)
    (hs : s.call c = some r) : ∃ done' part', done <+: done' ∧ Frags r.1 done' part' (os ++ r.2) := by
  have h' : Frags { s with calls := s.calls ++ [c] } done part os :=
    h.mono rfl rfl ⟨[c], rfl⟩ rfl id fun _ hj => .inl hj
  have hi : s.calls.length < ({ s with calls := s.calls ++ [c] } : Conn).calls.length := by simp
  have hm : ({ s with calls := s.calls ++ [c] } : Conn).calls[s.calls.length]? = some c := by simp
  have hd : s.calls.length ∉ done := fun hd => absurd (h.complete _ hd).1 (Nat.lt_irrefl _)
  have hnt : s.frag ≠ some s.calls.length := by
    intro he
    obtain ⟨pc, hp, -⟩ := h.owner _ he
    exact absurd (h.pcs _ _ hp).1 (Nat.lt_irrefl _)
  unfold Conn.call at hs
  simp only at hs
  split at hs
  · rename_i data
    have q := writeClose_quiet { s with calls := s.calls ++ [.close data] } (some s.calls.length) data
    split at hs <;> rename_i hw <;> rw [hw] at q <;> cases hs <;> simp only at q
    · refine ⟨done, part, List.prefix_refl _, h'.mono q.1 q.2.1 ⟨[], by simpa using q.2.2.1⟩ q.2.2.2.1 q.2.2.2.2 ?_⟩
      intro j hj
      simp only [List.mem_append, List.mem_singleton, Obs.returned.injEq] at hj
      rcases hj with hj | rfl
      · exact .inl hj
      · refine .inr ⟨by rw [q.2.2.1]; exact hi, fun m hm' => ?_⟩
        rw [q.2.2.1, hm] at hm'
        cases hm'
    · exact ⟨done, part, List.prefix_refl _, h'.mono q.1 q.2.1 ⟨[], by simpa using q.2.2.1⟩ q.2.2.2.1 q.2.2.2.2 fun j hj =>
        .inl (by simpa using hj)⟩
    · refine ⟨done, part, List.prefix_refl _, (h'.quiet q).set (by rw [q.2.2.1]; exact hi) ?_ ?_ fun j hj =>
        .inl (by simpa using hj)⟩
      · rw [q.2.1]; exact fun he => absurd he hnt
      · intro pc hpc
        cases hpc
        intro m hm'
        rw [q.2.2.1, hm] at hm'
        cases hm'
  · split at hs
    · exact h'.callOpen hi hd hnt hm hl hs
    · split at hs <;> cases hs
      · exact ⟨done, part, List.prefix_refl _, h'.mono rfl rfl ⟨[], by simp⟩ rfl id fun j hj => .inl (by simpa using hj)⟩
      · refine ⟨done, part, List.prefix_refl _, h'.set hi ?_ ?_ fun j hj => .inl (by simpa using hj)⟩
        · exact fun he => absurd he hnt
        · intro pc hpc
          cases hpc
          trivial

theorem Frags.afterFragment {s : Conn} {done : List Nat} {part : List Frame} {os : List Obs}
    (h : Frags s done part os) {i : Nat} (hi : i < s.calls.length) (hf : s.frag = some i)
    (hd : i ∉ done) {m : Msg} (hm : s.calls[i]? = some (.send m)) (hp : m.isPlain = false)
    (async text : Bool) (items : List Chunk) (hr : part ++ Spec.rest text items = Spec.frames m) :
    ∃ part', Frags (s.afterFragment i async text items).1 done part'
      (os ++ (s.afterFragment i async text items).2) := by
  unfold Conn.afterFragment
  split
  · refine ⟨part, h.set hi ?_ ?_ fun j hj => .inl (by simpa using hj)⟩
    · exact fun _ => ⟨_, rfl, rfl⟩
    · intro pc hpc
      cases hpc
      exact ⟨hf, hd, m, hm, hp, hr⟩
  · exact h.sendNext hi hf hd hm hp false text items hr

theorem Frags.resume {s : Conn} {r : Conn × List Obs} {done : List Nat} {part : List Frame} {os : List Obs}
    (h : Frags s done part os) {i : Nat} {d : Drain}
    (hl : ∀ (j : Nat) (m : Msg), s.calls[j]? = some (.send m) → m.isLate = false)
    (hs : s.resume i d = some r) : ∃ done' part', done <+: done' ∧ Frags r.1 done' part' (os ++ r.2) := by
  have hfq := fail_quiet s 1006
  have hfail := h.quiet hfq
  have hno : ∀ pc, s.tasks i = some pc → pc.inTry = false → s.frag ≠ some i := by
    intro pc hpc ht he
    obtain ⟨pc', h1, h2⟩ := h.owner i he
    rw [hpc] at h1
    cases h1
    rw [ht] at h2
    cases h2
  unfold Conn.resume at hs
  split at hs
  · cases hs
  · rename_i ht
    obtain ⟨hi, hp⟩ := h.pcs _ _ ht
    have hn := hno _ ht rfl
    split at hs
    · cases hs
      refine ⟨done, part, List.prefix_refl _, h.set hi (fun he => absurd he hn) (by simp) ?_⟩
      intro j hj
      simp only [List.mem_append, List.mem_singleton, Obs.returned.injEq] at hj
      rcases hj with hj | rfl
      · exact .inl hj
      · exact .inr ⟨rfl, fun m hm => .inl (hp m hm)⟩
    · simp only at hs
      split at hs <;> cases hs
      · refine ⟨done, part, List.prefix_refl _, hfail.set (by rw [hfq.2.2.1]; exact hi) ?_ (by simp) ?_⟩
        · rw [hfq.2.1]; exact fun he => absurd he hn
        · intro j hj
          simp only [List.mem_append, List.mem_singleton, Obs.returned.injEq] at hj
          rcases hj with hj | rfl
          · exact .inl hj
          · refine .inr ⟨rfl, fun m hm => .inl (hp m ?_)⟩
            rw [hfq.2.2.1] at hm
            exact hm
      · refine ⟨done, part, List.prefix_refl _, hfail.set (by rw [hfq.2.2.1]; exact hi) ?_ ?_ fun j hj =>
          .inl (by simpa using hj)⟩
        · rw [hfq.2.1]; exact fun he => absurd he hn
        · intro pc hpc
          cases hpc
          trivial
    · cases hs
      exact ⟨done, part, List.prefix_refl _, h.set hi (fun he => absurd he hn) (by simp) fun j hj =>
        .inl (by simpa using hj)⟩
  · rename_i ht
    obtain ⟨hi, hm, hd⟩ := h.pcs _ _ ht
    have hn := hno _ ht rfl
    split at hs <;> cases hs
    exact h.sendLoop hi hd hn hm (hl _ _ hm)
  · rename_i ht
    exact (h.pcs _ _ ht).2.elim
  · rename_i ht
    obtain ⟨hi, hf, hd, m, hm, hpl, hr⟩ := h.pcs _ _ ht
    split at hs
    · cases hs
      obtain ⟨part', h'⟩ := h.afterFragment hi hf hd hm hpl _ _ _ hr
      exact ⟨done, part', List.prefix_refl _, h'⟩
    · simp only at hs
      split at hs <;> cases hs
      · obtain ⟨part', h'⟩ := hfail.afterFragment (by rw [hfq.2.2.1]; exact hi) (by rw [hfq.2.1]; exact hf) hd
          (by rw [hfq.2.2.1]; exact hm) hpl _ _ _ hr
        exact ⟨done, part', List.prefix_refl _, h'⟩
      · refine ⟨done, part, List.prefix_refl _, hfail.set (by rw [hfq.2.2.1]; exact hi) ?_ ?_ fun j hj =>
          .inl (by simpa using hj)⟩
        · exact fun _ => ⟨_, rfl, rfl⟩
        · intro pc hpc
          cases hpc
          exact ⟨by rw [hfq.2.1]; exact hf, hd, m, by rw [hfq.2.2.1]; exact hm, hpl⟩
    · cases hs
      exact ⟨done, part, List.prefix_refl _, h.failFragment hf _⟩
  · rename_i ht
    obtain ⟨hi, hf, hd, m, hm, hpl, hr⟩ := h.pcs _ _ ht
    cases hs
    obtain ⟨part', h'⟩ := h.sendNext hi hf hd hm hpl true _ _ hr
    exact ⟨done, part', List.prefix_refl _, h'⟩
  · rename_i ht
    obtain ⟨hi, hf, hd, m, hm, hpl, hr, hc⟩ := h.pcs _ _ ht
    split at hs
    · cases hs
      exact ⟨_, _, List.prefix_append _ _, h.release hi hf hd hm hr hc⟩
    · simp only at hs
      split at hs <;> cases hs
      · exact ⟨_, _, List.prefix_append _ _, hfail.release (by rw [hfq.2.2.1]; exact hi) (by rw [hfq.2.1]; exact hf) hd
          (by rw [hfq.2.2.1]; exact hm) hr hc⟩
      · refine ⟨done, part, List.prefix_refl _, hfail.set (by rw [hfq.2.2.1]; exact hi) ?_ ?_ fun j hj =>
          .inl (by simpa using hj)⟩
        · exact fun _ => ⟨_, rfl, rfl⟩
        · intro pc hpc
          cases hpc
          exact ⟨by rw [hfq.2.1]; exact hf, hd, m, by rw [hfq.2.2.1]; exact hm, hpl⟩
    · cases hs
      exact ⟨done, part, List.prefix_refl _, h.failFragment hf _⟩
  · rename_i data ht
    obtain ⟨hi, e, dd, hc⟩ := h.pcs _ _ ht
    have hn := hno _ ht rfl
    have key : ∀ s₁ : Conn, Frags s₁ done part os → i < s₁.calls.length → s₁.frag ≠ some i →
        Frags (s₁.afterPing i data).1 done part (os ++ (s₁.afterPing i data).2) := by
      intro s₁ h₁ g1 g2
      unfold Conn.afterPing
      split
      · exact h₁.set g1 (fun he => absurd he g2) (by simp) fun j hj => .inl (by simpa using hj)
      · exact h₁.set g1 (fun he => absurd he g2) (by simp) fun j hj => .inl (by simpa using hj)
    split at hs
    · cases hs
      exact ⟨done, part, List.prefix_refl _, key s h hi hn⟩
    · simp only at hs
      split at hs <;> cases hs
      · exact ⟨done, part, List.prefix_refl _, key _ hfail (by rw [hfq.2.2.1]; exact hi) (by rw [hfq.2.1]; exact hn)⟩
      · refine ⟨done, part, List.prefix_refl _, hfail.set (by rw [hfq.2.2.1]; exact hi) ?_ ?_ fun j hj =>
          .inl (by simpa using hj)⟩
        · rw [hfq.2.1]; exact fun he => absurd he hn
        · intro pc hpc
          cases hpc
          trivial
    · cases hs
      exact ⟨done, part, List.prefix_refl _, h.set hi (fun he => absurd he hn) (by simp) fun j hj =>
        .inl (by simpa using hj)⟩
  · rename_i ht
    obtain ⟨hi, hf, hd, m, hm, hpl⟩ := h.pcs _ _ ht
    cases hs
    exact ⟨done, part, List.prefix_refl _, h.failFragment hf _⟩
  · rename_i ht
    obtain ⟨hi, -⟩ := h.pcs _ _ ht
    cases hs
    exact ⟨done, part, List.prefix_refl _, h.set hi (fun he => absurd he (hno _ ht rfl)) (by simp) fun j hj =>
      .inl (by simpa using hj)⟩

theorem Frags.cancel {s : Conn} {r : Conn × List Obs} {done : List Nat} {part : List Frame} {os : List Obs}
    (h : Frags s done part os) {i : Nat}
    (hl : ∀ m, s.calls[i]? = some (.send m) → m.isPlain = true)
    (hs : s.cancel i = some r) : ∃ done' part', done <+: done' ∧ Frags r.1 done' part' (os ++ r.2) := by
  cases ht : s.tasks i with
  | none => simp [Conn.cancel, ht] at hs
  | some pc =>
    obtain ⟨hi, hp⟩ := h.pcs _ _ ht
    cases hpc : pc.inTry with
    | true =>
      rcases pc with _ | _ | _ | _ | _ | _ | _ | (_ | _) <;> simp only [Pc.inTry, Bool.false_eq_true] at hpc
      all_goals
        obtain ⟨-, -, m, hm, hpl⟩ := hp
        have hpl : m.isPlain = false := by first | exact hpl | exact hpl.1
        rw [hl m hm] at hpl
        exact absurd hpl (by decide)
    | false =>
      have hn : s.frag ≠ some i := by
        intro he
        obtain ⟨pc', h1, h2⟩ := h.owner i he
        rw [ht] at h1
        cases h1
        rw [hpc] at h2
        cases h2
      have : s.cancel i = some (s.setTask i none, [.raised i .cancelled]) := by
        unfold Conn.cancel
        rw [ht]
        rcases pc with _ | _ | _ | _ | _ | _ | _ | (_ | _) <;>
          simp only [Pc.inTry, Bool.true_eq_false] at hpc <;> rfl
      rw [this] at hs
      cases hs
      exact ⟨done, part, List.prefix_refl _, h.set hi (fun he => absurd he hn) (by simp) fun j hj =>
        .inl (by simpa using hj)⟩

/-- The calls that are made in a sequence of steps. -/
def Spec.callsOf (as : List Act) : List Call :=
  as.filterMap fun a => match a with
    | .call c => some c
    | _ => none

theorem Frags.step {s : Conn} {r : Conn × List Obs} {a : Act} {done : List Nat} {part : List Frame} {os : List Obs}
    (h : Frags s done part os) (hl : ∀ (j : Nat) (m : Msg), (s.calls ++ Spec.callsOf [a])[j]? = some (.send m) →
      m.isLate = false)
    (hc : ∀ i, a = .cancel i → ∀ m, s.calls[i]? = some (.send m) → m.isPlain = true)
    (hs : s.step a = some r) : ∃ done' part', done <+: done' ∧ Frags r.1 done' part' (os ++ r.2) := by
  have quiet : ∀ {s₁ : Conn}, Quiet s s₁ → (s₁, []) = r →
      ∃ done' part', done <+: done' ∧ Frags r.1 done' part' (os ++ r.2) := by
    rintro s₁ q rfl
    exact ⟨done, part, List.prefix_refl _, by rw [List.append_nil]; exact h.quiet q⟩
  unfold Conn.step at hs
  split at hs
  · rename_i c
    refine h.call ?_ hs
    rintro m rfl
    exact hl s.calls.length m (by simp [Spec.callsOf])
  · refine h.resume ?_ hs
    intro j m hm
    refine hl j m ?_
    rw [List.getElem?_append_left (List.getElem?_eq_some_iff.1 hm).1]
    exact hm
  · exact h.cancel (hc _ rfl) hs
  · split at hs <;> cases hs
    exact quiet (recvClose_quiet s _) rfl
  · split at hs <;> cases hs
    exact quiet (recvPing_quiet s _) rfl
  · split at hs <;> cases hs
    exact quiet (recvPong_quiet s _) rfl
  · rename_i d
    cases hr : s.resumeTransfer d with
    | none => simp [hr] at hs
    | some s₁ =>
      simp only [hr, Option.map_some, Option.some.injEq] at hs
      exact quiet (resumeTransfer_quiet hr) hs
  · split at hs <;> cases hs
    exact quiet (transferFails_quiet s _) rfl
  · split at hs <;> cases hs
    exact quiet (s₁ := { s with transfer := .exited }) (Quiet.refl s) rfl
  · cases hs
    exact quiet (fail_quiet s _) rfl
  · split at hs <;> cases hs
    exact quiet (s₁ := s.lost) ⟨rfl, rfl, rfl, rfl, by simp [Conn.lost]⟩ rfl

end WS.LegacyConn
