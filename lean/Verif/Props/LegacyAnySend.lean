import Verif.Lemmas.LegacyAnySend
import Verif.Props.LegacyDelivery

/-!
# C54, C76: concurrent calls to `send` in any execution

`C54_first_false` and `C54_cancel_false` show that a message may start in the middle of another.  Until
then, messages are sent and received properly; from there, nothing more is received.
-/

namespace WS.LegacyConn

open WS.Legacy (transmit Use Receiver RAct AReader)
open WS.Spec (assemble assembleFrom Each Carries)
open WS.Legacy.Spec (written Keyed)

/-! ## Specification -/

/-- The data frames `fs` are those of the messages in `done`, each complete and contiguous, followed by the
first frames of at most one other message.  A message is in `done` once its call to `send` returns. -/
structure Spec.Contiguous (as : List Act) (os : List Obs) (fs : List Frame) (done : List Nat)
    (part : List Frame) : Prop where
  eq : fs = done.flatMap (callFrames (callsOf as)) ++ part
  nodup : done.Nodup
  complete : ∀ i ∈ done, Complete (callFrames (callsOf as) i)
  opened : ∀ f ∈ part, f.fin = false
  other : part ≠ [] → ∃ j, j ∉ done ∧ part <+: callFrames (callsOf as) j
  returned : ∀ i, .returned i ∈ os → i ∈ done ∨ callFrames (callsOf as) i = []

/-! ## Executions -/

/-- The invariant, with what it says about earlier states. -/
structure RunsFrom (as : List Act) (s : Conn) (os : List Obs) (done : List Nat) (part : List Frame) : Prop where
  exec : Conn.exec {} as = some (s, os)
  calls : s.calls = Spec.callsOf as
  runs : Runs s done part os
  before : ∀ as1 as2, as = as1 ++ as2 → ∃ s1 os1 done1 part1, Conn.exec {} as1 = some (s1, os1) ∧
    s1.calls = Spec.callsOf as1 ∧ Runs s1 done1 part1 os1 ∧ done1 <+: done

theorem RunsFrom.start : RunsFrom [] {} [] [] [] := by
  refine ⟨rfl, rfl, Runs.init, ?_⟩
  intro as1 as2 he
  obtain ⟨rfl, rfl⟩ := List.nil_eq_append_iff.1 he
  exact ⟨_, _, [], [], rfl, rfl, Runs.init, List.prefix_refl _⟩

/-- Every execution, until a message starts in the middle of another. -/
theorem Runs.exec {as : List Act} {s : Conn} {os : List Obs} (h : Conn.exec {} as = some (s, os)) :
    ∃ as1 as2 s1 os1 done part, as = as1 ++ as2 ∧ RunsFrom as1 s1 os1 done part ∧
      (as2 = [] ∨ ∃ f more, part ≠ [] ∧ (f.opcode = .text ∨ f.opcode = .binary) ∧
        s.frames = s1.frames ++ f :: more) := by
  refine Conn.exec_induction (s0 := ({} : Conn)) (P := fun as s os =>
    ∃ as1 as2 s1 os1 done part, as = as1 ++ as2 ∧ RunsFrom as1 s1 os1 done part ∧
      (as2 = [] ∨ ∃ f more, part ≠ [] ∧ (f.opcode = .text ∨ f.opcode = .binary) ∧
        s.frames = s1.frames ++ f :: more)) ?_ ?_ h
  · exact ⟨[], [], {}, [], [], [], rfl, .start, .inl rfl⟩
  · rintro as a s s' os o hex ⟨as1, as2, s1, os1, done, part, rfl, hr, hend⟩ hs
    by_cases h2 : as2 = []
    · subst h2
      rw [List.append_nil] at hex ⊢
      rw [hr.exec] at hex
      cases hex
      rcases hr.runs.step hs with ⟨done', part', h3, h4⟩ | ⟨h3, i, f, h4, h5⟩
      · refine ⟨as1 ++ [a], [], s', os ++ o, done', part', by simp, ?_, .inl rfl⟩
        have hex' := Conn.exec_snoc hr.exec hs
        have hcalls : s'.calls = Spec.callsOf (as1 ++ [a]) := by
          rw [Conn.step_calls hs, Spec.callsOf_append, hr.calls]
        refine ⟨hex', hcalls, h4, ?_⟩
        intro bs1 bs2 he
        rcases List.eq_nil_or_concat bs2 with rfl | ⟨bs3, b, rfl⟩
        · rw [List.append_nil] at he
          subst he
          exact ⟨_, _, _, _, hex', hcalls, h4, List.prefix_refl _⟩
        · rw [List.concat_eq_append, ← List.append_assoc] at he
          obtain ⟨he, -⟩ := List.append_inj' he rfl
          obtain ⟨t, ot, dt, pt, g1, g2, g3, g4⟩ := hr.before bs1 bs3 he
          exact ⟨t, ot, dt, pt, g1, g2, g3, g4.trans h3⟩
      · exact ⟨as1, [a], s, os, done, part, rfl, hr, .inr ⟨f, [], h3, h5, by
          have h4 : s'.log = _ := h4
          simp [Conn.frames, h4]⟩⟩
    · rcases hend with h | ⟨f, more, h3, h4, h5⟩
      · exact absurd h h2
      · obtain ⟨ext, hlog, -⟩ := Conn.step_grows hs
        refine ⟨as1, as2 ++ [a], s1, os1, done, part, by simp, hr, .inr ⟨f, more ++ ext, h3, h4, ?_⟩⟩
        rw [hlog, h5, List.append_assoc, List.cons_append]

theorem RunsFrom.contiguous {as : List Act} {s : Conn} {os : List Obs} {done : List Nat} {part : List Frame}
    (h : RunsFrom as s os done part) : Spec.Contiguous as os s.dataFrames done part := by
  have hr := h.runs
  refine ⟨?_, hr.nodup, ?_, hr.opened, ?_, ?_⟩ <;> rw [← h.calls]
  · exact hr.eq
  · exact fun i hi => (hr.complete i hi).2
  · intro hp
    obtain ⟨j, -, h2, h3⟩ := hr.part hp
    exact ⟨j, h2, h3⟩
  · intro i hi
    unfold Spec.callFrames
    split
    · rename_i m hm
      exact (hr.ret i hi).2 m hm
    · exact .inr rfl

theorem Spec.Contiguous.messages {as : List Act} {os : List Obs} {fs : List Frame} {done : List Nat}
    {part : List Frame} (h : Contiguous as os fs done part) :
    WS.Spec.Messages fs (decide (part ≠ [])) := by
  have key : ∀ (done : List Nat) (fs : List Frame), WS.Spec.Messages fs false →
      (∀ i ∈ done, Spec.Complete (Spec.callFrames (Spec.callsOf as) i)) →
      WS.Spec.Messages (fs ++ done.flatMap (Spec.callFrames (Spec.callsOf as))) false := by
    intro done
    induction done with
    | nil => intro fs hfs _; simpa using hfs
    | cons i done ih =>
      intro fs hfs hd
      obtain ⟨b, hb⟩ := Messages.call hfs (Spec.callsOf as) i (List.prefix_refl _)
      obtain ⟨init, f, he, hf⟩ := hd i (by simp)
      have : b = false := Messages.complete hb (init := fs ++ init) (f := f) (by rw [he]; simp) hf
      subst this
      have := ih _ hb fun j hj => hd j (by simp [hj])
      simpa using this
  have hall := key done [] .nil h.complete
  rw [List.nil_append] at hall
  rw [h.eq]
  by_cases hp : part = []
  · subst hp
    simpa using hall
  · obtain ⟨j, -, hj⟩ := h.other hp
    obtain ⟨b, hb⟩ := Messages.call hall _ _ hj
    have : b = true := by
      cases b with
      | true => rfl
      | false =>
        rcases List.eq_nil_or_concat part with rfl | ⟨q, f, rfl⟩
        · exact absurd rfl hp
        · have hf := h.opened f (by simp)
          exfalso
          generalize hg : done.flatMap (Spec.callFrames (Spec.callsOf as)) ++ q.concat f = gs at hb
          rw [List.concat_eq_append, ← List.append_assoc] at hg
          cases hb with
          | nil => simp at hg
          | whole _ _ g => obtain ⟨-, e⟩ := List.append_inj' hg rfl; cases e; rw [hf] at g; cases g
          | last _ _ g => obtain ⟨-, e⟩ := List.append_inj' hg rfl; cases e; rw [hf] at g; cases g
    subst this
    simpa [hp] using hb

theorem Messages.no_break {fs : List Frame} (h : WS.Spec.Messages fs true) {f : Frame} {rest : List Frame}
    {b : Bool} (hop : f.opcode = .text ∨ f.opcode = .binary) (hb : WS.Spec.Messages (fs ++ f :: rest) b) : False := by
  have he : fs ++ f :: rest = (fs ++ [f]) ++ rest := by simp
  rw [he] at hb
  obtain ⟨v, hv⟩ := hb.prefix
  rcases hv.append_single.2 with ⟨hc, -⟩ | ⟨-, hm⟩
  · rw [hc] at hop
    rcases hop with h | h <;> cases h
  · cases h.unique hm

/-! ## C54 -/

/-- **C54, partial**, for all executions.  `as1` is a beginning of the execution: until then, messages are
contiguous.  If it isn't the whole execution, then a message starts in the middle of another. -/
theorem C54_until_partial {as : List Act} {s : Conn} {os : List Obs} (h : Conn.exec {} as = some (s, os)) :
    ∃ as1 as2 s1 os1 done part, as = as1 ++ as2 ∧ Conn.exec {} as1 = some (s1, os1) ∧
      Spec.Contiguous as1 os1 s1.dataFrames done part ∧
      (as2 = [] ∨ ∃ f rest, part ≠ [] ∧ (f.opcode = .text ∨ f.opcode = .binary) ∧
        s.dataFrames = s1.dataFrames ++ f :: rest) := by
  obtain ⟨as1, as2, s1, os1, done, part, he, hr, hend⟩ := Runs.exec h
  refine ⟨as1, as2, s1, os1, done, part, he, hr.exec, hr.contiguous, hend.imp id ?_⟩
  rintro ⟨f, more, h1, h2, h3⟩
  refine ⟨f, more.filter (!·.opcode.isCtrl), h1, h2, ?_⟩
  unfold Conn.frames at h3
  simp only [Conn.dataFrames, h3, List.filter_append]
  rw [List.filter_cons_of_pos (by rcases h2 with h | h <;> simp [h, Opcode.isCtrl])]

/-- **C54**, for all executions: messages are contiguous if and only if the data frames follow the rules of
fragmentation. -/
theorem C54_contiguous_iff {as : List Act} {s : Conn} {os : List Obs} (h : Conn.exec {} as = some (s, os)) :
    (∃ done part, Spec.Contiguous as os s.dataFrames done part) ↔ ∃ b, WS.Spec.Messages s.dataFrames b := by
  constructor
  · rintro ⟨done, part, hc⟩
    exact ⟨_, hc.messages⟩
  · rintro ⟨b, hb⟩
    obtain ⟨as1, as2, s1, os1, done, part, rfl, hex, hc, hend⟩ := C54_until_partial h
    rcases hend with rfl | ⟨f, rest, h1, h2, h3⟩
    · rw [List.append_nil] at h ⊢
      rw [h] at hex
      cases hex
      exact ⟨done, part, hc⟩
    · exfalso
      have hm := hc.messages
      rw [decide_eq_true h1] at hm
      rw [h3] at hb
      exact Messages.no_break hm h2 hb

/-! ## C76 -/

theorem RunsFrom.sent {as : List Act} {s : Conn} {os : List Obs} {done : List Nat} {part : List Frame}
    (h : RunsFrom as s os done part) : Spec.Sent as os done (assemble (s.log.map (·.2))) := by
  have h1 := h.calls
  have h2 := h.runs
  have heq : assemble (s.log.map (·.2)) = assembleFrom none (done.flatMap (Spec.callFrames s.calls) ++ part) := by
    rw [← h2.eq]; rfl
  obtain ⟨msgs, k1, k2⟩ := assemble_calls (fun i hi => (h2.complete i hi).2) part
  rw [assembleFrom_unfinished h2.opened, List.append_nil] at k1
  rw [heq, k1]
  rw [h1] at k2
  refine ⟨h2.nodup, k2, ?_, ?_⟩
  · intro i m c hr hm hcont
    rw [← h1] at hm
    rcases (h2.ret i hr).2 m hm with hd | hd
    · exact hd
    · exact absurd hd hcont.frames
  · intro as1 as2 s1 os1 i j m c he hex hr hm hcont hj
    obtain ⟨s1', os1', done1, part1, k1, k2, k3, ⟨q1, k4⟩⟩ := h.before as1 as2 he
    rw [hex] at k1
    cases k1
    have hi := (k3.ret i hr).1
    have hm1 : s1.calls[i]? = some (.send m) := by
      rw [he, Spec.callsOf_append, ← k2, List.getElem?_append_left hi] at hm
      exact hm
    refine ⟨done1, q1, k4.symm, ?_, ?_⟩
    · rcases (k3.ret i hr).2 m hm1 with hd | hd
      · exact hd
      · exact absurd hd hcont.frames
    · intro hd
      have := (k3.complete j hd).1
      rw [k2] at this
      omega

/-- **C76, partial**, for all executions: the messages that the frames of a connection carry, until a message
starts in the middle of another, are those of the calls to `send`. -/
theorem C76_sent_until_partial {as : List Act} {s : Conn} {os : List Obs} (h : Conn.exec {} as = some (s, os)) :
    ∃ as1 as2 s1 os1 order, as = as1 ++ as2 ∧ Conn.exec {} as1 = some (s1, os1) ∧
      Spec.Sent as1 os1 order (assemble (s1.log.map (·.2))) ∧
      (as2 = [] ∨ ∃ f rest, WS.Spec.Messages s1.dataFrames true ∧ (f.opcode = .text ∨ f.opcode = .binary) ∧
        s.dataFrames = s1.dataFrames ++ f :: rest) := by
  obtain ⟨as1, as2, s1, os1, done, part, he, hr, hend⟩ := Runs.exec h
  refine ⟨as1, as2, s1, os1, done, he, hr.exec, hr.sent, hend.imp id ?_⟩
  rintro ⟨f, more, h1, h2, h3⟩
  have hm := hr.contiguous.messages
  rw [decide_eq_true h1] at hm
  refine ⟨f, more.filter (!·.opcode.isCtrl), hm, h2, ?_⟩
  unfold Conn.frames at h3
  simp only [Conn.dataFrames, h3, List.filter_append]
  rw [List.filter_cons_of_pos (by rcases h2 with h | h <;> simp [h, Opcode.isCtrl])]

section
variable {X : Type} {ops : ExtOps X}

theorem written_split {us : List Use} {a b : List Frame} (h : written us = a ++ b) :
    ∃ us1 us2, us = us1 ++ us2 ∧ written us1 = a ∧ written us2 = b := by
  induction us generalizing a with
  | nil =>
    obtain ⟨rfl, rfl⟩ := List.nil_eq_append_iff.1 h
    exact ⟨[], [], rfl, rfl, rfl⟩
  | cons u us ih =>
    cases u with
    | write f key =>
      cases a with
      | nil => exact ⟨[], _, rfl, rfl, h⟩
      | cons g a =>
        simp only [WS.Legacy.Spec.written, List.cons_append, List.cons.injEq] at h
        obtain ⟨rfl, h⟩ := h
        obtain ⟨us1, us2, rfl, h1, h2⟩ := ih h
        exact ⟨_ :: us1, us2, rfl, by simp [WS.Legacy.Spec.written, h1], h2⟩
    | read limit raw =>
      obtain ⟨us1, us2, rfl, h1, h2⟩ := ih h
      exact ⟨_ :: us1, us2, rfl, h1, h2⟩

theorem transmit_append {client : Bool} {xs : List X} {us1 us2 : List Use} {ws : List Bytes}
    (h : transmit ops client xs (us1 ++ us2) = .ok ws) :
    ∃ xs' ws1 ws2, transmit ops client xs us1 = .ok ws1 ∧ transmit ops client xs' us2 = .ok ws2 ∧ ws = ws1 ++ ws2 := by
  induction us1 generalizing xs ws with
  | nil => exact ⟨xs, [], ws, rfl, h, rfl⟩
  | cons u us1 ih =>
    cases u with
    | write f key =>
      simp only [List.cons_append, transmit] at h ⊢
      split at h
      · cases h
      · rename_i w xs1 hw
        cases ht : transmit ops client xs1 (us1 ++ us2) with
        | error e => rw [ht] at h; cases h
        | ok ws0 =>
          rw [ht] at h
          cases h
          obtain ⟨xs', ws1, ws2, h1, h2, rfl⟩ := ih ht
          exact ⟨xs', w :: ws1, ws2, by simp [hw, h1, Except.map], h2, rfl⟩
    | read limit raw =>
      simp only [List.cons_append, transmit] at h ⊢
      exact ih h

theorem transmit_none {client : Bool} {xs : List X} {us : List Use} {ws : List Bytes}
    (h : transmit ops client xs us = .ok ws) (hf : written us = []) : ws = [] := by
  induction us generalizing xs with
  | nil => cases h; rfl
  | cons u us ih =>
    cases u with
    | write f key => cases hf
    | read limit raw => exact ih h hf

/-- The bytes of the first frame that's written. -/
theorem transmit_first (hl : ops.Lawful) {client : Bool} {xs : List X} {us : List Use} {ws : List Bytes} {f : Frame}
    {fs : List Frame} (h : transmit ops client xs us = .ok ws) (hf : written us = f :: fs) :
    ∃ g w ws', ws = w :: ws' ∧ WS.Spec.Wire client g w ∧ g.opcode = f.opcode := by
  induction us generalizing xs ws with
  | nil => cases hf
  | cons u us ih =>
    cases u with
    | write f' key =>
      simp only [WS.Legacy.Spec.written, List.cons.injEq] at hf
      obtain ⟨rfl, hf⟩ := hf
      simp only [transmit] at h
      split at h
      · cases h
      · rename_i w xs1 hw
        cases ht : transmit ops client xs1 us with
        | error e => rw [ht] at h; cases h
        | ok ws0 =>
          rw [ht] at h
          cases h
          unfold WS.Frame.serializeExt at hw
          split at hw
          · cases hw
          · cases ha : applyExts ops.encode xs f' with
            | mk r ys =>
              rw [ha] at hw
              cases r with
              | error e => simp at hw
              | ok g =>
                simp only [Prod.mk.injEq] at hw
                refine ⟨g, w, ws0, rfl, ⟨if client then some key else none, by cases client <;> rfl, ?_⟩,
                  (applyExts_encode hl ha).2.1⟩
                obtain ⟨-, a, b, c, d, e1, e2, e3, -, e5⟩ := (Frame.wire_iff g _ w).1 hw.1
                exact ⟨a, b, c, d, e1, e2, e3, fun h => (by cases h), e5⟩
    | read limit raw => exact ih (by simpa only [transmit] using h) hf

/-- What a legacy connection sends, in any execution: frames that carry the messages of the calls to `send`,
and nothing more, or a frame that starts a message in the middle of another. -/
theorem sends_until (hl : ops.Lawful) {size : Nat} {R : Bool → List X → List X → Prop}
    (hc : WS.Spec.Channel ops size R) {xs ys : List X} (hR : R false xs ys)
    {as : List Act} {s : Conn} {os : List Obs} (h : Conn.exec {} as = some (s, os))
    (hsize : ∀ f ∈ s.log.map (·.2), f.data.length ≤ size)
    {client : Bool} {us : List Use} (hus : written us = s.log.map (·.2)) (hk : Keyed us) {wire : List Bytes}
    (htr : transmit ops client xs us = .ok wire) :
    ∃ as1 as2 s1 os1 order l ws tail, as = as1 ++ as2 ∧ Conn.exec {} as1 = some (s1, os1) ∧
      Spec.Sent as1 os1 order (assemble (l.map (·.1))) ∧
      WS.Legacy.Spec.PeerSends ops size client xs l ws ∧ WS.Legacy.Spec.CloseFrameLast l ∧
      WS.Legacy.Spec.Tail ops client l tail ∧ wire.flatten = ws.flatten ++ tail ∧
      (tail = [] ∨ ∀ f ∈ l.map (·.1), f.opcode ≠ .close) ∧ (tail = [] → as2 = []) := by
  obtain ⟨as1, as2, s1, os1, done, part, he, hr, hend⟩ := Runs.exec h
  have hm := hr.contiguous.messages
  obtain ⟨ext, hg1, -, hg3, -, hg5⟩ := Conn.exec_grows hr.exec
  simp only [Conn.frames, List.map_nil, List.nil_append] at hg1
  obtain ⟨ext2, hh1, -⟩ : Grows s1 s := by
    rw [he] at h
    obtain ⟨t, o1, o2, j1, j2, -⟩ := Conn.exec_append h
    rw [hr.exec] at j1
    cases j1
    exact Conn.exec_grows j2
  have hsub : ∀ f ∈ s1.log.map (·.2), f ∈ s.log.map (·.2) := by
    intro f hf
    have : s.log.map (·.2) = s1.log.map (·.2) ++ ext2 := hh1
    rw [this]
    exact List.mem_append_left _ hf
  obtain ⟨us1, us2, rfl, hw1, hw2⟩ := written_split (us := us) (hus.trans hh1)
  obtain ⟨xs', ws1, ws2, ht1, ht2, rfl⟩ := transmit_append htr
  have hfilter : (written us1).filter WS.Spec.isDataFrame = s1.dataFrames := by
    rw [hw1, Conn.dataFrames, Conn.frames]
    congr 1
    funext f
    exact WS.isDataFrame_eq f
  obtain ⟨ws, l, h1, h2, h3⟩ := WS.Legacy.transmit_peer (client := client) (us := us1) hc hR
    (by rw [hfilter]; exact hm)
    (by
      rw [hw1]
      exact fun f hf => ⟨hg5 f (by rw [← hg1]; exact hf), hsize f (hsub f hf)⟩)
    (fun f key hf => hk f key (List.mem_append_left _ hf))
  rw [ht1] at h1
  cases h1
  have hcl : WS.Legacy.Spec.CloseFrameLast l := by
    intro pre f post hl
    rw [h2, hw1, Conn.frames, hg1] at hl
    exact hg3 pre f post hl
  have hsent : Spec.Sent as1 os1 done (assemble (l.map (·.1))) := by
    rw [h2, hw1]; exact hr.sent
  rcases hend with rfl | ⟨f, more, k1, k2, k3⟩
  · refine ⟨as1, [], s1, os1, done, l, ws1, [], he, hr.exec, hsent, h3, hcl, .inl rfl, ?_, .inl rfl, fun _ => rfl⟩
    rw [List.append_nil] at he
    subst he
    rw [hr.exec] at h
    cases h
    have : ext2 = [] := by simpa using hh1
    subst this
    have : ws2 = [] := transmit_none ht2 hw2
    rw [this, List.append_nil, List.append_nil]
  · have hext : ext2 = f :: more := by
      rw [hh1] at k3
      exact List.append_cancel_left k3
    subst hext
    obtain ⟨g, w, ws', rfl, e2, e3⟩ := transmit_first hl ht2 hw2
    refine ⟨as1, as2, s1, os1, done, l, ws1, w ++ ws'.flatten, he, hr.exec, hsent, h3, hcl, ?_, by simp, ?_, ?_⟩
    · refine .inr ⟨hl, ?_, g, w, _, e2, by rw [e3]; exact k2, rfl⟩
      rw [h2, hfilter]
      rw [decide_eq_true k1] at hm
      exact hm
    · right
      intro f' hf' hop
      rw [h2, hw1, Conn.frames] at hf'
      obtain ⟨ext', j1, -, j3, -⟩ := Conn.exec_grows h
      simp only [Conn.frames, List.map_nil, List.nil_append] at j1
      obtain ⟨pre, post, hpp⟩ := List.append_of_mem hf'
      have : ext' = pre ++ f' :: (post ++ f :: more) := by
        rw [← j1]
        have : s.log.map (·.2) = s1.log.map (·.2) ++ f :: more := hh1
        rw [this, hpp]
        simp
      have := j3 pre f' _ this hop
      simp at this
    · intro hn
      exact absurd (List.append_eq_nil_iff.1 hn).1 (wire_pos e2)

/-- **C76, partial**, for all executions.  A connection executes `as`, and its extensions encode the frames
that it writes.  The other connection receives the bytes, cut into any chunks.  `as1` is a beginning of the
execution; calls to `recv` return, in order, what calls to `send` were given in `as1`.  When the other
connection has received everything or is closed, without failing, nothing is missing, and `as1` is the whole
execution.  What is missing: if a message starts in the middle of another, then later messages aren't
received (`C76_cancel_false`). -/
theorem C76_until_partial (hl : ops.Lawful) {size : Nat} {R : Bool → List X → List X → Prop}
    (hc : WS.Spec.Channel ops size R) {xs ys : List X} (hR : R false xs ys)
    {as : List Act} {s : Conn} {os : List Obs} (h : Conn.exec {} as = some (s, os))
    (hsize : ∀ f ∈ s.log.map (·.2), f.data.length ≤ size)
    (client : Bool) (us : List Use) (hus : written us = s.log.map (·.2)) (hk : Keyed us) (wire : List Bytes)
    (htr : transmit ops client xs us = .ok wire) :
    ∃ as1 as2 s1 os1 order msgs, as = as1 ++ as2 ∧ Conn.exec {} as1 = some (s1, os1) ∧
      Spec.Sent as1 os1 order msgs ∧
      ∀ maxSize maxQueue (r : AReader), r.eof = false →
      ∀ ras more, r.buf ++ WS.Legacy.Spec.arrived ras ++ more = wire.flatten →
      ∀ t ros, (Receiver.init client maxSize maxQueue ys r).exec ops ras = some (t, ros) →
        (∃ n, Each Carries (msgs.take n) (WS.Legacy.Spec.returned ros)) ∧
        (t.ended = some .closed ∨
            (more = [] ∧ t.queue.transfer = .reading ∧ t.phase = .reading ∧ t.step ops .run = none) →
          Each Carries msgs (WS.Legacy.Spec.returned ros ++ t.queue.messages) ∧ as2 = []) := by
  obtain ⟨as1, as2, s1, os1, order, l, ws, tail, h1, h2, h3, h4, h5, h6, h7, h8, h9⟩ :=
    sends_until hl hc hR h hsize hus hk htr
  refine ⟨as1, as2, s1, os1, order, _, h1, h2, h3, ?_⟩
  rw [h7]
  intro maxSize maxQueue r hr ras more hbytes t ros hex
  refine ⟨WS.Legacy.Receiver.order_tail hc hR h4 h6 maxSize maxQueue r hr ras more hbytes t ros hex, ?_⟩
  rintro (he | ⟨rfl, k1, k2, k3⟩)
  · obtain ⟨k1, l0, f, g, k2, k3⟩ :=
      WS.Legacy.Receiver.closed_tail hc hR h4 h5 h6 maxSize maxQueue r hr ras more hbytes t ros hex he
    refine ⟨k1, h9 ?_⟩
    rcases h8 with h8 | h8
    · exact h8
    · exact absurd k3 (h8 f (by rw [k2]; simp))
  · rw [List.append_nil] at hbytes
    obtain ⟨k1, k2⟩ :=
      WS.Legacy.Receiver.complete_tail hc hR h4 h6 maxSize maxQueue r hr ras hbytes t ros hex k1 k2 k3
    exact ⟨k2, h9 k1⟩

end

/-! ## Examples -/

/-- A plain message; then a call to `send` is cancelled in the middle of a fragmented message while another
call waits, which starts another message. -/
def cancelledActs : List Act :=
  [.call (.send (.plain true b!"x")), .resume 0 .ok, .call (.send (.iter [.data true b!"a"])),
    .call (.send (.plain true b!"b")), .cancel 1, .resume 2 .ok, .resume 2 .ok]

def cancelledUses : List Use :=
  [.write { fin := true, opcode := .text, data := b!"x" } [1, 2, 3, 4],
    .write { fin := false, opcode := .text, data := b!"a" } [1, 2, 3, 4],
    .write { fin := true, opcode := .text, data := b!"b" } [1, 2, 3, 4]]

/-- An asynchronous iterator suspends `send` before its first item, while a message is sent; a call to `send`
is cancelled while it waits. -/
def lateActs : List Act :=
  [.call (.send (.aiter true [.data true b!"a", .data true b!"b"])), .call (.send (.plain true b!"x")),
    .resume 1 .ok, .resume 0 .ok, .call (.send (.iter [.data true b!"y"])), .resume 0 .ok, .cancel 2,
    .resume 0 .ok, .resume 0 .ok, .resume 0 .ok, .resume 0 .ok]

def lateUses : List Use :=
  [.write { fin := true, opcode := .text, data := b!"x" } [1, 2, 3, 4],
    .write { fin := false, opcode := .text, data := b!"a" } [1, 2, 3, 4],
    .write { fin := false, opcode := .cont, data := b!"b" } [1, 2, 3, 4],
    .write { fin := true, opcode := .cont, data := [] } [1, 2, 3, 4]]

def wireOf (us : List Use) : Bytes :=
  match transmit (pmdOps storedZlib) true WS.Legacy.transferClient us with
  | .ok ws => ws.flatten
  | .error _ => []

/-- What a server does with this. -/
def receptionOf (us : List Use) : List RAct := [.recv 0, .data (wireOf us), .run, .run, .run, .run, .run]

-- The first message is received.  Then `transfer_data` fails, with a protocol error.
example : ((Conn.exec {} cancelledActs).map fun r => (r.1.log.map (·.2) == written cancelledUses, r.2)) =
      some (true, [.returned 0, .raised 1 .cancelled, .returned 2]) ∧
    ¬Spec.Calm cancelledActs ∧
    (transmit (pmdOps storedZlib) true WS.Legacy.transferClient cancelledUses).toOption.isSome = true ∧
    ((Receiver.init true none (some 2) WS.Legacy.transferServer { limit := 65536 }).exec (pmdOps storedZlib)
      ((receptionOf cancelledUses).take 5)).map (fun r => (r.1.queue.messages, r.1.queue.transfer)) =
      some ([.text p!"x"], .exited) := by
  refine ⟨by decide +kernel, fun h => ?_, by decide +kernel, by decide +kernel⟩
  obtain ⟨t, d, h⟩ := h.cancel 1 (by simp [cancelledActs]) _ rfl
  cases h

-- Everything is received.
example : ((Conn.exec {} lateActs).map fun r => (r.1.log.map (·.2) == written lateUses, r.2)) =
      some (true, [.returned 1, .raised 2 .cancelled, .returned 0]) ∧
    ¬Spec.Calm lateActs ∧
    ((Receiver.init true none (some 2) WS.Legacy.transferServer { limit := 65536 }).exec (pmdOps storedZlib)
      (receptionOf lateUses)).map (fun r => (r.1.queue.messages, r.1.queue.transfer, r.1.phase)) =
      some ([.text p!"x", .text p!"ab"], .reading, .reading) := by
  refine ⟨by decide +kernel, fun h => ?_, by decide +kernel⟩
  exact h.first _ (List.mem_cons_self ..)

end WS.LegacyConn
