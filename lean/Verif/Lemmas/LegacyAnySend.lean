import Verif.Props.LegacySend

/-!
# Data frames that concurrent calls to `send` write, in any execution

`Frags` follows `_fragmented_message_waiter`, and holds when calls that send fragmented messages aren't
cancelled.  `Runs` only follows the frames, and holds until a message starts in the middle of another.
-/

namespace WS.LegacyConn

/-- Between two frames of a message. -/
def Pc.mid : Pc → Bool
  | .fragment .. => true
  | .anext .. => true
  | _ => false

/-- What is known about a suspended task. -/
def PcRuns (calls : List Call) (done : List Nat) (part : List Frame) (i : Nat) : Pc → Prop
  | .draining => ∀ m, calls[i]? = some (.send m) → i ∈ done
  | .waiting m _ => calls[i]? = some (.send m) ∧ i ∉ done
  | .first items => (∃ late, calls[i]? = some (.send (.aiter late items))) ∧ i ∉ done
  | .fragment _ text items => part ≠ [] ∧ i ∉ done ∧
      ∃ m, calls[i]? = some (.send m) ∧ part ++ Spec.rest text items = Spec.frames m
  | .anext text items => part ≠ [] ∧ i ∉ done ∧
      ∃ m, calls[i]? = some (.send m) ∧ part ++ Spec.rest text items = Spec.frames m
  | .final => i ∈ done
  | .pinging _ => ∃ e d, calls[i]? = some (.ping e d)
  | .ensuring _ => True

/-- Invariant, as long as no message starts in the middle of another. -/
structure Runs (s : Conn) (done : List Nat) (part : List Frame) (os : List Obs) : Prop where
  eq : s.dataFrames = done.flatMap (Spec.callFrames s.calls) ++ part
  nodup : done.Nodup
  complete : ∀ i ∈ done, i < s.calls.length ∧ Spec.Complete (Spec.callFrames s.calls i)
  pcs : ∀ i pc, s.tasks i = some pc → i < s.calls.length ∧ PcRuns s.calls done part i pc
  one : ∀ i j pc pc', s.tasks i = some pc → s.tasks j = some pc' → pc.mid = true → pc'.mid = true → i = j
  opened : ∀ f ∈ part, f.fin = false
  part : part ≠ [] → ∃ j, j < s.calls.length ∧ j ∉ done ∧ part <+: Spec.callFrames s.calls j
  ret : ∀ i, .returned i ∈ os → i < s.calls.length ∧
    ∀ m, s.calls[i]? = some (.send m) → i ∈ done ∨ Spec.frames m = []

/-- A message starts in the middle of another. -/
def Breaks (part : List Frame) (s s' : Conn) : Prop :=
  part ≠ [] ∧ ∃ i f, s'.log = s.log ++ [(some i, f)] ∧ (f.opcode = .text ∨ f.opcode = .binary)

/-- What becomes of the invariant in one step. -/
def RunsOn (s : Conn) (done : List Nat) (part : List Frame) (os : List Obs) (r : Conn × List Obs) : Prop :=
  (∃ done' part', done <+: done' ∧ Runs r.1 done' part' (os ++ r.2)) ∨ Breaks part s r.1

theorem RunsOn.same {s : Conn} {done : List Nat} {part : List Frame} {os : List Obs} {r : Conn × List Obs}
    (h : Runs r.1 done part (os ++ r.2)) : RunsOn s done part os r :=
  .inl ⟨done, part, List.prefix_refl _, h⟩

theorem PcRuns.congr {calls calls' : List Call} {done : List Nat} {part : List Frame} {i : Nat} {pc : Pc}
    (h : PcRuns calls done part i pc) (h2 : calls'[i]? = calls[i]?) : PcRuns calls' done part i pc := by
  cases pc <;> simp only [PcRuns, h2] at h ⊢ <;> exact h

theorem Runs.mono {s s' : Conn} {done : List Nat} {part : List Frame} {os os' : List Obs}
    (h : Runs s done part os) (h1 : s'.dataFrames = s.dataFrames)
    (h3 : ∃ cs, s'.calls = s.calls ++ cs) (h4 : s'.tasks = s.tasks)
    (h6 : ∀ i, .returned i ∈ os' → .returned i ∈ os ∨ (i < s'.calls.length ∧ ∀ m, s'.calls[i]? ≠ some (.send m))) :
    Runs s' done part os' := by
  obtain ⟨cs, h3⟩ := h3
  have hlen : ∀ i, i < s.calls.length → i < s'.calls.length := by
    intro i hi; rw [h3, List.length_append]; omega
  have hget : ∀ i, i < s.calls.length → s'.calls[i]? = s.calls[i]? := by
    intro i hi; rw [h3, List.getElem?_append_left hi]
  have hfr : ∀ i, i < s.calls.length → Spec.callFrames s'.calls i = Spec.callFrames s.calls i := by
    intro i hi; rw [h3, Spec.callFrames_append hi]
  refine ⟨?_, h.nodup, ?_, ?_, ?_, h.opened, ?_, ?_⟩
  · rw [h1, h.eq]
    congr 1
    exact flatMap_congr' fun i hi => (hfr i (h.complete i hi).1).symm
  · intro i hi
    have := h.complete i hi
    exact ⟨hlen i this.1, by rw [hfr i this.1]; exact this.2⟩
  · intro i pc hi
    rw [h4] at hi
    obtain ⟨g1, g2⟩ := h.pcs i pc hi
    exact ⟨hlen i g1, g2.congr (hget i g1)⟩
  · rw [h4]; exact h.one
  · intro hp
    obtain ⟨j, j1, j2, j3⟩ := h.part hp
    exact ⟨j, hlen j j1, j2, by rw [hfr j j1]; exact j3⟩
  · intro i hi
    rcases h6 i hi with hi | ⟨hi, hn⟩
    · obtain ⟨g1, g2⟩ := h.ret i hi
      exact ⟨hlen i g1, by rw [hget i g1]; exact g2⟩
    · exact ⟨hi, fun m hm => absurd hm (hn m)⟩

theorem Runs.quiet {s s' : Conn} {done : List Nat} {part : List Frame} {os : List Obs}
    (h : Runs s done part os) (q : Quiet s s') : Runs s' done part os :=
  h.mono q.1 ⟨[], by simp [q.2.2.1]⟩ q.2.2.2.1 (fun _ hi => .inl hi)

/-- Changing the state of a task. -/
theorem Runs.set {s : Conn} {done : List Nat} {part : List Frame} {os os' : List Obs}
    (h : Runs s done part os) {i : Nat} {pc' : Option Pc} (hi : i < s.calls.length)
    (hnew : ∀ pc, pc' = some pc → PcRuns s.calls done part i pc)
    (hmid : ∀ pc, pc' = some pc → pc.mid = true → ∃ pc0, s.tasks i = some pc0 ∧ pc0.mid = true)
    (hos : ∀ j, .returned j ∈ os' → .returned j ∈ os ∨
      (j = i ∧ ∀ m, s.calls[i]? = some (.send m) → i ∈ done ∨ Spec.frames m = [])) :
    Runs (s.setTask i pc') done part os' := by
  have key : ∀ j pc, (s.setTask i pc').tasks j = some pc → pc.mid = true →
      ∃ pc0, s.tasks j = some pc0 ∧ pc0.mid = true := by
    intro j pc hj hm
    simp only [Conn.setTask] at hj
    split at hj
    · rename_i he; subst he; exact hmid pc hj hm
    · exact ⟨pc, hj, hm⟩
  refine ⟨h.eq, h.nodup, h.complete, ?_, ?_, h.opened, h.part, ?_⟩
  · intro j pc hj
    simp only [Conn.setTask] at hj
    split at hj
    · rename_i he
      subst he
      exact ⟨hi, hnew pc hj⟩
    · exact h.pcs j pc hj
  · intro j k pc pc1 hj hk m1 m2
    obtain ⟨p0, a1, a2⟩ := key j pc hj m1
    obtain ⟨p1, b1, b2⟩ := key k pc1 hk m2
    exact h.one j k p0 p1 a1 b1 a2 b2
  · intro j hj
    rcases hos j hj with hj | ⟨rfl, hm⟩
    · exact h.ret j hj
    · exact ⟨hi, hm⟩

/-- A call ends. -/
theorem Runs.drop {s : Conn} {done : List Nat} {part : List Frame} {os os' : List Obs}
    (h : Runs s done part os) {i : Nat} (hi : i < s.calls.length)
    (hos : ∀ j, .returned j ∈ os' → .returned j ∈ os ∨
      (j = i ∧ ∀ m, s.calls[i]? = some (.send m) → i ∈ done ∨ Spec.frames m = [])) :
    Runs (s.setTask i none) done part os' :=
  h.set hi (by simp) (by simp) hos

theorem Runs.release {s : Conn} {done : List Nat} {part : List Frame} {os : List Obs}
    (h : Runs s done part os) {i : Nat} (hi : i < s.calls.length) {o : Obs}
    (ho : ∀ j, o = .returned j → j = i ∧ ∀ m, s.calls[i]? = some (.send m) → i ∈ done ∨ Spec.frames m = []) :
    Runs (s.release i o).1 done part (os ++ (s.release i o).2) := by
  unfold Conn.release
  split
  · rename_i k _
    have h' : Runs { s with frag := none, released := k :: s.released } done part os :=
      h.mono rfl ⟨[], by simp⟩ rfl fun _ hj => .inl hj
    refine h'.drop hi fun j hj => ?_
    simp only [List.mem_append, List.mem_singleton] at hj
    rcases hj with hj | hj
    · exact .inl hj
    · exact .inr (ho j hj.symm)
  · exact h.drop hi fun j hj => .inl (by simpa using hj)

theorem Runs.failFragment {s : Conn} {done : List Nat} {part : List Frame} {os : List Obs}
    (h : Runs s done part os) {i : Nat} (hi : i < s.calls.length) (e : Exn) :
    Runs (s.failFragment i e).1 done part (os ++ (s.failFragment i e).2) := by
  have q := fail_quiet s 1011
  exact (h.quiet q).release (by rw [q.2.2.1]; exact hi) (by simp)

theorem dataFrames_snoc {s : Conn} {i : Option Nat} {f : Frame} (hfr : f.opcode.isCtrl = false) :
    ({ s with log := s.log ++ [(i, f)] } : Conn).dataFrames = s.dataFrames ++ [f] := by
  simp [Conn.dataFrames, hfr]

/-- A message is incomplete, and a frame that isn't the last one is written. -/
theorem Runs.grow {s : Conn} {done : List Nat} {part : List Frame} {os : List Obs}
    (h : Runs s done part os) {i : Nat} {f : Frame} {pc : Pc} (hfr : f.opcode.isCtrl = false)
    (hfin : f.fin = false) (hmine : ∀ j pc, s.tasks j = some pc → pc.mid = true → j = i)
    (hi : i < s.calls.length) (hd : i ∉ done)
    (hpre : part ++ [f] <+: Spec.callFrames s.calls i)
    (hnew : PcRuns s.calls done (part ++ [f]) i pc) :
    Runs (Conn.setTask { s with log := s.log ++ [(some i, f)] } i (some pc)) done (part ++ [f]) os := by
  refine ⟨?_, h.nodup, h.complete, ?_, ?_, ?_, ?_, h.ret⟩
  · show ({ s with log := s.log ++ [(some i, f)] } : Conn).dataFrames = _
    rw [dataFrames_snoc hfr, h.eq, List.append_assoc]
    rfl
  · intro j pc' hj
    simp only [Conn.setTask] at hj
    split at hj
    · rename_i he
      subst he
      cases hj
      exact ⟨hi, hnew⟩
    · rename_i hne
      obtain ⟨g1, g2⟩ := h.pcs j pc' hj
      refine ⟨g1, ?_⟩
      cases hm : pc'.mid with
      | true => exact absurd (hmine j pc' hj hm) hne
      | false => cases pc' <;> simp only [Pc.mid, Bool.true_eq_false] at hm <;> exact g2
  · intro j k p1 p2 hj hk m1 m2
    have key : ∀ j p, (Conn.setTask { s with log := s.log ++ [(some i, f)] } i (some pc)).tasks j = some p →
        p.mid = true → j = i := by
      intro j p hj hm
      simp only [Conn.setTask] at hj
      split at hj
      · assumption
      · exact hmine j p hj hm
    rw [key j p1 hj m1, key k p2 hk m2]
  · intro g hg
    simp only [List.mem_append, List.mem_singleton] at hg
    rcases hg with hg | rfl
    · exact h.opened g hg
    · exact hfin
  · intro _; exact ⟨i, hi, hd, hpre⟩

/-- The last frame of a message is written. -/
theorem Runs.finish {s : Conn} {done : List Nat} {part : List Frame} {os : List Obs}
    (h : Runs s done part os) {i : Nat} {f : Frame} {pc : Pc} (hfr : f.opcode.isCtrl = false)
    (hfin : f.fin = true) (hmine : ∀ j pc, s.tasks j = some pc → pc.mid = true → j = i)
    (hi : i < s.calls.length) (hd : i ∉ done) (hpre : part ++ [f] = Spec.callFrames s.calls i)
    (hnew : PcRuns s.calls (done ++ [i]) [] i pc) (hmid : pc.mid = false) :
    Runs (Conn.setTask { s with log := s.log ++ [(some i, f)] } i (some pc)) (done ++ [i]) [] os := by
  refine ⟨?_, ?_, ?_, ?_, ?_, by simp, by simp, ?_⟩
  · show ({ s with log := s.log ++ [(some i, f)] } : Conn).dataFrames = _
    rw [dataFrames_snoc hfr, h.eq, List.append_assoc, hpre]
    simp [Conn.setTask]
  · exact List.nodup_append.2 ⟨h.nodup, by simp, by
      intro x hx y hy; simp only [List.mem_singleton] at hy; subst hy; exact fun he => hd (he ▸ hx)⟩
  · intro j hj
    simp only [List.mem_append, List.mem_singleton] at hj
    rcases hj with hj | rfl
    · exact h.complete j hj
    · refine ⟨hi, ?_⟩
      show Spec.Complete (Spec.callFrames s.calls j)
      rw [← hpre]
      exact ⟨part, f, rfl, hfin⟩
  · intro j pc' hj
    simp only [Conn.setTask] at hj
    split at hj
    · rename_i he
      subst he
      cases hj
      exact ⟨hi, hnew⟩
    · rename_i hne
      obtain ⟨g1, g2⟩ := h.pcs j pc' hj
      refine ⟨g1, ?_⟩
      cases hm : pc'.mid with
      | true => exact absurd (hmine j pc' hj hm) hne
      | false =>
        cases pc' <;> simp only [Pc.mid, Bool.true_eq_false] at hm <;>
          simp only [Conn.setTask, PcRuns, List.mem_append, List.mem_singleton, not_or] at g2 ⊢
        all_goals first
          | exact fun m hm => .inl (g2 m hm)
          | exact ⟨g2.1, g2.2, hne⟩
          | exact .inl g2
          | exact g2
  · intro j k p1 p2 hj hk m1 m2
    have key : ∀ j p, (Conn.setTask { s with log := s.log ++ [(some i, f)] } i (some pc)).tasks j = some p →
        p.mid = true → j = i := by
      intro j p hj hm
      simp only [Conn.setTask] at hj
      split at hj
      · assumption
      · exact hmine j p hj hm
    rw [key j p1 hj m1, key k p2 hk m2]
  · intro j hj
    obtain ⟨g1, g2⟩ := h.ret j hj
    refine ⟨g1, fun m hm => ?_⟩
    rcases g2 m hm with g | g
    · exact .inl (List.mem_append_left _ g)
    · exact .inr g

theorem Runs.sendNext {s : Conn} {done : List Nat} {part : List Frame} {os : List Obs}
    (h : Runs s done part os) {i : Nat} (hi : i < s.calls.length)
    (hmine : ∀ j pc, s.tasks j = some pc → pc.mid = true → j = i)
    (hd : i ∉ done) {m : Msg} (hm : s.calls[i]? = some (.send m))
    (async text : Bool) (items : List Chunk) (hr : part ++ Spec.rest text items = Spec.frames m) :
    RunsOn s done part os (s.sendNext i async text items) := by
  unfold Conn.sendNext
  split
  · split
    · exact .same (h.failFragment hi _)
    · rename_i hw
      obtain ⟨-, rfl⟩ := Conn.write_ok hw
      simp only [Spec.rest] at hr
      refine .inl ⟨done ++ [i], [], List.prefix_append _ _, ?_⟩
      simp only [List.append_nil]
      exact h.finish rfl rfl hmine hi hd (by rw [Spec.callFrames_send hm, hr]) (by simp [PcRuns]) rfl
  · exact .same (h.failFragment hi _)
  · rename_i text' data items
    split
    · exact .same (h.failFragment hi _)
    · rename_i he
      simp only [ne_eq, Classical.not_not] at he
      subst he
      split
      · exact .same (h.failFragment hi _)
      · rename_i hw
        obtain ⟨-, rfl⟩ := Conn.write_ok hw
        simp only [Spec.rest, if_true] at hr
        have hr' : part ++ [{ fin := false, opcode := .cont, data }] ++ Spec.rest text' items =
            Spec.frames m := by
          rw [← hr]; simp
        refine .inl ⟨done, part ++ [{ fin := false, opcode := .cont, data }], List.prefix_refl _, ?_⟩
        simp only [List.append_nil]
        refine h.grow rfl rfl hmine hi hd ?_ ⟨by simp, hd, m, hm, hr'⟩
        rw [Spec.callFrames_send hm, ← hr']; exact List.prefix_append _ _

/-- There's no message to interrupt. -/
theorem Runs.no_mid {s : Conn} {done : List Nat} {os : List Obs} (h : Runs s done [] os) {j : Nat} {pc : Pc}
    (hj : s.tasks j = some pc) : pc.mid = false := by
  have := (h.pcs j pc hj).2
  cases pc <;> simp only [PcRuns, ne_eq, not_true, false_and] at this <;> rfl

theorem opcodeOf_or (text : Bool) : opcodeOf text = .text ∨ opcodeOf text = .binary := by
  cases text <;> simp [opcodeOf]

/-- A fragmented message starts. -/
theorem Runs.sendFirst {s : Conn} {done : List Nat} {part : List Frame} {os : List Obs}
    (h : Runs s done part os) {i : Nat} (hi : i < s.calls.length)
    (hd : i ∉ done) {m : Msg} (hm : s.calls[i]? = some (.send m))
    (async : Bool) (items : List Chunk) (hr : Spec.fragments items = Spec.frames m) :
    RunsOn s done part os (s.sendFirst i async items) := by
  unfold Conn.sendFirst
  split
  · refine .same (h.drop hi ?_)
    intro j hj
    simp only [List.mem_append, List.mem_singleton, Obs.returned.injEq] at hj
    rcases hj with hj | rfl
    · exact .inl hj
    · refine .inr ⟨rfl, fun m' hm' => .inr ?_⟩
      rw [hm] at hm'
      cases hm'
      rw [← hr]
      rfl
  · exact .same (h.drop hi fun j hj => .inl (by simpa using hj))
  · rename_i text data items
    have h' : Runs { s with frag := some i } done part os :=
      h.mono rfl ⟨[], by simp⟩ rfl fun _ hj => .inl hj
    simp only
    split
    · exact .same (h'.failFragment hi _)
    · rename_i hw
      obtain ⟨-, rfl⟩ := Conn.write_ok hw
      by_cases hp : part = []
      · subst hp
        refine .inl ⟨done, [{ fin := false, opcode := opcodeOf text, data }], List.prefix_refl _, ?_⟩
        have hr' : Spec.frames m =
            { fin := false, opcode := opcodeOf text, data } :: Spec.rest text items := by
          rw [← hr]; rfl
        simp only [List.append_nil]
        refine h'.grow (part := []) (opcodeOf_ctrl text) rfl ?_ hi hd ?_ ?_
        · intro j pc hj hmid
          rw [h.no_mid hj] at hmid
          cases hmid
        · show _ <+: Spec.callFrames s.calls i
          rw [Spec.callFrames_send hm, hr']
          exact ⟨Spec.rest text items, rfl⟩
        · exact ⟨by simp, hd, m, hm, by rw [hr']; rfl⟩
      · exact .inr ⟨hp, i, _, rfl, opcodeOf_or text⟩

theorem Runs.sendLoop {s : Conn} {done : List Nat} {part : List Frame} {os : List Obs}
    (h : Runs s done part os) {i : Nat} (hi : i < s.calls.length) (hd : i ∉ done)
    {m : Msg} (hm : s.calls[i]? = some (.send m)) :
    RunsOn s done part os (s.sendLoop i m) := by
  unfold Conn.sendLoop
  split
  · refine .same (h.set hi ?_ ?_ fun j hj => .inl (by simpa using hj))
    · intro pc hpc
      cases hpc
      exact ⟨hm, hd⟩
    · intro pc hpc
      cases hpc
      simp [Pc.mid]
  · split
    · rename_i text data
      split
      · exact .same (h.drop hi fun j hj => .inl (by simpa using hj))
      · rename_i hw
        obtain ⟨-, rfl⟩ := Conn.write_ok hw
        by_cases hp : part = []
        · subst hp
          refine .inl ⟨done ++ [i], [], List.prefix_append _ _, ?_⟩
          simp only [List.append_nil]
          refine h.finish (part := []) (opcodeOf_ctrl text) rfl ?_ hi hd ?_ (fun _ _ => by simp) rfl
          · intro j pc hj hmid
            rw [h.no_mid hj] at hmid
            cases hmid
          · rw [Spec.callFrames_send hm]; rfl
        · exact .inr ⟨hp, i, _, rfl, opcodeOf_or text⟩
    · exact h.sendFirst hi hd hm false _ rfl
    · rename_i items
      refine .same (h.set hi ?_ ?_ fun j hj => .inl (by simpa using hj))
      · intro pc hpc
        cases hpc
        exact ⟨⟨true, hm⟩, hd⟩
      · intro pc hpc
        cases hpc
        simp [Pc.mid]
    · exact h.sendFirst hi hd hm true _ rfl

theorem Runs.callOpen {s : Conn} {r : Conn × List Obs} {done : List Nat} {part : List Frame} {os : List Obs}
    (h : Runs s done part os) {i : Nat} (hi : i < s.calls.length) (hd : i ∉ done)
    {c : Call} (hm : s.calls[i]? = some c) (hs : s.callOpen i c = some r) :
    RunsOn s done part os r := by
  unfold Conn.callOpen at hs
  split at hs
  · cases hs
    exact h.sendLoop hi hd hm
  · rename_i explicit data
    split at hs
    · split at hs
      · cases hs
        exact .same (h.mono rfl ⟨[], by simp⟩ rfl fun j hj => .inl (by simpa using hj))
      · cases hs
    · simp only at hs
      split at hs
      · cases hs
        exact .same (h.mono rfl ⟨[], by simp⟩ rfl fun j hj => .inl (by simpa using hj))
      · rename_i hw
        cases hs
        have q := write_quiet hw rfl
        have h := h.quiet (s' := { s with pings := s.pings ++ [(data, i)] }) (Quiet.refl s)
        refine .same ((h.quiet q).set (by rw [q.2.2.1]; exact hi) ?_ ?_ fun j hj => .inl (by simpa using hj))
        · intro pc hpc
          cases hpc
          exact ⟨_, _, by rw [q.2.2.1]; exact hm⟩
        · intro pc hpc
          cases hpc
          simp [Pc.mid]
  · split at hs
    · cases hs
      exact .same (h.mono rfl ⟨[], by simp⟩ rfl fun j hj => .inl (by simpa using hj))
    · rename_i hw
      cases hs
      have q := write_quiet hw rfl
      refine .same ((h.quiet q).set (by rw [q.2.2.1]; exact hi) ?_ ?_ fun j hj => .inl (by simpa using hj))
      · intro pc hpc
        cases hpc
        intro m hm'
        rw [q.2.2.1, hm] at hm'
        cases hm'
      · intro pc hpc
        cases hpc
        simp [Pc.mid]
  · cases hs

theorem Runs.call {s : Conn} {r : Conn × List Obs} {done : List Nat} {part : List Frame} {os : List Obs}
    (h : Runs s done part os) {c : Call} (hs : s.call c = some r) : RunsOn s done part os r := by
  have h' : Runs { s with calls := s.calls ++ [c] } done part os :=
    h.mono rfl ⟨[c], rfl⟩ rfl fun _ hj => .inl hj
  have hi : s.calls.length < ({ s with calls := s.calls ++ [c] } : Conn).calls.length := by simp
  have hm : ({ s with calls := s.calls ++ [c] } : Conn).calls[s.calls.length]? = some c := by simp
  have hd : s.calls.length ∉ done := fun hd => absurd (h.complete _ hd).1 (Nat.lt_irrefl _)
  unfold Conn.call at hs
  simp only at hs
  split at hs
  · rename_i data
    have q := writeClose_quiet { s with calls := s.calls ++ [.close data] } (some s.calls.length) data
    split at hs <;> rename_i hw <;> rw [hw] at q <;> cases hs <;> simp only at q
    · refine .same (h'.mono q.1 ⟨[], by simpa using q.2.2.1⟩ q.2.2.2.1 ?_)
      intro j hj
      simp only [List.mem_append, List.mem_singleton, Obs.returned.injEq] at hj
      rcases hj with hj | rfl
      · exact .inl hj
      · refine .inr ⟨by rw [q.2.2.1]; exact hi, fun m hm' => ?_⟩
        rw [q.2.2.1, hm] at hm'
        cases hm'
    · exact .same (h'.mono q.1 ⟨[], by simpa using q.2.2.1⟩ q.2.2.2.1 fun j hj => .inl (by simpa using hj))
    · refine .same ((h'.quiet q).set (by rw [q.2.2.1]; exact hi) ?_ ?_ fun j hj => .inl (by simpa using hj))
      · intro pc hpc
        cases hpc
        intro m hm'
        rw [q.2.2.1, hm] at hm'
        cases hm'
      · intro pc hpc
        cases hpc
        simp [Pc.mid]
  · split at hs
    · exact h'.callOpen hi hd hm hs
    · split at hs <;> cases hs
      · exact .same (h'.mono rfl ⟨[], by simp⟩ rfl fun j hj => .inl (by simpa using hj))
      · refine .same (h'.set hi ?_ ?_ fun j hj => .inl (by simpa using hj))
        · intro pc hpc
          cases hpc
          trivial
        · intro pc hpc
          cases hpc
          simp [Pc.mid]

theorem Runs.afterFragment {s : Conn} {done : List Nat} {part : List Frame} {os : List Obs}
    (h : Runs s done part os) {i : Nat} {pc : Pc} (ht : s.tasks i = some pc) (hmid : pc.mid = true)
    (hp : part ≠ []) (hd : i ∉ done) {m : Msg} (hm : s.calls[i]? = some (.send m))
    (async text : Bool) (items : List Chunk) (hr : part ++ Spec.rest text items = Spec.frames m) :
    RunsOn s done part os (s.afterFragment i async text items) := by
  have hi := (h.pcs _ _ ht).1
  unfold Conn.afterFragment
  split
  · refine .same (h.set hi ?_ ?_ fun j hj => .inl (by simpa using hj))
    · intro pc' hpc
      cases hpc
      exact ⟨hp, hd, m, hm, hr⟩
    · exact fun _ _ _ => ⟨pc, ht, hmid⟩
  · exact h.sendNext hi (fun j pc' hj hm' => h.one j i pc' pc hj ht hm' hmid) hd hm false text items hr

theorem Runs.resume {s : Conn} {r : Conn × List Obs} {done : List Nat} {part : List Frame} {os : List Obs}
    (h : Runs s done part os) {i : Nat} {d : Drain} (hs : s.resume i d = some r) :
    RunsOn s done part os r := by
  have ens : ∀ (b : Bool) (j : Nat), j < s.calls.length →
      Runs (s.setTask j (some (.ensuring b))) done part (os ++ []) := by
    intro b j hj
    refine h.set hj ?_ ?_ fun k hk => .inl (by simpa using hk)
    · intro pc hpc; cases hpc; trivial
    · intro pc hpc; cases hpc; simp [Pc.mid]
  unfold Conn.resume at hs
  simp only [Conn.fail_1006] at hs
  split at hs
  · cases hs
  · rename_i ht
    obtain ⟨hi, hp⟩ := h.pcs _ _ ht
    have hret : Runs (s.setTask i none) done part (os ++ [.returned i]) := by
      refine h.drop hi fun j hj => ?_
      simp only [List.mem_append, List.mem_singleton, Obs.returned.injEq] at hj
      rcases hj with hj | rfl
      · exact .inl hj
      · exact .inr ⟨rfl, fun m hm => .inl (hp m hm)⟩
    split at hs
    · cases hs; exact .same hret
    · split at hs <;> cases hs
      · exact .same hret
      · exact .same (ens _ i hi)
    · cases hs
      exact .same (h.drop hi fun j hj => .inl (by simpa using hj))
  · rename_i ht
    obtain ⟨hi, hm, hd⟩ := h.pcs _ _ ht
    split at hs <;> cases hs
    exact h.sendLoop hi hd hm
  · rename_i ht
    obtain ⟨hi, ⟨late, hm⟩, hd⟩ := h.pcs _ _ ht
    cases hs
    exact h.sendFirst hi hd hm true _ rfl
  · rename_i ht
    obtain ⟨hi, hp, hd, m, hm, hr⟩ := h.pcs _ _ ht
    split at hs
    · cases hs
      exact h.afterFragment ht rfl hp hd hm _ _ _ hr
    · split at hs <;> cases hs
      · exact h.afterFragment ht rfl hp hd hm _ _ _ hr
      · exact .same (ens _ i hi)
    · cases hs
      exact .same (h.failFragment hi _)
  · rename_i ht
    obtain ⟨hi, hp, hd, m, hm, hr⟩ := h.pcs _ _ ht
    cases hs
    exact h.sendNext hi (fun j pc' hj hm' => h.one j i pc' _ hj ht hm' rfl) hd hm true _ _ hr
  · rename_i ht
    obtain ⟨hi, hd⟩ := h.pcs _ _ ht
    have hret : Runs (s.release i (.returned i)).1 done part (os ++ (s.release i (.returned i)).2) := by
      refine h.release hi fun j hj => ?_
      cases hj
      exact ⟨rfl, fun _ _ => .inl hd⟩
    split at hs
    · cases hs; exact .same hret
    · split at hs <;> cases hs
      · exact .same hret
      · exact .same (ens _ i hi)
    · cases hs
      exact .same (h.failFragment hi _)
  · rename_i data ht
    obtain ⟨hi, -⟩ := h.pcs _ _ ht
    have key : Runs (s.afterPing i data).1 done part (os ++ (s.afterPing i data).2) := by
      unfold Conn.afterPing
      split
      · exact h.drop hi fun j hj => .inl (by simpa using hj)
      · exact h.drop hi fun j hj => .inl (by simpa using hj)
    split at hs
    · cases hs; exact .same key
    · split at hs <;> cases hs
      · exact .same key
      · exact .same (ens _ i hi)
    · cases hs
      exact .same (h.drop hi fun j hj => .inl (by simpa using hj))
  · rename_i ht
    cases hs
    exact .same (h.failFragment (h.pcs _ _ ht).1 _)
  · rename_i ht
    cases hs
    exact .same (h.drop (h.pcs _ _ ht).1 fun j hj => .inl (by simpa using hj))

theorem Runs.cancel {s : Conn} {r : Conn × List Obs} {done : List Nat} {part : List Frame} {os : List Obs}
    (h : Runs s done part os) {i : Nat} (hs : s.cancel i = some r) : RunsOn s done part os r := by
  unfold Conn.cancel at hs
  split at hs
  · cases hs
  all_goals
    rename_i ht
    have hi := (h.pcs _ _ ht).1
    cases hs
    first
      | exact .same (h.release hi (by simp))
      | exact .same (h.drop hi fun j hj => .inl (by simpa using hj))

theorem Runs.step {s : Conn} {r : Conn × List Obs} {a : Act} {done : List Nat} {part : List Frame} {os : List Obs}
    (h : Runs s done part os) (hs : s.step a = some r) : RunsOn s done part os r := by
  have quiet : ∀ {s₁ : Conn}, Quiet s s₁ → (s₁, []) = r → RunsOn s done part os r := by
    rintro s₁ q rfl
    exact .same (by rw [List.append_nil]; exact h.quiet q)
  unfold Conn.step at hs
  split at hs
  · exact h.call hs
  · exact h.resume hs
  · exact h.cancel hs
  · split at hs
    · exact quiet (recvClose_quiet s _) (Option.some.inj hs)
    · cases hs
  · split at hs
    · exact quiet (recvPing_quiet s _) (Option.some.inj hs)
    · cases hs
  · split at hs
    · exact quiet (recvPong_quiet s _) (Option.some.inj hs)
    · cases hs
  · rename_i d
    cases hr : s.resumeTransfer d with
    | none => simp [hr] at hs
    | some s₁ =>
      simp only [hr, Option.map_some] at hs
      exact quiet (resumeTransfer_quiet hr) (Option.some.inj hs)
  · split at hs
    · exact quiet (transferFails_quiet s _) (Option.some.inj hs)
    · cases hs
  · split at hs
    · cases hs
    · exact quiet (s₁ := { s with transfer := .exited }) ⟨rfl, rfl, rfl, rfl, id⟩ (Option.some.inj hs)
  · exact quiet (fail_quiet s _) (Option.some.inj hs)
  · split at hs
    · cases hs
    · exact quiet (s₁ := s.lost) ⟨rfl, rfl, rfl, rfl, by simp [Conn.lost]⟩ (Option.some.inj hs)

theorem Runs.init : Runs {} [] [] [] :=
  ⟨rfl, .nil, by simp, by simp, by simp, by simp, by simp, by simp⟩

end WS.LegacyConn
