import Verif.Lemmas.LegacySend
import Verif.Spec.Output

/-!
# C54: concurrent calls to `send`

Executions are arbitrary sequences of `Act`, starting when the connection is opened.
-/

namespace WS.LegacyConn

/-- Restrictions of the partial theorems: asynchronous iterators give their first item without
suspending `send`, and calls that send fragmented messages aren't cancelled. -/
structure Spec.Calm (as : List Act) : Prop where
  first : ∀ items, .call (.send (.aiter true items)) ∉ as
  cancel : ∀ i, .cancel i ∈ as → ∀ m, (Spec.callsOf as)[i]? = some (.send m) → ∃ t d, m = .plain t d

theorem Spec.callsOf_append (as bs : List Act) : callsOf (as ++ bs) = callsOf as ++ callsOf bs := by
  simp [callsOf, List.filterMap_append]

theorem Spec.Calm.left {as bs : List Act} (h : Calm (as ++ bs)) : Calm as := by
  refine ⟨fun items hm => h.first items (List.mem_append_left _ hm), fun i hi m hm => ?_⟩
  refine h.cancel i (List.mem_append_left _ hi) m ?_
  rw [callsOf_append, List.getElem?_append_left (List.getElem?_eq_some_iff.1 hm).1]
  exact hm

theorem Conn.setTask_calls (s : Conn) (i : Nat) (pc : Option Pc) : (s.setTask i pc).calls = s.calls :=
  rfl

theorem Conn.fail_calls (s : Conn) (code : Int) : (s.fail code).calls = s.calls :=
  (fail_other s code).2.1

theorem Conn.release_calls (s : Conn) (i : Nat) (o : Obs) : (s.release i o).1.calls = s.calls := by
  unfold Conn.release; split <;> rfl

theorem Conn.failFragment_calls (s : Conn) (i : Nat) (e : Exn) :
    (s.failFragment i e).1.calls = s.calls := by
  unfold Conn.failFragment; rw [release_calls, fail_calls]

theorem Conn.write_calls {s s' : Conn} {i : Option Nat} {fin : Bool} {op : Opcode} {data : Bytes}
    {expected : State} (h : s.write i fin op data expected = .ok s') : s'.calls = s.calls := by
  obtain ⟨-, rfl⟩ := Conn.write_ok h; rfl

theorem Conn.sendNext_calls (s : Conn) (i : Nat) (async text : Bool) (items : List Chunk) :
    (s.sendNext i async text items).1.calls = s.calls := by
  unfold Conn.sendNext
  repeat' split
  all_goals first
    | exact failFragment_calls ..
    | rename_i hw; have := write_calls hw; exact this

theorem Conn.sendFirst_calls (s : Conn) (i : Nat) (async : Bool) (items : List Chunk) :
    (s.sendFirst i async items).1.calls = s.calls := by
  unfold Conn.sendFirst
  split
  · rfl
  · rfl
  · simp only
    split
    · exact failFragment_calls ..
    · rename_i hw; have := write_calls hw; exact this

theorem Conn.sendLoop_calls (s : Conn) (i : Nat) (m : Msg) : (s.sendLoop i m).1.calls = s.calls := by
  unfold Conn.sendLoop
  repeat' split
  all_goals first
    | rfl
    | exact sendFirst_calls ..
    | rename_i hw; have := write_calls hw; exact this

theorem Conn.afterFragment_calls (s : Conn) (i : Nat) (async text : Bool) (items : List Chunk) :
    (s.afterFragment i async text items).1.calls = s.calls := by
  unfold Conn.afterFragment
  split
  · rfl
  · exact sendNext_calls ..

theorem Conn.afterPing_calls (s : Conn) (i : Nat) (data : Bytes) :
    (s.afterPing i data).1.calls = s.calls := by
  unfold Conn.afterPing
  split <;> rfl

theorem Conn.resume_calls {s : Conn} {i : Nat} {d : Drain} {r : Conn × List Obs}
    (h : s.resume i d = some r) : r.1.calls = s.calls := by
  unfold Conn.resume at h
  simp only at h
  repeat' split at h
  all_goals first
    | (cases h; done)
    | (cases h; rfl)
    | (cases h; exact fail_calls ..)
    | (cases h; exact sendLoop_calls ..)
    | (cases h; exact sendFirst_calls ..)
    | (cases h; exact sendNext_calls ..)
    | (cases h; exact failFragment_calls ..)
    | (cases h; exact release_calls ..)
    | (cases h; exact afterFragment_calls ..)
    | (cases h; exact afterPing_calls ..)
    | (cases h; exact (release_calls ..).trans (fail_calls ..))
    | (cases h; exact (afterFragment_calls ..).trans (fail_calls ..))
    | (cases h; exact (afterPing_calls ..).trans (fail_calls ..))

theorem Conn.callOpen_calls {s : Conn} {i : Nat} {c : Call} {r : Conn × List Obs}
    (h : s.callOpen i c = some r) : r.1.calls = s.calls := by
  unfold Conn.callOpen at h
  simp only at h
  repeat' split at h
  all_goals first
    | (cases h; done)
    | (cases h; rfl)
    | (cases h; exact sendLoop_calls ..)
    | (cases h; rename_i hw; have := write_calls hw; exact this)

theorem Conn.call_calls {s : Conn} {c : Call} {r : Conn × List Obs} (h : s.call c = some r) :
    r.1.calls = s.calls ++ [c] := by
  unfold Conn.call at h
  simp only at h
  split at h
  · rename_i data
    have q := (writeClose_quiet { s with calls := s.calls ++ [.close data] } (some s.calls.length) data).2.2.1
    split at h <;> rename_i hw <;> rw [hw] at q <;> cases h <;> exact q
  · split at h
    · exact callOpen_calls h
    · split at h <;> cases h <;> rfl

theorem Conn.step_calls {s : Conn} {a : Act} {r : Conn × List Obs} (h : s.step a = some r) :
    r.1.calls = s.calls ++ Spec.callsOf [a] := by
  unfold Conn.step at h
  split at h
  · exact call_calls h
  all_goals
    simp only [Spec.callsOf, List.filterMap_cons, List.filterMap_nil, List.append_nil]
  · exact resume_calls h
  · unfold Conn.cancel at h
    split at h <;> cases h <;> first | rfl | exact release_calls ..
  · split at h <;> cases h; exact (recvClose_quiet s _).2.2.1
  · split at h <;> cases h; exact (recvPing_quiet s _).2.2.1
  · split at h <;> cases h; exact (recvPong_quiet s _).2.2.1
  · rename_i d
    cases hr : s.resumeTransfer d with
    | none => simp [hr] at h
    | some s₁ =>
      simp only [hr, Option.map_some, Option.some.injEq] at h
      subst h
      exact (resumeTransfer_quiet hr).2.2.1
  · split at h <;> cases h; exact (transferFails_quiet s _).2.2.1
  · split at h <;> cases h; rfl
  · cases h; exact fail_calls ..
  · split at h <;> cases h; rfl

theorem Frags.exec_step {as : List Act} {a : Act} {s s' : Conn} {os o : List Obs} {done : List Nat}
    {part : List Frame} (h1 : s.calls = Spec.callsOf as) (h2 : Frags s done part os)
    (hs : s.step a = some (s', o)) (hc : Spec.Calm (as ++ [a])) :
    s'.calls = Spec.callsOf (as ++ [a]) ∧ ∃ done' part', done <+: done' ∧ Frags s' done' part' (os ++ o) := by
  have hcalls : s'.calls = s.calls ++ Spec.callsOf [a] := Conn.step_calls hs
  have hall : s.calls ++ Spec.callsOf [a] = Spec.callsOf (as ++ [a]) := by
    rw [Spec.callsOf_append, h1]
  refine ⟨by rw [hcalls, hall], ?_⟩
  refine h2.step ?_ ?_ hs
  · intro j m hm
    rw [hall] at hm
    have hmem := List.mem_of_getElem? hm
    simp only [Spec.callsOf, List.mem_filterMap] at hmem
    obtain ⟨b, hb, he⟩ := hmem
    split at he <;> cases he
    unfold Msg.isLate
    split
    · exact absurd hb (hc.first _)
    · rfl
  · rintro i rfl m hm
    obtain ⟨t, d, rfl⟩ := hc.cancel i (by simp) m (by
      rw [← hall, List.getElem?_append_left (List.getElem?_eq_some_iff.1 hm).1]; exact hm)
    rfl

/-- The invariant holds at the end of an execution; messages that were complete earlier come first. -/
theorem Frags.exec_prefix {as : List Act} {s : Conn} {os : List Obs} (h : Conn.exec {} as = some (s, os))
    (hc : Spec.Calm as) :
    s.calls = Spec.callsOf as ∧ ∃ done part, Frags s done part os ∧
      ∀ as1 as2, as = as1 ++ as2 → ∃ s1 os1 done1 part1, Conn.exec {} as1 = some (s1, os1) ∧
        s1.calls = Spec.callsOf as1 ∧ Frags s1 done1 part1 os1 ∧ done1 <+: done := by
  refine (Conn.exec_induction (s0 := ({} : Conn)) (P := fun as s os => Conn.exec {} as = some (s, os) →
    Spec.Calm as → s.calls = Spec.callsOf as ∧ ∃ done part, Frags s done part os ∧
      ∀ as1 as2, as = as1 ++ as2 → ∃ s1 os1 done1 part1, Conn.exec {} as1 = some (s1, os1) ∧
        s1.calls = Spec.callsOf as1 ∧ Frags s1 done1 part1 os1 ∧ done1 <+: done) ?_ ?_ h) h hc
  · intro _ _
    have h0 : Frags {} [] [] [] := ⟨rfl, .nil, by simp, by simp, by simp, by simp, by simp, by simp⟩
    refine ⟨rfl, [], [], h0, ?_⟩
    intro as1 as2 he
    obtain ⟨rfl, rfl⟩ := List.nil_eq_append_iff.1 he
    exact ⟨_, _, [], [], rfl, rfl, h0, List.prefix_refl _⟩
  · intro as a s s' os o hex ih hs hex' hc
    obtain ⟨h1, done, part, h2, h3⟩ := ih hex hc.left
    obtain ⟨h4, done', part', h5, h6⟩ := Frags.exec_step h1 h2 hs hc
    refine ⟨h4, done', part', h6, ?_⟩
    intro as1 as2 he
    rcases List.eq_nil_or_concat as2 with rfl | ⟨as3, b, rfl⟩
    · rw [List.append_nil] at he
      subst he
      exact ⟨_, _, _, _, hex', h4, h6, List.prefix_refl _⟩
    · rw [List.concat_eq_append, ← List.append_assoc] at he
      obtain ⟨he, -⟩ := List.append_inj' he rfl
      obtain ⟨s1, os1, done1, part1, g1, g2, g3, g4⟩ := h3 as1 as3 he
      exact ⟨s1, os1, done1, part1, g1, g2, g3, g4.trans h5⟩

theorem Frags.exec {as : List Act} {s : Conn} {os : List Obs} (h : Conn.exec {} as = some (s, os))
    (hc : Spec.Calm as) :
    s.calls = Spec.callsOf as ∧ ∃ done part, Frags s done part os := by
  obtain ⟨h1, done, part, h2, -⟩ := Frags.exec_prefix h hc
  exact ⟨h1, done, part, h2⟩

/-- **C54, partial.** The data frames are those of the messages in `done`, each complete and contiguous,
followed by the first frames of at most one other message.  A message is in `done` once its call to
`send` returns.  When no call is in progress in the OPEN state, there's no other message.  What is missing:
executions that aren't `Calm`, for which it is false (`C54_first_false`, `C54_cancel_false`). -/
theorem C54_contiguous_partial {as : List Act} {s : Conn} {os : List Obs}
    (h : Conn.exec {} as = some (s, os)) (hc : Spec.Calm as) :
    ∃ (done : List Nat) (part : List Frame), s.dataFrames = done.flatMap (Spec.callFrames (Spec.callsOf as)) ++ part ∧
      done.Nodup ∧
      (∀ i ∈ done, Spec.Complete (Spec.callFrames (Spec.callsOf as) i)) ∧
      (part ≠ [] → ∃ j, j ∉ done ∧ part <+: Spec.callFrames (Spec.callsOf as) j) ∧
      (∀ i, .returned i ∈ os → i ∈ done ∨ Spec.callFrames (Spec.callsOf as) i = []) ∧
      (s.state = .opened → (∀ i, s.tasks i = none) → part = []) := by
  obtain ⟨h1, done, part, h2⟩ := Frags.exec h hc
  rw [← h1]
  refine ⟨done, part, h2.eq, h2.nodup, fun i hi => (h2.complete i hi).2, ?_, ?_, ?_⟩
  · intro hp
    obtain ⟨j, -, g2, g3⟩ := h2.part hp
    exact ⟨j, g2, g3⟩
  · intro i hi
    obtain ⟨-, g2⟩ := h2.ret i hi
    unfold Spec.callFrames
    split
    · rename_i m hm
      exact g2 m hm
    · exact .inr rfl
  · intro ho ht
    refine h2.idle ?_ ho
    cases hf : s.frag with
    | none => rfl
    | some i =>
      obtain ⟨pc, hpc, -⟩ := h2.owner i hf
      rw [ht i] at hpc
      cases hpc

theorem Messages.rest {fs : List Frame} (h : WS.Spec.Messages fs true) (text : Bool) (items : List Chunk)
    {p : List Frame} (hp : p <+: Spec.rest text items) : ∃ b, WS.Spec.Messages (fs ++ p) b := by
  induction items generalizing fs p with
  | nil =>
    simp only [Spec.rest] at hp
    rcases p with _ | ⟨f, p⟩
    · exact ⟨true, by simpa using h⟩
    · rw [List.cons_prefix_cons] at hp
      obtain ⟨rfl, hp⟩ := hp
      rw [List.prefix_nil] at hp
      subst hp
      exact ⟨false, h.last rfl rfl⟩
  | cons c items ih =>
    rcases p with _ | ⟨f, p⟩
    · exact ⟨true, by simpa using h⟩
    · rcases c with ⟨t, d⟩ | _
      · simp only [Spec.rest] at hp
        split at hp
        · rw [List.cons_prefix_cons] at hp
          obtain ⟨rfl, hp⟩ := hp
          obtain ⟨b, hb⟩ := ih (h.middle (f := { fin := false, opcode := .cont, data := d }) rfl rfl) hp
          exact ⟨b, by simpa using hb⟩
        · simp at hp
      · simp [Spec.rest] at hp

theorem Messages.fragments {fs : List Frame} (h : WS.Spec.Messages fs false) (items : List Chunk)
    {p : List Frame} (hp : p <+: Spec.fragments items) : ∃ b, WS.Spec.Messages (fs ++ p) b := by
  rcases p with _ | ⟨f, p⟩
  · exact ⟨false, by simpa using h⟩
  · unfold Spec.fragments at hp
    split at hp
    · rename_i text data items
      rw [List.cons_prefix_cons] at hp
      obtain ⟨rfl, hp⟩ := hp
      obtain ⟨b, hb⟩ := Messages.rest (h.first (f :=
        { fin := false, opcode := if text then .text else .binary, data }) (by cases text <;> simp) rfl)
        _ _ hp
      exact ⟨b, by simpa using hb⟩
    · simp at hp

theorem Messages.call {fs : List Frame} (h : WS.Spec.Messages fs false) (calls : List Call) (i : Nat)
    {p : List Frame} (hp : p <+: Spec.callFrames calls i) : ∃ b, WS.Spec.Messages (fs ++ p) b := by
  unfold Spec.callFrames at hp
  split at hp
  · rename_i m hm
    rcases m with ⟨t, d⟩ | items | ⟨b, items⟩
    · rcases p with _ | ⟨f, p⟩
      · exact ⟨false, by simpa using h⟩
      · simp only [Spec.frames, List.cons_prefix_cons, List.prefix_nil] at hp
        obtain ⟨rfl, rfl⟩ := hp
        exact ⟨false, h.whole (by cases t <;> simp) rfl⟩
    · exact Messages.fragments h items hp
    · exact Messages.fragments h items hp
  · rw [List.prefix_nil] at hp
    subst hp
    exact ⟨false, by simpa using h⟩

theorem Messages.complete {fs : List Frame} {b : Bool} (h : WS.Spec.Messages fs b) {init : List Frame}
    {f : Frame} (he : fs = init ++ [f]) (hf : f.fin = true) : b = false := by
  cases h with
  | nil => rfl
  | whole => rfl
  | last => rfl
  | first _ _ g => obtain ⟨-, e⟩ := List.append_inj' he rfl; cases e; rw [hf] at g; cases g
  | middle _ _ g => obtain ⟨-, e⟩ := List.append_inj' he rfl; cases e; rw [hf] at g; cases g

/-- **C54, partial.** The data frames follow the rules of fragmentation: every message starts with a text
or binary frame, goes on with continuation frames, and ends with the first frame that has FIN; another
message starts only after it.  The executions are those of `C54_contiguous_partial`. -/
theorem C54_fragmentation_partial {as : List Act} {s : Conn} {os : List Obs}
    (h : Conn.exec {} as = some (s, os)) (hc : Spec.Calm as) :
    ∃ b, WS.Spec.Messages s.dataFrames b := by
  obtain ⟨done, part, h1, -, h2, h3, -, -⟩ := C54_contiguous_partial h hc
  have key : ∀ (done : List Nat) (fs : List Frame), WS.Spec.Messages fs false →
      (∀ i ∈ done, Spec.Complete (Spec.callFrames (Spec.callsOf as) i)) →
      WS.Spec.Messages (fs ++ done.flatMap (Spec.callFrames (Spec.callsOf as))) false := by
    intro done
    induction done with
    | nil => intro fs hfs _; simpa using hfs
    | cons i done ih =>
      intro fs hfs hd
      obtain ⟨b, hb⟩ := Messages.call hfs (Spec.callsOf as) i (List.prefix_refl _)
      obtain ⟨init, f, he, hf⟩ := hd i (by simp)
      have : b = false := Messages.complete hb (init := fs ++ init) (f := f) (by rw [he]; simp) hf
      subst this
      have := ih _ hb fun j hj => hd j (by simp [hj])
      simpa using this
  have hall := key done [] .nil h2
  rw [List.nil_append] at hall
  rw [h1]
  by_cases hp : part = []
  · subst hp
    exact ⟨false, by simpa using hall⟩
  · obtain ⟨j, -, hj⟩ := h3 hp
    exact Messages.call hall _ _ hj

/-- A fragmented message, while other calls wait; then a plain message and an asynchronous iterator. -/
def exampleCalm : List Act :=
  [.call (.send (.iter [.data true b!"a", .data true b!"b"])), .call (.send (.plain false b!"x")),
    .call (.ping true [1]), .resume 0 .ok, .call (.send (.aiter false [.data false b!"y"])), .resume 0 .ok,
    .resume 0 .ok, .resume 1 .ok, .resume 3 .ok, .cancel 1, .resume 3 .ok, .resume 3 .ok, .resume 3 .ok]

example : Spec.Calm exampleCalm := by
  refine ⟨?_, ?_⟩
  · intro items hm; simp [exampleCalm] at hm
  · intro i hi m hm
    have : i = 1 := by simpa [exampleCalm] using hi
    subst this
    cases hm
    exact ⟨_, _, rfl⟩

example : (Conn.exec {} exampleCalm).map (fun p => (p.1.dataFrames.map (fun f => (f.fin, f.opcode)), p.2)) =
    some ([(false, .text), (false, .cont), (true, .cont), (true, .binary), (false, .binary), (true, .cont)],
      [.returned 0, .raised 1 .cancelled, .returned 3]) := by
  decide +kernel

theorem Messages.single {fs : List Frame} {b : Bool} (h : WS.Spec.Messages fs b) (f : Frame) (hf : fs = [f])
    (hn : f.fin = false) : b = true := by
  cases b with
  | true => rfl
  | false =>
    cases h with
    | nil => cases hf
    | whole _ _ g => obtain ⟨-, e⟩ := List.append_inj' (s₁ := []) hf.symm rfl; cases e; rw [hn] at g; cases g
    | last _ _ g => obtain ⟨-, e⟩ := List.append_inj' (s₁ := []) hf.symm rfl; cases e; rw [hn] at g; cases g

theorem Messages.second {fs : List Frame} {b : Bool} (h : WS.Spec.Messages fs b) :
    ∀ f g : Frame, ∀ rest, fs = f :: g :: rest → f.fin = false → g.opcode = .cont := by
  induction h with
  | nil => intro f g rest h; cases h
  | @whole fs x hm _ _ ih =>
    intro f g rest h hn
    rcases fs with _ | ⟨a, _ | ⟨b, fs⟩⟩
    · cases h
    · cases h; have := Messages.single hm _ rfl hn; cases this
    · cases h; exact ih _ _ _ rfl hn
  | @first fs x hm _ _ ih =>
    intro f g rest h hn
    rcases fs with _ | ⟨a, _ | ⟨b, fs⟩⟩
    · cases h
    · cases h; have := Messages.single hm _ rfl hn; cases this
    · cases h; exact ih _ _ _ rfl hn
  | @middle fs x hm hx _ ih =>
    intro f g rest h hn
    rcases fs with _ | ⟨a, _ | ⟨b, fs⟩⟩
    · cases h
    · cases h; exact hx
    · cases h; exact ih _ _ _ rfl hn
  | @last fs x hm hx _ ih =>
    intro f g rest h hn
    rcases fs with _ | ⟨a, _ | ⟨b, fs⟩⟩
    · cases h
    · cases h; exact hx
    · cases h; exact ih _ _ _ rfl hn

/-- **C54 is false**: `send` doesn't prevent other calls from starting a fragmented message while it
waits for the first item of an asynchronous iterator (line 638).  Fragments of two messages are
interleaved.  The `finally` clause of the second call raises an exception. -/
theorem C54_first_false :
    ∃ as s os, Conn.exec {} as = some (s, os) ∧ (∀ i, .cancel i ∉ as) ∧
      (¬∃ b, WS.Spec.Messages s.dataFrames b) ∧ .raised 1 .attributeError ∈ os := by
  refine ⟨[.call (.send (.aiter true [.data true b!"a"])), .call (.send (.aiter true [.data true b!"b"])),
    .resume 0 .ok, .resume 1 .ok, .resume 0 .ok, .resume 0 .ok, .resume 0 .ok, .resume 1 .ok, .resume 1 .ok,
    .resume 1 .ok], _, _, rfl, by simp, ?_, by decide⟩
  rintro ⟨b, hb⟩
  have := Messages.second hb { fin := false, opcode := .text, data := b!"a" }
    { fin := false, opcode := .text, data := b!"b" } _ rfl rfl
  cases this

/-- **C54 is false**: when a call to `send` is cancelled in the middle of a fragmented message, the connection
stays open, and other calls write new messages. -/
theorem C54_cancel_false :
    ∃ as s os, Conn.exec {} as = some (s, os) ∧ (∀ items, .call (.send (.aiter true items)) ∉ as) ∧
      (¬∃ b, WS.Spec.Messages s.dataFrames b) ∧ .returned 1 ∈ os := by
  refine ⟨[.call (.send (.iter [.data true b!"a"])), .call (.send (.plain true b!"b")),
    .cancel 0, .resume 1 .ok, .resume 1 .ok], _, _, rfl, by simp, ?_, by decide⟩
  rintro ⟨b, hb⟩
  have := Messages.second hb { fin := false, opcode := .text, data := b!"a" }
    { fin := true, opcode := .text, data := b!"b" } _ rfl rfl
  cases this

end WS.LegacyConn
