import Verif.Lemmas.LegacyTransfer
import Verif.Props.LegacyQueue
import Verif.Props.LegacyStream
import Verif.Props.SessionDeflate

/-!
# End-to-end delivery between legacy connections: C75
-/

namespace WS.Legacy

open WS.Spec

variable {X : Type} {ops : ExtOps X} {size : Nat} {R : Bool → List X → List X → Prop}

/-- The bytes delivered by the transport in an execution. -/
def Spec.arrived : List RAct → Bytes
  | [] => []
  | .data d :: as => d ++ arrived as
  | _ :: as => arrived as

theorem Spec.arrived_cons (a : RAct) (as : List RAct) : arrived (a :: as) = arrived [a] ++ arrived as := by
  cases a <;> simp [arrived]

/-- A read, compared with a run of the Sans-I/O parser. -/
def Reading (s : Receiver X) (b : Bytes) (eof : Bool) : Prop :=
  Sim (fun _ => True) Exacting
    (fun x r => ∃ q, (readFrame s.server s.limit).run r = .raised x q)
    (readFrame s.server s.limit) ⟨b, eof⟩ s.io ∧ ∀ r, s.io.task ≠ .ended r

/-- `b` was received and not read yet. -/
def IoAt (s : Receiver X) (b : Bytes) (eof : Bool) : Prop :=
  if s.queue.transfer = .reading ∧ s.phase = .reading then Reading s b eof
  else s.io.reader.plain = ⟨b, eof⟩

/-- Invariant: the frames `l`, which are `ws` on the wire, are being received; `got` was received so far,
and `ms` are the messages that it gave. -/
structure Progress (ops : ExtOps X) (size : Nat) (R : Bool → List X → List X → Prop) (masked : Bool)
    (l : List (Frame × Frame)) (ws : List Bytes) (s : Receiver X) (got : Bytes) (eof : Bool)
    (ms : List Data) (l1 l2 : List (Frame × Frame)) (ws2 : List Bytes) : Prop where
  mask : s.server = masked
  split : l = l1 ++ l2
  wires : Wires masked (l2.map (·.2)) ws2
  reads : ∃ cur, FramesRead s.maxSize (l1.map (·.1)) ms cur ∧ (s.queue.transfer ≠ .exited → s.frames = cur)
  ready : s.queue.transfer ≠ .exited → Ready ops size R l2 s.exts
  at_ : s.queue.transfer ≠ .exited → ∃ ws1 b, ws = ws1 ++ ws2 ∧ got = ws1.flatten ++ b ∧ IoAt s b eof
  closing : s.phase = .closing → ∃ l0 f g, l1 = l0 ++ [(f, g)] ∧ f.opcode = .close
  closed : s.ended = some .closed → s.phase = .closing ∧ s.queue.transfer = .exited

theorem readFrame_fresh (mask : Bool) (m : Option Int) : (readFrame mask m).Fresh :=
  (readFrame_exacting mask m).fresh

/-- Start to read a frame. -/
theorem Receiver.readNext_reading (s : Receiver X) {b : Bytes} {eof : Bool}
    (h : s.io.reader.plain = ⟨b, eof⟩) : Reading s.readNext b eof := by
  refine ⟨⟨?_, trivial, ?_⟩, fun r h => by cases h⟩
  · exact congrArg Reader.eof h
  · exact ⟨.fresh (readFrame_fresh _ _), readFrame_exacting _ _, by rw [← h]; rfl⟩

theorem readFrame_done {mask : Bool} {m : Option Int} {b : Bytes} {eof : Bool} {raw : Frame} {r : Reader}
    (h : (readFrame mask m).run ⟨b, eof⟩ = .done raw r) :
    (Frame.parseRaw mask m).run ⟨b, false⟩ = .done raw ⟨r.buf, false⟩ ∧ r.eof = eof := by
  rw [readFrame_eq] at h
  obtain ⟨bytes, h1, h2, h3, h4⟩ := Frame.parseRaw_done h
  refine ⟨?_, h2⟩
  simp only at h1
  rw [h1]
  exact Frame.parseRaw_wire h3 h4 r.buf false

theorem Ready.valid {f g : Frame} {l : List (Frame × Frame)} {ys : List X}
    (h : Ready ops size R ((f, g) :: l) ys) : ValidFrame f := by
  obtain ⟨u, xs, u', xs', -, h2⟩ := h
  generalize he : (f, g) :: l = l0 at h2
  induction h2 with
  | nil => cases he
  | send _ e2 => cases he; exact e2
  | receive _ _ _ ih => exact ih he

/-- How a step of the receiver looks from the queue. -/
structure Via (s s' : Receiver X) (o : List (Obs Data)) (qas : List (Act Data)) : Prop where
  exec : s.queue.exec qas = some (s'.queue, o)
  maxSize : s'.maxSize = s.maxSize
  server : s'.server = s.server

theorem Queue.exec_one {q q' : Queue Data} {a : Act Data} {o : List (Obs Data)}
    (h : q.step a = some (q', o)) : q.exec [a] = some (q', o) := by
  simp [Queue.exec, h]

theorem Receiver.readNext_queue (s : Receiver X) : s.readNext.queue = s.queue := rfl

theorem Receiver.goOn_queue (s : Receiver X) (q : Queue Data) : (s.goOn q).queue = q := by
  unfold Receiver.goOn
  split <;> rfl

theorem Receiver.exit_via (s : Receiver X) (e : Ending) (h : s.queue.transfer = .reading) :
    Via s (s.exit e) [] [.exit] := by
  refine ⟨?_, rfl, rfl⟩
  apply Queue.exec_one
  simp [Queue.step, h, Transfer.isReading, Receiver.exit]

/-- `transfer_data` ends. -/
theorem Progress.exit {masked : Bool} {l : List (Frame × Frame)} {ws : List Bytes} {s s' : Receiver X}
    {got got' : Bytes} {eof eof' : Bool} {ms : List Data} {l1 l2 : List (Frame × Frame)} {ws2 : List Bytes}
    (h : Progress ops size R masked l ws s got eof ms l1 l2 ws2) (hx : s'.queue.transfer = .exited)
    (h1 : s'.server = s.server) (h2 : s'.maxSize = s.maxSize) (h3 : s'.phase = s.phase)
    (h4 : s'.ended = some .closed → s.phase = .closing) :
    Progress ops size R masked l ws s' got' eof' ms l1 l2 ws2 where
  mask := h1.trans h.mask
  split := h.split
  wires := h.wires
  reads := by
    obtain ⟨cur, k, -⟩ := h.reads
    exact ⟨cur, by rw [h2]; exact k, fun hn => absurd hx hn⟩
  ready hn := absurd hx hn
  at_ hn := absurd hx hn
  closing hp := h.closing (h3 ▸ hp)
  closed he := ⟨h3.trans (h4 he), hx⟩

theorem Queue.putLoop_transfer (q : Queue Data) (m : Data) :
    ((q.putLoop m).1.transfer = .reading) ∨ ∃ f, (q.putLoop m).1.transfer = .full m f := by
  unfold Queue.putLoop
  split
  · exact .inr ⟨_, rfl⟩
  · refine .inl ?_
    unfold Queue.notifyPop Queue.setResult
    split
    · rfl
    · simp only
      split <;> rfl

theorem goOn_ioAt (s : Receiver X) (q : Queue Data) {b : Bytes} {eof : Bool}
    (h : s.io.reader.plain = ⟨b, eof⟩) : IoAt (s.goOn q) b eof := by
  unfold Receiver.goOn
  split
  · rename_i hr
    have hq : q.transfer = .reading := by
      revert hr; cases q.transfer <;> simp [Transfer.isReading]
    unfold IoAt
    rw [if_pos ⟨hq, rfl⟩]
    exact Receiver.readNext_reading { s with queue := q } h
  · rename_i hr
    have hq : q.transfer ≠ .reading := by
      intro hq; simp [hq, Transfer.isReading] at hr
    unfold IoAt
    rw [if_neg fun h => hq h.1]
    exact h

/-- A frame was read and decoded. -/
theorem Receiver.frame_progress {masked : Bool} {l : List (Frame × Frame)} {ws : List Bytes}
    {s : Receiver X} {got : Bytes} {eof : Bool} {ms : List Data} {l1 l2 : List (Frame × Frame)}
    {ws1 ws2 : List Bytes} {f g : Frame} {b : Bytes}
    (hmask : s.server = masked) (hl : l = l1 ++ (f, g) :: l2) (hw : Wires masked (l2.map (·.2)) ws2)
    (hr : FramesRead s.maxSize (l1.map (·.1)) ms s.frames) (hv : ValidFrame f)
    (hx : Ready ops size R l2 s.exts) (hws : ws = ws1 ++ ws2) (hgot : got = ws1.flatten ++ b)
    (hio : s.io.reader.plain = ⟨b, eof⟩) (ht : s.queue.transfer = .reading)
    (hph : s.phase = .reading) (hend : s.ended ≠ some .closed)
    {w : Bytes} (hwf : Wire masked g w) :
    ∃ qas l1' l2' ws2', Via s (s.frame f).1 (s.frame f).2 qas ∧ .cancelTransfer ∉ qas ∧
      Progress ops size R masked l ws (s.frame f).1 got eof (ms ++ Spec.received qas) l1' l2' ws2' := by
  have hl' : l = (l1 ++ [(f, g)]) ++ l2 := by rw [hl]; simp
  have hmap : (l1 ++ [(f, g)]).map (·.1) = l1.map (·.1) ++ [f] := by simp
  have exit_case : ∀ e, ∃ qas l1' l2' ws2', Via s (s.exit (.raised e)) [] qas ∧
      .cancelTransfer ∉ qas ∧
      Progress ops size R masked l ws (s.exit (.raised e)) got eof (ms ++ Spec.received qas)
        l1' l2' ws2' := by
    intro e
    refine ⟨[.exit], l1, (f, g) :: l2, w :: ws2, s.exit_via _ ht, by simp, hmask, hl, .cons hwf hw,
      ⟨s.frames, ?_, fun hn => absurd rfl hn⟩, fun hn => absurd rfl hn, fun hn => absurd rfl hn,
      fun hp => ?_, fun he => by cases he⟩
    rotate_left
    · rw [show (s.exit (.raised e)).phase = s.phase from rfl, hph] at hp
      cases hp
    simp only [Spec.received, List.append_nil]
    exact hr
  have ctrl_case : f.opcode.isCtrl = true → ∀ s' : Receiver X, s'.queue = s.queue →
      s'.maxSize = s.maxSize → s'.server = s.server → s'.frames = s.frames → s'.exts = s.exts →
      IoAt s' b eof → s'.ended = s.ended → (s'.phase = .closing → f.opcode = .close) →
      ∃ qas l1' l2' ws2', Via s s' [] qas ∧ .cancelTransfer ∉ qas ∧
        Progress ops size R masked l ws s' got eof (ms ++ Spec.received qas) l1' l2' ws2' := by
    intro hc s' e1 e2 e3 e4 e5 e6 e7 e8
    refine ⟨[], l1 ++ [(f, g)], l2, ws2, ⟨by simp [Queue.exec, e1], e2, e3⟩, by simp, e3.trans hmask, hl',
      hw, ⟨s.frames, ?_, fun _ => e4⟩, fun _ => e5 ▸ hx, fun _ => ⟨ws1, b, hws, hgot, e6⟩,
      fun hp => ⟨l1, f, g, rfl, e8 hp⟩, fun he => absurd (e7 ▸ he) hend⟩
    rw [hmap, e2]
    simp only [Spec.received, List.append_nil]
    exact .ctrl hr hc
  have data_case : f.opcode.isCtrl = false →
      ∃ qas l1' l2' ws2', Via s (s.dataFrame f).1 (s.dataFrame f).2 qas ∧ .cancelTransfer ∉ qas ∧
        Progress ops size R masked l ws (s.dataFrame f).1 got eof (ms ++ Spec.received qas)
          l1' l2' ws2' := by
    intro hc
    unfold Receiver.dataFrame
    simp only
    split
    · rename_i hn
      refine ⟨[], l1 ++ [(f, g)], l2, ws2, ⟨rfl, rfl, rfl⟩, by simp, hmask, hl', hw,
        ⟨s.frames ++ [f], ?_, fun _ => rfl⟩, fun _ => hx, fun _ => ⟨ws1, b, hws, hgot, ?_⟩,
        fun hp => (by cases hp), fun he => absurd he hend⟩
      · rw [hmap]
        simp only [Spec.received, List.append_nil]
        exact .more hr hc hv hn
      · unfold IoAt
        rw [if_pos ⟨ht, rfl⟩]
        exact Receiver.readNext_reading { s with frames := s.frames ++ [f] } hio
    · exact exit_case _
    · rename_i hm
      exfalso
      obtain ⟨k1, ⟨op, ds, k2⟩, -⟩ := hr.spec
      obtain ⟨-, op', d, -, -, k3, -⟩ := (readMessage_next k2 k1 hv).2 _ hm
      cases k3
    · rename_i m hm
      refine ⟨[.message m], l1 ++ [(f, g)], l2, ws2, ⟨?_, ?_, ?_⟩, by simp, ?_, hl', hw,
        ⟨[], ?_, fun _ => ?_⟩, fun _ => ?_, fun _ => ⟨ws1, b, hws, hgot, ?_⟩, ?_, ?_⟩
      · apply Queue.exec_one
        simp [Queue.step, ht, Transfer.isReading, Receiver.goOn_queue]
      · unfold Receiver.goOn; split <;> rfl
      · unfold Receiver.goOn; split <;> rfl
      · unfold Receiver.goOn; split <;> exact hmask
      · rw [hmap]
        have : ({ s with frames := [] }.goOn (s.queue.putLoop m).1).maxSize = s.maxSize := by
          unfold Receiver.goOn; split <;> rfl
        rw [this]
        exact .done hr hc hv hm
      · unfold Receiver.goOn; split <;> rfl
      · unfold Receiver.goOn; split <;> exact hx
      · exact goOn_ioAt { s with frames := [] } _ hio
      · unfold Receiver.goOn
        split
        · intro hp; cases hp
        · intro hp; rw [show s.phase = .closing from hp] at hph; cases hph
      · unfold Receiver.goOn
        split <;> exact fun he => absurd he hend
  unfold Receiver.frame
  split
  · rename_i hop
    split
    · exact exit_case _
    · refine ctrl_case (by simp [hop, Opcode.isCtrl]) _ rfl rfl rfl rfl rfl ?_ rfl fun _ => hop
      unfold IoAt
      rw [if_neg (by simp)]
      exact hio
  · rename_i hop
    refine ctrl_case (by simp [hop, Opcode.isCtrl]) _ rfl rfl rfl rfl rfl ?_ rfl fun hp => by cases hp
    unfold IoAt
    rw [if_neg (by simp)]
    exact hio
  · rename_i hop
    refine ctrl_case (by simp [hop, Opcode.isCtrl]) _ rfl rfl rfl rfl rfl ?_ rfl fun hp => by cases hp
    unfold IoAt
    rw [if_pos ⟨ht, rfl⟩]
    exact Receiver.readNext_reading s hio
  · rename_i h1 h2 h3
    refine data_case ?_
    cases hop : f.opcode <;> simp_all [Opcode.isCtrl]

theorem wires_nil {masked : Bool} {fs : List Frame} (h : Wires masked fs []) : fs = [] := by
  cases h; rfl

/-- What follows the frames `l`: nothing, or a frame that starts a message in the middle of another. -/
def Spec.Tail (ops : ExtOps X) (masked : Bool) (l : List (Frame × Frame)) (tail : Bytes) : Prop :=
  tail = [] ∨ ops.Lawful ∧ Messages ((l.map (·.1)).filter isDataFrame) true ∧
    ∃ g w rest, Wire masked g w ∧ (g.opcode = .text ∨ g.opcode = .binary) ∧ tail = w ++ rest

theorem Frame.finish_opcode {ops : ExtOps X} (hl : ops.Lawful) {xs xs' : List X} {lim : Option Int}
    {raw f : Frame} (h : raw.finish ops xs lim = (.ok f, xs')) : f.opcode = raw.opcode := by
  unfold Frame.finish at h
  cases ha : applyExts (fun x fr => ops.decode x fr lim) xs.reverse raw with
  | mk r ys =>
    rw [ha] at h
    cases r with
    | error e => simp at h
    | ok f' =>
      simp only at h
      cases hc : f'.check with
      | error e => rw [hc] at h; simp at h
      | ok u =>
        rw [hc] at h
        simp only [Prod.mk.injEq, Except.ok.injEq] at h
        rw [← h.1]
        exact (applyExts_decode hl ha).2.1

/-- Such a frame ends `transfer_data` with an exception. -/
theorem Receiver.frame_tail {s : Receiver X} {fs : List Frame} {ms : List Data} {f : Frame}
    (hr : FramesRead s.maxSize fs ms s.frames) (hm : Messages (fs.filter isDataFrame) true) (hv : ValidFrame f)
    (hop : f.opcode = .text ∨ f.opcode = .binary) : ∃ e, s.frame f = (s.exit (.raised e), []) := by
  have hne : s.frames ≠ [] := by
    have := hr.state.1.unique hm
    simpa using this
  have hcont : f.opcode ≠ .cont := by rcases hop with h | h <;> rw [h] <;> simp
  have hdata : s.frame f = s.dataFrame f := by
    unfold Receiver.frame
    rcases hop with h | h <;> rw [h]
  rw [hdata]
  obtain ⟨k1, ⟨op, ds, k2⟩, -⟩ := hr.spec
  obtain ⟨n1, n2⟩ := readMessage_next k2 k1 hv
  unfold Receiver.dataFrame
  simp only
  split
  · rename_i hn
    obtain ⟨-, op', -, ho⟩ := n1 hn
    exact absurd (ho.opcode.2 hne) hcont
  · exact ⟨_, rfl⟩
  · rename_i hn
    obtain ⟨-, op', d, -, -, -, -, ho, -⟩ := n2 _ hn
    exact absurd (ho hne) hcont
  · rename_i hn
    obtain ⟨-, op', d, -, -, -, -, ho, -⟩ := n2 _ hn
    exact absurd (ho hne) hcont

/-- `transfer_data_task` runs. -/
theorem Progress.run (hc : Channel ops size R) {masked : Bool} {l : List (Frame × Frame)}
    {ws : List Bytes} {s s' : Receiver X}
    {got : Bytes} {eof : Bool} {ms : List Data} {l1 l2 : List (Frame × Frame)} {ws2 : List Bytes}
    {o : List (Obs Data)}
    (h : Progress ops size R masked l ws s got eof ms l1 l2 ws2) {more tail : Bytes}
    (htail : Spec.Tail ops masked l tail)
    (hmore : got ++ more = ws.flatten ++ tail) (hs : s.step ops .run = some (s', o)) :
    ∃ qas l1' l2' ws2', Via s s' o qas ∧ .cancelTransfer ∉ qas ∧
      Progress ops size R masked l ws s' got eof (ms ++ Spec.received qas) l1' l2' ws2' := by
  simp only [Receiver.step] at hs
  split at hs
  · rename_i hp
    have hx : s.queue.transfer ≠ .exited := by rw [hp.1]; simp
    obtain ⟨ws1, b, hws, hgot, hio⟩ := h.at_ hx
    unfold IoAt at hio
    rw [if_pos hp] at hio
    obtain ⟨hsim, hend⟩ := hio
    obtain ⟨cur, hreads, hcur⟩ := h.reads
    have hcur := hcur hx
    subst hcur
    have hnc : s.ended ≠ some .closed := fun he => by
      exact hx (h.closed he).2
    cases hstep : s.io.step .run with
    | none => simp [hstep] at hs
    | some io =>
      simp only [hstep] at hs
      have hsim' := hsim.step (readFrame_fresh _ _) (rules_exacting _ (readFrame_fresh _ _))
        (.inl rfl) hstep
      simp only [Spec.fed, Spec.fedEof, Bool.or_false, Reader.more, List.append_nil] at hsim'
      have idle : (∀ r, io.task ≠ .ended r) → some ({ s with io }, []) = some (s', o) →
          ∃ qas l1' l2' ws2', Via s s' o qas ∧ .cancelTransfer ∉ qas ∧
            Progress ops size R masked l ws s' got eof (ms ++ Spec.received qas) l1' l2' ws2' := by
        intro hne he
        cases he
        refine ⟨[], l1, l2, ws2, ⟨rfl, rfl, rfl⟩, by simp, h.mask, h.split, h.wires,
          ⟨s.frames, ?_, fun _ => rfl⟩, h.ready, fun _ => ⟨ws1, b, hws, hgot, ?_⟩, h.closing, h.closed⟩
        · simp only [Spec.received, List.append_nil]; exact hreads
        · unfold IoAt
          rw [if_pos hp]
          exact ⟨hsim', hne⟩
      cases htask : io.task with
      | ready c => simp only [htask] at hs; exact idle (by simp [htask]) hs
      | waiting c => simp only [htask] at hs; exact idle (by simp [htask]) hs
      | ended res =>
        obtain ⟨k1, -, k3⟩ := hsim'
        rw [htask] at k3
        cases res with
        | none => exact k3.elim
        | some res =>
          simp only [htask, Option.some.injEq] at hs
          cases res with
          | error e =>
            simp only [Receiver.decoded] at hs
            cases hs
            have hv := Receiver.exit_via { s with io } (.raised e) hp.1
            refine ⟨[.exit], l1, l2, ws2, ⟨hv.exec, rfl, rfl⟩, by simp, ?_⟩
            simp only [Spec.received, List.append_nil]
            exact h.exit rfl rfl rfl rfl fun he => by cases he
          | ok raw =>
            simp only at k3
            obtain ⟨j1, j2⟩ := readFrame_done k3
            -- the next frame
            have hb : b ++ more = ws2.flatten ++ tail := by
              rw [hws, hgot, List.flatten_append, List.append_assoc, List.append_assoc] at hmore
              exact List.append_cancel_left hmore
            cases l2 with
            | nil =>
              have hwn := h.wires
              generalize hw2 : ws2 = w0 at hwn hb
              cases hwn
              rcases htail with rfl | ⟨hlaw, hmsgs, g, w, rest, hwf, hop, rfl⟩
              · exfalso
                have hbn : b = [] := (List.append_eq_nil_iff.1 (by simpa using hb)).1
                obtain ⟨bytes, g1, g2, g3, -⟩ := Frame.parseRaw_done j1
                simp only [hbn] at g1
                exact wire_pos g3 (List.append_eq_nil_iff.1 g1.symm).1
              · rw [h.mask] at j1
                obtain ⟨rfl, -⟩ := Frame.parseRaw_next hwf hb j1
                have exits : ∀ (s1 : Receiver X) (e : Ending), (∀ ys', s1 = { s with io, exts := ys' } →
                    e ≠ .closed → (s1.exit e, []) = (s', o) →
                    ∃ qas l1' l2' ws2', Via s s' o qas ∧ .cancelTransfer ∉ qas ∧
                      Progress ops size R masked l ws s' got eof (ms ++ Spec.received qas) l1' l2' ws2') := by
                  rintro s1 e ys' rfl he hs
                  cases hs
                  refine ⟨[.exit], l1, [], [], ?_, by simp, ?_⟩
                  · have := Receiver.exit_via { s with io, exts := ys' } e hp.1
                    exact ⟨this.exec, rfl, rfl⟩
                  · simp only [Spec.received, List.append_nil]
                    rw [hw2] at h
                    exact h.exit rfl rfl rfl rfl fun h => absurd (Option.some.inj h) he
                simp only [Receiver.decoded] at hs
                cases hfin : raw.finish ops s.exts s.limit with
                | mk res ys' =>
                  have e0 : Receiver.limit { s with io } = s.limit := rfl
                  simp only [e0, hfin] at hs
                  cases res with
                  | error e => exact exits _ (.raised e) ys' rfl (by simp) hs
                  | ok f =>
                    simp only at hs
                    have hhead := Frame.finish_opcode hlaw hfin
                    have hsplit := h.split
                    rw [List.append_nil] at hsplit
                    subst hsplit
                    obtain ⟨e, he⟩ := Receiver.frame_tail (s := { s with io, exts := ys' }) hreads hmsgs
                      ((Frame.check_ok_iff f).1 (Frame.finish_check hfin)) (by rw [hhead]; exact hop)
                    rw [he] at hs
                    exact exits _ (.raised e) ys' rfl (by simp) hs
            | cons fg l2 =>
              obtain ⟨f, g⟩ := fg
              have hwn := h.wires
              generalize hw2 : ws2 = w0 at hwn hb hws
              cases hwn with
              | @cons _ w _ ws3 hwf hws3 =>
                rw [List.flatten_cons, List.append_assoc] at hb
                rw [h.mask] at j1
                obtain ⟨rfl, g2, g3, -⟩ := Frame.parseRaw_next hwf hb j1
                have hrb : io.reader.plain = ⟨b.drop w.length, eof⟩ := by
                  simp only [Reader.mk.injEq, and_true] at g2
                  cases hpl : io.reader.plain with
                  | mk rb re => rw [hpl] at g2 j2; simp only at g2 j2; rw [g2, j2]
                have hbw : b = w ++ b.drop w.length := by
                  have := congrArg (List.take w.length) hb
                  rw [List.take_append_of_le_length g3, List.take_left] at this
                  conv => lhs; rw [← List.take_append_drop w.length b, this]
                have hvalid := Ready.valid (h.ready hx)
                simp only [Receiver.decoded] at hs
                rcases (h.ready hx).next hc s.limit with ⟨ys', n1, n2⟩ | ⟨e, ys', n1⟩
                · have e0 : Receiver.limit { s with io } = s.limit := rfl
                  simp only [e0, n1] at hs
                  obtain ⟨qas, l1', l2', ws2', p1, p2, p3⟩ := Receiver.frame_progress (ws := ws)
                    (s := { s with io, exts := ys' })
                    (ws1 := ws1 ++ [w]) (ws2 := ws3) (b := b.drop w.length) (got := got) (eof := eof)
                    h.mask h.split hws3 hreads hvalid n2 (by rw [hws]; simp)
                    (by rw [hgot]; simp only [List.flatten_append, List.flatten_cons, List.flatten_nil,
                          List.append_nil, List.append_assoc]; rw [← hbw])
                    hrb hp.1 hp.2 hnc hwf
                  rw [hs] at p1 p3
                  exact ⟨qas, l1', l2', ws2', ⟨p1.exec, p1.maxSize, p1.server⟩, p2, p3⟩
                · have e0 : Receiver.limit { s with io } = s.limit := rfl
                  simp only [e0, n1] at hs
                  cases hs
                  refine ⟨[.exit], l1, (f, raw) :: l2, ws2, ?_, by simp, ?_⟩
                  · have := Receiver.exit_via { s with io, exts := ys' } (.raised e) hp.1
                    exact ⟨this.exec, rfl, rfl⟩
                  · simp only [Spec.received, List.append_nil]
                    exact h.exit rfl rfl rfl rfl fun he => by cases he
  · cases hs

theorem Queue.step_keeps {q q' : Queue Data} {a : Act Data} {o : List (Obs Data)}
    (h : q.step a = some (q', o)) (ha : (∃ t, a = .recv t) ∨ (∃ t, a = .wake t) ∨ ∃ t, a = .cancel t) :
    q'.transfer = q.transfer := by
  rcases ha with ⟨t, rfl⟩ | ⟨t, rfl⟩ | ⟨t, rfl⟩
  · simp only [Queue.step] at h
    split at h
    · cases h
    · split at h
      · cases h; rfl
      · have := congrArg Prod.fst (Option.some.inj h)
        rw [← show (q.recvLoop t).1 = q' from this]
        exact Queue.recvLoop_transfer q t
  · simp only [Queue.step] at h
    split at h
    · cases h
    · split at h
      · split at h
        · have := congrArg Prod.fst (Option.some.inj h)
          rw [← show (Queue.recvLoop _ t).1 = q' from this]
          exact Queue.recvLoop_transfer _ t
        · cases h; rfl
      · cases h
    · split at h
      · cases h; rfl
      · have := congrArg Prod.fst (Option.some.inj h)
        rw [← show (Queue.recvLoop _ t).1 = q' from this]
        exact Queue.recvLoop_transfer _ t
  · simp only [Queue.step] at h
    split at h <;> cases h <;> rfl

/-- Data or the end of the stream is delivered. -/
theorem IoAt.arrive {s : Receiver X} {b : Bytes} {eof : Bool} (h : IoAt s b eof) {io : Endpoint Frame}
    {a : IoAct Frame} (ha : a = .eof ∨ ∃ d, a = .data d) (hs : s.io.step a = some io) :
    ∃ eof', IoAt { s with io } (b ++ Spec.fed [a]) eof' := by
  have ha' : a = .run ∨ a = .eof ∨ ∃ d, a = .data d := .inr ha
  by_cases hp : s.queue.transfer = .reading ∧ s.phase = .reading
  · unfold IoAt at h
    rw [if_pos hp] at h
    obtain ⟨hsim, hend⟩ := h
    have := hsim.step (readFrame_fresh _ _) (rules_exacting _ (readFrame_fresh _ _)) ha' hs
    refine ⟨eof || Spec.fedEof [a], ?_⟩
    unfold IoAt
    rw [if_pos (by exact hp)]
    refine ⟨this, ?_⟩
    intro r hr
    rcases ha with rfl | ⟨d, rfl⟩
    · simp only [Endpoint.step, Option.some.injEq] at hs
      subst hs
      cases ht : s.io.task with
      | ended r => exact hend r ht
      | _ => simp [ht, Task.wakeup] at hr
    · simp only [Endpoint.step] at hs
      split at hs
      · cases hs
      · split at hs
        · cases hs; exact hend r hr
        · cases hs
          cases ht : s.io.task with
          | ended r => exact hend r ht
          | _ => simp [ht, Task.wakeup] at hr
  · unfold IoAt at h
    rw [if_neg hp] at h
    refine ⟨eof || Spec.fedEof [a], ?_⟩
    unfold IoAt
    rw [if_neg (by exact hp)]
    rcases ha with rfl | ⟨d, rfl⟩
    · simp only [Endpoint.step, Option.some.injEq] at hs
      subst hs
      have := congrArg Reader.buf h
      simp only [AReader.plain] at this
      simp [AReader.plain, AReader.feedEof, Spec.fed, Spec.fedEof, this]
    · simp only [Endpoint.step] at hs
      split at hs
      · cases hs
      · split at hs
        · rename_i hd
          cases hs
          subst hd
          simpa [Spec.fed, Spec.fedEof] using h
        · cases hs
          have := (s.io.reader.plain_feedData d).1
          simp only [this, Spec.fed, Spec.fedEof, List.append_nil, Bool.or_false, Reader.more]
          have e1 := congrArg Reader.buf h
          have e2 := congrArg Reader.eof h
          simp only [AReader.plain] at e1 e2
          simp [AReader.plain, e1, e2]

theorem Progress.step (hc : Channel ops size R) {masked : Bool} {l : List (Frame × Frame)}
    {ws : List Bytes} {s s' : Receiver X} {a : RAct}
    {got : Bytes} {eof : Bool} {ms : List Data} {l1 l2 : List (Frame × Frame)} {ws2 : List Bytes}
    {o : List (Obs Data)}
    (h : Progress ops size R masked l ws s got eof ms l1 l2 ws2) {more tail : Bytes}
    (htail : Spec.Tail ops masked l tail)
    (hmore : got ++ Spec.arrived [a] ++ more = ws.flatten ++ tail) (hs : s.step ops a = some (s', o)) :
    ∃ eof' qas l1' l2' ws2', Via s s' o qas ∧ (.cancelTransfer ∈ qas → a = .cancelTransfer) ∧
      Progress ops size R masked l ws s' (got ++ Spec.arrived [a]) eof' (ms ++ Spec.received qas)
        l1' l2' ws2' := by
  have hnil : ∀ qas : List (Act Data), Spec.received qas = [] → ms ++ Spec.received qas = ms := by
    intro qas h; rw [h, List.append_nil]
  have hio : ∀ (b : IoAct Frame), (b = .eof ∨ ∃ d, b = .data d) → Spec.fed [b] = Spec.arrived [a] →
      ((s.io.step b).map fun io => ({ s with io }, ([] : List (Obs Data)))) = some (s', o) →
      ∃ eof' qas l1' l2' ws2', Via s s' o qas ∧ (.cancelTransfer ∈ qas → a = .cancelTransfer) ∧
        Progress ops size R masked l ws s' (got ++ Spec.arrived [a]) eof' (ms ++ Spec.received qas)
          l1' l2' ws2' := by
    intro b hb hfed hs
    cases hst : s.io.step b with
    | none => simp [hst] at hs
    | some io =>
      simp only [hst, Option.map_some, Option.some.injEq] at hs
      cases hs
      by_cases hx : s.queue.transfer = .exited
      · exact ⟨eof, [], l1, l2, ws2, ⟨rfl, rfl, rfl⟩, by simp,
          by rw [hnil _ rfl]; exact h.exit hx rfl rfl rfl fun he => (h.closed he).1⟩
      · obtain ⟨ws1, b0, k1, k2, k3⟩ := h.at_ hx
        obtain ⟨eof', k4⟩ := k3.arrive hb hst
        refine ⟨eof', [], l1, l2, ws2, ⟨rfl, rfl, rfl⟩, by simp, h.mask, h.split, h.wires, ?_, h.ready,
          fun _ => ⟨ws1, b0 ++ Spec.fed [b], k1, ?_, k4⟩, h.closing, h.closed⟩
        · rw [hnil _ rfl]; exact h.reads
        · rw [k2, hfed, List.append_assoc]
  have hq : ∀ b : Act Data, ((∃ t, b = .recv t) ∨ (∃ t, b = .wake t) ∨ ∃ t, b = .cancel t) →
      Spec.arrived [a] = [] → s.queueStep b = some (s', o) →
      ∃ eof' qas l1' l2' ws2', Via s s' o qas ∧ (.cancelTransfer ∈ qas → a = .cancelTransfer) ∧
        Progress ops size R masked l ws s' (got ++ Spec.arrived [a]) eof' (ms ++ Spec.received qas)
          l1' l2' ws2' := by
    intro b hb he hs
    unfold Receiver.queueStep at hs
    cases hst : s.queue.step b with
    | none => simp [hst] at hs
    | some r =>
      obtain ⟨q, o'⟩ := r
      simp only [hst, Option.map_some, Option.some.injEq] at hs
      cases hs
      have hk := Queue.step_keeps hst hb
      have hr : Spec.received [b] = [] := by rcases hb with ⟨t, rfl⟩ | ⟨t, rfl⟩ | ⟨t, rfl⟩ <;> rfl
      refine ⟨eof, [b], l1, l2, ws2, ⟨Queue.exec_one hst, rfl, rfl⟩, ?_, h.mask, h.split, h.wires, ?_, ?_, ?_,
        h.closing, fun he => ⟨(h.closed he).1, hk.trans (h.closed he).2⟩⟩
      · intro hm
        rcases hb with ⟨t, rfl⟩ | ⟨t, rfl⟩ | ⟨t, rfl⟩ <;> simp at hm
      · rw [hr, List.append_nil]
        obtain ⟨cur, g1, g2⟩ := h.reads
        exact ⟨cur, g1, fun hn => g2 (by rw [← hk]; exact hn)⟩
      · exact fun hn => h.ready (by rw [← hk]; exact hn)
      · intro hn
        obtain ⟨ws1, b0, g1, g2, g3⟩ := h.at_ (by rw [← hk]; exact hn)
        refine ⟨ws1, b0, g1, by rw [he, List.append_nil]; exact g2, ?_⟩
        unfold IoAt at g3 ⊢
        simp only [hk]
        exact g3
  cases a with
  | data d => exact hio (.data d) (.inr ⟨d, rfl⟩) rfl hs
  | eof => exact hio .eof (.inl rfl) rfl hs
  | run =>
    simp only [Spec.arrived, List.append_nil] at hmore ⊢
    obtain ⟨qas, l1', l2', ws2', g1, g2, g3⟩ := h.run hc htail hmore hs
    exact ⟨eof, qas, l1', l2', ws2', g1, fun hm => absurd hm g2, g3⟩
  | answered e =>
    simp only [Spec.arrived, List.append_nil] at hmore ⊢
    simp only [Receiver.step] at hs
    split at hs
    · rename_i ht
      have hx : s.queue.transfer ≠ .exited := by rw [ht]; simp
      obtain ⟨ws1, b, g1, g2, g3⟩ := h.at_ hx
      have exits : ∀ e, (e = .closed → s.phase = .closing) →
          ∃ eof' qas l1' l2' ws2', Via s (s.exit e) [] qas ∧ .cancelTransfer ∉ qas ∧
          Progress ops size R masked l ws (s.exit e) got eof' (ms ++ Spec.received qas) l1' l2' ws2' := by
        intro e he
        exact ⟨eof, [.exit], l1, l2, ws2, s.exit_via e ht, by simp,
          by rw [hnil _ rfl]; exact h.exit rfl rfl rfl rfl fun h => he (Option.some.inj h)⟩
      split at hs
      · cases hs
      · cases hs
        obtain ⟨eof', qas, l1', l2', ws2', k1, k2, k3⟩ := exits (.raised _) (fun h => by cases h)
        exact ⟨eof', qas, l1', l2', ws2', k1, fun hm => absurd hm k2, k3⟩
      · rename_i hph
        cases hs
        have hpl : s.io.reader.plain = ⟨b, eof⟩ := by
          unfold IoAt at g3
          rw [if_neg (by simp [hph])] at g3
          exact g3
        refine ⟨eof, [], l1, l2, ws2, ⟨rfl, rfl, rfl⟩, by simp, h.mask, h.split, h.wires, ?_, h.ready,
          fun _ => ⟨ws1, b, g1, g2, ?_⟩, fun hp => (by cases hp), fun he => ?_⟩
        · rw [hnil _ rfl]; exact h.reads
        · unfold IoAt
          rw [if_pos ⟨ht, rfl⟩]
          exact Receiver.readNext_reading s hpl
        · have := (h.closed he).1
          rw [hph] at this
          cases this
      · rename_i hph
        cases hs
        unfold Receiver.closeFrame
        split
        · obtain ⟨eof', qas, l1', l2', ws2', k1, k2, k3⟩ := exits (.raised _) (fun h => by cases h)
          exact ⟨eof', qas, l1', l2', ws2', k1, fun hm => absurd hm k2, k3⟩
        · obtain ⟨eof', qas, l1', l2', ws2', k1, k2, k3⟩ := exits .closed (fun _ => hph)
          exact ⟨eof', qas, l1', l2', ws2', k1, fun hm => absurd hm k2, k3⟩
    · cases hs
  | write f =>
    simp only [Spec.arrived, List.append_nil] at hmore ⊢
    simp only [Receiver.step, Option.some.injEq] at hs
    cases hs
    refine ⟨eof, [], l1, l2, ws2, ⟨rfl, rfl, rfl⟩, by simp, h.mask, h.split, h.wires, ?_,
      fun hn => (h.ready hn).answer hc f, fun hn => ?_, h.closing, h.closed⟩
    · rw [hnil _ rfl]; exact h.reads
    · obtain ⟨ws1, b, g1, g2, g3⟩ := h.at_ hn
      exact ⟨ws1, b, g1, g2, g3⟩
  | recv t => exact hq (.recv t) (.inl ⟨t, rfl⟩) rfl hs
  | wake t => exact hq (.wake t) (.inr (.inl ⟨t, rfl⟩)) rfl hs
  | cancel t => exact hq (.cancel t) (.inr (.inr ⟨t, rfl⟩)) rfl hs
  | wakeTransfer =>
    simp only [Spec.arrived, List.append_nil] at hmore ⊢
    simp only [Receiver.step] at hs
    cases hst : s.queue.step .wakeTransfer with
    | none => simp [hst] at hs
    | some r =>
      obtain ⟨q, o'⟩ := r
      simp only [hst, Option.some.injEq] at hs
      cases hs
      have hfull : ∃ m f, s.queue.transfer = .full m f := by
        simp only [Queue.step] at hst
        split at hst
        · rename_i m f hm; exact ⟨m, f, hm⟩
        · cases hst
      obtain ⟨m, f, hfull⟩ := hfull
      have hx : s.queue.transfer ≠ .exited := by rw [hfull]; simp
      obtain ⟨ws1, b, g1, g2, g3⟩ := h.at_ hx
      obtain ⟨cur, k1, k2⟩ := h.reads
      unfold IoAt at g3
      rw [if_neg (by simp [hfull])] at g3
      refine ⟨eof, [.wakeTransfer], l1, l2, ws2, ⟨?_, ?_, ?_⟩, by simp, ?_, h.split, h.wires, ?_, fun _ => ?_,
        fun _ => ⟨ws1, b, g1, g2, goOn_ioAt s q g3⟩, ?_, ?_⟩
      · rw [Receiver.goOn_queue]; exact Queue.exec_one hst
      · unfold Receiver.goOn; split <;> rfl
      · unfold Receiver.goOn; split <;> rfl
      · unfold Receiver.goOn; split <;> exact h.mask
      · refine ⟨cur, ?_, fun _ => ?_⟩
        · have : (s.goOn q).maxSize = s.maxSize := by unfold Receiver.goOn; split <;> rfl
          rw [this]
          rw [hnil _ rfl]; exact k1
        · rw [← k2 hx]; unfold Receiver.goOn; split <;> rfl
      · have := h.ready hx
        unfold Receiver.goOn; split <;> exact this
      · unfold Receiver.goOn
        split
        · intro hp; cases hp
        · exact h.closing
      · have hn : s.ended ≠ some .closed := fun he => hx (h.closed he).2
        unfold Receiver.goOn
        split <;> exact fun he => absurd he hn
  | cancelTransfer =>
    simp only [Spec.arrived, List.append_nil] at hmore ⊢
    simp only [Receiver.step, Receiver.queueStep] at hs
    cases hst : s.queue.step .cancelTransfer with
    | none => simp [hst] at hs
    | some r =>
      obtain ⟨q, o'⟩ := r
      simp only [hst, Option.map_some, Option.some.injEq] at hs
      cases hs
      have hx : q.transfer = .exited := by
        simp only [Queue.step] at hst
        split at hst <;> cases hst <;> rfl
      exact ⟨eof, [.cancelTransfer], l1, l2, ws2, ⟨Queue.exec_one hst, rfl, rfl⟩, fun _ => trivial,
        by rw [hnil _ rfl]; exact h.exit hx rfl rfl rfl fun he => by cases he⟩

theorem Receiver.exec_cons {s s' : Receiver X} {a : RAct} {as : List RAct} {os : List (Obs Data)}
    (h : s.exec ops (a :: as) = some (s', os)) :
    ∃ s1 o os', s.step ops a = some (s1, o) ∧ s1.exec ops as = some (s', os') ∧ os = o ++ os' := by
  simp only [Receiver.exec] at h
  split at h
  · cases h
  · rename_i s1 o hp
    split at h
    · cases h
    · rename_i s2 os' hp'
      cases h
      exact ⟨s1, o, os', hp, hp', rfl⟩

theorem Queue.exec_trans {q q1 q2 : Queue Data} {as bs : List (Act Data)} {o os : List (Obs Data)}
    (h : q.exec as = some (q1, o)) (h' : q1.exec bs = some (q2, os)) :
    q.exec (as ++ bs) = some (q2, o ++ os) := by
  induction as generalizing q o with
  | nil => cases h; exact h'
  | cons a as ih =>
    obtain ⟨p, o1, os1, h1, h2, rfl⟩ := Queue.exec_cons h
    simp only [List.cons_append, Queue.exec, h1, ih h2, List.append_assoc]

theorem Progress.exec (hc : Channel ops size R) {masked : Bool} {l : List (Frame × Frame)}
    {ws : List Bytes} {s s' : Receiver X} {as : List RAct}
    {got : Bytes} {eof : Bool} {ms : List Data} {l1 l2 : List (Frame × Frame)} {ws2 : List Bytes}
    {os : List (Obs Data)}
    (h : Progress ops size R masked l ws s got eof ms l1 l2 ws2) {more tail : Bytes}
    (htail : Spec.Tail ops masked l tail)
    (hmore : got ++ Spec.arrived as ++ more = ws.flatten ++ tail) (hs : s.exec ops as = some (s', os)) :
    ∃ eof' qas l1' l2' ws2', Via s s' os qas ∧ (.cancelTransfer ∈ qas → .cancelTransfer ∈ as) ∧
      Progress ops size R masked l ws s' (got ++ Spec.arrived as) eof' (ms ++ Spec.received qas)
        l1' l2' ws2' := by
  induction as generalizing s got eof ms l1 l2 ws2 os with
  | nil =>
    cases hs
    exact ⟨eof, [], l1, l2, ws2, ⟨rfl, rfl, rfl⟩, by simp, by simpa [Spec.arrived, Spec.received] using h⟩
  | cons a as ih =>
    obtain ⟨s1, o, os', h1, h2, rfl⟩ := Receiver.exec_cons hs
    rw [Spec.arrived_cons] at hmore ⊢
    obtain ⟨eof1, qas, m1, m2, w2, g1, g2, g3⟩ := h.step hc htail (more := Spec.arrived as ++ more)
      (by simpa using hmore) h1
    obtain ⟨eof', qas', l1', l2', ws2', k1, k2, k3⟩ := ih g3 (by simpa using hmore) h2
    refine ⟨eof', qas ++ qas', l1', l2', ws2', ⟨Queue.exec_trans g1.exec k1.exec, k1.maxSize.trans g1.maxSize,
      k1.server.trans g1.server⟩, ?_, ?_⟩
    · intro hm
      rcases List.mem_append.1 hm with hm | hm
      · simp [g2 hm]
      · exact List.mem_cons_of_mem _ (k2 hm)
    · rw [Spec.received_append]
      simpa using k3

theorem Progress.init {masked : Bool} {maxSize : Option Int} {maxQueue : Option Nat} {ys : List X}
    {r : AReader} (hr : r.eof = false) {l : List (Frame × Frame)} {ws : List Bytes}
    (hw : Wires masked (l.map (·.2)) ws) (hx : Ready ops size R l ys) :
    Progress ops size R masked l ws (Receiver.init masked maxSize maxQueue ys r) r.buf false [] [] l ws where
  mask := rfl
  split := rfl
  wires := hw
  reads := ⟨[], .nil, fun _ => rfl⟩
  ready _ := hx
  at_ _ := by
    refine ⟨[], r.buf, rfl, rfl, ?_⟩
    unfold IoAt
    rw [if_pos ⟨rfl, rfl⟩]
    have hp : (Receiver.init masked maxSize maxQueue ys r).io.reader.plain = ⟨r.buf, false⟩ := by
      simp [Receiver.init, AReader.plain, hr]
    exact Receiver.readNext_reading _ hp
  closing h := by cases h
  closed h := by cases h

/-! ## C75: messages are delivered -/

/-- A peer sends the frames `fs`, which its extensions encode to `gs`; on the wire, they're `ws`.  In the
meantime, its extensions may decode frames.  `xs` are its extensions; `size` is how much data they can
take in a frame. -/
structure Spec.PeerSends (ops : ExtOps X) (size : Nat) (masked : Bool) (xs : List X) (l : List (Frame × Frame))
    (ws : List Bytes) : Prop where
  encodes : ∃ u' xs', Sends ops size false xs l u' xs'
  wires : Wires masked (l.map (·.2)) ws

/-- Everything about an execution of a connection that was just opened. -/
theorem Receiver.init_exec (hc : Channel ops size R) {masked : Bool} {xs ys : List X} (hR : R false xs ys)
    {l : List (Frame × Frame)} {ws : List Bytes} (hp : Spec.PeerSends ops size masked xs l ws)
    {maxSize : Option Int} {maxQueue : Option Nat} {r : AReader} (hr : r.eof = false)
    {as : List RAct} {more tail : Bytes} (htail : Spec.Tail ops masked l tail)
    (hbytes : r.buf ++ Spec.arrived as ++ more = ws.flatten ++ tail)
    {s : Receiver X} {os : List (Obs Data)}
    (hs : (Receiver.init masked maxSize maxQueue ys r).exec ops as = some (s, os)) :
    ∃ eof ms l1 l2 ws2 lost, Progress ops size R masked l ws s (r.buf ++ Spec.arrived as) eof ms l1 l2 ws2 ∧
      Spec.returned os ++ s.queue.messages ++ s.queue.transfer.inHand ++ lost = ms ∧ lost.length ≤ 1 ∧
      (s.queue.transfer ≠ .exited → lost = []) ∧ (.cancelTransfer ∉ as → lost = []) ∧
      s.maxSize = maxSize := by
  obtain ⟨u', xs', hsends⟩ := hp.encodes
  obtain ⟨eof, qas, l1, l2, ws2, h1, h2, h3⟩ := (Progress.init (maxSize := maxSize) (maxQueue := maxQueue)
    hr hp.wires ⟨false, xs, u', xs', hR, hsends⟩).exec hc htail hbytes hs
  obtain ⟨-, lost, k1, k2, k3, k4⟩ := (Queue.Ok.init maxQueue).exec h1.exec
  exact ⟨eof, _, l1, l2, ws2, lost, h3, k1.flow, k2,
    fun hn => Classical.byContradiction fun h => hn (k3 h), fun hn => k4 fun hm => hn (h2 hm), h1.maxSize⟩

/-- After it ended, `transfer_data` doesn't start again. -/
theorem Receiver.step_exited {s s' : Receiver X} {a : RAct} {o : List (Obs Data)}
    (h : s.step ops a = some (s', o)) (hx : s.queue.transfer = .exited) :
    s'.ended = s.ended ∧ s'.queue.transfer = .exited ∧ s'.phase = s.phase ∧ a ≠ .cancelTransfer := by
  have hq : ∀ b : Act Data, ((∃ t, b = .recv t) ∨ (∃ t, b = .wake t) ∨ ∃ t, b = .cancel t) →
      s.queueStep b = some (s', o) →
      s'.ended = s.ended ∧ s'.queue.transfer = .exited ∧ s'.phase = s.phase := by
    intro b hb hs
    unfold Receiver.queueStep at hs
    cases hst : s.queue.step b with
    | none => simp [hst] at hs
    | some r =>
      simp only [hst, Option.map_some, Option.some.injEq] at hs
      cases hs
      exact ⟨rfl, (Queue.step_keeps hst hb).trans hx, rfl⟩
  cases a with
  | data d =>
    simp only [Receiver.step] at h
    cases hst : s.io.step (.data d) with
    | none => simp [hst] at h
    | some io =>
      simp only [hst, Option.map_some, Option.some.injEq] at h
      cases h
      exact ⟨rfl, hx, rfl, by simp⟩
  | eof =>
    simp only [Receiver.step] at h
    cases hst : s.io.step .eof with
    | none => simp [hst] at h
    | some io =>
      simp only [hst, Option.map_some, Option.some.injEq] at h
      cases h
      exact ⟨rfl, hx, rfl, by simp⟩
  | run => simp [Receiver.step, hx] at h
  | answered e => simp [Receiver.step, hx] at h
  | write f => simp only [Receiver.step, Option.some.injEq] at h; cases h; exact ⟨rfl, hx, rfl, by simp⟩
  | recv t => obtain ⟨h1, h2, h3⟩ := hq (.recv t) (.inl ⟨t, rfl⟩) h; exact ⟨h1, h2, h3, by simp⟩
  | wake t => obtain ⟨h1, h2, h3⟩ := hq (.wake t) (.inr (.inl ⟨t, rfl⟩)) h; exact ⟨h1, h2, h3, by simp⟩
  | cancel t => obtain ⟨h1, h2, h3⟩ := hq (.cancel t) (.inr (.inr ⟨t, rfl⟩)) h; exact ⟨h1, h2, h3, by simp⟩
  | wakeTransfer => simp [Receiver.step, Queue.step, hx] at h
  | cancelTransfer => simp [Receiver.step, Receiver.queueStep, Queue.step, hx] at h

theorem Receiver.exec_exited {s s' : Receiver X} {as : List RAct} {os : List (Obs Data)}
    (h : s.exec ops as = some (s', os)) (hx : s.queue.transfer = .exited) :
    s'.ended = s.ended ∧ .cancelTransfer ∉ as := by
  induction as generalizing s os with
  | nil => cases h; exact ⟨rfl, by simp⟩
  | cons a as ih =>
    obtain ⟨s1, o, os', h1, h2, rfl⟩ := Receiver.exec_cons h
    obtain ⟨k1, k2, -, k3⟩ := Receiver.step_exited h1 hx
    obtain ⟨g1, g2⟩ := ih h2 k2
    exact ⟨g1.trans k1, by simp [g2, Ne.symm k3]⟩

/-- `transfer_data_task` was cancelled. -/
theorem Receiver.exec_cancelled {s s' : Receiver X} {as : List RAct} {os : List (Obs Data)}
    (h : s.exec ops as = some (s', os)) (hm : .cancelTransfer ∈ as) : s'.ended = some .cancelled := by
  induction as generalizing s os with
  | nil => cases hm
  | cons a as ih =>
    obtain ⟨s1, o, os', h1, h2, rfl⟩ := Receiver.exec_cons h
    rcases List.mem_cons.1 hm with rfl | hm
    · simp only [Receiver.step, Receiver.queueStep] at h1
      cases hst : s.queue.step .cancelTransfer with
      | none => simp [hst] at h1
      | some r =>
        obtain ⟨q, o'⟩ := r
        simp only [hst, Option.map_some, Option.some.injEq] at h1
        cases h1
        have hx : q.transfer = .exited := by
          simp only [Queue.step] at hst
          split at hst <;> cases hst <;> rfl
        exact (Receiver.exec_exited h2 hx).1
    · exact ih h2 hm

/-- What `recv` returns, if what a peer sends ends with a frame that starts a message in the middle of
another: nothing else. -/
theorem Receiver.order_tail (hc : Channel ops size R) {masked : Bool} {xs ys : List X} (hR : R false xs ys)
    {l : List (Frame × Frame)} {ws : List Bytes} (hp : Spec.PeerSends ops size masked xs l ws)
    {tail : Bytes} (htail : Spec.Tail ops masked l tail)
    (maxSize : Option Int) (maxQueue : Option Nat) (r : AReader) (hr : r.eof = false)
    (as : List RAct) (more : Bytes) (hbytes : r.buf ++ Spec.arrived as ++ more = ws.flatten ++ tail)
    (s : Receiver X) (os : List (Obs Data))
    (hs : (Receiver.init masked maxSize maxQueue ys r).exec ops as = some (s, os)) :
    ∃ n, Each Carries ((assemble (l.map (·.1))).take n) (Spec.returned os) := by
  obtain ⟨eof, ms, l1, l2, ws2, lost, h1, h2, -⟩ := Receiver.init_exec hc hR hp hr htail hbytes hs
  obtain ⟨cur, h3, -⟩ := h1.reads
  obtain ⟨n, h4⟩ := h3.prefix (gs := l2.map (·.1))
  rw [← List.map_append, ← h1.split, ← h2, List.append_assoc, List.append_assoc] at h4
  obtain ⟨as1, as2, h5, h6, -⟩ := h4.split
  refine ⟨as1.length, ?_⟩
  have : (assemble (l.map (·.1))).take as1.length = as1 := by
    have := congrArg (List.take as1.length) h5
    rw [List.take_left, List.take_take] at this
    have hl := congrArg List.length h5
    simp only [List.length_take, List.length_append] at hl
    rwa [Nat.min_eq_left (by omega)] at this
  rw [this]
  exact h6

/-- **C75.** Whatever a peer sends, however its bytes are cut into chunks, whenever tasks run, whatever
frames are sent in the other direction, whichever tasks are cancelled, calls to `recv` return, in order,
the messages that these frames carry, unaltered. -/
theorem C75_order (hc : Channel ops size R) {masked : Bool} {xs ys : List X} (hR : R false xs ys)
    {l : List (Frame × Frame)} {ws : List Bytes} (hp : Spec.PeerSends ops size masked xs l ws)
    (maxSize : Option Int) (maxQueue : Option Nat) (r : AReader) (hr : r.eof = false)
    (as : List RAct) (more : Bytes) (hbytes : r.buf ++ Spec.arrived as ++ more = ws.flatten)
    (s : Receiver X) (os : List (Obs Data))
    (hs : (Receiver.init masked maxSize maxQueue ys r).exec ops as = some (s, os)) :
    ∃ n, Each Carries ((assemble (l.map (·.1))).take n) (Spec.returned os) := by
  exact Receiver.order_tail hc hR hp (.inl rfl) maxSize maxQueue r hr as more (by rw [List.append_nil]; exact hbytes) s os hs

/-- All the messages have been returned by `recv`, or are ready to be returned. -/
def Spec.Delivered (l : List (Frame × Frame)) (s : Receiver X) (os : List (Obs Data)) : Prop :=
  Each Carries (assemble (l.map (·.1))) (Spec.returned os ++ s.queue.messages)

/-- When everything was received, and `transfer_data` waits for more data, no message started in the middle
of another. -/
theorem Receiver.complete_tail (hc : Channel ops size R) {masked : Bool} {xs ys : List X} (hR : R false xs ys)
    {l : List (Frame × Frame)} {ws : List Bytes} (hp : Spec.PeerSends ops size masked xs l ws)
    {tail : Bytes} (htail : Spec.Tail ops masked l tail)
    (maxSize : Option Int) (maxQueue : Option Nat) (r : AReader) (hr : r.eof = false)
    (as : List RAct) (hbytes : r.buf ++ Spec.arrived as = ws.flatten ++ tail)
    (s : Receiver X) (os : List (Obs Data))
    (hs : (Receiver.init masked maxSize maxQueue ys r).exec ops as = some (s, os))
    (ht : s.queue.transfer = .reading) (hph : s.phase = .reading) (hrun : s.step ops .run = none) :
    tail = [] ∧ Spec.Delivered l s os := by
  obtain ⟨eof, ms, l1, l2, ws2, lost, h1, h2, -, hlost, -, -⟩ :=
    Receiver.init_exec (more := []) hc hR hp hr htail (by simpa using hbytes) hs
  have hx : s.queue.transfer ≠ .exited := by rw [ht]; simp
  obtain ⟨ws1, b, hws, hgot, hio⟩ := h1.at_ hx
  unfold IoAt at hio
  rw [if_pos ⟨ht, hph⟩] at hio
  obtain ⟨⟨k1, -, k3⟩, hend⟩ := hio
  have hb : b = ws2.flatten ++ tail := by
    rw [hws, hgot, List.flatten_append, List.append_assoc] at hbytes
    exact List.append_cancel_left hbytes
  have hl2 : l2 = [] ∧ tail = [] := by
    simp only [Receiver.step, ht, hph] at hrun
    cases htask : s.io.task with
    | ready c =>
      exfalso
      simp only [Endpoint.step, htask] at hrun
      generalize c.arun s.io.reader = x at hrun
      cases x <;> simp at hrun
    | ended r => exact absurd htask (hend r)
    | waiting c =>
      rw [htask] at k3
      obtain ⟨-, -, k3⟩ := k3
      have he : eof = false := (Coro.run_ready (.fresh (readFrame_fresh _ _)) k3).2.2
      subst he
      rw [readFrame_eq, h1.mask] at k3
      have hw2 := h1.wires
      cases l2 with
      | nil =>
        refine ⟨rfl, ?_⟩
        rcases htail with h | ⟨-, -, g, w, rest, hwf, -, rfl⟩
        · exact h
        · exfalso
          generalize hw0 : ws2 = w0 at hw2 hb
          cases hw2
          have := Frame.parseRaw_waits (q := []) hwf (by simpa using hb) k3
          rw [hb] at this
          simp at this
          omega
      | cons fg l2 =>
        exfalso
        generalize hw0 : ws2 = w0 at hw2 hb
        cases hw2 with
        | @cons _ w _ ws3 hwf hws3 =>
          rw [List.flatten_cons, List.append_assoc] at hb
          have := Frame.parseRaw_waits (q := []) hwf (by simpa using hb) k3
          rw [hb, List.length_append] at this
          omega
  obtain ⟨hl2, htl⟩ := hl2
  refine ⟨htl, ?_⟩
  obtain ⟨cur, h3, -⟩ := h1.reads
  have h4 := h3.all
  rw [hlost hx, ht] at h2
  simp only [Transfer.inHand, List.append_nil] at h2
  unfold Spec.Delivered
  rw [h2, h1.split, hl2, List.append_nil]
  exact h4

/-- **C75.** When everything was received, and `transfer_data` waits for more data, all the messages have
been delivered. -/
theorem C75_complete (hc : Channel ops size R) {masked : Bool} {xs ys : List X} (hR : R false xs ys)
    {l : List (Frame × Frame)} {ws : List Bytes} (hp : Spec.PeerSends ops size masked xs l ws)
    (maxSize : Option Int) (maxQueue : Option Nat) (r : AReader) (hr : r.eof = false)
    (as : List RAct) (hbytes : r.buf ++ Spec.arrived as = ws.flatten)
    (s : Receiver X) (os : List (Obs Data))
    (hs : (Receiver.init masked maxSize maxQueue ys r).exec ops as = some (s, os))
    (ht : s.queue.transfer = .reading) (hph : s.phase = .reading) (hrun : s.step ops .run = none) :
    Spec.Delivered l s os := by
  exact (Receiver.complete_tail hc hR hp (.inl rfl) maxSize maxQueue r hr as (by rw [List.append_nil]; exact hbytes) s
    os hs ht hph hrun).2

/-- No frame follows a close frame. -/
def Spec.CloseFrameLast (l : List (Frame × Frame)) : Prop :=
  ∀ pre f post, l.map (·.1) = pre ++ f :: post → f.opcode = .close → post = []

/-- When `transfer_data` ends because it received a close frame, either the peer sent something after it, or
all the messages have been delivered, and no message started in the middle of another. -/
theorem Receiver.closed_tail (hc : Channel ops size R) {masked : Bool} {xs ys : List X} (hR : R false xs ys)
    {l : List (Frame × Frame)} {ws : List Bytes} (hp : Spec.PeerSends ops size masked xs l ws)
    (hlast : Spec.CloseFrameLast l) {tail : Bytes} (htail : Spec.Tail ops masked l tail)
    (maxSize : Option Int) (maxQueue : Option Nat) (r : AReader) (hr : r.eof = false)
    (as : List RAct) (more : Bytes) (hbytes : r.buf ++ Spec.arrived as ++ more = ws.flatten ++ tail)
    (s : Receiver X) (os : List (Obs Data))
    (hs : (Receiver.init masked maxSize maxQueue ys r).exec ops as = some (s, os))
    (he : s.ended = some .closed) :
    Spec.Delivered l s os ∧ ∃ l0 f g, l = l0 ++ [(f, g)] ∧ f.opcode = .close := by
  obtain ⟨eof, ms, l1, l2, ws2, lost, h1, h2, -, -, hlost, -⟩ := Receiver.init_exec hc hR hp hr htail hbytes hs
  obtain ⟨hph, hx⟩ := h1.closed he
  obtain ⟨l0, f, g, rfl, hf⟩ := h1.closing hph
  have hl2 : l2 = [] := by
    have := hlast (l0.map (·.1)) f (l2.map (·.1)) (by rw [h1.split]; simp) hf
    simpa using this
  have hn : .cancelTransfer ∉ as := fun hm => by
    have := Receiver.exec_cancelled hs hm
    rw [he] at this
    cases this
  obtain ⟨cur, h3, -⟩ := h1.reads
  have h4 := h3.all
  rw [hlost hn, hx] at h2
  simp only [Transfer.inHand, List.append_nil] at h2
  refine ⟨?_, l0, f, g, by rw [h1.split, hl2, List.append_nil], hf⟩
  unfold Spec.Delivered
  rw [h2, h1.split, hl2, List.append_nil]
  exact h4

/-- **C75.** When a peer sends nothing after a close frame and `transfer_data` ends because it received
one, all the messages have been delivered. -/
theorem C75_closed (hc : Channel ops size R) {masked : Bool} {xs ys : List X} (hR : R false xs ys)
    {l : List (Frame × Frame)} {ws : List Bytes} (hp : Spec.PeerSends ops size masked xs l ws)
    (hlast : Spec.CloseFrameLast l)
    (maxSize : Option Int) (maxQueue : Option Nat) (r : AReader) (hr : r.eof = false)
    (as : List RAct) (more : Bytes) (hbytes : r.buf ++ Spec.arrived as ++ more = ws.flatten)
    (s : Receiver X) (os : List (Obs Data))
    (hs : (Receiver.init masked maxSize maxQueue ys r).exec ops as = some (s, os))
    (he : s.ended = some .closed) : Spec.Delivered l s os := by
  exact (Receiver.closed_tail hc hR hp hlast (.inl rfl) maxSize maxQueue r hr as more
    (by rw [List.append_nil]; exact hbytes) s os hs he).1

/-! ## A conforming peer -/

/-- What a conforming peer sends: messages that aren't larger than `maxSize`, text messages in UTF-8. -/
structure Spec.Fair (maxSize : Option Int) (l : List (Frame × Frame)) : Prop where
  conforming : Conforming maxSize (l.map (·.1))
  control : ControlFits maxSize (l.map (·.1))
  complete : Messages ((l.map (·.1)).filter isDataFrame) false
  texts : ∀ b, (true, b) ∈ assemble (l.map (·.1)) → ∃ s, IsUtf8 b s

theorem Receiver.limit_eq (s : Receiver X) :
    s.limit = s.maxSize.map (· - (payloadSize s.frames : Int)) := by
  have : ∀ (fs : List Frame) (m : Option Int),
      fs.foldl (fun m (f : Frame) => m.map (· - (f.data.length : Int))) m =
        m.map (· - (payloadSize fs : Int)) := by
    intro fs
    induction fs with
    | nil => intro m; cases m <;> simp [payloadSize]
    | cons f fs ih =>
      intro m
      rw [List.foldl_cons, ih]
      cases m with
      | none => rfl
      | some m =>
        simp only [Option.map_some, payloadSize, List.map_cons, List.sum_cons, Option.some.injEq]
        omega
  exact this _ _

/-- The next frame isn't larger than the limit. -/
theorem fair_within {maxSize : Option Int} {l1 l2 : List (Frame × Frame)} {f g : Frame}
    (h : Spec.Fair maxSize (l1 ++ (f, g) :: l2)) {ms : List Data} {cur : List Frame}
    (hr : FramesRead maxSize (l1.map (·.1)) ms cur) :
    Within f.data.length (maxSize.map (· - (payloadSize cur : Int))) := by
  obtain ⟨hst, hsz⟩ := hr.state
  have hsplit : (l1 ++ (f, g) :: l2).map (·.1) = l1.map (·.1) ++ f :: l2.map (·.1) := by simp
  have key : ∀ n : Nat, n = payloadSize cur → Within (f.data.length + n) maxSize →
      Within f.data.length (maxSize.map (· - (payloadSize cur : Int))) := by
    intro n hn hw m hm
    cases maxSize with
    | none => cases hm
    | some m' =>
      simp only [Option.map_some, Option.some.injEq] at hm
      have := hw m' rfl
      subst hn
      omega
  cases hd : isDataFrame f with
  | true =>
    have hw := h.conforming.sizes _ f _ hsplit hd
    have hm := h.complete
    rw [hsplit, List.filter_append, List.filter_cons, if_pos hd] at hm
    have hm' : Messages (((l1.map (·.1)).filter isDataFrame ++ [f]) ++ (l2.map (·.1)).filter isDataFrame) false := by
      simpa using hm
    obtain ⟨v, hv⟩ := hm'.prefix
    obtain ⟨-, h5⟩ := hv.append_single
    rw [messageSize_snoc] at hw
    by_cases hcur : cur = []
    · subst hcur
      simp only [ne_eq, not_true_eq_false, decide_false] at hst
      refine key 0 rfl ?_
      rcases h5 with h5 | ⟨h5, -⟩
      · cases h5.2.unique hst
      · rcases h5 with h5 | h5 <;> simpa [h5] using hw
    · simp only [ne_eq, hcur, not_false_eq_true, decide_true] at hst
      refine key _ (hsz hcur) ?_
      rcases h5 with h5 | h5
      · simp only [h5.1] at hw
        rw [Nat.add_comm]
        exact hw
      · cases h5.2.unique hst
  | false =>
    have hw := h.control _ f _ _ hsplit hd hst
    by_cases hcur : cur = []
    · subst hcur
      exact key 0 rfl (by simpa using hw)
    · simp only [ne_eq, hcur, not_false_eq_true, decide_true, if_true] at hw
      exact key _ (hsz hcur) hw

/-- A frame that isn't larger than the limit is never refused. -/
theorem Frame.parseRaw_fine {masked : Bool} {limit : Option Int} {f : Frame} {w b q t : Bytes}
    (hwf : Wire masked f w) (hlim : Within f.data.length limit) (hb : b ++ q = w ++ t) (e : Exc) (r : Reader) :
    (WS.Frame.parseRaw masked limit).run ⟨b, false⟩ ≠ .raised e r := by
  intro hrun
  rcases List.append_eq_append_iff.1 hb with ⟨k, h1, h2⟩ | ⟨k, h1, h2⟩
  · -- `w` is longer
    have h3 := Coro.run_push (r := ⟨b, false⟩) rfl (.fresh (WS.Frame.parseRaw_fresh masked limit)) k
    have h4 := WS.Frame.parseRaw_wire (limit := limit) hwf hlim [] false
    rw [List.append_nil, h1] at h4
    rw [hrun] at h3
    have : Reader.push ⟨b, false⟩ k = ⟨b ++ k, false⟩ := rfl
    rw [this, h4] at h3
    cases h3
  · have h4 := WS.Frame.parseRaw_wire (limit := limit) hwf hlim k false
    rw [← h1, hrun] at h4
    cases h4

/-- Extensions can't raise exceptions because of the limit. -/
def Spec.NoLimit (s : Receiver X) : Prop := s.maxSize = none ∨ s.exts = []

theorem Receiver.limit_none {s : Receiver X} (h : s.maxSize = none) : s.limit = none := by
  rw [Receiver.limit_eq, h]; rfl

theorem Frame.finish_nil_limit {ops : ExtOps X} (g : Frame) (a b : Option Int) :
    g.finish ops [] a = g.finish ops [] b := rfl

theorem Frame.finish_nil_eq {ops : ExtOps X} {g f : Frame} {a : Option Int} {ys : List X}
    (h : g.finish ops [] a = (.ok f, ys)) : f = g ∧ ys = [] := by
  unfold WS.Frame.finish at h
  simp only [List.reverse_nil, applyExts] at h
  split at h
  · cases h
  · cases h; exact ⟨rfl, rfl⟩

/-- The receiver decodes the next frame. -/
theorem Ready.fine (hc : Channel ops size R) {f g : Frame} {l : List (Frame × Frame)} {ys : List X}
    (h : Ready ops size R ((f, g) :: l) ys) {limit : Option Int} (hl : limit = none ∨ ys = []) :
    ∃ ys', g.finish ops ys limit = (.ok f, ys') ∧ (ys = [] → ys' = [] ∧ f = g) := by
  have key : ∃ ys', g.finish ops ys none = (.ok f, ys') := by
    obtain ⟨u, xs, u', xs', h1, h2⟩ := h
    generalize he : (f, g) :: l = l0 at h2
    induction h2 with
    | nil => cases he
    | @send u f1 u1 g1 xs xs1 l1 u' xs' e1 e2 e3 e4 e5 _ =>
      simp only [List.cons.injEq, Prod.mk.injEq] at he
      obtain ⟨⟨rfl, rfl⟩, rfl⟩ := he
      obtain ⟨g2, xs2, k1, k2, ⟨ys', k3, -⟩, -⟩ := hc.send h1 e1 e2 e3
      rw [e4] at k1
      cases k1
      exact ⟨ys', k3⟩
    | receive limit g' _ ih => exact ih (hc.receive h1 limit g') he
  obtain ⟨ys', hk⟩ := key
  rcases hl with rfl | rfl
  · refine ⟨ys', hk, ?_⟩
    rintro rfl
    obtain ⟨e1, e2⟩ := Frame.finish_nil_eq hk
    exact ⟨e2, e1⟩
  · obtain ⟨e1, e2⟩ := Frame.finish_nil_eq hk
    exact ⟨ys', hk, fun _ => ⟨e2, e1⟩⟩

/-- Everything goes well. -/
structure Fine (s : Receiver X) : Prop where
  eof : s.io.reader.eof = false
  ended : s.ended = none
  transfer : s.queue.transfer ≠ .exited
  noLimit : Spec.NoLimit s

theorem Fine.goOn {s : Receiver X} (h : Fine s) {q : Queue Data} (hq : q.transfer ≠ .exited) :
    Fine (s.goOn q) := by
  unfold Receiver.goOn
  split
  · exact ⟨h.eof, h.ended, hq, h.noLimit⟩
  · exact ⟨h.eof, h.ended, hq, h.noLimit⟩

theorem putLoop_running (q : Queue Data) (m : Data) : (q.putLoop m).1.transfer ≠ .exited := by
  rcases Queue.putLoop_transfer q m with h | ⟨f, h⟩ <;> rw [h] <;> simp

theorem Progress.fine_run (hc : Channel ops size R) {masked : Bool} {l : List (Frame × Frame)}
    {ws : List Bytes} {s s' : Receiver X}
    {got : Bytes} {eof : Bool} {ms : List Data} {l1 l2 : List (Frame × Frame)} {ws2 : List Bytes}
    {o : List (Obs Data)}
    (h : Progress ops size R masked l ws s got eof ms l1 l2 ws2) {more : Bytes}
    (hmore : got ++ more = ws.flatten) (hfair : Spec.Fair s.maxSize l) (hf : Fine s)
    (hs : s.step ops .run = some (s', o)) : Fine s' := by
  simp only [Receiver.step] at hs
  split at hs
  · rename_i hp
    have hx := hf.transfer
    obtain ⟨ws1, b, hws, hgot, hio⟩ := h.at_ hx
    unfold IoAt at hio
    rw [if_pos hp] at hio
    obtain ⟨hsim, hend⟩ := hio
    have he : eof = false := by rw [← hf.eof]; exact hsim.1.symm
    subst he
    obtain ⟨cur, hreads, hcur⟩ := h.reads
    have hcur := hcur hx
    subst hcur
    cases hstep : s.io.step .run with
    | none => simp [hstep] at hs
    | some io =>
      simp only [hstep] at hs
      have hsim' := hsim.step (readFrame_fresh _ _) (rules_exacting _ (readFrame_fresh _ _))
        (.inl rfl) hstep
      simp only [Spec.fed, Spec.fedEof, Bool.or_false, Reader.more, List.append_nil] at hsim'
      have hb : b ++ more = ws2.flatten := by
        rw [hws, hgot, List.flatten_append, List.append_assoc] at hmore
        exact List.append_cancel_left hmore
      obtain ⟨k1, -, k3⟩ := hsim'
      have hfine : Fine { s with io } := ⟨k1, hf.ended, hf.transfer, hf.noLimit⟩
      cases htask : io.task with
      | ready c => simp only [htask, Option.some.injEq] at hs; cases hs; exact hfine
      | waiting c => simp only [htask, Option.some.injEq] at hs; cases hs; exact hfine
      | ended res =>
        rw [htask] at k3
        cases res with
        | none => exact k3.elim
        | some res =>
          simp only [htask, Option.some.injEq] at hs
          have hl2 := h.split
          have hwn := h.wires
          cases l2 with
          | nil =>
            exfalso
            generalize hw2 : ws2 = w0 at hwn hb
            cases hwn
            have hbn : b = [] := (List.append_eq_nil_iff.1 (by simpa using hb)).1
            subst hbn
            cases res with
            | error e =>
              obtain ⟨q, k3⟩ := k3
              rw [readFrame_eq] at k3
              cases k3
            | ok raw =>
              obtain ⟨j1, j2⟩ := readFrame_done k3
              cases j1
          | cons fg l2 =>
            obtain ⟨f, g⟩ := fg
            generalize hw2 : ws2 = w0 at hwn hb hws
            cases hwn with
            | @cons _ w _ ws3 hwf hws3 =>
              rw [List.flatten_cons] at hb
              subst hl2
              have hwithin := fair_within hfair hreads
              rw [← Receiver.limit_eq] at hwithin
              obtain ⟨ys', n1, n2⟩ := Ready.fine hc (h.ready hx) (limit := s.limit)
                (hf.noLimit.imp Receiver.limit_none id)
              have hg : Within g.data.length s.limit := by
                rcases hf.noLimit with hm | hm
                · intro m hm'; rw [Receiver.limit_none hm] at hm'; cases hm'
                · rw [← (n2 hm).2]; exact hwithin
              rw [h.mask] at k3
              cases res with
              | error e =>
                exfalso
                obtain ⟨q, k3⟩ := k3
                rw [readFrame_eq] at k3
                exact Frame.parseRaw_fine hwf hg hb e q k3
              | ok raw =>
                obtain ⟨j1, j2⟩ := readFrame_done k3
                obtain ⟨rfl, -, -, -⟩ := Frame.parseRaw_next hwf hb j1
                simp only [Receiver.decoded] at hs
                have e0 : Receiver.limit { s with io } = s.limit := rfl
                simp only [e0, n1] at hs
                have hsplit : (l1 ++ (f, raw) :: l2).map (·.1) = l1.map (·.1) ++ f :: l2.map (·.1) := by simp
                have hno : Spec.NoLimit { s with io, exts := ys' } :=
                  hf.noLimit.imp id fun hm => (n2 hm).1
                have hfine' : Fine { s with io, exts := ys' } := ⟨k1, hf.ended, hf.transfer, hno⟩
                unfold Receiver.frame at hs
                split at hs
                · rename_i hop
                  obtain ⟨-, -, code, reason, hpay⟩ := hfair.conforming.close _ f _ hsplit hop
                  rw [Spec.ClosePayload, ← C06_parse_close_iff] at hpay
                  simp only [hpay] at hs
                  cases hs
                  exact ⟨k1, hf.ended, hf.transfer, hno⟩
                · cases hs; exact ⟨k1, hf.ended, hf.transfer, hno⟩
                · cases hs; exact ⟨k1, hf.ended, hf.transfer, hno⟩
                · rename_i o1 o2 o3
                  have hctrl : f.opcode.isCtrl = false := by
                    cases hop : f.opcode <;> simp_all [Opcode.isCtrl]
                  have hvf : ∀ x ∈ l1.map (·.1) ++ f :: l2.map (·.1), ValidFrame x := by
                    rw [← hsplit]; exact hfair.conforming.valid
                  have hne := hreads.no_error (f := f) (post := l2.map (·.1)) hvf
                    (by rw [← hsplit]; exact hfair.complete) (by rw [← hsplit]; exact hfair.texts) hctrl
                  unfold Receiver.dataFrame at hs
                  simp only at hs
                  split at hs
                  · cases hs; exact ⟨k1, hf.ended, hf.transfer, hno⟩
                  · rename_i e hm; exact absurd hm (hne e)
                  · rename_i hm
                    exfalso
                    obtain ⟨g1, ⟨op, ds, g2⟩, -⟩ := hreads.spec
                    obtain ⟨-, op', d, -, -, g3, -⟩ := (readMessage_next g2 g1 (hvf f (by simp))).2 _ hm
                    cases g3
                  · rename_i m hm
                    cases hs
                    exact Fine.goOn (s := { s with io, exts := ys', frames := [] })
                      ⟨k1, hf.ended, hf.transfer, hno⟩ (putLoop_running _ _)
  · cases hs

theorem Progress.fine_step (hc : Channel ops size R) {masked : Bool} {l : List (Frame × Frame)}
    {ws : List Bytes} {s s' : Receiver X} {a : RAct}
    {got : Bytes} {eof : Bool} {ms : List Data} {l1 l2 : List (Frame × Frame)} {ws2 : List Bytes}
    {o : List (Obs Data)}
    (h : Progress ops size R masked l ws s got eof ms l1 l2 ws2) {more : Bytes}
    (hmore : got ++ Spec.arrived [a] ++ more = ws.flatten) (hfair : Spec.Fair s.maxSize l) (hf : Fine s)
    (h1 : a ≠ .eof) (h2 : a ≠ .cancelTransfer) (h3 : ∀ e, a ≠ .answered (some e))
    (hs : s.step ops a = some (s', o)) : Fine s' ∨ s'.ended = some .closed := by
  have hq : ∀ b : Act Data, ((∃ t, b = .recv t) ∨ (∃ t, b = .wake t) ∨ ∃ t, b = .cancel t) →
      s.queueStep b = some (s', o) → Fine s' := by
    intro b hb hs
    unfold Receiver.queueStep at hs
    cases hst : s.queue.step b with
    | none => simp [hst] at hs
    | some r =>
      simp only [hst, Option.map_some, Option.some.injEq] at hs
      cases hs
      exact ⟨hf.eof, hf.ended, fun he => hf.transfer ((Queue.step_keeps hst hb).symm.trans he), hf.noLimit⟩
  cases a with
  | eof => exact absurd rfl h1
  | cancelTransfer => exact absurd rfl h2
  | data d =>
    simp only [Receiver.step, Endpoint.step] at hs
    split at hs
    · cases hs
    · split at hs
      · cases hs; exact .inl ⟨hf.eof, hf.ended, hf.transfer, hf.noLimit⟩
      · cases hs
        refine .inl ⟨?_, hf.ended, hf.transfer, hf.noLimit⟩
        have := congrArg Reader.eof (s.io.reader.plain_feedData d).1
        simp only [AReader.plain] at this
        rw [this]
        simpa [Reader.more] using hf.eof
  | run =>
    simp only [Spec.arrived, List.append_nil] at hmore
    exact .inl (h.fine_run hc hmore hfair hf hs)
  | answered e =>
    cases e with
    | some e => exact absurd rfl (h3 e)
    | none =>
      simp only [Receiver.step] at hs
      split at hs
      · rename_i ht
        cases hph : s.phase with
        | reading => simp [hph] at hs
        | ponging =>
          simp only [hph, Option.some.injEq] at hs
          cases hs
          exact .inl ⟨hf.eof, hf.ended, hf.transfer, hf.noLimit⟩
        | closing =>
          simp only [hph, Option.some.injEq] at hs
          cases hs
          right
          obtain ⟨l0, f, g, rfl, hop⟩ := h.closing hph
          obtain ⟨cur, hreads, hcur⟩ := h.reads
          have hcur := hcur hf.transfer
          have hsplit : l.map (·.1) = l0.map (·.1) ++ f :: l2.map (·.1) := by rw [h.split]; simp
          obtain ⟨-, hm, -⟩ := hfair.conforming.close _ f _ hsplit hop
          have hd : isDataFrame f = false := by unfold isDataFrame; rw [hop]
          obtain ⟨hst, -⟩ := hreads.state
          have e1 : ((l0 ++ [(f, g)]).map (·.1)).filter isDataFrame = (l0.map (·.1)).filter isDataFrame := by
            simp [hd]
          rw [e1] at hst
          have hnil : cur = [] := by
            have := hm.unique hst
            simpa using this.symm
          unfold Receiver.closeFrame
          rw [hcur, hnil]
          rfl
      · cases hs
  | write f =>
    simp only [Receiver.step, Option.some.injEq] at hs
    cases hs
    refine .inl ⟨hf.eof, hf.ended, hf.transfer, hf.noLimit.imp id fun hm => ?_⟩
    show (applyExts ops.encode s.exts f).2 = []
    rw [hm]; rfl
  | recv t => exact .inl (hq (.recv t) (.inl ⟨t, rfl⟩) hs)
  | wake t => exact .inl (hq (.wake t) (.inr (.inl ⟨t, rfl⟩)) hs)
  | cancel t => exact .inl (hq (.cancel t) (.inr (.inr ⟨t, rfl⟩)) hs)
  | wakeTransfer =>
    simp only [Receiver.step] at hs
    cases hst : s.queue.step .wakeTransfer with
    | none => simp [hst] at hs
    | some r =>
      obtain ⟨q, o'⟩ := r
      simp only [hst, Option.some.injEq] at hs
      cases hs
      refine .inl (hf.goOn ?_)
      simp only [Queue.step] at hst
      split at hst
      · split at hst
        · have := congrArg Prod.fst (Option.some.inj hst)
          rw [← show (Queue.putLoop _ _).1 = q from this]
          exact putLoop_running _ _
        · cases hst
      · cases hst

theorem Progress.fine_exec (hc : Channel ops size R) {masked : Bool} {l : List (Frame × Frame)}
    {ws : List Bytes} {s s' : Receiver X} {as : List RAct}
    {got : Bytes} {eof : Bool} {ms : List Data} {l1 l2 : List (Frame × Frame)} {ws2 : List Bytes}
    {os : List (Obs Data)}
    (h : Progress ops size R masked l ws s got eof ms l1 l2 ws2) {more : Bytes}
    (hmore : got ++ Spec.arrived as ++ more = ws.flatten) (hfair : Spec.Fair s.maxSize l) (hf : Fine s)
    (h1 : .eof ∉ as) (h2 : .cancelTransfer ∉ as) (h3 : ∀ e, .answered (some e) ∉ as)
    (hs : s.exec ops as = some (s', os)) : Fine s' ∨ s'.ended = some .closed := by
  induction as generalizing s got eof ms l1 l2 ws2 os with
  | nil => cases hs; exact .inl hf
  | cons a as ih =>
    obtain ⟨s1, o, os', g1, g2, rfl⟩ := Receiver.exec_cons hs
    rw [Spec.arrived_cons] at hmore
    have hmore1 : got ++ Spec.arrived [a] ++ (Spec.arrived as ++ more) = ws.flatten := by simpa using hmore
    obtain ⟨eof1, qas, m1, m2, w2, k1, k2, k3⟩ := h.step hc (.inl rfl) (hmore1.trans (List.append_nil _).symm) g1
    rcases h.fine_step hc hmore1 hfair hf (fun e => h1 (by simp [e])) (fun e => h2 (by simp [e]))
      (fun e he => h3 e (by simp [he])) g1 with hf1 | hx
    · exact ih k3 (by simpa using hmore) (by rw [k1.maxSize]; exact hfair) hf1 (fun hm => h1 (by simp [hm]))
        (fun hm => h2 (by simp [hm])) (fun e hm => h3 e (by simp [hm])) g2
    · exact .inr ((Receiver.exec_exited g2 (k3.closed hx).2).1.trans hx)

/-- **C75.** As long as a conforming peer sends data, `transfer_data` doesn't end, except when it receives a
close frame: it raises no exception.  Either the size of messages isn't limited, or there are no
extensions: the size of an encoded frame is limited too. -/
theorem C75_alive (hc : Channel ops size R) {masked : Bool} {xs ys : List X} (hR : R false xs ys)
    {l : List (Frame × Frame)} {ws : List Bytes} (hp : Spec.PeerSends ops size masked xs l ws)
    (maxSize : Option Int) (hfair : Spec.Fair maxSize l) (hlimit : maxSize = none ∨ ys = [])
    (maxQueue : Option Nat) (r : AReader) (hr : r.eof = false)
    (as : List RAct) (more : Bytes) (hbytes : r.buf ++ Spec.arrived as ++ more = ws.flatten)
    (h1 : .eof ∉ as) (h2 : .cancelTransfer ∉ as) (h3 : ∀ e, .answered (some e) ∉ as)
    (s : Receiver X) (os : List (Obs Data))
    (hs : (Receiver.init masked maxSize maxQueue ys r).exec ops as = some (s, os)) :
    (s.ended = none ∧ s.queue.transfer ≠ .exited) ∨ s.ended = some .closed := by
  obtain ⟨u', xs', hsends⟩ := hp.encodes
  have := (Progress.init (maxSize := maxSize) (maxQueue := maxQueue)
    hr hp.wires ⟨false, xs, u', xs', hR, hsends⟩).fine_exec hc hbytes hfair
    ⟨hr, rfl, by simp [Receiver.init, Queue.init], hlimit⟩ h1 h2 h3 hs
  exact this.imp (fun h => ⟨h.ended, h.transfer⟩) id

/-! ## Legacy senders -/

/-- Frames that come in turn; the booleans tell whether a message is in progress before and after them. -/
inductive Spec.InTurn : Bool → List Frame → Bool → Prop where
  | nil {u} : InTurn u [] u
  | cons {u f u1 fs u2} : Next u f u1 → InTurn u1 fs u2 → InTurn u (f :: fs) u2

theorem Spec.InTurn.snoc {u u1 u2 : Bool} {fs : List Frame} {f : Frame} (h : InTurn u fs u1) (hn : Next u1 f u2) :
    InTurn u (fs ++ [f]) u2 := by
  induction h with
  | nil => exact .cons hn .nil
  | cons h1 _ ih => exact .cons h1 (ih hn)

theorem Spec.Messages.inTurn (fs : List Frame) : ∀ b, Messages (fs.filter isDataFrame) b → InTurn false fs b := by
  generalize hn : fs.length = n
  induction n generalizing fs with
  | zero =>
    intro b h
    rw [List.length_eq_zero_iff] at hn
    subst hn
    generalize hl : List.filter isDataFrame [] = l at h
    cases h with
    | nil => exact .nil
    | whole | first | middle | last => simp at hl
  | succ n ih =>
    intro b h
    rcases List.eq_nil_or_concat fs with rfl | ⟨gs, f, rfl⟩
    · cases hn
    rw [List.concat_eq_append] at hn h ⊢
    have hlen : gs.length = n := by simpa using hn
    cases hf : f.opcode.isCtrl with
    | true =>
      have hd : isDataFrame f = false := by rw [isDataFrame_eq, hf]; rfl
      exact (ih gs hlen b (by simpa [hd] using h)).snoc (.ctrl hf)
    | false =>
      have hd : isDataFrame f = true := by rw [isDataFrame_eq, hf]; rfl
      simp only [List.filter_append, List.filter_cons, hd, List.filter_nil, if_true] at h
      generalize hl : List.filter isDataFrame gs ++ [f] = l at h
      cases h with
      | nil => simp at hl
      | whole h1 h2 h3 =>
        obtain ⟨e1, e2⟩ := List.append_inj' hl rfl
        cases e2
        rw [← e1] at h1
        have := (ih gs hlen _ h1).snoc (.start h2)
        rwa [h3] at this
      | first h1 h2 h3 =>
        obtain ⟨e1, e2⟩ := List.append_inj' hl rfl
        cases e2
        rw [← e1] at h1
        have := (ih gs hlen _ h1).snoc (.start h2)
        rwa [h3] at this
      | middle h1 h2 h3 =>
        obtain ⟨e1, e2⟩ := List.append_inj' hl rfl
        cases e2
        rw [← e1] at h1
        have := (ih gs hlen _ h1).snoc (.cont h2)
        rwa [h3] at this
      | last h1 h2 h3 =>
        obtain ⟨e1, e2⟩ := List.append_inj' hl rfl
        cases e2
        rw [← e1] at h1
        have := (ih gs hlen _ h1).snoc (.cont h2)
        rwa [h3] at this

/-- The frames that an endpoint writes. -/
def Spec.written : List Use → List Frame
  | [] => []
  | .write f _ :: us => f :: written us
  | .read _ _ :: us => written us

/-- Masking keys are four bytes long. -/
def Spec.Keyed (us : List Use) : Prop := ∀ f key, .write f key ∈ us → key.length = 4

theorem Frame.wire_ok {f : Frame} (h : f.data.length < 2 ^ 64) {key : Option Bytes}
    (hk : ∀ k, key = some k → k.length = 4) : ∃ w, f.wire key = .ok w := by
  unfold WS.Frame.wire
  rw [if_pos h]
  cases key with
  | none => exact ⟨_, rfl⟩
  | some k =>
    simp only
    rw [applyMask_eq (hk k rfl)]
    exact ⟨_, rfl⟩

/-- Writing frames that come in turn raises no exception; the output encodes these frames. -/
theorem transmit_sends (hc : Channel ops size R) {client : Bool} {us : List Use} {u b : Bool} {xs ys : List X}
    (hR : R u xs ys) (hturn : Spec.InTurn u (Spec.written us) b)
    (hv : ∀ f ∈ Spec.written us, ValidFrame f ∧ f.data.length ≤ size) (hk : Spec.Keyed us) :
    ∃ ws l, transmit ops client xs us = .ok ws ∧ l.map (·.1) = Spec.written us ∧
      (∃ xs', Sends ops size u xs l b xs') ∧ Wires client (l.map (·.2)) ws := by
  induction us generalizing u xs ys with
  | nil =>
    cases hturn
    exact ⟨[], [], rfl, rfl, ⟨xs, .nil⟩, .nil⟩
  | cons a us ih =>
    have hk' : Spec.Keyed us := fun f key h => hk f key (by simp [h])
    cases a with
    | write f key =>
      simp only [Spec.written] at hturn hv
      cases hturn with
      | @cons _ _ u1 _ _ h1 h2 =>
        obtain ⟨hvf, hsz⟩ := hv f (by simp)
        obtain ⟨g, xs', k1, k2, ⟨ys', -, k3⟩, -⟩ := hc.send hR h1 hvf hsz
        obtain ⟨ws, l, g1, g2, ⟨xs2, g3⟩, g4⟩ := ih k3 h2 (fun f hf => hv f (by simp [hf])) hk'
        obtain ⟨w, hw⟩ := Frame.wire_ok (f := g) (key := if client then some key else none) k2 (by
          intro k hkk
          cases client with
          | false => cases hkk
          | true => cases hkk; exact hk f key (by simp))
        refine ⟨w :: ws, (f, g) :: l, ?_, by simp [Spec.written, g2], ⟨xs2, .send h1 hvf hsz k1 g3⟩, ?_⟩
        · simp [transmit, WS.Frame.serializeExt, (Frame.check_ok_iff f).2 hvf, k1, hw, g1, Except.map]
        · refine .cons ⟨if client then some key else none, ?_, ?_⟩ g4
          · cases client <;> rfl
          · obtain ⟨-, a, b, c, d, e1, e2, e3, -, e5⟩ := (Frame.wire_iff g _ w).1 hw
            exact ⟨a, b, c, d, e1, e2, e3, fun h => (by cases h), e5⟩
    | read limit raw =>
      obtain ⟨ws, l, g1, g2, ⟨xs2, g3⟩, g4⟩ := ih (hc.receive hR limit raw) hturn hv hk'
      exact ⟨ws, l, g1, g2, ⟨xs2, .receive limit raw g3⟩, g4⟩

/-- A legacy endpoint that writes frames in turn is a peer, in the theorems above. -/
theorem transmit_peer (hc : Channel ops size R) {client : Bool} {us : List Use} {b : Bool} {xs ys : List X}
    (hR : R false xs ys) (hm : Messages ((Spec.written us).filter isDataFrame) b)
    (hv : ∀ f ∈ Spec.written us, ValidFrame f ∧ f.data.length ≤ size) (hk : Spec.Keyed us) :
    ∃ ws l, transmit ops client xs us = .ok ws ∧ l.map (·.1) = Spec.written us ∧
      Spec.PeerSends ops size client xs l ws := by
  obtain ⟨ws, l, h1, h2, ⟨xs', h3⟩, h4⟩ := transmit_sends (client := client) hc hR (Spec.Messages.inTurn _ _ hm) hv hk
  exact ⟨ws, l, h1, h2, ⟨_, _, h3⟩, h4⟩

/-! ## Examples -/

/-- A client that resets its context after each message. -/
def transferClient : List (Pmd storedZlib) := [⟨false, true, 15, 9, (), some {}, none, false⟩]

/-- Its server. -/
def transferServer : List (Pmd storedZlib) := [⟨true, false, 9, 15, (), none, some (), false⟩]

/-- The client sends a fragmented message with a ping between its fragments, another message, and a close
frame.  In the meantime, it receives a pong. -/
def transferUses : List Use :=
  [.write { fin := false, opcode := .text, data := b!"ab" } [1, 2, 3, 4],
    .write { fin := true, opcode := .ping, data := b!"p" } [5, 6, 7, 8],
    .read (some 16) { fin := true, opcode := .pong, data := b!"p" },
    .write { fin := true, opcode := .cont, data := b!"c" } [1, 2, 3, 4],
    .write { fin := true, opcode := .binary, data := [1, 2, 3, 4] } [1, 2, 3, 4],
    .write { fin := true, opcode := .close, data := [3, 232] } [1, 2, 3, 4]]

def transferWire : List Bytes :=
  match transmit (pmdOps storedZlib) true transferClient transferUses with
  | .ok ws => ws
  | .error _ => []

/-- The server receives this in three pieces. -/
def transferActs : List RAct :=
  [.recv 0, .run, .data (transferWire.flatten.take 20), .run, .run,
    .data ((transferWire.flatten.drop 20).take 20), .run, .answered none, .run, .run,
    .write { fin := true, opcode := .text, data := b!"x" }, .wake 0, .recv 1,
    .data (transferWire.flatten.drop 40), .run, .wake 1, .run, .answered none]

theorem transfer_channel : Channel (pmdOps storedZlib) (2 ^ 60) (Deflated storedZlib_contract) :=
  Deflated.channel (by decide) storedZlib_faithful storedZlib_bounded

theorem transfer_paired : Deflated storedZlib_contract false transferClient transferServer := by
  refine .inr ⟨_, _, rfl, rfl, ⟨rfl, by decide, rfl, ?_⟩, fun _ => ⟨(), rfl⟩⟩
  rintro (h | h) <;> cases h

theorem transfer_messages : Messages ((Spec.written transferUses).filter isDataFrame) false :=
  .whole (fs := [_, _]) (.last (fs := [_]) (.first (fs := []) .nil (.inl rfl) rfl) rfl rfl) (.inr rfl) rfl

theorem transfer_valid : ∀ f ∈ Spec.written transferUses, ValidFrame f ∧ f.data.length ≤ 2 ^ 60 := by
  intro f hf
  simp only [transferUses, Spec.written, List.mem_cons, List.not_mem_nil, or_false] at hf
  rcases hf with rfl | rfl | rfl | rfl | rfl <;> exact ⟨(Frame.check_ok_iff _).1 rfl, by decide⟩

theorem transfer_keyed : Spec.Keyed transferUses := by
  intro f key hf
  simp only [transferUses, List.mem_cons, List.not_mem_nil, or_false, Use.write.injEq, reduceCtorEq, false_or] at hf
  rcases hf with ⟨-, rfl⟩ | ⟨-, rfl⟩ | ⟨-, rfl⟩ | ⟨-, rfl⟩ | ⟨-, rfl⟩ <;> rfl

theorem split5 {α : Type} {a b c d e f : α} {pre post : List α} (h : [a, b, c, d, e] = pre ++ f :: post) :
    (pre = [] ∧ f = a ∧ post = [b, c, d, e]) ∨ (pre = [a] ∧ f = b ∧ post = [c, d, e]) ∨
    (pre = [a, b] ∧ f = c ∧ post = [d, e]) ∨ (pre = [a, b, c] ∧ f = d ∧ post = [e]) ∨
    (pre = [a, b, c, d] ∧ f = e ∧ post = []) := by
  rcases pre with _ | ⟨p1, _ | ⟨p2, _ | ⟨p3, _ | ⟨p4, _ | ⟨p5, pre⟩⟩⟩⟩⟩ <;>
    simp only [List.nil_append, List.cons_append, List.cons.injEq, List.append_eq] at h
  · obtain ⟨rfl, rfl⟩ := h; simp
  · obtain ⟨rfl, rfl, rfl⟩ := h; simp
  · obtain ⟨rfl, rfl, rfl, rfl⟩ := h; simp
  · obtain ⟨rfl, rfl, rfl, rfl, rfl⟩ := h; simp
  · obtain ⟨rfl, rfl, rfl, rfl, rfl, rfl⟩ := h; simp
  · obtain ⟨_, _, _, _, _, h⟩ := h
    simp at h

/-- The hypotheses of `C75_order`, `C75_closed` and `C75_alive`: two messages go through
permessage-deflate, then the connection is closed. -/
example : ∃ l, Spec.PeerSends (pmdOps storedZlib) (2 ^ 60) true transferClient l transferWire ∧
    Spec.CloseFrameLast l ∧ Spec.Fair none l ∧
    Spec.arrived transferActs = transferWire.flatten ∧
    .eof ∉ transferActs ∧ .cancelTransfer ∉ transferActs ∧ (∀ e, .answered (some e) ∉ transferActs) ∧
    ((Receiver.init true none (some 2) transferServer { limit := 65536 }).exec (pmdOps storedZlib)
      transferActs).map (fun r => (r.1.ended, Spec.returned r.2)) =
      some (some .closed, [.text p!"abc", .binary [1, 2, 3, 4]]) := by
  obtain ⟨ws, l, h1, h2, h3⟩ := transmit_peer (client := true) transfer_channel transfer_paired
    transfer_messages transfer_valid transfer_keyed
  have hws : ws = transferWire := by unfold transferWire; rw [h1]
  subst hws
  refine ⟨l, h3, ?_, ⟨⟨?_, ⟨false, ?_⟩, ?_, ?_⟩, ?_, ?_, ?_⟩, by decide +kernel, by decide +kernel,
    by decide +kernel, ?_, by decide +kernel⟩
  · intro pre f post h hf
    rw [h2] at h
    rcases split5 h with ⟨-, rfl, -⟩ | ⟨-, rfl, -⟩ | ⟨-, rfl, -⟩ | ⟨-, rfl, -⟩ | ⟨-, -, h⟩
    · cases hf
    · cases hf
    · cases hf
    · cases hf
    · exact h
  · rw [h2]; exact fun f hf => (transfer_valid f hf).1
  · rw [h2]; exact transfer_messages
  · intro pre f post _ _ m hm; cases hm
  · intro pre f post h hf
    rw [h2] at h
    rcases split5 h with ⟨-, rfl, -⟩ | ⟨-, rfl, -⟩ | ⟨-, rfl, -⟩ | ⟨-, rfl, -⟩ | ⟨rfl, rfl, rfl⟩
    · cases hf
    · cases hf
    · cases hf
    · cases hf
    · exact ⟨rfl, transfer_messages, 1000, [], (C06_parse_close_iff _ _ _).1 (by decide +kernel)⟩
  · intro pre f post u _ _ _ m hm; cases hm
  · rw [h2]; exact transfer_messages
  · intro b hb
    rw [h2] at hb
    have : Spec.assemble (Spec.written transferUses) = [(true, b!"abc"), (false, [1, 2, 3, 4])] := by decide +kernel
    rw [this] at hb
    simp only [List.mem_cons, Prod.mk.injEq, true_and, List.not_mem_nil, or_false] at hb
    rcases hb with rfl | ⟨h, -⟩
    · exact ⟨p!"abc", ['a', 'b', 'c'], by decide +kernel, by decide +kernel⟩
    · cases h
  · intro e he
    simp [transferActs] at he

/-- The hypotheses of `C75_complete`: the connection isn't closed. -/
example : ∃ l s os, Spec.PeerSends (pmdOps storedZlib) (2 ^ 60) true transferClient l (transferWire.take 4) ∧
    Spec.arrived ((transferActs.take 13).concat (.data ((transferWire.take 4).flatten.drop 40))) =
      (transferWire.take 4).flatten ∧
    (Receiver.init true (some 16) (some 2) transferServer { limit := 65536 }).exec (pmdOps storedZlib)
      ((transferActs.take 13).concat (.data ((transferWire.take 4).flatten.drop 40)) ++ [.run, .run]) =
        some (s, os) ∧
    s.queue.transfer = .reading ∧ s.phase = .reading ∧ (s.step (pmdOps storedZlib) .run).isNone ∧
    Spec.returned os = [.text p!"abc"] ∧ s.queue.messages = [.binary [1, 2, 3, 4]] := by
  obtain ⟨ws, l, h1, -, h3⟩ := transmit_peer (client := true) (us := transferUses.take 5) transfer_channel
    transfer_paired transfer_messages (fun f hf => transfer_valid f (by
      simp only [transferUses, List.take, Spec.written, List.mem_cons, List.not_mem_nil, or_false] at hf ⊢
      rcases hf with rfl | rfl | rfl | rfl <;> simp))
    (fun f key hf => transfer_keyed f key (List.mem_of_mem_take hf))
  have hws : ws = transferWire.take 4 := by
    have : transmit (pmdOps storedZlib) true transferClient (transferUses.take 5) = .ok (transferWire.take 4) := by
      decide +kernel
    rw [h1] at this
    cases this
    rfl
  subst hws
  have hex : (((Receiver.init true (some 16) (some 2) transferServer { limit := 65536 }).exec (pmdOps storedZlib)
      ((transferActs.take 13).concat (.data ((transferWire.take 4).flatten.drop 40)) ++ [.run, .run])).map
        fun r => decide (r.1.queue.transfer = .reading ∧ r.1.phase = .reading ∧
          (r.1.step (pmdOps storedZlib) .run).isNone ∧ Spec.returned r.2 = [.text p!"abc"] ∧
          r.1.queue.messages = [.binary [1, 2, 3, 4]])) = some true := by decide +kernel
  rw [Option.map_eq_some_iff] at hex
  obtain ⟨⟨s, os⟩, hx, hd⟩ := hex
  exact ⟨l, s, os, h3, by decide +kernel, hx, of_decide_eq_true hd⟩

end WS.Legacy
