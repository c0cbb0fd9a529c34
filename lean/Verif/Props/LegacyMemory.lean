import Verif.Props.LegacyTransfer
import Verif.Props.LegacyRead
import Verif.Props.Receive
import Verif.Props.Pmd

/-!
# C94 (and C16): a peer can't make a legacy connection hold more than a bounded amount of data

From the bytes that the transport delivers to `recv`: `read_frame`, the extensions, `read_message` and
the queue, for peers that send anything.
-/

namespace WS.Legacy

open WS.Spec

/-! ## Specification -/

/-- Bytes in the UTF-8 encoding of a code point. -/
def Spec.charSize (c : Nat) : Nat :=
  if c < 0x80 then 1 else if c < 0x800 then 2 else if c < 0x10000 then 3 else 4

/-- Bytes in a message. -/
def Spec.size : Data → Nat
  | .binary b => b.length
  | .text s => (s.map charSize).sum

/-- What a connection holds for the peer: bytes that weren't parsed, the frames of the message that is
being received, the messages that `recv` didn't return, and the message for which there's no room in the
queue. -/
def Spec.held {X : Type} (s : Receiver X) : Nat :=
  s.io.reader.buf.length + (s.frames.map (·.data.length)).sum + (s.queue.messages.map size).sum +
    match s.queue.transfer with
    | .full m _ => size m
    | _ => 0

/-- The transport delivers at most `chunk` bytes at a time. -/
def Spec.Chunks (chunk : Nat) (as : List RAct) : Prop := ∀ d, .data d ∈ as → d.length ≤ chunk

/-! ## What coroutines return -/

/-- Whatever is read, the coroutine returns only values such that `P`. -/
inductive Gives {α : Type} (P : α → Prop) : Coro α → Prop where
  | ret (a) : P a → Gives P (.ret a)
  | raise (e) : Gives P (.raise e)
  | readLine (p k) : (∀ x, Gives P (k x)) → Gives P (.readLine p k)
  | readExact (n k) : (∀ e, Gives P (k (.error e))) → (∀ d, d.length = n → Gives P (k (.ok d))) →
      Gives P (.readExact n k)
  | readToEof (k) : (∀ x, Gives P (k x)) → Gives P (.readToEof k)

theorem Gives.bind {α β : Type} {P : α → Prop} {Q : β → Prop} {c : Coro α} {f : α → Coro β}
    (h : Gives P c) (hf : ∀ a, P a → Gives Q (f a)) : Gives Q (c.bind f) := by
  induction h with
  | ret a ha => exact hf a ha
  | raise e => exact .raise e
  | readLine p k _ ih => exact .readLine _ _ ih
  | readExact n k _ _ ih1 ih2 => exact .readExact _ _ ih1 ih2
  | readToEof k _ ih => exact .readToEof _ ih

theorem gives_exact (n : Nat) : Gives (·.length = n) (Coro.exact n) :=
  .readExact _ _ (fun _ => .raise _) (fun _ h => .ret _ h)

/-- The same for what a task does until it's suspended. -/
def Gave {α : Type} (P : α → Prop) : AOutcome α → Prop
  | .done a _ => P a
  | .raised _ _ => True
  | .blocked c' _ => Gives P c'

theorem Gives.arun {α : Type} {P : α → Prop} {c : Coro α} (h : Gives P c) (r : AReader) :
    Gave P (c.arun r) := by
  induction h generalizing r with
  | ret a ha => exact ha
  | raise e => trivial
  | readLine p k hk ih =>
    simp only [Coro.arun]
    split
    · split
      · exact ih _ _
      · exact ih _ _
    · split
      · exact ih _ _
      · split
        · exact ih _ _
        · exact .readLine _ _ hk
  | readExact n k h1 h2 ih1 ih2 =>
    simp only [Coro.arun]
    split
    · split
      · exact ih1 _ _
      · exact .readExact _ _ h1 h2
    · exact ih2 _ (by rw [List.length_take]; omega) _
  | readToEof k hk ih =>
    simp only [Coro.arun]
    split
    · exact ih _ _
    · exact .readToEof _ hk

theorem readBody_gives (mask : Bool) (m : Option Int) (a b c d : Bool) (o : Opcode) (n : Nat) :
    Gives (fun f => Within f.data.length m) (readBody mask m a b c d o n) := by
  unfold readBody
  split
  · exact .raise _
  · rename_i hx
    have hn : Within n m := by
      intro l hl
      subst hl
      simp only [exceeds] at hx
      split at hx
      · cases hx
      · omega
    have hk : Gives (fun k : Bytes => mask = true → k.length = 4) (if mask then Coro.exact 4 else .ret []) := by
      cases mask with
      | true => exact .readExact _ _ (fun _ => .raise _) (fun _ h => .ret _ fun _ => h)
      | false => exact .ret _ (by simp)
    refine hk.bind fun key hkey => (gives_exact n).bind fun data hd => ?_
    cases mask with
    | false => exact .ret _ (by simpa [hd] using hn)
    | true =>
      obtain ⟨out, h1, -, h2, -⟩ := C05_apply_mask data key (hkey rfl)
      simp only [if_true, h1]
      exact .ret _ (by simpa [h2, hd] using hn)

theorem readFrame_gives (mask : Bool) (m : Option Int) :
    Gives (fun f => Within f.data.length m) (readFrame mask m) := by
  unfold readFrame
  refine (gives_exact 2).bind fun data _ => ?_
  split
  · simp only
    split
    · exact .raise _
    · split
      · exact .raise _
      · split
        · exact (gives_exact 2).bind fun _ _ => readBody_gives ..
        · split
          · exact (gives_exact 8).bind fun _ _ => readBody_gives ..
          · exact readBody_gives ..
  · exact .raise _

/-! ## The size of messages -/

theorem size_utf8 {b : Bytes} {s : PyStr} (h : IsUtf8 b s) : Spec.size (.text s) = b.length := by
  obtain ⟨cs, rfl, rfl⟩ := h
  induction cs with
  | nil => rfl
  | cons c cs ih =>
    simp only [Spec.size, List.map_cons, List.sum_cons, List.flatMap_cons, List.length_append] at ih ⊢
    rw [ih, String.length_utf8EncodeChar]
    congr 1
    unfold Spec.charSize Char.utf8Size
    simp only [Char.toNat, UInt32.le_iff_toNat_le]
    have e1 : (UInt32.ofNatLT 0x7F (by decide)).toNat = 0x7F := rfl
    have e2 : (UInt32.ofNatLT 0x7FF (by decide)).toNat = 0x7FF := rfl
    have e3 : (UInt32.ofNatLT 0xFFFF (by decide)).toNat = 0xFFFF := rfl
    split <;> split <;> (try split) <;> (try split) <;> (try split) <;> (try split) <;> grind

theorem size_decode {b : Bytes} {s : PyStr} (h : utf8Decode b = .ok s) : Spec.size (.text s) = b.length :=
  size_utf8 ((C07_decode_iff b s).1 h)

theorem size_text_append (s t : PyStr) :
    Spec.size (.text (s ++ t)) = Spec.size (.text s) + Spec.size (.text t) := by
  simp [Spec.size]

/-- A step of the incremental decoder doesn't make text larger. -/
theorem incDecode_size {p d p' : Bytes} {last : Bool} {s : PyStr} (h : utf8IncDecode p d last = .ok (s, p')) :
    Spec.size (.text s) + p'.length ≤ p.length + d.length := by
  have hall : ∀ pos err, utf8Scan (p ++ d).length (p ++ d) = (s, pos, err) →
      Spec.size (.text s) + ((p ++ d).drop pos).length ≤ p.length + d.length := by
    intro pos err hr
    obtain ⟨b1, b2, e1, e2, e3, -, -⟩ := utf8Scan_sound hr (Nat.le_refl _)
    rw [size_utf8 ((C07_encode_iff b1 s).1 e2), List.length_drop]
    have := congrArg List.length e1
    simp only [List.length_append] at this ⊢
    omega
  unfold utf8IncDecode at h
  simp only at h
  split at h
  · rename_i hr
    cases h
    exact hall _ _ hr
  · rename_i hr
    split at h
    · cases h
    · cases h
      exact hall _ _ hr
  · cases h

/-- The number of bytes in the frames that `read_message` has seen. -/
def weight (r : MsgReader) : Nat := Spec.size r.result + if r.text then r.pending.length else 0

theorem append_weight {r r' : MsgReader} {f : Frame} (h : r.append f = .ok r') :
    weight r' ≤ weight r + f.data.length := by
  obtain ⟨text, str, bytes, pending, maxSize⟩ := r
  unfold MsgReader.append at h
  cases text with
  | true =>
    simp only [if_true] at h
    split at h
    · cases h
    · rename_i s p hd
      have := incDecode_size hd
      cases h
      simp only [weight, MsgReader.result, if_true, size_text_append]
      omega
  | false =>
    cases h
    simp [weight, MsgReader.result, Spec.size]

theorem loop_size {r : MsgReader} {fs : List Frame} {m : Data}
    (h : r.loop (fs.map some) = some (.ok m)) : Spec.size m ≤ weight r + payloadSize fs := by
  induction fs generalizing r with
  | nil => cases h
  | cons f fs ih =>
    have hp : payloadSize (f :: fs) = f.data.length + payloadSize fs := by simp [payloadSize]
    simp only [List.map_cons, MsgReader.loop] at h
    split at h
    · cases h
    · cases ha : r.append f with
      | error e => rw [ha] at h; cases h
      | ok r' =>
        rw [ha] at h
        simp only at h
        have hs := append_weight ha
        split at h
        · cases h
          unfold weight at hs ⊢
          omega
        · have := ih h
          omega

theorem readMessage_size {maxSize : Option Int} {fs : List Frame} {m : Data}
    (h : readMessage maxSize (fs.map some) = some (.ok (some m))) : Spec.size m ≤ payloadSize fs := by
  cases fs with
  | nil => cases h
  | cons f fs =>
    have hp : payloadSize (f :: fs) = f.data.length + payloadSize fs := by simp [payloadSize]
    simp only [List.map_cons, readMessage] at h
    split at h
    · cases h
    · split at h
      · split at h
        · split at h
          · cases h
          · rename_i s hd
            cases h
            rw [size_decode hd]
            omega
        · cases h
          simp only [Spec.size]
          omega
      · have h0 : weight { text := decide (f.opcode = .text), maxSize } = 0 := by
          cases decide (f.opcode = .text) <;> rfl
        cases ha : ({ text := decide (f.opcode = .text), maxSize } : MsgReader).append f with
        | error e => rw [ha] at h; cases h
        | ok r =>
          rw [ha] at h
          simp only at h
          have hl : r.loop (fs.map some) = some (.ok m) := by
            cases hl : r.loop (fs.map some) with
            | none => rw [hl] at h; cases h
            | some x =>
              rw [hl] at h
              cases x with
              | error e => cases h
              | ok d => cases h; rfl
          have h1 := loop_size hl
          have h2 := append_weight ha
          omega

/-! ## Invariant -/

variable {X : Type} {ops : ExtOps X}

theorem finish_within (hd : ops.DecodeWithin) {xs xs' : List X} {m : Int} {raw f : Frame}
    (h : raw.finish ops xs (some m) = (.ok f, xs')) (hr : (raw.data.length : Int) ≤ m) :
    (f.data.length : Int) ≤ m := by
  unfold Frame.finish at h
  cases ha : applyExts (fun x fr => ops.decode x fr (some m)) xs.reverse raw with
  | mk r ys =>
    rw [ha] at h
    cases r with
    | error e => cases h
    | ok g =>
      simp only at h
      split at h
      · cases h
      · cases h
        exact applyExts_within hd ha hr

/-- What the read that is in progress may return. -/
def Task.Gives (P : Frame → Prop) : Task Frame → Prop
  | .ready c => Legacy.Gives P c
  | .waiting c => Legacy.Gives P c
  | .ended _ => True

theorem Task.Gives.step {P : Frame → Prop} {e e' : Endpoint Frame} (h : Task.Gives P e.task) {a : IoAct Frame}
    (ha : a = .run ∨ a = .eof ∨ ∃ d, a = .data d) (hs : e.step a = some e') :
    Task.Gives P e'.task ∧ (a = .run → ∀ f, e'.task = .ended (some (.ok f)) → P f) := by
  have hw : Task.Gives P e.task.wakeup := by
    cases ht : e.task <;> rw [ht] at h <;> exact h
  rcases ha with rfl | rfl | ⟨d, rfl⟩
  · simp only [Endpoint.step] at hs
    cases ht : e.task with
    | waiting c => simp [ht] at hs
    | ended r => simp [ht] at hs
    | ready c =>
      rw [ht] at h hs
      have hg := Legacy.Gives.arun h e.reader
      simp only at hs
      cases ho : c.arun e.reader with
      | done v r =>
        rw [ho] at hs hg
        cases hs
        exact ⟨trivial, fun _ f hf => by cases hf; exact hg⟩
      | raised x r => rw [ho] at hs; cases hs; exact ⟨trivial, fun _ f hf => by cases hf⟩
      | blocked c' r => rw [ho] at hs hg; cases hs; exact ⟨hg, fun _ f hf => by cases hf⟩
  · simp only [Endpoint.step, Option.some.injEq] at hs
    subst hs
    exact ⟨hw, nofun⟩
  · simp only [Endpoint.step] at hs
    split at hs
    · cases hs
    · split at hs <;> cases hs
      · exact ⟨h, nofun⟩
      · exact ⟨hw, nofun⟩

/-- Invariant, except about the read in progress: `M` is `max_size`, `L` is `read_limit`, `K` is the size
of chunks. -/
structure Mem0 (M L K : Nat) (s : Receiver X) : Prop where
  maxSize : s.maxSize = some (M : Int)
  frames : payloadSize s.frames ≤ M
  full : ∀ m f, s.queue.transfer = .full m f → s.frames = []
  buf : Bounded s.io.reader (max L (max 8 M)) K (L / 2)

/-- Invariant. -/
structure Mem (M L K : Nat) (s : Receiver X) : Prop extends Mem0 M L K s where
  sound : Sound (max 8 M) (max L (max 8 M)) K (L / 2) s.io
  task : Task.Gives (fun f => Within f.data.length s.limit) s.io.task

variable {M L K : Nat}

theorem Mem0.ended {s : Receiver X} (h : Mem0 M L K s) {r : Option (Except Exc Frame)}
    (ht : s.io.task = .ended r) : Mem M L K s :=
  ⟨h, ⟨h.buf, by rw [ht]; trivial⟩, by rw [ht]; trivial⟩

theorem Mem0.limit {s : Receiver X} (h : Mem0 M L K s) :
    s.limit = some ((M : Int) - (payloadSize s.frames : Int)) := by
  rw [Receiver.limit_eq, h.maxSize]; rfl

theorem Mem0.readNext {s : Receiver X} (h : Mem0 M L K s) : Mem M L K s.readNext := by
  have h0 : Mem0 M L K s.readNext := ⟨h.maxSize, h.frames, h.full, h.buf⟩
  refine ⟨h0, ⟨h.buf, ?_, .fresh (readFrame_fresh _ _)⟩, readFrame_gives _ _⟩
  rw [h.limit]
  exact readFrame_needs _ (by omega) (by omega)

/-- What a step of the receiver does to the queue. -/
def Feeds (M : Nat) (q q' : Queue Data) (o : List (Obs Data)) : Prop :=
  ∃ acts, q.exec acts = some (q', o) ∧ ∀ m, .message m ∈ acts → Spec.size m ≤ M

theorem Feeds.refl (q : Queue Data) : Feeds M q q [] := ⟨[], rfl, by simp⟩

theorem Feeds.one {q q' : Queue Data} {o : List (Obs Data)} {a : Act Data} (h : q.step a = some (q', o))
    (ha : ∀ m, a = .message m → Spec.size m ≤ M) : Feeds M q q' o :=
  ⟨[a], Queue.exec_one h, fun m hm => ha m (List.mem_singleton.1 hm).symm⟩

theorem exit_feeds {s : Receiver X} (e : Ending) (h : s.queue.transfer = .reading) :
    Feeds M s.queue (s.exit e).queue [] :=
  .one (a := .exit) (by simp [Queue.step, h, Transfer.isReading, Receiver.exit]) nofun

theorem Mem.exit {s : Receiver X} (h : Mem M L K s) (e : Ending) : Mem M L K (s.exit e) :=
  ⟨⟨h.maxSize, h.frames, nofun, h.buf⟩, h.sound, h.task⟩

theorem dataFrame_mem {s : Receiver X} (h : Mem0 M L K s) {r : Option (Except Exc Frame)}
    (ht : s.io.task = .ended r) (hq : s.queue.transfer = .reading) {f : Frame}
    (hf : Within f.data.length s.limit) :
    Mem M L K (s.dataFrame f).1 ∧ Feeds M s.queue (s.dataFrame f).1.queue (s.dataFrame f).2 := by
  have hfs : payloadSize (s.frames ++ [f]) ≤ M := by
    have := hf _ h.limit
    simp only [payloadSize, List.map_append, List.sum_append, List.map_cons, List.map_nil,
      List.sum_cons, List.sum_nil] at this ⊢
    omega
  unfold Receiver.dataFrame
  simp only
  cases hm : readMessage s.maxSize ((s.frames ++ [f]).map some) with
  | none =>
    refine ⟨Mem0.readNext ⟨h.maxSize, hfs, ?_, h.buf⟩, .refl _⟩
    intro m f hx
    simp only at hx
    rw [hq] at hx
    cases hx
  | some x =>
    rcases x with e | _ | m
    · exact ⟨(h.ended ht).exit _, exit_feeds _ hq⟩
    · exact ⟨(h.ended ht).exit _, exit_feeds _ hq⟩
    · have hsz := Nat.le_trans (readMessage_size hm) hfs
      simp only
      have h0 : Mem0 M L K { s with frames := [], queue := (s.queue.putLoop m).1 } :=
        ⟨h.maxSize, by simp [payloadSize], fun _ _ _ => rfl, h.buf⟩
      refine ⟨?_, ?_⟩
      · unfold Receiver.goOn
        split
        · exact h0.readNext
        · exact h0.ended ht
      · rw [Receiver.goOn_queue]
        refine .one (a := .message m) ?_ (fun m' e => by cases e; exact hsz)
        simp [Queue.step, hq, Transfer.isReading]

theorem frame_mem {s : Receiver X} (h : Mem0 M L K s) {r : Option (Except Exc Frame)}
    (ht : s.io.task = .ended r) (hq : s.queue.transfer = .reading) {f : Frame}
    (hf : Within f.data.length s.limit) :
    Mem M L K (s.frame f).1 ∧ Feeds M s.queue (s.frame f).1.queue (s.frame f).2 := by
  have hph : ∀ p, Mem M L K { s with phase := p } := fun p =>
    Mem0.ended ⟨h.maxSize, h.frames, h.full, h.buf⟩ ht
  unfold Receiver.frame
  split
  · split
    · exact ⟨(h.ended ht).exit _, exit_feeds _ hq⟩
    · exact ⟨hph _, .refl _⟩
  · exact ⟨hph _, .refl _⟩
  · exact ⟨h.readNext, .refl _⟩
  · exact dataFrame_mem h ht hq hf

theorem decoded_mem (hd : ops.DecodeWithin) {s : Receiver X} (h : Mem0 M L K s) {res : Except Exc Frame}
    (ht : s.io.task = .ended (some res)) (hq : s.queue.transfer = .reading)
    (hf : ∀ f, res = .ok f → Within f.data.length s.limit) :
    Mem M L K (s.decoded ops res).1 ∧ Feeds M s.queue (s.decoded ops res).1.queue (s.decoded ops res).2 := by
  have hx : ∀ xs : List X, Mem0 M L K { s with exts := xs } := fun xs => ⟨h.maxSize, h.frames, h.full, h.buf⟩
  unfold Receiver.decoded
  cases res with
  | error e => exact ⟨(h.ended ht).exit _, exit_feeds _ hq⟩
  | ok raw =>
    simp only
    have hl := h.limit
    split
    · rename_i e xs _
      exact ⟨((hx xs).ended ht).exit _, exit_feeds (s := { s with exts := xs }) _ hq⟩
    · rename_i f xs hfin
      refine frame_mem (hx xs) ht hq ?_
      show Within f.data.length s.limit
      rw [hl] at hfin
      have hraw := hf raw rfl _ hl
      intro m hm
      rw [hl] at hm
      cases hm
      exact finish_within hd hfin hraw

theorem queueStep_mem {s s' : Receiver X} (h : Mem M L K s) {a : Act Data} {o : List (Obs Data)}
    (ha : (∃ t, a = .recv t) ∨ (∃ t, a = .wake t) ∨ ∃ t, a = .cancel t)
    (hs : s.queueStep a = some (s', o)) : Mem M L K s' ∧ Feeds M s.queue s'.queue o := by
  unfold Receiver.queueStep at hs
  obtain ⟨⟨q, o'⟩, hq, he⟩ := Option.map_eq_some_iff.1 hs
  cases he
  have hk := Queue.step_keeps hq ha
  refine ⟨⟨⟨h.maxSize, h.frames, fun m f hf => h.full m f (by rw [← hk]; exact hf), h.buf⟩, h.sound, h.task⟩,
    .one hq ?_⟩
  rintro m rfl
  rcases ha with ⟨t, e⟩ | ⟨t, e⟩ | ⟨t, e⟩ <;> cases e

theorem io_mem {s : Receiver X} (h : Mem M L K s) {a : IoAct Frame} {io : Endpoint Frame}
    (ha : a = .run ∨ a = .eof ∨ ∃ d, a = .data d) (hk : ∀ d, a = .data d → d.length ≤ K)
    (hs : s.io.step a = some io) : Mem M L K { s with io } := by
  have hsound : Sound (max 8 M) (max L (max 8 M)) K (L / 2) io := by
    refine h.sound.step (by omega) (by omega) ?_ hs
    · rcases ha with rfl | rfl | ⟨d, rfl⟩
      · trivial
      · trivial
      · exact hk d rfl
  exact ⟨⟨h.maxSize, h.frames, h.full, hsound.1⟩, hsound, (h.task.step ha hs).1⟩

theorem Mem.step (hd : ops.DecodeWithin) {s s' : Receiver X} (h : Mem M L K s) {a : RAct}
    (hk : ∀ d, a = .data d → d.length ≤ K) {o : List (Obs Data)} (hs : s.step ops a = some (s', o)) :
    Mem M L K s' ∧ Feeds M s.queue s'.queue o := by
  cases a with
  | data d =>
    obtain ⟨io, h1, h2⟩ := Option.map_eq_some_iff.1 hs
    cases h2
    exact ⟨io_mem h (.inr (.inr ⟨d, rfl⟩)) (fun d' e => hk d' (by rw [IoAct.data.inj e])) h1, .refl _⟩
  | eof =>
    simp only [Receiver.step] at hs
    obtain ⟨io, h1, h2⟩ := Option.map_eq_some_iff.1 hs
    cases h2
    exact ⟨io_mem h (.inr (.inl rfl)) nofun h1, .refl _⟩
  | run =>
    simp only [Receiver.step] at hs
    split at hs
    · rename_i hc
      split at hs
      · cases hs
      · rename_i io hio
        have hm := io_mem h (.inl rfl) nofun hio
        have hg := (h.task.step (.inl rfl) hio).2 rfl
        split at hs
        · rename_i res ht
          have := decoded_mem hd hm.toMem0 (res := res) ht hc.1 (fun f e => hg f (by rw [ht, e]))
          have e := Option.some.inj hs
          rw [e] at this
          exact this
        · cases hs
          exact ⟨hm, .refl _⟩
    · cases hs
  | answered e =>
    simp only [Receiver.step] at hs
    split at hs
    · rename_i hq
      split at hs
      · cases hs
      · cases hs; exact ⟨h.exit _, exit_feeds _ hq⟩
      · cases hs; exact ⟨h.toMem0.readNext, .refl _⟩
      · cases hs
        unfold Receiver.closeFrame
        split
        · exact ⟨h.exit _, exit_feeds _ hq⟩
        · exact ⟨h.exit _, exit_feeds _ hq⟩
    · cases hs
  | write f =>
    cases hs
    exact ⟨⟨⟨h.maxSize, h.frames, h.full, h.buf⟩, h.sound, h.task⟩, .refl _⟩
  | recv t => exact queueStep_mem h (.inl ⟨t, rfl⟩) hs
  | wake t => exact queueStep_mem h (.inr (.inl ⟨t, rfl⟩)) hs
  | cancel t => exact queueStep_mem h (.inr (.inr ⟨t, rfl⟩)) hs
  | wakeTransfer =>
    simp only [Receiver.step] at hs
    cases hq : s.queue.step .wakeTransfer with
    | none => rw [hq] at hs; cases hs
    | some p =>
      obtain ⟨q, o'⟩ := p
      rw [hq] at hs
      cases hs
      refine ⟨?_, by rw [Receiver.goOn_queue]; exact .one hq nofun⟩
      have hfull : s.frames = [] := by
        simp only [Queue.step] at hq
        split at hq
        · rename_i m f hf; exact h.full m f hf
        · cases hq
      have h0 : Mem0 M L K { s with queue := q } := ⟨h.maxSize, h.frames, fun _ _ _ => hfull, h.buf⟩
      unfold Receiver.goOn
      split
      · exact h0.readNext
      · exact ⟨h0, h.sound, h.task⟩
  | cancelTransfer =>
    obtain ⟨⟨s1, o'⟩, h1, h2⟩ := Option.map_eq_some_iff.1 hs
    cases h2
    unfold Receiver.queueStep at h1
    obtain ⟨⟨q, o2⟩, hq, he⟩ := Option.map_eq_some_iff.1 h1
    cases he
    refine ⟨⟨⟨h.maxSize, h.frames, ?_, h.buf⟩, h.sound, h.task⟩, .one hq nofun⟩
    intro m f hf
    simp only at hf
    simp only [Queue.step] at hq
    split at hq <;> cases hq <;> cases hf

theorem Mem.exec (hd : ops.DecodeWithin) {s s' : Receiver X} (h : Mem M L K s) {as : List RAct}
    (hk : Spec.Chunks K as) {os : List (Obs Data)} (hs : s.exec ops as = some (s', os)) :
    Mem M L K s' ∧ Feeds M s.queue s'.queue os := by
  induction as generalizing s os with
  | nil => cases hs; exact ⟨h, .refl _⟩
  | cons a as ih =>
    obtain ⟨s1, o, os', h1, h2, rfl⟩ := Receiver.exec_cons hs
    obtain ⟨a1, acts, a2, a3⟩ := h.step hd (fun d e => hk d (by rw [e]; exact List.mem_cons_self)) h1
    obtain ⟨b1, acts', b2, b3⟩ := ih a1 (fun d hm => hk d (List.mem_cons_of_mem _ hm)) h2
    refine ⟨b1, acts ++ acts', Queue.exec_trans a2 b2, fun m hm => ?_⟩
    rcases List.mem_append.1 hm with hm | hm
    · exact a3 m hm
    · exact b3 m hm

/-- A connection that was just opened. -/
theorem Mem.init {e : Endpoint Got} {as : List (IoAct Got)} (hw : Spec.Within M K as)
    (he : (Endpoint.new L).exec as = some e) (server : Bool) (maxQueue : Option Nat) (xs : List X) :
    Mem M L K (Receiver.init server (some (M : Int)) maxQueue xs e.reader) := by
  have h0 : Mem0 M L K (Receiver.init server (some (M : Int)) maxQueue xs e.reader) :=
    ⟨rfl, by simp [Receiver.init, payloadSize], nofun, (sound_of_within hw he).1⟩
  exact h0.readNext

theorem sum_le {M : Nat} {l : List Nat} (h : ∀ x ∈ l, x ≤ M) : l.sum ≤ l.length * M := by
  induction l with
  | nil => simp
  | cons x l ih =>
    have h1 := h x List.mem_cons_self
    have h2 := ih fun y hy => h y (List.mem_cons_of_mem _ hy)
    rw [List.sum_cons, List.length_cons, Nat.succ_mul]
    omega

/-- Messages that were fed. -/
theorem mem_received {as : List (Act Data)} {m : Data} (h : m ∈ Spec.received as) : .message m ∈ as := by
  induction as with
  | nil => cases h
  | cons a as ih =>
    cases a with
    | message m' =>
      rcases List.mem_cons.1 h with rfl | h
      · exact List.mem_cons_self
      · exact List.mem_cons_of_mem _ (ih h)
    | _ => exact List.mem_cons_of_mem _ (ih h)

theorem mem_returned {os : List (Obs Data)} {t : Nat} {m : Data} (h : .returned t m ∈ os) :
    m ∈ Spec.returned os := by
  induction os with
  | nil => cases h
  | cons o os ih =>
    rcases List.mem_cons.1 h with rfl | h
    · exact List.mem_cons_self
    · have := ih h
      cases o <;> simp_all [Spec.returned]

/-! ## C16 and C94 -/

/-- **C16**, for the legacy protocol, from bytes: whatever the peer sends, `recv` returns only messages
within `max_size`, if the extensions keep frames within the limit that they're given. -/
theorem C16_legacy (hd : ops.DecodeWithin) {as0 : List (IoAct Got)} (hw : Spec.Within M K as0)
    {e : Endpoint Got} (he : (Endpoint.new L).exec as0 = some e) (server : Bool) (maxQueue : Option Nat)
    (xs : List X) {as : List RAct} (hk : Spec.Chunks K as) {s : Receiver X} {os : List (Obs Data)}
    (hs : (Receiver.init server (some (M : Int)) maxQueue xs e.reader).exec ops as = some (s, os))
    {t : Nat} {m : Data} (hm : .returned t m ∈ os) : Spec.size m ≤ M := by
  obtain ⟨-, acts, h1, h2⟩ := (Mem.init hw he server maxQueue xs).exec hd hk hs
  obtain ⟨lost, h3, -⟩ := C51_order_partial (n := maxQueue) h1
  exact h2 m (mem_received (by rw [← h3]; simp [mem_returned hm]))

/-- **C94.** Whatever the peer sends and whatever the application does, a connection holds at most the
largest of `read_limit` and `max_size` (and 8), plus one chunk, plus `max_queue + 1` messages of
`max_size` bytes. -/
theorem C94_bounded (hd : ops.DecodeWithin) {as0 : List (IoAct Got)} (hw : Spec.Within M K as0)
    {e : Endpoint Got} (he : (Endpoint.new L).exec as0 = some e) (server : Bool) (maxQueue : Nat)
    (xs : List X) {as : List RAct} (hk : Spec.Chunks K as) {s : Receiver X} {os : List (Obs Data)}
    (hs : (Receiver.init server (some (M : Int)) (some maxQueue) xs e.reader).exec ops as = some (s, os)) :
    Spec.held s ≤ max L (max 8 M) + K + (maxQueue + 1) * M := by
  obtain ⟨hmem, acts, h1, h2⟩ := (Mem.init hw he server (some maxQueue) xs).exec hd hk hs
  have hlen : s.queue.messages.length ≤ maxQueue := C52_bounded h1
  obtain ⟨lost, h3, -⟩ := C51_order_partial (n := some maxQueue) h1
  have hin : ∀ m, m ∈ s.queue.messages ++ s.queue.transfer.inHand → Spec.size m ≤ M := fun m hm =>
    h2 m (mem_received (by
      rw [← h3]
      rcases List.mem_append.1 hm with hm | hm <;> simp [hm]))
  have hsum : (s.queue.messages.map Spec.size).sum ≤ maxQueue * M := by
    refine Nat.le_trans (sum_le (M := M) fun x hx => ?_) (Nat.mul_le_mul_right _ (by simpa using hlen))
    obtain ⟨m, hm, rfl⟩ := List.mem_map.1 hx
    exact hin m (List.mem_append_left _ hm)
  have hbuf := hmem.buf.total
  have hfr : (s.frames.map (·.data.length)).sum ≤ M := hmem.frames
  have hmul : (maxQueue + 1) * M = maxQueue * M + M := Nat.succ_mul _ _
  unfold Spec.held
  split
  · rename_i m f hf
    have hm : Spec.size m ≤ M := hin m (List.mem_append_right _ (by simp [hf, Transfer.inHand]))
    have h0 : s.frames = [] := hmem.full m f hf
    rw [h0]
    simp only [List.map_nil, List.sum_nil]
    omega
  · omega

/-- The size of a text message is the number of bytes in its encoding. -/
theorem C94_size_text {b : Bytes} {s : PyStr} (h : IsUtf8 b s) : Spec.size (.text s) = b.length := size_utf8 h

/-- A connection that reads two messages with room for one, and a part of the third one. -/
def exampleReceiver : Option (Receiver Empty × List (Obs Data)) :=
  (Receiver.init false (some 3) (some 1) [] (Endpoint.new 4).reader).exec noExts
    [.data [0x82, 3, 1, 2, 3], .run, .data [0x81, 3, 0xE2, 0x82, 0xAC], .run, .data [0x02, 3, 4, 5]]

example : noExts.DecodeWithin ∧ Spec.Within 3 5 ([] : List (IoAct Got)) ∧
    (Endpoint.new 4).exec [] = some (Endpoint.new 4) ∧
    Spec.Chunks 5 [.data [0x82, 3, 1, 2, 3], .run, .data [0x81, 3, 0xE2, 0x82, 0xAC], .run,
      .data [0x02, 3, 4, 5]] :=
  ⟨noExts_decodeWithin, ⟨by simp, by simp⟩, rfl, by
    intro d hd
    simp only [List.mem_cons, RAct.data.injEq, reduceCtorEq, false_or, List.not_mem_nil, or_false] at hd
    rcases hd with rfl | rfl | rfl <;> simp⟩

/-- It holds 10 bytes: two messages of 3 bytes, and 4 bytes that weren't parsed. -/
example : exampleReceiver.map (fun (s, _) => (Spec.held s, s.queue.messages, s.io.reader.buf)) =
    some (10, [.binary [1, 2, 3]], [0x02, 3, 4, 5]) := by decide +kernel

/-- Then `recv` returns the first message. -/
example : (exampleReceiver.bind fun (s, _) => (s.exec noExts [.recv 7]).map (·.2)) =
    some [.returned 7 (.binary [1, 2, 3])] := by decide +kernel

/-- A message that is too large isn't received. -/
example : ((Receiver.init false (some 3) (some 1) [] (Endpoint.new 4).reader).exec noExts
    [.data [0x02, 2, 1, 2], .run, .data [0x80, 2, 3, 4], .run]).map (fun (s, _) => (Spec.held s, s.ended)) =
    some (4, some (.raised (.payloadTooBig p!"over size limit (2 > 1 bytes)"))) := by decide +kernel

/-- The extension that permessage-deflate negotiates, with stored blocks. -/
def overflowExt : Pmd storedZlib := ⟨false, false, 15, 15, (), some {}, some (), false⟩

/-- **C16** doesn't hold with permessage-deflate, for the legacy protocol either: with a limit of 5
bytes, `recv` returns a message of 9 bytes. -/
theorem C16_legacy_false :
    ((Receiver.init false (some 5) none [overflowExt] (AReader.init 65536)).exec (pmdOps storedZlib)
      [.data overflowBytes, .run, .run, .run, .recv 0, .recv 0]).map (·.2) =
    some [.returned 0 (.binary [0x00, 0x00, 0xFF, 0xFF]),
      .returned 0 (.binary [1, 2, 3, 4, 5, 0x00, 0x00, 0xFF, 0xFF])] := by decide +kernel

end WS.Legacy
