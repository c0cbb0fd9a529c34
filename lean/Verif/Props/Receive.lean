import Verif.Lemmas.ConnExact
import Verif.Props.Frames

/-!
# Properties of what a connection receives: C15, C16, C18, C19, C20
-/

namespace WS

open Spec

variable {X E H : Type}

/-! ## C15 -/

/-- Invariant of the frames delivered so far. -/
structure Hist (c : Core X E) (hist : List Frame) : Prop where
  msgs : Messages (hist.filter isDataFrame) c.curSize.isSome
  noClose : c.closeReceived = false → ∀ f ∈ hist, f.opcode ≠ .close
  closeLast : NoDataAfterClose hist
  valid : ∀ f ∈ hist, ValidFrame f

theorem append_singleton_eq {α : Type} {a b : List α} {x y : α} {c : List α}
    (h : a ++ [x] = b ++ y :: c) : (c = [] ∧ a = b ∧ x = y) ∨ ∃ c', c = c' ++ [x] ∧ a = b ++ y :: c' := by
  rcases List.eq_nil_or_concat c with rfl | ⟨c', z, rfl⟩
  · have := List.append_inj' h rfl
    exact .inl ⟨rfl, this.1, by simpa using this.2⟩
  · refine .inr ⟨c', ?_⟩
    have h2 : a ++ [x] = (b ++ y :: c') ++ [z] := by simpa using h
    have := List.append_inj' h2 rfl
    have hx : x = z := by simpa using this.2
    exact ⟨by simp [hx], this.1⟩

theorem Hist.same {c c' : Core X E} {hist : List Frame} (h : Hist c hist)
    (hs : Core.Same c c') : Hist c' hist :=
  ⟨by rw [hs.curSize]; exact h.msgs, fun hc => h.noClose (hs.closeReceived hc), h.closeLast,
    h.valid⟩

theorem Accepted.msgs {env : Env X E H} {c c' : Core X E} {hist : List Frame} {f : Frame}
    (ha : Accepted env c f c') (h : Messages (hist.filter isDataFrame) c.curSize.isSome) :
    Messages ((hist ++ [f]).filter isDataFrame) c'.curSize.isSome := by
  rw [List.filter_append, ha.curSize]
  cases hop : f.opcode with
  | text =>
    have hc := ha.ok.first (.inl hop)
    have hm := h
    rw [hc] at hm
    have : [f].filter isDataFrame = [f] := by simp [isDataFrame, hop]
    rw [this]
    unfold nextCur
    rw [hop]
    cases hf : f.fin with
    | true => exact .whole hm (.inl hop) hf
    | false => exact .first hm (.inl hop) hf
  | binary =>
    have hc := ha.ok.first (.inr hop)
    have hm := h
    rw [hc] at hm
    have : [f].filter isDataFrame = [f] := by simp [isDataFrame, hop]
    rw [this]
    unfold nextCur
    rw [hop]
    cases hf : f.fin with
    | true => exact .whole hm (.inr hop) hf
    | false => exact .first hm (.inr hop) hf
  | cont =>
    have hc := ha.ok.cont hop
    have hm := h
    have hc : c.curSize.isSome = true := by
      cases hx : c.curSize with
      | none => exact absurd hx hc
      | some n => rfl
    rw [hc] at hm
    have : [f].filter isDataFrame = [f] := by simp [isDataFrame, hop]
    rw [this]
    unfold nextCur
    rw [hop]
    cases hf : f.fin with
    | true => exact .last hm hop hf
    | false => exact .middle hm hop hf
  | ping => simpa [isDataFrame, hop, nextCur] using h
  | pong => simpa [isDataFrame, hop, nextCur] using h
  | close => simpa [isDataFrame, hop, nextCur] using h

theorem Hist.accept {env : Env X E H} (hl : env.ops.Lawful) {c c' : Core X E}
    {hist : List Frame} {f : Frame} (h : Hist c hist) (ha : c.Accept env f c') :
    Hist c' (hist ++ [f]) := by
  have ha := ha.accepted hl
  refine ⟨?_, ?_, ?_, ?_⟩
  · exact ha.msgs h.msgs
  · intro hcr g hg
    rw [ha.closeReceived] at hcr
    simp only [Bool.or_eq_false_iff] at hcr
    rw [List.mem_append] at hg
    rcases hg with hg | hg
    · exact h.noClose hcr.1 g hg
    · simp only [List.mem_singleton] at hg
      subst hg
      simpa using hcr.2
  · intro pre g post he hg x hx
    rcases append_singleton_eq he with ⟨rfl, _, _⟩ | ⟨post', rfl, he'⟩
    · cases hx
    · rw [List.mem_append] at hx
      rcases hx with hx | hx
      · exact h.closeLast pre g post' he' hg x hx
      · simp only [List.mem_singleton] at hx
        subst hx
        cases hd : isDataFrame x with
        | false => rfl
        | true =>
          have := ha.ok.data hd
          exact absurd hg (h.noClose this g (by rw [he']; simp))
  · intro g hg
    rw [List.mem_append] at hg
    rcases hg with hg | hg
    · exact h.valid g hg
    · simp only [List.mem_singleton] at hg
      subst hg
      exact (Frame.check_ok_iff _).1 ha.ok.check

theorem RecvPath.hist {env : Env X E H} (hl : env.ops.Lawful) {c c' : Core X E}
    {evs : List (Event E)} (h : RecvPath env c evs c') {hist : List Frame} (hh : Hist c hist) :
    Hist c' (hist ++ eventFrames evs) := by
  induction h generalizing hist with
  | nil => simpa [eventFrames] using hh
  | frame ha _ ih =>
    have := ih (hh.accept hl ha)
    rw [List.append_assoc] at this
    exact this
  | hs hs _ ih => exact ih (hh.same hs)
  | same hs _ ih => exact ih (hh.same hs)

/-- **C15.** Whatever bytes are received, in whatever chunks, mixed with any other API calls: the
data frames delivered as events form correctly fragmented messages, and no data frame is
delivered after a close frame.  (Delivered frames are valid, too.) -/
theorem C15_delivered {env : Env X E H} (hl : env.Lawful) (k : Conn X E) (hk : k.Sound)
    (hev : k.core.events = []) (hcur : k.core.curSize = none)
    (ops : List (Op H)) (ho : k.HsOk env ops) :
    (∃ unfinished, Messages ((eventFrames (k.delivered env ops)).filter isDataFrame) unfinished) ∧
    NoDataAfterClose (eventFrames (k.delivered env ops)) ∧
    ∀ f ∈ eventFrames (k.delivered env ops), ValidFrame f := by
  obtain ⟨⟨evs, he, hp⟩, _⟩ := Conn.exec_receives hl k hk ops ho
  rw [he, hev, List.nil_append]
  have h0 : Hist k.core [] := by
    refine ⟨by rw [hcur]; exact .nil, fun _ => ?_, ?_, ?_⟩
    · intro f hf; cases hf
    · intro pre f post he; cases pre <;> cases he
    · intro f hf; cases hf
  have := hp.hist hl.ops h0
  rw [List.nil_append] at this
  exact ⟨⟨_, this.msgs⟩, this.closeLast, this.valid⟩

/-- Example: a fragmented message with a ping between its fragments, then a close frame, then a
text frame which isn't delivered. -/
example :
    let env := Env.plain (fun _ => [0, 0, 0, 0]) (fun _ => rfl)
    let k : Conn Empty Empty := .init .client .opened none
    eventFrames (k.delivered env [.receiveData [0x01, 1, 0x61, 0x89, 0], .receiveData [0x80, 1, 0x62],
      .eventsReceived, .receiveData [0x88, 0, 0x81, 0]]) =
    [{ fin := false, opcode := .text, data := [0x61] }, { fin := true, opcode := .ping, data := [] },
     { fin := true, opcode := .cont, data := [0x62] }, { fin := true, opcode := .close, data := [] }] := by
  decide +kernel

/-! ## C16 -/

/-- Decoding a frame within the limit gives a frame within the limit. -/
def ExtOps.DecodeWithin (ops : ExtOps X) : Prop :=
  ∀ {x f m f' x'}, ops.decode x f (some m) = (.ok f', x') → (f.data.length : Int) ≤ m →
    (f'.data.length : Int) ≤ m

theorem noExts_decodeWithin : noExts.DecodeWithin := fun {x} => nomatch x

theorem applyExts_within {ops : ExtOps X} (hd : ops.DecodeWithin) {m : Int} {xs xs' : List X}
    {f f' : Frame} (h : applyExts (fun x fr => ops.decode x fr (some m)) xs f = (.ok f', xs'))
    (hf : (f.data.length : Int) ≤ m) : (f'.data.length : Int) ≤ m := by
  induction xs generalizing f f' xs' with
  | nil => simp only [applyExts, Prod.mk.injEq, Except.ok.injEq] at h; rw [← h.1]; exact hf
  | cons x xs ih =>
    simp only [applyExts] at h
    cases hx : ops.decode x f (some m) with
    | mk r x1 =>
      cases r with
      | error e => rw [hx] at h; simp at h
      | ok f1 =>
        rw [hx] at h
        simp only [Prod.mk.injEq] at h
        exact ih (f := f1) (f' := f')
          (xs' := (applyExts (fun x fr => ops.decode x fr (some m)) xs f1).2)
          (by rw [← h.1]) (hd hx hf)

theorem Core.Accept.within {env : Env X E H} (hd : env.ops.DecodeWithin) {c c' : Core X E}
    {f : Frame} (h : c.Accept env f c') : Within f.data.length c.frameLimit := by
  obtain ⟨stale, raw, xs, c1, hw, _, hf, _, _⟩ := h
  unfold Frame.finish at hf
  cases hlim : c.frameLimit with
  | none => intro m hm; cases hm
  | some m =>
    rw [hlim] at hf hw
    cases ha : applyExts (fun x fr => env.ops.decode x fr (some m)) (stale.getD c.exts).reverse
      raw with
    | mk r ys =>
      rw [ha] at hf
      cases r with
      | error e => simp at hf
      | ok f' =>
        have := applyExts_within hd ha (hw m rfl)
        simp only at hf
        cases hc : f'.check with
        | error e => rw [hc] at hf; simp at hf
        | ok u =>
          rw [hc] at hf
          simp only [Prod.mk.injEq, Except.ok.injEq] at hf
          rw [← hf.1]
          intro m' hm; cases hm; exact this

/-- Invariant of the sizes of messages. -/
structure Sizes (m : Int) (c : Core X E) (hist : List Frame) : Prop where
  maxSize : c.maxSize = some m
  cur : ∀ n, c.curSize = some n → messageSize hist = n
  small : ∀ p f rest, hist = p ++ f :: rest → (messageSize (p ++ [f]) : Int) ≤ m

theorem Sizes.accept {env : Env X E H} (hl : env.ops.Lawful) (hd : env.ops.DecodeWithin)
    {m : Int} {c c' : Core X E} {hist : List Frame} {f : Frame} (h : Sizes m c hist)
    (ha : c.Accept env f c') : Sizes m c' (hist ++ [f]) := by
  have hw := ha.within hd
  have ha := ha.accepted hl
  have hstep : messageSize (hist ++ [f]) = (match f.opcode with
      | .text | .binary => f.data.length
      | .cont => messageSize hist + f.data.length
      | _ => messageSize hist) := by
    unfold messageSize
    rw [List.foldl_append]
    rfl
  have hlast : (messageSize (hist ++ [f]) : Int) ≤ m := by
    rw [hstep]
    unfold Core.frameLimit at hw
    rw [h.maxSize] at hw
    have hw1 : c.curSize = none → (f.data.length : Int) ≤ m := by
      intro hc; rw [hc] at hw; exact hw m rfl
    have hw2 : ∀ n, c.curSize = some n → (f.data.length : Int) ≤ m - n := by
      intro n hc; rw [hc] at hw; exact hw _ rfl
    have ctrl : (messageSize hist : Int) ≤ m := by
      rcases List.eq_nil_or_concat hist with rfl | ⟨p, g, rfl⟩
      · cases hc : c.curSize with
        | none =>
          have := hw1 hc
          show ((0 : Nat) : Int) ≤ m
          omega
        | some n =>
          have := hw2 n hc
          show ((0 : Nat) : Int) ≤ m
          omega
      · have := h.small p g [] (by simp)
        simpa using this
    cases hop : f.opcode with
    | text =>
      exact hw1 (ha.ok.first (.inl hop))
    | binary =>
      exact hw1 (ha.ok.first (.inr hop))
    | cont =>
      cases hc : c.curSize with
      | none => exact absurd hc (ha.ok.cont hop)
      | some n =>
        have := h.cur n hc
        have := hw2 n hc
        simp only
        omega
    | ping => exact ctrl
    | pong => exact ctrl
    | close => exact ctrl
  refine ⟨by rw [ha.maxSize]; exact h.maxSize, ?_, ?_⟩
  · intro n hn
    rw [ha.curSize] at hn
    rw [hstep]
    unfold nextCur at hn
    cases hop : f.opcode with
    | text =>
      rw [hop] at hn
      simp only at hn ⊢
      split at hn
      · cases hn
      · simpa using hn
    | binary =>
      rw [hop] at hn
      simp only at hn ⊢
      split at hn
      · cases hn
      · simpa using hn
    | cont =>
      rw [hop] at hn
      simp only at hn ⊢
      split at hn
      · cases hn
      · cases hc : c.curSize with
        | none => exact absurd hc (ha.ok.cont hop)
        | some n0 =>
          rw [hc] at hn
          have := h.cur n0 hc
          simp only [Option.getD_some, Option.some.injEq] at hn
          omega
    | ping => rw [hop] at hn; exact h.cur n hn
    | pong => rw [hop] at hn; exact h.cur n hn
    | close => rw [hop] at hn; exact h.cur n hn
  · intro p g rest he
    rcases append_singleton_eq he with ⟨rfl, rfl, rfl⟩ | ⟨rest', rfl, he'⟩
    · exact hlast
    · exact h.small p g rest' he'

theorem RecvPath.sizes {env : Env X E H} (hl : env.ops.Lawful) (hd : env.ops.DecodeWithin)
    {m : Int} {c c' : Core X E} {evs : List (Event E)} (h : RecvPath env c evs c')
    {hist : List Frame} (hh : Sizes m c hist) : Sizes m c' (hist ++ eventFrames evs) := by
  induction h generalizing hist with
  | nil => simpa [eventFrames] using hh
  | frame ha _ ih =>
    have := ih (hh.accept hl hd ha)
    rw [List.append_assoc] at this
    exact this
  | hs hs _ ih =>
    exact ih ⟨by rw [hs.maxSize]; exact hh.maxSize, by rw [hs.curSize]; exact hh.cur, hh.small⟩
  | same hs _ ih =>
    exact ih ⟨by rw [hs.maxSize]; exact hh.maxSize, by rw [hs.curSize]; exact hh.cur, hh.small⟩

/-- **C16.** Whatever bytes are received: at any point of the sequence of delivered frames, the
total payload of the frames of the current message is at most `max_size`.

Extensions are assumed to respect the limit they are given; there are none in many cases.
permessage-deflate doesn't meet this assumption: see `C16_max_size_false`, and
`C16_deflate_partial` for what holds then. -/
theorem C16_max_size_partial {env : Env X E H} (hl : env.Lawful) (hd : env.ops.DecodeWithin)
    (k : Conn X E) (hk : k.Sound) (hev : k.core.events = []) (hcur : k.core.curSize = none)
    (m : Int) (hm : k.core.maxSize = some m) (ops : List (Op H)) (ho : k.HsOk env ops)
    (pre : List Frame) (f : Frame) (post : List Frame)
    (hsplit : eventFrames (k.delivered env ops) = pre ++ f :: post) :
    (messageSize (pre ++ [f]) : Int) ≤ m := by
  obtain ⟨⟨evs, he, hp⟩, _⟩ := Conn.exec_receives hl k hk ops ho
  rw [he, hev, List.nil_append] at hsplit
  have h0 : Sizes m k.core [] := by
    refine ⟨hm, fun n hn => (by rw [hcur] at hn; cases hn), ?_⟩
    intro p f rest he; cases p <;> cases he
  have := hp.sizes hl.ops hd h0
  rw [List.nil_append] at this
  exact this.small pre f post hsplit

/-- Example: with a limit of 3, fragments of 2 and 1 bytes are delivered; another byte isn't. -/
example :
    let env := Env.plain (fun _ => [0, 0, 0, 0]) (fun _ => rfl)
    let k : Conn Empty Empty := .init .client .opened (some 3)
    let ops := [.receiveData [0x01, 2, 0x61, 0x61, 0x00, 1, 0x62], .receiveData [0x80, 1, 0x62]]
    messageSize (eventFrames (k.delivered env ops)) = 3 ∧
    (k.exec env ops).1.raised = [none, some (.payloadTooBig p!"over size limit (1 > 0 bytes)")] := by
  decide +kernel

/-! ## C18 -/

/-- The pongs that an API call must cause: one for each ping received before a close frame, with
the same payload and in order; one for a successful `send_pong()`; and none otherwise. -/
def Conn.pongsOwed (env : Env X E H) (k : Conn X E) (op : Op H) : List Bytes :=
  match op with
  | .receiveData _ | .receiveEof =>
    pingsBeforeClose k.core.closeReceived
      (eventFrames ((k.apply env op).2.core.events.drop k.core.events.length))
  | .sendPong d => if (k.apply env op).1 = none then [d] else []
  | _ => []

def Conn.allPongsOwed (env : Env X E H) : Conn X E → List (Op H) → List Bytes
  | _, [] => []
  | k, op :: ops => k.pongsOwed env op ++ Conn.allPongsOwed env (k.apply env op).2 ops

theorem Core.sendFrame_emits_or {env : Env X E H} (hl : env.ops.Lawful) (c : Core X E)
    (f : Frame) :
    ((c.sendFrame env f).1 ≠ none ∧ c.Emits env [] (c.sendFrame env f).2) ∨
    ((c.sendFrame env f).1 = none ∧ ∃ f', f'.opcode = f.opcode ∧ (f.opcode.isCtrl = true → f' = f) ∧
      c.Emits env [.frame f'] (c.sendFrame env f).2) := by
  cases hx : c.sendFrame env f with
  | mk e c1 =>
    cases e with
    | some e =>
      obtain ⟨xs, n, rfl⟩ := Core.sendFrame_error hx
      exact .inl ⟨by simp, .quiet rfl rfl⟩
    | none =>
      by_cases hc : f.opcode.isCtrl = true
      · exact .inr ⟨rfl, f, rfl, fun _ => rfl, (Core.sendFrame_emits hl hc hx).2.1⟩
      · obtain ⟨f', h1, _, h2⟩ := Core.sendFrame_emits_any hl hx
        exact .inr ⟨rfl, f', h1, fun h => absurd h hc, h2⟩

theorem Core.sendCloseFrame_only {env : Env X E H} (hl : env.ops.Lawful) (c : Core X E)
    (d : Bytes) : ∃ outs, c.Emits env outs (c.sendCloseFrame env d).2 ∧ OnlyClose outs := by
  cases hx : c.sendCloseFrame env d with
  | mk e c1 =>
    cases e with
    | some e => exact (Core.sendCloseFrame_error hl hx).1
    | none =>
      refine ⟨_, (Core.sendCloseFrame_emits hl hx).2.1, ?_⟩
      refine (OnlyClose.close d).append (b := if c.side = .server then [.eof] else []) ?_
      split
      · exact .eof
      · exact .nil

/-- What each API call writes. -/
theorem Conn.apply_pongs {env : Env X E H} (hl : env.Lawful) (k : Conn X E) (hs : k.Sound)
    (op : Op H) (ho : op.HsOk k.core) (hd : op ≠ .dataToSend) :
    ∃ outs, k.core.Emits env outs (k.apply env op).2.core ∧ raws outs = k.hsWrite env op ∧
      pongs outs = k.pongsOwed env op := by
  have recv : ∀ {c' : Core X E}, k.core.Answers env c' →
      ∃ outs, k.core.Emits env outs c' ∧ raws outs = [] ∧
        pongs outs = pingsBeforeClose k.core.closeReceived
          (eventFrames (c'.events.drop k.core.events.length)) := by
    rintro c' ⟨evs, outs, h1, h2, h3, h4⟩
    refine ⟨outs, h2, h3, ?_⟩
    rw [h1, List.drop_left, h4]
  have data : ∀ (c0 : Core X E) (f : Frame), c0.side = k.core.side → c0.writes = k.core.writes →
      f.opcode ≠ .pong → ∃ outs, k.core.Emits env outs (c0.sendFrame env f).2 ∧ raws outs = [] ∧
        pongs outs = [] := by
    intro c0 f hs hw hf
    rcases Core.sendFrame_emits_or hl.ops c0 f with ⟨_, h⟩ | ⟨_, f', h1, _, h2⟩
    · exact ⟨[], h.congr hs hw rfl rfl, rfl, rfl⟩
    · refine ⟨_, h2.congr hs hw rfl rfl, rfl, ?_⟩
      rw [← h1] at hf
      simp [pongs, hf]
  have only : ∀ {c' : Core X E}, (∃ outs, k.core.Emits env outs c' ∧ OnlyClose outs) →
      ∃ outs, k.core.Emits env outs c' ∧ raws outs = [] ∧ pongs outs = [] := by
    rintro c' ⟨outs, h1, h2⟩
    exact ⟨outs, h1, h2.raws, h2.pongs⟩
  cases op with
  | receiveData d =>
    have : k.core.Answers env (k.apply env (.receiveData d)).2.core := by
      simp only [Conn.apply, Conn.receiveData_eq]
      split
      · exact .refl
      · exact Conn.step_answers hl (k.push d) hs
    exact recv this
  | receiveEof =>
    have : k.core.Answers env (k.apply env .receiveEof).2.core := by
      simp only [Conn.apply, Conn.receiveEof_eq]
      split
      · exact .refl
      · exact Conn.step_answers hl { k with reader := { k.reader with eof := true } } hs
    exact recv this
  | sendContinuation d fin =>
    simp only [Conn.apply, Conn.onCore, Core.sendContinuation, Conn.hsWrite, Conn.pongsOwed]
    split
    · exact ⟨[], .refl, rfl, rfl⟩
    · exact data { k.core with expectCont := !fin } _ rfl rfl nofun
  | sendText d fin =>
    simp only [Conn.apply, Conn.onCore, Core.sendData, Conn.hsWrite, Conn.pongsOwed]
    split
    · exact ⟨[], .refl, rfl, rfl⟩
    · exact data { k.core with expectCont := !fin } _ rfl rfl nofun
  | sendBinary d fin =>
    simp only [Conn.apply, Conn.onCore, Core.sendData, Conn.hsWrite, Conn.pongsOwed]
    split
    · exact ⟨[], .refl, rfl, rfl⟩
    · exact data { k.core with expectCont := !fin } _ rfl rfl nofun
  | sendPing d =>
    exact data k.core { fin := true, opcode := .ping, data := d } rfl rfl nofun
  | sendPong d =>
    simp only [Conn.apply, Conn.onCore, Core.sendCtrl, Conn.hsWrite, Conn.pongsOwed]
    rcases Core.sendFrame_emits_or hl.ops k.core { fin := true, opcode := .pong, data := d } with
      ⟨h0, h⟩ | ⟨h0, f', _, h1, h2⟩
    · exact ⟨[], h, rfl, (if_neg h0).symm⟩
    · rw [h1 rfl] at h2
      exact ⟨_, h2, rfl, (if_pos h0).symm⟩
  | sendClose code reason =>
    simp only [Conn.apply, Conn.onCore, Core.sendClose, Conn.hsWrite, Conn.pongsOwed]
    refine only ?_
    have nil : ∃ outs, k.core.Emits env outs k.core ∧ OnlyClose outs := ⟨[], .refl, .nil⟩
    split
    · exact nil
    · split
      · split
        · exact nil
        · exact Core.sendCloseFrame_only hl.ops _ _
      · split
        · exact nil
        · exact Core.sendCloseFrame_only hl.ops _ _
  | eventsReceived => exact ⟨[], .quiet rfl rfl, rfl, rfl⟩
  | dataToSend => exact absurd rfl hd
  | handshake h =>
    obtain ⟨rs, hst⟩ := hl.hsOp (h := h) ho
    have he : k.hsWrite env (.handshake h) = rs := by
      simp [Conn.hsWrite, hst.writes]
    rw [he]
    have hc : (k.apply env (.handshake h)).2.core = (env.hsOp h k.core).2.1 := by
      simp only [Conn.apply]
      split <;> rename_i hx <;> rw [hx]
    rw [hc]
    refine ⟨rs.map .raw, ⟨hst.side, rs.map .raw, rs, ?_, ?_, hst.writes⟩, raws_raw rs,
      pongs_raw rs⟩
    · simp [Item.out]
    · clear he hst hc
      induction rs with
      | nil => exact .nil
      | cons b rs ih => exact .cons rfl ih

theorem rawItems_out (items : List Item) : rawItems items = raws (items.map Item.out) := by
  induction items with
  | nil => rfl
  | cons i items ih =>
    cases i with
    | raw b =>
      have h1 : rawItems (.raw b :: items) = b :: rawItems items := rfl
      have h2 : raws ((.raw b :: items).map Item.out) = b :: raws (items.map Item.out) := rfl
      rw [h1, h2, ih]
    | frame f i => exact ih
    | eof => exact ih

/-- **C18.** In every execution, the pongs sent are exactly those owed: for each call that
receives data, one pong for each ping delivered by that call before any close frame, with the
same payload and in the same order; one for each successful `send_pong()`; and nothing else
causes a pong. -/
theorem C18_pongs {env : Env X E H} (hl : env.Lawful) (k : Conn X E) (hs : k.Sound)
    (hw : k.core.writes = []) (ops : List (Op H)) (ho : k.HsOk env ops) :
    ∃ items, Writes env.rand k.core.side items (k.output env ops) ∧
      rawItems items = k.hsWrites env ops ∧
      pongs (items.map Item.out) = k.allPongsOwed env ops := by
  have key : ∀ (ops : List (Op H)) (k : Conn X E), k.Sound → k.HsOk env ops →
      ∃ items ws, Writes env.rand k.core.side items ws ∧
        k.output env ops = k.core.writes ++ ws ∧ rawItems items = k.hsWrites env ops ∧
        pongs (items.map Item.out) = k.allPongsOwed env ops := by
    intro ops
    induction ops with
    | nil => intro k _ _; exact ⟨[], [], .nil, by simp [Conn.output, Conn.exec], rfl, rfl⟩
    | cons op ops ih =>
      intro k hs ho
      have hs' := (Conn.apply_receives hl k hs op ho.1).2
      obtain ⟨is, ws, h1, h2, h3, h4⟩ := ih _ hs' ho.2
      by_cases hd : op = .dataToSend
      · subst hd
        refine ⟨is, ws, h1, ?_, h3, h4⟩
        simp only [Conn.output, Conn.exec] at h2 ⊢
        rw [List.append_assoc, h2]
        rfl
      · obtain ⟨outs, ⟨hside, i1, w1, e1, e2, e3⟩, e4, e5⟩ := Conn.apply_pongs hl k hs op ho.1 hd
        rw [hside] at h1
        refine ⟨i1 ++ is, w1 ++ ws, e2.append h1, ?_, ?_, ?_⟩
        · simp only [Conn.output, Conn.exec] at h2 ⊢
          cases op with
          | dataToSend => exact absurd rfl hd
          | _ => simp only [List.nil_append]; rw [h2, e3, List.append_assoc]
        · rw [rawItems_append, rawItems_out, e1, e4, h3]; rfl
        · rw [List.map_append, pongs_append, e1, e5, h4]; rfl
  obtain ⟨items, ws, h1, h2, h3, h4⟩ := key ops k hs ho
  rw [h2, hw]
  exact ⟨items, h1, h3, h4⟩

/-- **C18.** While the connection is open and no close frame has been received, a ping is never
refused: it is delivered and answered. -/
theorem C18_ping_answered {env : Env X E H} (ht : env.ops.CtrlTransparent) (c : Core X E)
    (ho : c.state = .opened) (hc : c.closeReceived = false) (f : Frame) (hf : f.opcode = .ping)
    (hv : ValidFrame f) : (c.handleFrame env f).1 = none := by
  have hlen : f.data.length ≤ 125 := (hv.2.2.2 (by rw [hf]; simp [IsControl])).2
  unfold Core.handleFrame
  rw [hf]
  simp only [hc, Bool.not_false, if_true]
  obtain ⟨c', h⟩ := Core.sendFrame_ctrl_ok ht c .pong f.data rfl hlen ho
  rw [h]

/-- Example: two pings and a pong; the masked pings are answered in order. -/
example :
    let env := Env.plain (fun _ => [0, 0, 0, 0]) (fun _ => rfl)
    let k : Conn Empty Empty := .init .client .opened none
    k.allPongsOwed env [.receiveData [0x89, 1, 0x61, 0x8a, 1, 0x62], .sendPong [7],
      .receiveData [0x89, 1, 0x63, 0x88, 0, 0x89, 1, 0x64]] = [[0x61], [7], [0x63]] := by
  decide +kernel

/-! ## C19 and C20 -/

theorem Frames.append {env : Env X E H} {a c : Core X E} {f1 f2 : List Frame}
    (h : Frames env a (f1 ++ f2) c) : ∃ b, Frames env a f1 b ∧ Frames env b f2 c := by
  induction f1 generalizing a with
  | nil => exact ⟨a, .nil, h⟩
  | cons f f1 ih =>
    cases h with
    | cons ha hf =>
      obtain ⟨b, h1, h2⟩ := ih hf
      exact ⟨b, .cons ha h1, h2⟩

theorem replies_append (side : Side) (o cl : Bool) (a b : List Frame) :
    replies side o cl (a ++ b) = replies side o cl a ++
      replies side (o && !a.any (·.opcode == .close)) (cl || a.any (·.opcode == .close)) b := by
  induction a generalizing o cl with
  | nil => simp [replies]
  | cons f a ih =>
    rw [List.cons_append, replies_cons, ih, replies_cons side o cl f a]
    simp only [List.any_cons, List.append_assoc]
    congr 2
    cases o <;> cases cl <;> cases hx : (f.opcode == Opcode.close) <;> simp [bne, hx]

theorem replies_no_close (side : Side) (o cl : Bool) (fs : List Frame)
    (h : ∀ f ∈ fs, f.opcode ≠ .close) :
    replies side o cl fs =
      (pingsBeforeClose cl fs).map fun d => .frame (ctrlFrame .pong d) := by
  induction fs with
  | nil => rfl
  | cons f fs ih =>
    have h1 := ih fun g hg => h g (List.mem_cons_of_mem _ hg)
    have h2 := h f (List.mem_cons_self ..)
    cases hop : f.opcode with
    | close => exact absurd hop h2
    | ping => cases cl <;> simp [replies, pingsBeforeClose, hop, h1]
    | _ => simp only [replies, pingsBeforeClose, hop, h1]

/-- After a close frame, nothing is sent in response to anything. -/
theorem replies_closed (side : Side) (fs : List Frame) : replies side false true fs = [] := by
  induction fs with
  | nil => rfl
  | cons f fs ih => cases hop : f.opcode <;> simp [replies, hop, ih]

theorem Frames.closeCode {env : Env X E H} (hl : env.ops.Lawful) {c c' : Core X E}
    {fs : List Frame} (h : Frames env c fs c') (hn : ∀ f ∈ fs, f.opcode ≠ .close) :
    c'.closeCode = c.closeCode ∧ c'.closeReason = c.closeReason := by
  induction h with
  | nil => exact ⟨rfl, rfl⟩
  | @cons c f c1 fs c2 ha hf ih =>
    have h1 := ih fun g hg => hn g (List.mem_cons_of_mem _ hg)
    have h2 := hn f (List.mem_cons_self ..)
    have ha := (ha.accepted hl).closeCode
    have : c1.closeCode = c.closeCode ∧ c1.closeReason = c.closeReason := by
      cases hop : f.opcode with
      | close => exact absurd hop h2
      | _ => rw [hop] at ha; exact ha
    exact ⟨h1.1.trans this.1, h1.2.trans this.2⟩

/-- A call that receives data or the end of the stream. -/
def Op.isRecv : Op H → Bool
  | .receiveData _ | .receiveEof => true
  | _ => false

/-- The call that tells that the stream has ended. -/
def Op.isEof : Op H → Bool
  | .receiveEof => true
  | _ => false

/-- The exact effect of a call that receives data. -/
theorem Conn.recv_exact {env : Env X E H} (hx : env.ops.Tame) {k : Conn X E} (hk : k.Sane)
    (ha : ¬ k.Ended) (op : Op H) (hop : op.isRecv = true) :
    ∃ fs c1, Frames env k.core fs c1 ∧
      (∀ k', k.apply env op = (none, k') → if op.isEof
        then c1.closeReceived = true ∧ k'.core = c1.failEof.2 else k'.core = c1) ∧
      (∀ e k', k.apply env op = (some e, k') → FailedWith env c1 e k') := by
  obtain ⟨h1, h2, h3, h4⟩ := hk.alive ha
  cases op with
  | receiveData d =>
    obtain ⟨fs, c1, a, b, c⟩ := Conn.step_exact hx (k.push d) hk.sound hk.past h2 h3 h4 hk.bounded
    have he : k.apply env (.receiveData d) = (k.push d).step env := by
      simp only [Conn.apply, Conn.receiveData_eq, h1, Bool.false_eq_true, if_false]
    refine ⟨fs, c1, a, fun k' hk' => ?_, fun e k' hk' => c e k' (by rw [← he]; exact hk')⟩
    rcases b k' (by rw [← he]; exact hk') with ⟨h, _⟩ | ⟨_, hp, _⟩
    · exact h
    · -- the parser is parked only at the end of the stream
      exfalso
      have hset := Conn.apply_settled env hk.settled (.receiveData d)
      rw [hk'] at hset
      have hr : (k.push d).pstate.Ready (k.push d).reader := by
        rcases hk.settled with ⟨a, _⟩ | ⟨_, a⟩ | ⟨_, _, a, _⟩
        · rw [h1] at a; cases a
        · exact absurd a h2
        · exact a.push d
      have hst := (Conn.step_settled env (k.push d) hr).2.1
      rw [← he, hk'] at hst
      rcases hset with ⟨a1, _⟩ | ⟨_, a2⟩ | ⟨_, _, _, a3⟩
      · rw [a1] at hst
        have : k.reader.eof = true := hst.symm
        rw [h1] at this; cases this
      · rw [hp] at a2; cases a2
      · rw [hp] at a3; exact a3
  | receiveEof =>
    obtain ⟨fs, c1, a, b, c⟩ := Conn.step_exact hx
      { k with reader := { k.reader with eof := true } } hk.sound hk.past h2 h3 h4 hk.bounded
    have he : k.apply env .receiveEof =
        Conn.step env { k with reader := { k.reader with eof := true } } := by
      simp only [Conn.apply, Conn.receiveEof_eq, h1, Bool.false_eq_true, if_false]
    refine ⟨fs, c1, a, fun k' hk' => ?_, fun e k' hk' => c e k' (by rw [← he]; exact hk')⟩
    rcases b k' (by rw [← he]; exact hk') with ⟨_, n1, n2⟩ | ⟨x, _, y⟩
    · -- nothing is awaited at the end of the stream
      exfalso
      have hset := Conn.apply_settled env hk.settled .receiveEof
      rw [hk'] at hset
      have hst := (Conn.step_settled env { k with reader := { k.reader with eof := true } }
        (by rcases hk.settled with ⟨a, _⟩ | ⟨_, a⟩ | ⟨_, _, a, _⟩
            · rw [h1] at a; cases a
            · exact absurd a h2
            · exact PState.Ready.setEof a true)).2.1
      rw [← he, hk'] at hst
      rcases hset with ⟨_, a1 | a1⟩ | ⟨_, a2⟩ | ⟨a3, _⟩
      · exact n2 a1
      · exact n1 a1
      · exact n1 a2
      · rw [a3] at hst; cases hst
    · exact ⟨x, y⟩
  | _ => cases hop

theorem Frames.eofSent {env : Env X E H} (hl : env.ops.Lawful) {c c' : Core X E}
    {fs : List Frame} (h : Frames env c fs c') :
    c'.eofSent = (c.eofSent || decide ((∃ f ∈ fs, f.opcode = .close) ∧ c.state = .opened ∧
      c.side = .server)) := by
  induction h with
  | nil => simp
  | @cons c f c1 fs c2 ha hf ih =>
    have ha := ha.accepted hl
    rw [ih, ha.eofSent, ha.state, ha.emits.1, Bool.or_assoc]
    congr 1
    rw [← Bool.decide_or, decide_eq_decide]
    by_cases h1 : f.opcode = .close ∧ c.state = .opened
    · rw [if_pos h1]
      simp [h1.1]
    · rw [if_neg h1]
      constructor
      · rintro (h | ⟨⟨g, hg, hc⟩, h⟩)
        · exact absurd ⟨h.1, h.2.1⟩ h1
        · exact ⟨⟨g, List.mem_cons_of_mem _ hg, hc⟩, h⟩
      · rintro ⟨⟨g, hg, hc⟩, h⟩
        rcases List.mem_cons.1 hg with rfl | hg
        · exact absurd ⟨hc, h.1⟩ h1
        · exact .inr ⟨⟨g, hg, hc⟩, h⟩

theorem Frames.unique {env : Env X E H} (hl : env.ops.Lawful) {c c1 : Core X E}
    {fs gs : List Frame} (h : Frames env c fs c1)
    (he : c1.events = c.events ++ gs.map .frame) : fs = gs := by
  have h1 := (h.took hl).events
  rw [he] at h1
  have h2 := List.append_cancel_left h1
  have h3 := congrArg eventFrames h2
  rwa [eventFrames_frames, eventFrames_frames, eq_comm] at h3

/-- **C19.** When a connection that is open receives a close frame `f`, it answers the pings
received before it, then sends a close frame with the same payload; then a server ends the
stream, and a client ends it only if it is told that the stream has ended. Nothing else is sent,
whatever follows the close frame. The connection is then closing, and the code and the reason
are those found in the payload of `f`: 1005 and an empty reason if it's empty. -/
theorem C19_close_reply {env : Env X E H} (hl : env.Lawful) (hx : env.ops.Tame) (k0 : Conn X E)
    (h0 : k0.Sane) (ops : List (Op H)) (ho : k0.HsOk env ops) :
    let k := (k0.exec env ops).2
    ¬ k.Ended → k.core.state = .opened → ∀ (op : Op H), op.isRecv = true → ∀ (k' : Conn X E)
      (pre post : List Frame) (f : Frame), k.apply env op = (none, k') →
      k'.core.events = k.core.events ++ (pre ++ f :: post).map .frame →
      (∀ g ∈ pre, g.opcode ≠ .close) → f.opcode = .close →
      (∃ tail, k.core.Emits env
          ((pingsBeforeClose k.core.closeReceived pre).map (.frame <| ctrlFrame .pong ·) ++
            .frame (ctrlFrame .close f.data) :: tail) k'.core ∧
        tail = if k.core.side = .server ∨ op.isEof = true then [.eof] else []) ∧
      k'.core.state = .closing ∧
      ((∀ g ∈ post, g.opcode ≠ .close) → ∃ code reason, ClosePayload f.data code reason ∧
        k'.core.closeCode = some code ∧ k'.core.closeReason = some reason) := by
  intro k hE hO op hop k' pre post f hk hev hpre hf
  have hk0 : k.Sane := h0.exec hl hx ops ho
  obtain ⟨fs, c1, h1, h2, -⟩ := Conn.recv_exact hx hk0 hE op hop
  have hl' := hx.lawful
  have hc1 : c1.events = k'.core.events ∧ c1.closeCode = k'.core.closeCode ∧
      c1.closeReason = k'.core.closeReason ∧ c1.state = k'.core.state := by
    have h := h2 k' hk
    split at h
    · rw [h.2]; unfold Core.failEof Core.sendEof
      cases c1.eofSent <;> exact ⟨rfl, rfl, rfl, rfl⟩
    · rw [h]; exact ⟨rfl, rfl, rfl, rfl⟩
  have hfs := h1.unique hl' (hc1.1.trans hev)
  subst hfs
  have ht := h1.took hl'
  have hcl : ∃ g ∈ pre ++ f :: post, g.opcode = .close := ⟨f, by simp, hf⟩
  have hst : k'.core.state = .closing := by
    rw [← hc1.2.2.2, ht.state, if_pos ⟨hcl, hO⟩]
  have hem : replies k.core.side (decide (k.core.state = .opened)) k.core.closeReceived
      (pre ++ f :: post) =
      (pingsBeforeClose k.core.closeReceived pre).map (Out.frame <| ctrlFrame .pong ·) ++
        .frame (ctrlFrame .close f.data) :: if k.core.side = .server then [.eof] else [] := by
    have hany : (pre.any fun g => g.opcode == .close) = false := by
      rw [List.any_eq_false]
      intro g hg; simpa using hpre g hg
    rw [replies_append, replies_no_close _ _ _ pre hpre, hany, Bool.not_false, Bool.and_true,
      Bool.or_false]
    simp only [replies, hf, hO, decide_true, if_true, replies_closed, List.append_nil]
  have he1 := ht.emits
  rw [hem] at he1
  refine ⟨⟨_, ?_, rfl⟩, hst, ?_⟩
  · have h := h2 k' hk
    cases hie : op.isEof with
    | false =>
      rw [hie] at h
      have h : k'.core = c1 := h
      rw [h]
      simpa using he1
    | true =>
      rw [hie] at h
      obtain ⟨_, h⟩ : c1.closeReceived = true ∧ k'.core = c1.failEof.2 := h
      rw [h]
      have he2 := he1.trans Core.failEof_emits.1
      rw [h1.eofSent hl', hO] at he2
      have heo := hk0.eofOk.resolve_right hE |>.cases |>.resolve_right (fun h => h hO)
      rw [heo] at he2
      cases hsd : k.core.side with
      | server =>
        rw [hsd, decide_eq_true ⟨hcl, rfl, rfl⟩] at he2
        simpa using he2
      | client => rw [hsd] at he2; simpa using he2
  · intro hpost
    obtain ⟨b, hb1, hb2⟩ := h1.append
    cases hb2 with
    | @cons _ _ b1 _ _ hacc hrest =>
      have ha := (hacc.accepted hl').closeCode
      rw [hf] at ha
      obtain ⟨code, reason, hp, hcc, hcr⟩ := ha
      have hr := hrest.closeCode hl' hpost
      refine ⟨code, reason, (C06_parse_close_iff ..).1 hp, ?_, ?_⟩
      · rw [← hc1.2.1, hr.1, hcc]
      · rw [← hc1.2.2.1, hr.2, hcr]

/-- Example: an open server with a size limit is sane; it answers a ping and a close frame. -/
example :
    let env := Env.plain (fun _ => [0, 0, 0, 0]) (fun _ => rfl)
    let k : Conn Empty Empty := .init .server .opened (some 100)
    k.Sane ∧ env.Lawful ∧ env.ops.Tame ∧ ¬ k.Ended ∧
    (k.apply env (.receiveData [0x89, 0x81, 0, 0, 0, 0, 7, 0x88, 0x83, 0, 0, 0, 0, 3, 0xE9, 0x61])).1 = none ∧
    k.output env [.receiveData [0x89, 0x81, 0, 0, 0, 0, 7, 0x88, 0x83, 0, 0, 0, 0, 3, 0xE9, 0x61]] =
      [[0x8a, 1, 7], [0x88, 3, 3, 0xE9, 0x61], []] ∧
    (k.apply env (.receiveData [0x89, 0x81, 0, 0, 0, 0, 7, 0x88, 0x83, 0, 0, 0, 0, 3, 0xE9, 0x61])).2.core.closeCode
      = some 1001 :=
  ⟨Conn.init_sane _ _ _ (by intro n hn; cases hn; decide), Env.plain_lawful _ _, noExts_tame,
    fun h => (by rcases h with h | h <;> cases h), by decide +kernel, by decide +kernel, by decide +kernel⟩

/-- The close code that tells why a connection failed; none if the stream was dropped. -/
def Spec.failureCode : Exc → Option Int
  | .protocolError _ => some 1002
  | .unicodeDecodeError .. => some 1007
  | .payloadTooBig _ => some 1009
  | .eofError => none
  | _ => some 1011

/-- **C20.** When receiving data raises an exception, the connection has delivered frames `fs`
and has answered them. Then, if it's still open, it sends exactly one close frame, with the code
for this exception and a reason, unless the stream was dropped. Then it ends the stream, unless
it has already. Nothing else is sent, and building the close frame never fails. -/
theorem C20_failure {env : Env X E H} (hl : env.Lawful) (hx : env.ops.Tame) (k0 : Conn X E)
    (h0 : k0.Sane) (ops : List (Op H)) (ho : k0.HsOk env ops) :
    let k := (k0.exec env ops).2
    ¬ k.Ended → ∀ (op : Op H), op.isRecv = true → ∀ (e : Exc) (k' : Conn X E),
      k.apply env op = (some e, k') →
      ∃ fs close, k'.core.events = k.core.events ++ fs.map .frame ∧
        k.core.Emits env
          (replies k.core.side (decide (k.core.state = .opened)) k.core.closeReceived fs ++
            close ++ if k.core.eofSent ∨ (k.core.side = .server ∧ k.core.state = .opened ∧
                ∃ f ∈ fs, f.opcode = .close) then [] else [.eof]) k'.core ∧
        (if k.core.state = .opened ∧ ∀ f ∈ fs, f.opcode ≠ .close then
          match failureCode e with
          | none => close = [] ∧ k'.core.state = .opened
          | some code => k'.core.state = .closing ∧ ∃ data reason,
              close = [.frame (ctrlFrame .close data)] ∧ data.length ≤ 125 ∧ data ≠ [] ∧
              ClosePayload data code reason
        else close = [] ∧ k'.core.state = if k.core.state = .opened then .closing
          else k.core.state) ∧
        k'.core.eofSent = true ∧ k'.core.parserExc = some e ∧ k'.Ended := by
  intro k hE op hop e k' hk
  have hk0 : k.Sane := h0.exec hl hx ops ho
  obtain ⟨fs, c1, h1, -, h3⟩ := Conn.recv_exact hx hk0 hE op hop
  have hl' := hx.lawful
  have hf := h3 e k' hk
  have ht := h1.took hl'
  obtain ⟨d, hd, hem⟩ := hf.emits
  refine ⟨fs, if (failCode e).1 ≠ 1006 ∧ c1.state = .opened then [.frame (ctrlFrame .close d)]
    else [], by rw [hf.events, ht.events], ?_, ?_, hf.eofSent, hf.exc, .inr hf.dead⟩
  · rw [List.append_assoc]
    refine ht.emits.trans ?_
    have : failOuts c1 (failCode e).1 d = (if (failCode e).1 ≠ 1006 ∧ c1.state = .opened
        then [.frame (ctrlFrame .close d)] else []) ++ if k.core.eofSent = true ∨
          (k.core.side = .server ∧ k.core.state = .opened ∧ ∃ f ∈ fs, f.opcode = .close)
        then [] else [.eof] := by
      unfold failOuts
      congr 1
      rw [h1.eofSent hl']
      simp only [Bool.or_eq_true, decide_eq_true_eq]
      congr 1
      rw [eq_iff_iff]
      constructor
      · rintro (h | ⟨a, b, c⟩)
        · exact .inl h
        · exact .inr ⟨c, b, a⟩
      · rintro (h | ⟨a, b, c⟩)
        · exact .inl h
        · exact .inr ⟨c, b, a⟩
    rw [← this]
    exact hem
  · have hst := ht.state
    by_cases hop : k.core.state = .opened ∧ ∀ f ∈ fs, f.opcode ≠ .close
    · rw [if_pos hop]
      have h1o : c1.state = .opened := by
        rw [hst, if_neg fun h => ?_]
        · exact hop.1
        · obtain ⟨⟨f, hf1, hf2⟩, _⟩ := h
          exact hop.2 f hf1 hf2
      have hs' := hf.state
      have key : ∀ code : Int, (failCode e).1 = code → code ≠ 1006 →
          k'.core.state = .closing ∧ ∃ data reason,
            (if (failCode e).1 ≠ 1006 ∧ c1.state = .opened then
              [Out.frame (ctrlFrame .close d)] else []) = [.frame (ctrlFrame .close data)] ∧
            data.length ≤ 125 ∧ data ≠ [] ∧ ClosePayload data code reason := by
        intro code hcode hne
        have hcond : (failCode e).1 ≠ 1006 ∧ c1.state = .opened := ⟨by rw [hcode]; exact hne, h1o⟩
        rw [if_pos hcond] at hs' ⊢
        obtain ⟨hser, hlen⟩ := hd hcond.1
        have hrt := (C06_close_roundtrip ..).1 hser
        rw [hcode] at hrt
        exact ⟨hs', d, _, rfl, hlen, hrt.2, (C06_parse_close_iff ..).1 hrt.1⟩
      cases e with
      | eofError =>
        simp only [failureCode, failCode, ne_eq, not_true_eq_false, false_and, if_false] at hs' ⊢
        exact ⟨trivial, hs'.trans h1o⟩
      | protocolError m => exact key 1002 rfl (by decide)
      | payloadTooBig m => exact key 1009 rfl (by decide)
      | unicodeDecodeError r p => exact key 1007 rfl (by decide)
      | _ => exact key 1011 rfl (by decide)
    · rw [if_neg hop]
      have h1o : c1.state ≠ .opened := by
        rw [hst]
        split
        · nofun
        · rename_i hn
          intro h
          refine hop ⟨h, fun f hf1 hf2 => hn ⟨⟨f, hf1, hf2⟩, h⟩⟩
      have hcond : ¬ ((failCode e).1 ≠ 1006 ∧ c1.state = .opened) := fun h => h1o h.2
      rw [if_neg hcond, hf.state, if_neg hcond, hst]
      refine ⟨rfl, ?_⟩
      by_cases hk : k.core.state = .opened
      · rw [if_pos hk, if_pos]
        refine ⟨Classical.byContradiction fun h => hop ⟨hk, fun f hf1 hf2 => h ⟨f, hf1, hf2⟩⟩, hk⟩
      · rw [if_neg hk, if_neg fun h => hk h.2]

/-- Example: a client that receives an oversized frame after a ping. -/
example :
    let env := Env.plain (fun _ => [0, 0, 0, 0]) (fun _ => rfl)
    let k : Conn Empty Empty := .init .client .opened (some 1)
    k.Sane ∧ ¬ k.Ended ∧
    (k.apply env (.receiveData [0x89, 1, 7, 0x81, 2])).1 =
      some (.payloadTooBig p!"over size limit (2 > 1 bytes)") ∧
    k.output env [.receiveData [0x89, 1, 7, 0x81, 2]] =
      [[0x8a, 0x81, 0, 0, 0, 0, 7],
       [0x88, 0x9f, 0, 0, 0, 0, 3, 0xF1] ++ b!"over size limit (2 > 1 bytes)", []] :=
  ⟨Conn.init_sane _ _ _ (by intro n hn; cases hn; decide),
    fun h => (by rcases h with h | h <;> cases h), by decide +kernel, by decide +kernel⟩

end WS
