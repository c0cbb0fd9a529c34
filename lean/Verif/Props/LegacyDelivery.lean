import Verif.Props.LegacyTransfer
import Verif.Props.LegacySend
import Verif.Props.LegacyPings

/-!
# From `send` to `recv`, between two legacy connections: C76
-/

namespace WS.LegacyConn

open WS.Legacy (transmit Use Receiver RAct AReader)
open WS.Spec (assemble assembleFrom Each Carries)
open WS.Legacy.Spec (written Keyed)

/-! ## Specification -/

/-- What a call to `send` is meant to send: a string or bytes, or the concatenation of what an iterator
gives, if all items have the same type and there's at least one. -/
inductive Spec.Content : Msg → Bool × Bytes → Prop where
  | plain {t d} : Content (.plain t d) (t, d)
  | iter {t chunks} : chunks ≠ [] → Content (.iter (chunks.map (.data t))) (t, chunks.flatten)
  | aiter {b t chunks} : chunks ≠ [] → Content (.aiter b (chunks.map (.data t))) (t, chunks.flatten)

/-- In a list without duplicates, `i` comes first; `j` may come later. -/
def Spec.Before (i j : Nat) (order : List Nat) : Prop := ∃ p q, order = p ++ q ∧ i ∈ p ∧ j ∉ p

/-- Messages that were sent in the execution `as`, where `os` was observed: each is the argument of a call
to `send`.  The message of every call that returned is there, once, before those of the calls that were made
after this call returned. -/
structure Spec.Sent (as : List Act) (os : List Obs) (order : List Nat) (msgs : List (Bool × Bytes)) : Prop where
  nodup : order.Nodup
  contents : Each (fun i c => ∃ m, (callsOf as)[i]? = some (.send m) ∧ Content m c) order msgs
  returned : ∀ i m c, .returned i ∈ os → (callsOf as)[i]? = some (.send m) → Content m c → i ∈ order
  fifo : ∀ as1 as2 s1 os1 i j m c, as = as1 ++ as2 → Conn.exec {} as1 = some (s1, os1) → .returned i ∈ os1 →
    (callsOf as)[i]? = some (.send m) → Content m c → (callsOf as1).length ≤ j → Before i j order

/-! ## What frames carry -/

theorem Spec.Complete.tail {f : Frame} {fs : List Frame} (h : Complete (f :: fs)) (hf : f.fin = false) :
    Complete fs := by
  obtain ⟨init, g, h1, h2⟩ := h
  cases init with
  | nil => simp only [List.nil_append, List.cons.injEq] at h1; rw [h1.1, h2] at hf; cases hf
  | cons x init =>
    simp only [List.cons_append, List.cons.injEq] at h1
    exact ⟨init, g, h1.2, h2⟩

theorem Spec.Complete.ne_nil {fs : List Frame} (h : Complete fs) : fs ≠ [] := by
  obtain ⟨init, g, rfl, -⟩ := h
  simp

theorem assembleFrom_unfinished {cur : Option (Bool × Bytes)} {fs : List Frame} (h : ∀ f ∈ fs, f.fin = false) :
    assembleFrom cur fs = [] := by
  induction fs generalizing cur with
  | nil => cases cur <;> rfl
  | cons f fs ih =>
    simp only [assembleFrom, h f (by simp), Bool.false_eq_true, if_false]
    exact ih fun g hg => h g (by simp [hg])

theorem rest_content {t : Bool} {items : List Chunk} (h : Spec.Complete (Spec.rest t items)) :
    ∃ chunks : List Bytes, items = chunks.map (.data t) ∧ ∀ cur gs,
      assembleFrom (some (t, cur)) (Spec.rest t items ++ gs) = (t, cur ++ chunks.flatten) :: assembleFrom none gs := by
  induction items with
  | nil => exact ⟨[], rfl, fun cur gs => by simp [Spec.rest, assembleFrom]⟩
  | cons c items ih =>
    cases c with
    | error => exact absurd rfl h.ne_nil
    | data t' d =>
      simp only [Spec.rest] at h ⊢
      split at h
      · rename_i ht
        subst ht
        obtain ⟨chunks, h1, h2⟩ := ih (h.tail rfl)
        refine ⟨d :: chunks, by simp [h1], fun cur gs => ?_⟩
        simp [assembleFrom, h2]
      · exact absurd rfl h.ne_nil

theorem fragments_content {items : List Chunk} (h : Spec.Complete (Spec.fragments items)) :
    ∃ t, ∃ chunks : List Bytes, chunks ≠ [] ∧ items = chunks.map (.data t) ∧
      ∀ gs, assembleFrom none (Spec.fragments items ++ gs) = (t, chunks.flatten) :: assembleFrom none gs := by
  unfold Spec.fragments at h ⊢
  split at h
  · rename_i t d items
    obtain ⟨chunks, h1, h2⟩ := rest_content (h.tail rfl)
    refine ⟨t, d :: chunks, by simp, by simp [h1], fun gs => ?_⟩
    cases t <;> simp [assembleFrom, h2]
  · exact absurd rfl h.ne_nil

/-- The frames of a message carry its content. -/
theorem frames_content {m : Msg} (h : Spec.Complete (Spec.frames m)) :
    ∃ c, Spec.Content m c ∧ ∀ gs, assembleFrom none (Spec.frames m ++ gs) = c :: assembleFrom none gs := by
  cases m with
  | plain t d => exact ⟨(t, d), .plain, fun gs => by cases t <;> simp [Spec.frames, assembleFrom]⟩
  | iter items =>
    obtain ⟨t, chunks, h1, rfl, h2⟩ := fragments_content h
    exact ⟨_, .iter h1, h2⟩
  | aiter b items =>
    obtain ⟨t, chunks, h1, rfl, h2⟩ := fragments_content h
    exact ⟨_, .aiter h1, h2⟩

theorem Spec.Content.frames {m : Msg} {c : Bool × Bytes} (h : Content m c) : Spec.frames m ≠ [] := by
  cases h with
  | plain => simp [Spec.frames]
  | @iter t chunks hc =>
    cases chunks with
    | nil => exact absurd rfl hc
    | cons d chunks => simp [Spec.frames, Spec.fragments]
  | @aiter b t chunks hc =>
    cases chunks with
    | nil => exact absurd rfl hc
    | cons d chunks => simp [Spec.frames, Spec.fragments]

theorem rest_prefix {t : Bool} {items : List Chunk} {p : List Frame} (h : p <+: Spec.rest t items) :
    p = Spec.rest t items ∧ Spec.Complete p ∨ ∀ f ∈ p, f.fin = false := by
  induction items generalizing p with
  | nil =>
    cases p with
    | nil => exact .inr (by simp)
    | cons f p =>
      simp only [Spec.rest, List.cons_prefix_cons, List.prefix_nil] at h
      obtain ⟨rfl, rfl⟩ := h
      exact .inl ⟨rfl, [], _, rfl, rfl⟩
  | cons c items ih =>
    cases c with
    | error => rw [Spec.rest, List.prefix_nil] at h; subst h; exact .inr (by simp)
    | data t' d =>
      simp only [Spec.rest] at h ⊢
      split at h
      · rename_i ht
        rw [if_pos ht]
        cases p with
        | nil => exact .inr (by simp)
        | cons f p =>
          rw [List.cons_prefix_cons] at h
          obtain ⟨rfl, h⟩ := h
          rcases ih h with ⟨h1, init, g, h2, h3⟩ | h1
          · exact .inl ⟨by rw [h1], _ :: init, g, by rw [h2]; rfl, h3⟩
          · refine .inr ?_
            intro f hf
            rcases List.mem_cons.1 hf with rfl | hf
            · rfl
            · exact h1 f hf
      · rw [List.prefix_nil] at h; subst h; exact .inr (by simp)

theorem fragments_prefix {items : List Chunk} {p : List Frame} (h : p <+: Spec.fragments items) :
    p = Spec.fragments items ∧ Spec.Complete p ∨ ∀ f ∈ p, f.fin = false := by
  unfold Spec.fragments at h ⊢
  split at h
  · cases p with
    | nil => exact .inr (by simp)
    | cons f p =>
      rw [List.cons_prefix_cons] at h
      obtain ⟨rfl, h⟩ := h
      rcases rest_prefix h with ⟨h1, init, g, h2, h3⟩ | h1
      · exact .inl ⟨by rw [h1], _ :: init, g, by rw [h2]; rfl, h3⟩
      · refine .inr ?_
        intro f hf
        rcases List.mem_cons.1 hf with rfl | hf
        · rfl
        · exact h1 f hf
  · rw [List.prefix_nil] at h; subst h; exact .inr (by simp)

/-- The first frames of a message: all of them, or none carries FIN. -/
theorem frames_prefix {m : Msg} {p : List Frame} (h : p <+: Spec.frames m) :
    p = Spec.frames m ∧ Spec.Complete p ∨ ∀ f ∈ p, f.fin = false := by
  cases m with
  | plain t d =>
    cases p with
    | nil => exact .inr (by simp)
    | cons f p =>
      simp only [Spec.frames, List.cons_prefix_cons, List.prefix_nil] at h
      obtain ⟨rfl, rfl⟩ := h
      exact .inl ⟨rfl, [], _, rfl, rfl⟩
  | iter items => exact fragments_prefix h
  | aiter b items => exact fragments_prefix h

theorem callFrames_prefix {calls : List Call} {j : Nat} {p : List Frame} (h : p <+: Spec.callFrames calls j) :
    p = Spec.callFrames calls j ∧ Spec.Complete p ∨ ∀ f ∈ p, f.fin = false := by
  unfold Spec.callFrames at h ⊢
  split at h
  · exact frames_prefix h
  · rw [List.prefix_nil] at h; subst h; exact .inr (by simp)

/-- Complete messages, one after another. -/
theorem assemble_calls {calls : List Call} {order : List Nat}
    (h : ∀ i ∈ order, Spec.Complete (Spec.callFrames calls i)) (gs : List Frame) :
    ∃ msgs, assembleFrom none (order.flatMap (Spec.callFrames calls) ++ gs) = msgs ++ assembleFrom none gs ∧
      Each (fun i c => ∃ m, calls[i]? = some (.send m) ∧ Spec.Content m c) order msgs := by
  induction order with
  | nil => exact ⟨[], rfl, .nil⟩
  | cons i order ih =>
    obtain ⟨msgs, h1, h2⟩ := ih fun i hi => h i (by simp [hi])
    have hi := h i (by simp)
    unfold Spec.callFrames at hi
    split at hi
    · rename_i m hm
      obtain ⟨c, h3, h4⟩ := frames_content hi
      refine ⟨c :: msgs, ?_, .cons ⟨m, hm, h3⟩ h2⟩
      rw [List.flatMap_cons, List.append_assoc, Spec.callFrames_send hm, h4, h1, List.cons_append]
    · exact absurd rfl hi.ne_nil

/-! ## C76 -/

/-- **C76, partial.** The messages that the frames of a connection carry are those of the calls to `send`.
What is missing: executions that aren't `Calm`, for which it is false (`C54_first_false`,
`C54_cancel_false`). -/
theorem C76_sent_partial {as : List Act} {s : Conn} {os : List Obs} (h : Conn.exec {} as = some (s, os))
    (hcalm : Spec.Calm as) : ∃ order, Spec.Sent as os order (assemble (s.log.map (·.2))) := by
  obtain ⟨h1, done, part, h2, h3⟩ := Frags.exec_prefix h hcalm
  have hall : ∃ order, done <+: order ∧ order.Nodup ∧ 
      Each (fun i c => ∃ m, s.calls[i]? = some (.send m) ∧ Spec.Content m c) order
        (assemble (s.log.map (·.2))) := by
    have heq : assemble (s.log.map (·.2)) = assembleFrom none (done.flatMap (Spec.callFrames s.calls) ++ part) := by
      rw [← h2.eq]; rfl
    rw [heq]
    have hno : (∀ f ∈ part, f.fin = false) → ∃ order, done <+: order ∧ order.Nodup ∧
        Each (fun i c => ∃ m, s.calls[i]? = some (.send m) ∧ Spec.Content m c) order
          (assembleFrom none (done.flatMap (Spec.callFrames s.calls) ++ part)) := by
      intro hf
      obtain ⟨msgs, k1, k2⟩ := assemble_calls (fun i hi => (h2.complete i hi).2) part
      refine ⟨done, List.prefix_refl _, h2.nodup, ?_⟩
      rw [k1, assembleFrom_unfinished hf, List.append_nil]
      exact k2
    by_cases hp : part = []
    · exact hno (by simp [hp])
    · obtain ⟨j, g1, g2, g3⟩ := h2.part hp
      rcases callFrames_prefix g3 with ⟨g4, g5⟩ | g4
      · obtain ⟨msgs, k1, k2⟩ := assemble_calls (calls := s.calls) (order := done ++ [j]) (by
          intro i hi
          rcases List.mem_append.1 hi with hi | hi
          · exact (h2.complete i hi).2
          · rw [List.mem_singleton] at hi
            subst hi
            rw [← g4]; exact g5) []
        refine ⟨done ++ [j], List.prefix_append _ _, ?_, ?_⟩
        · rw [List.nodup_append]
          refine ⟨h2.nodup, by simp, ?_⟩
          intro a ha b hb
          rw [List.mem_singleton] at hb
          subst hb
          rintro rfl
          exact g2 ha
        · simp only [List.flatMap_append, List.flatMap_cons, List.flatMap_nil, List.append_nil, ← g4] at k1
          rw [k1]
          simpa [assembleFrom] using k2
      · exact hno g4
  obtain ⟨order, ⟨q, rfl⟩, hnd, heach⟩ := hall
  rw [h1] at heach
  refine ⟨done ++ q, hnd, heach, ?_, ?_⟩
  · intro i m c hr hm hcont
    rw [← h1] at hm
    rcases (h2.ret i hr).2 m hm with hd | hd
    · exact List.mem_append_left _ hd
    · exact absurd hd hcont.frames
  · intro as1 as2 s1 os1 i j m c he hex hr hm hcont hj
    obtain ⟨s1', os1', done1, part1, k1, k2, k3, ⟨q1, k4⟩⟩ := h3 as1 as2 he
    rw [hex] at k1
    cases k1
    have hi := (k3.ret i hr).1
    have hm1 : s1.calls[i]? = some (.send m) := by
      rw [he, Spec.callsOf_append, ← k2, List.getElem?_append_left hi] at hm
      exact hm
    refine ⟨done1, q1 ++ q, by rw [← k4, List.append_assoc], ?_, ?_⟩
    · rcases (k3.ret i hr).2 m hm1 with hd | hd
      · exact hd
      · exact absurd hd hcont.frames
    · intro hd
      have := (k3.complete j hd).1
      rw [k2] at this
      omega

/-- **C76, partial.** From `send` to `recv`: a connection executes `as`; its extensions encode the frames that
it writes, in order, and decode others in the meantime.  This raises no exception.  The other connection
receives the bytes, cut into any chunks; its calls to `recv` return, in order, what calls to `send` were
given.  Nothing is missing when it has received everything or when it is closed.  What is missing:
executions that aren't `Calm`, for which it is false (`C54_first_false`, `C54_cancel_false`). -/
theorem C76_delivered_partial {X : Type} {ops : ExtOps X} {size : Nat} {R : Bool → List X → List X → Prop}
    (hc : WS.Spec.Channel ops size R) {xs ys : List X} (hR : R false xs ys)
    {as : List Act} {s : Conn} {os : List Obs} (h : Conn.exec {} as = some (s, os)) (hcalm : Spec.Calm as)
    (hsize : ∀ f ∈ s.log.map (·.2), f.data.length ≤ size)
    (client : Bool) (us : List Use) (hus : written us = s.log.map (·.2)) (hk : Keyed us) :
    ∃ wire order msgs, transmit ops client xs us = .ok wire ∧ Spec.Sent as os order msgs ∧
      ∀ maxSize maxQueue (r : AReader), r.eof = false →
      ∀ ras more, r.buf ++ WS.Legacy.Spec.arrived ras ++ more = wire.flatten →
      ∀ t ros, (Receiver.init client maxSize maxQueue ys r).exec ops ras = some (t, ros) →
        (∃ n, Each Carries (msgs.take n) (WS.Legacy.Spec.returned ros)) ∧
        (t.ended = some .closed ∨
            (more = [] ∧ t.queue.transfer = .reading ∧ t.phase = .reading ∧ t.step ops .run = none) →
          Each Carries msgs (WS.Legacy.Spec.returned ros ++ t.queue.messages)) := by
  obtain ⟨order, hsent⟩ := C76_sent_partial h hcalm
  obtain ⟨b, hm⟩ := C54_fragmentation_partial h hcalm
  obtain ⟨ext, hg1, -, hg3, -, hg5⟩ := Conn.exec_grows h
  simp only [Conn.frames, List.map_nil, List.nil_append] at hg1
  have hfilter : (written us).filter WS.Spec.isDataFrame = s.dataFrames := by
    rw [hus, Conn.dataFrames]
    congr 1
    funext f
    exact WS.isDataFrame_eq f
  obtain ⟨wire, l, h1, h2, h3⟩ := WS.Legacy.transmit_peer (client := client) (us := us) (b := b) hc hR
    (by rw [hfilter]; exact hm)
    (by
      rw [hus]
      exact fun f hf => ⟨hg5 f (by rw [← hg1]; exact hf), hsize f hf⟩) hk
  refine ⟨wire, order, _, h1, hsent, ?_⟩
  rw [← hus, ← h2]
  intro maxSize maxQueue r hr ras more hbytes t ros hex
  refine ⟨WS.Legacy.C75_order hc hR h3 maxSize maxQueue r hr ras more hbytes t ros hex, ?_⟩
  rintro (he | ⟨rfl, k1, k2, k3⟩)
  · refine WS.Legacy.C75_closed hc hR h3 ?_ maxSize maxQueue r hr ras more hbytes t ros hex he
    intro pre f post hl
    rw [h2, hus, hg1] at hl
    exact hg3 pre f post hl
  · rw [List.append_nil] at hbytes
    exact WS.Legacy.C75_complete hc hR h3 maxSize maxQueue r hr ras hbytes t ros hex k1 k2 k3

/-- The negation of **C76** in general: when a call to `send` is cancelled, the message it was sending
isn't finished; the next message is sent in the middle of it. -/
theorem C76_cancel_false :
    ∃ as s os, Conn.exec {} as = some (s, os) ∧ .returned 1 ∈ os ∧
      assemble (s.log.map (·.2)) = [(true, b!"ab")] ∧
      ¬∃ order, Spec.Sent as os order (assemble (s.log.map (·.2))) := by
  have hd : ((Conn.exec {} [.call (.send (.iter [.data true b!"a"])), .call (.send (.plain true b!"b")),
      .cancel 0, .resume 1 .ok, .resume 1 .ok]).map fun r =>
        decide (.returned 1 ∈ r.2 ∧ assemble (r.1.log.map (·.2)) = [(true, b!"ab")])) = some true := by
    decide +kernel
  rw [Option.map_eq_some_iff] at hd
  obtain ⟨⟨s, os⟩, hx, hd⟩ := hd
  obtain ⟨h1, h2⟩ := of_decide_eq_true hd
  refine ⟨_, s, os, hx, h1, h2, ?_⟩
  rintro ⟨order, hs⟩
  have hc := hs.contents
  simp only at h2
  rw [h2] at hc
  cases hc with
  | @cons i _ _ _ h _ =>
    obtain ⟨m, hm, hcont⟩ := h
    simp only [Spec.callsOf, List.filterMap_cons, List.filterMap_nil] at hm
    match i, hm with
    | 0, hm =>
      simp only [List.getElem?_cons_zero, Option.some.injEq, Call.send.injEq] at hm
      subst hm
      generalize hi : [Chunk.data true b!"a"] = items at hcont
      generalize hcc : (true, b!"ab") = c at hcont
      generalize hmm : Msg.iter items = m at hcont
      cases hcont with
      | plain => cases hmm
      | aiter => cases hmm
      | @iter t chunks hne =>
        cases hmm
        match chunks, hi with
        | [d], hi =>
          simp only [List.map_cons, List.map_nil, List.cons.injEq, Chunk.data.injEq, and_true] at hi
          obtain ⟨rfl, rfl⟩ := hi
          exact absurd hcc (by decide)
        | _ :: _ :: _, hi => simp at hi
    | 1, hm =>
      simp only [List.getElem?_cons_zero, List.getElem?_cons_succ, Option.some.injEq, Call.send.injEq] at hm
      subst hm
      generalize hcc : (true, b!"ab") = c at hcont
      cases hcont
      exact absurd hcc (by decide)
    | i + 2, hm => simp at hm

/-! ## Examples -/

/-- Two concurrent calls to `send`, the first one with an iterator, and a ping; then another call, and
`close`. -/
def deliveryActs : List Act :=
  [.call (.send (.iter [.data true b!"ab", .data true b!"c"])), .call (.send (.plain false [1, 2, 3, 4])),
    .call (.ping true b!"p"), .resume 0 .ok, .resume 0 .ok, .resume 0 .ok, .resume 1 .ok, .resume 1 .ok,
    .call (.send (.plain true b!"d")), .call (.close [3, 232])]

/-- What the extensions of this client do, with constant masking keys. -/
def deliveryUses : List Use :=
  [.write { fin := false, opcode := .text, data := b!"ab" } [1, 2, 3, 4],
    .write { fin := true, opcode := .ping, data := b!"p" } [1, 2, 3, 4],
    .write { fin := false, opcode := .cont, data := b!"c" } [1, 2, 3, 4],
    .read (some 16) { fin := true, opcode := .pong, data := b!"p" },
    .write { fin := true, opcode := .cont, data := [] } [1, 2, 3, 4],
    .write { fin := true, opcode := .binary, data := [1, 2, 3, 4] } [1, 2, 3, 4],
    .write { fin := true, opcode := .text, data := b!"d" } [1, 2, 3, 4],
    .write { fin := true, opcode := .close, data := [3, 232] } [1, 2, 3, 4]]

def deliveryWire : Bytes :=
  match transmit (pmdOps storedZlib) true WS.Legacy.transferClient deliveryUses with
  | .ok ws => ws.flatten
  | .error _ => []

/-- The server receives this in two pieces. -/
def deliveryReceived : List RAct :=
  [.recv 0, .data (deliveryWire.take 50), .run, .run, .answered none, .run, .run, .wake 0, .run,
    .data (deliveryWire.drop 50), .run, .run, .run, .answered none]

theorem delivery_calm : Spec.Calm deliveryActs := by
  refine ⟨fun items h => ?_, fun i h => ?_⟩
  · simp [deliveryActs] at h
  · simp [deliveryActs] at h

example : ∃ s os, Conn.exec {} deliveryActs = some (s, os) ∧ Spec.Calm deliveryActs ∧
    (∀ f ∈ s.log.map (·.2), f.data.length ≤ 2 ^ 60) ∧ written deliveryUses = s.log.map (·.2) ∧
    Keyed deliveryUses ∧ .returned 0 ∈ os ∧ .returned 1 ∈ os ∧
    WS.Legacy.Spec.arrived deliveryReceived = deliveryWire ∧
    ((Receiver.init true none (some 2) WS.Legacy.transferServer { limit := 65536 }).exec (pmdOps storedZlib)
      deliveryReceived).map (fun r => (r.1.ended, WS.Legacy.Spec.returned r.2, r.1.queue.messages)) =
      some (some .closed, [.text p!"abc"], [.binary [1, 2, 3, 4], .text p!"d"]) := by
  have hd : ((Conn.exec {} deliveryActs).map fun r => decide (
      (∀ f ∈ r.1.log.map (·.2), f.data.length ≤ 2 ^ 60) ∧ written deliveryUses = r.1.log.map (·.2) ∧
      .returned 0 ∈ r.2 ∧ .returned 1 ∈ r.2)) = some true := by decide +kernel
  rw [Option.map_eq_some_iff] at hd
  obtain ⟨⟨s, os⟩, hx, hd⟩ := hd
  obtain ⟨h1, h2, h3, h4⟩ := of_decide_eq_true hd
  refine ⟨s, os, hx, delivery_calm, h1, h2, ?_, h3, h4, by decide +kernel, by decide +kernel⟩
  intro f key hf
  simp only [deliveryUses, List.mem_cons, List.not_mem_nil, or_false, Use.write.injEq, reduceCtorEq, false_or] at hf
  rcases hf with ⟨-, rfl⟩ | ⟨-, rfl⟩ | ⟨-, rfl⟩ | ⟨-, rfl⟩ | ⟨-, rfl⟩ | ⟨-, rfl⟩ | ⟨-, rfl⟩ <;> rfl

end WS.LegacyConn
