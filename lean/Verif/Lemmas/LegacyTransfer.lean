import Verif.Model.LegacyTransfer
import Verif.Props.LegacyRead
import Verif.Lemmas.ConnFwd

/-!
# Reassembling messages, one frame at a time
-/

namespace WS

open Spec

/-- The messages that data frames carry: whether they're text, and their payload. `cur` is the message in
progress. -/
def Spec.assembleFrom : Option (Bool × Bytes) → List Frame → List (Bool × Bytes)
  | _, [] => []
  | cur, f :: fs =>
    let m := match cur with
      | none => (decide (f.opcode = .text), f.data)
      | some (text, data) => (text, data ++ f.data)
    if f.fin then m :: assembleFrom none fs else assembleFrom (some m) fs

/-- The messages that a sequence of frames carries (RFC 6455, section 5.4). -/
def Spec.assemble (fs : List Frame) : List (Bool × Bytes) :=
  assembleFrom none (fs.filter (!·.opcode.isCtrl))

/-- What `recv` returns for a message. -/
inductive Spec.Carries : Bool × Bytes → Data → Prop where
  | text {b s} : IsUtf8 b s → Carries (true, b) (.text s)
  | binary {b} : Carries (false, b) (.binary b)

/-- One by one. -/
inductive Spec.Each {α β : Type} (R : α → β → Prop) : List α → List β → Prop where
  | nil : Each R [] []
  | cons {a b as bs} : R a b → Each R as bs → Each R (a :: as) (b :: bs)

theorem Spec.Each.append {α β : Type} {R : α → β → Prop} {as as' : List α} {bs bs' : List β}
    (h : Each R as bs) (h' : Each R as' bs') : Each R (as ++ as') (bs ++ bs') := by
  induction h with
  | nil => exact h'
  | cons h _ ih => exact .cons h ih

theorem Spec.Each.length {α β : Type} {R : α → β → Prop} {as : List α} {bs : List β}
    (h : Each R as bs) : as.length = bs.length := by
  induction h with
  | nil => rfl
  | cons _ _ ih => simp [ih]

theorem Spec.Each.split {α β : Type} {R : α → β → Prop} {as : List α} {bs bs' : List β}
    (h : Each R as (bs ++ bs')) : ∃ as1 as2, as = as1 ++ as2 ∧ Each R as1 bs ∧ Each R as2 bs' := by
  induction bs generalizing as with
  | nil => exact ⟨[], as, rfl, .nil, h⟩
  | cons b bs ih =>
    cases h with
    | @cons a _ as _ h1 h2 =>
      obtain ⟨as1, as2, rfl, k1, k2⟩ := ih h2
      exact ⟨a :: as1, as2, rfl, .cons h1 k1, k2⟩

/-! ## `read_message` -/

theorem MsgReader.append_text {r r' : MsgReader} {f : Frame} (h : r.append f = .ok r') :
    r'.text = r.text := by
  unfold MsgReader.append at h
  split at h
  · split at h <;> cases h; rfl
  · cases h; rfl

theorem MsgReader.loop_more {r : MsgReader} {xs : List Frame} (h : r.loop (xs.map some) = none) :
    (∀ f ∈ xs, f.opcode = .cont ∧ f.fin = false) ∧
      ∃ r' : MsgReader, r'.text = r.text ∧ ∀ ys, r.loop (xs.map some ++ ys) = r'.loop ys := by
  induction xs generalizing r with
  | nil => exact ⟨by simp, r, rfl, fun ys => rfl⟩
  | cons f xs ih =>
    simp only [List.map_cons, MsgReader.loop] at h
    split at h
    · cases h
    · rename_i hop
      cases ha : r.append f with
      | error e => simp [ha] at h
      | ok r1 =>
        simp only [ha] at h
        split at h
        · cases h
        · rename_i hfin
          obtain ⟨h1, r', h2, h3⟩ := ih h
          refine ⟨?_, r', h2.trans (MsgReader.append_text ha), fun ys => ?_⟩
          · intro g hg
            rcases List.mem_cons.1 hg with rfl | hg
            · exact ⟨Decidable.of_not_not hop, by simpa using hfin⟩
            · exact h1 g hg
          · rw [← h3 ys]
            simp only [List.map_cons, List.cons_append, MsgReader.loop]
            rw [if_neg hop]
            simp only [ha]
            rw [if_neg hfin]

theorem MsgReader.loop_some {r : MsgReader} {xs ys : List (Option Frame)} {x : Except Exc Data}
    (h : r.loop xs = some x) : r.loop (xs ++ ys) = some x := by
  induction xs generalizing r with
  | nil => cases h
  | cons f xs ih =>
    cases f with
    | none => exact h
    | some f =>
      simp only [List.cons_append, MsgReader.loop] at h ⊢
      split
      · rename_i hop; simpa [hop] using h
      · rename_i hop
        rw [if_neg hop] at h
        cases ha : r.append f with
        | error e => simpa [ha] using h
        | ok r1 =>
          simp only [ha] at h ⊢
          split
          · rename_i hfin; simpa [hfin] using h
          · rename_i hfin
            rw [if_neg hfin] at h
            exact ih h

theorem readMessage_some {maxSize : Option Int} {xs ys : List (Option Frame)}
    {x : Except Exc (Option Data)} (h : readMessage maxSize xs = some x) :
    readMessage maxSize (xs ++ ys) = some x := by
  cases xs with
  | nil => cases h
  | cons f xs =>
    cases f with
    | none => exact h
    | some f =>
      simp only [List.cons_append, readMessage] at h ⊢
      split
      · rename_i hop; rw [if_pos hop] at h; exact h
      · rename_i hop
        rw [if_neg hop] at h
        split
        · rename_i hfin; rw [if_pos hfin] at h; exact h
        · rename_i hfin
          rw [if_neg hfin] at h
          split
          · rename_i e he; simpa [he] using h
          · rename_i r hr
            simp only [hr] at h
            cases hl : r.loop xs with
            | none => simp [hl] at h
            | some y => rw [MsgReader.loop_some hl, ← hl]; exact h

/-- The frames of a message in progress. -/
inductive Open : Opcode → List Bytes → List Frame → Prop where
  | nil {op} : Open op [] []
  | cons {op d ds} : op = .text ∨ op = .binary → Open op (d :: ds)
      ({ fin := false, opcode := op, data := d } ::
        ds.map fun d => { fin := false, opcode := .cont, data := d })

theorem fragment_cont (ds : List Bytes) (x : Bytes) :
    fragment .cont (ds ++ [x]) =
      (ds.map fun d => ({ fin := false, opcode := .cont, data := d } : Frame)) ++
        [{ fin := true, opcode := .cont, data := x }] := by
  induction ds with
  | nil => rfl
  | cons d ds ih =>
    have : d :: ds ++ [x] = d :: (ds ++ [x]) := rfl
    rw [this]
    cases h : ds ++ [x] with
    | nil => simp at h
    | cons a l => rw [fragment, ← h, ih]; rfl; simp

theorem Open.last {op : Opcode} {ds : List Bytes} {fs : List Frame} (h : Open op ds fs) (x : Bytes) :
    fs ++ [{ fin := true, opcode := if fs = [] then op else .cont, data := x }] =
      fragment op (ds ++ [x]) := by
  cases h with
  | nil => rfl
  | @cons d ds _ =>
    have : (d :: ds) ++ [x] = d :: (ds ++ [x]) := rfl
    rw [this]
    cases h : ds ++ [x] with
    | nil => simp at h
    | cons a l => rw [fragment, ← h, fragment_cont]; simp; simp

theorem valid_data {f : Frame} (h : ValidFrame f) {fin : Bool} {op : Opcode} (h1 : f.fin = fin)
    (h2 : f.opcode = op) : ({ fin, opcode := op, data := f.data } : Frame) = f := by
  obtain ⟨h3, h4, h5, -⟩ := h
  cases f
  simp_all

/-- One more frame. -/
theorem readMessage_next {maxSize : Option Int} {op : Opcode} {ds : List Bytes} {cur : List Frame}
    (hc : Open op ds cur) (hn : readMessage maxSize (cur.map some) = none) {f : Frame}
    (hv : ValidFrame f) :
    (readMessage maxSize ((cur ++ [f]).map some) = none →
      f.fin = false ∧ ∃ op', (cur ≠ [] → op' = op) ∧ Open op' (ds ++ [f.data]) (cur ++ [f])) ∧
    (∀ m, readMessage maxSize ((cur ++ [f]).map some) = some (.ok m) → f.fin = true ∧
      ∃ op' d, (cur ≠ [] → op' = op) ∧ (op' = .text ∨ op' = .binary) ∧ m = some d ∧
        (cur = [] → op' = f.opcode) ∧ (cur ≠ [] → f.opcode = .cont) ∧
        Carries (decide (op' = .text), (ds ++ [f.data]).flatten) d) := by
  -- the result, once the message is complete
  have fin_case : ∀ op', (op' = .text ∨ op' = .binary) → ∀ m,
      readMessage maxSize ((fragment op' (ds ++ [f.data])).map some) = some (.ok m) →
      ∃ d, m = some d ∧ Carries (decide (op' = .text), (ds ++ [f.data]).flatten) d := by
    intro op' hop m hm
    rcases hop with rfl | rfl
    · obtain ⟨s, rfl, hs⟩ := ((C08_text maxSize (ds ++ [f.data]) (by simp)).1 m).1 hm
      exact ⟨_, rfl, .text hs⟩
    · rw [C08_binary maxSize _ (by simp)] at hm
      cases hm
      exact ⟨_, rfl, .binary⟩
  cases hc with
  | nil =>
    simp only [List.nil_append, List.map_cons, List.map_nil, List.flatten_cons, List.flatten_nil,
      List.append_nil] at fin_case ⊢
    constructor
    · intro h
      simp only [readMessage] at h
      split at h
      · cases h
      · rename_i hop
        split at h
        · split at h
          · split at h <;> cases h
          · cases h
        · rename_i hfin
          refine ⟨by simpa using hfin, f.opcode, by simp, ?_⟩
          have hop' : f.opcode = .text ∨ f.opcode = .binary := by
            rcases Classical.em (f.opcode = .text) with h | h
            · exact .inl h
            · exact .inr (Decidable.of_not_not fun h' => hop ⟨h, h'⟩)
          have := Open.cons (d := f.data) (ds := []) hop'
          rw [show ({ fin := false, opcode := f.opcode, data := f.data } : Frame) = f from
            valid_data hv (by simpa using hfin) rfl] at this
          exact this
    · intro m h
      have hfin : f.fin = true := by
        simp only [readMessage] at h
        split at h
        · cases h
        · split at h
          · rename_i hfin; exact hfin
          · split at h
            · cases h
            · simp [MsgReader.loop] at h
      have hop : f.opcode = .text ∨ f.opcode = .binary := by
        simp only [readMessage] at h
        split at h
        · cases h
        · rename_i hop
          rcases Classical.em (f.opcode = .text) with h | h
          · exact .inl h
          · exact .inr (Decidable.of_not_not fun h' => hop ⟨h, h'⟩)
      refine ⟨hfin, f.opcode, ?_⟩
      obtain ⟨d, rfl, hd⟩ := fin_case f.opcode hop m (by
        rw [show fragment f.opcode [f.data] = [f] by
          rw [fragment, valid_data hv hfin rfl]]
        exact h)
      exact ⟨d, by simp, hop, rfl, by simp, by simp, hd⟩
  | @cons d ds hop =>
    simp only [List.map_cons, readMessage] at hn
    rw [if_neg (by rcases hop with h | h <;> simp [h])] at hn
    simp only [Bool.false_eq_true, if_false] at hn
    generalize hr0 : ({ text := decide (op = .text), maxSize } : MsgReader).append
        { fin := false, opcode := op, data := d } = x at hn
    cases x with
    | error e => cases hn
    | ok r =>
      have hl : r.loop ((ds.map fun d => ({ fin := false, opcode := .cont, data := d } : Frame)).map some) =
          none := by
        cases hl : r.loop ((ds.map fun d => ({ fin := false, opcode := .cont, data := d } : Frame)).map some) with
        | none => rfl
        | some y => simp only [hl] at hn; cases hn
      obtain ⟨-, r', hr', hmore⟩ := MsgReader.loop_more hl
      have heq : readMessage maxSize
          ((({ fin := false, opcode := op, data := d } : Frame) ::
            (ds.map fun d => ({ fin := false, opcode := .cont, data := d } : Frame)) ++ [f]).map some) =
          (r'.loop [some f]).map fun res => res.map some := by
        simp only [List.cons_append, List.map_cons, List.map_append, readMessage]
        rw [if_neg (by rcases hop with h | h <;> simp [h])]
        simp only [Bool.false_eq_true, if_false, hr0]
        rw [hmore]
        rfl
      rw [heq]
      constructor
      · intro h
        simp only [MsgReader.loop] at h
        split at h
        · cases h
        · rename_i hcont
          have hcont : f.opcode = .cont := Decidable.of_not_not hcont
          split at h
          · cases h
          · split at h
            · cases h
            · rename_i hfin
              have hfin : f.fin = false := by simpa using hfin
              refine ⟨hfin, op, fun _ => rfl, ?_⟩
              have := Open.cons (d := d) (ds := ds ++ [f.data]) hop
              rw [List.map_append, List.map_cons, List.map_nil] at this
              rw [show ({ fin := false, opcode := .cont, data := f.data } : Frame) = f from
                valid_data hv hfin hcont] at this
              exact this
      · intro m h
        have h' := h
        simp only [MsgReader.loop] at h'
        split at h'
        · cases h'
        · rename_i hcont
          have hcont : f.opcode = .cont := Decidable.of_not_not hcont
          split at h'
          · cases h'
          · split at h'
            · rename_i hfin
              refine ⟨hfin, op, ?_⟩
              obtain ⟨dd, rfl, hd⟩ := fin_case op hop m (by
                rw [← (Open.cons (d := d) (ds := ds) hop).last f.data]
                simp only [List.cons_ne_nil, if_false]
                rw [show ({ fin := true, opcode := .cont, data := f.data } : Frame) = f from
                  valid_data hv hfin hcont]
                rw [heq]
                exact h)
              exact ⟨dd, fun _ => rfl, hop, rfl, by simp, fun _ => hcont, hd⟩
            · cases h'

/-! ## A sequence of frames -/

/-- `fs` was read: this gave the messages `ms`, and `cur` is the beginning of another one. -/
inductive FramesRead (maxSize : Option Int) : List Frame → List Data → List Frame → Prop where
  | nil : FramesRead maxSize [] [] []
  | ctrl {fs ms cur f} : FramesRead maxSize fs ms cur → f.opcode.isCtrl = true →
      FramesRead maxSize (fs ++ [f]) ms cur
  | more {fs ms cur f} : FramesRead maxSize fs ms cur → f.opcode.isCtrl = false → ValidFrame f →
      readMessage maxSize ((cur ++ [f]).map some) = none → FramesRead maxSize (fs ++ [f]) ms (cur ++ [f])
  | done {fs ms cur f m} : FramesRead maxSize fs ms cur → f.opcode.isCtrl = false → ValidFrame f →
      readMessage maxSize ((cur ++ [f]).map some) = some (.ok (some m)) →
      FramesRead maxSize (fs ++ [f]) (ms ++ [m]) []

theorem Spec.assembleFrom_append {cur : Option (Bool × Bytes)} {fs : List Frame} {f : Frame}
    (hf : f.fin = true) (gs : List Frame) :
    assembleFrom cur (fs ++ [f] ++ gs) = assembleFrom cur (fs ++ [f]) ++ assembleFrom none gs := by
  induction fs generalizing cur with
  | nil => simp [assembleFrom, hf]
  | cons g fs ih =>
    simp only [List.cons_append, assembleFrom]
    split
    · rw [ih, List.cons_append]
    · rw [ih]

/-- A message in progress. -/
theorem Open.assemble {op : Opcode} {ds : List Bytes} {fs : List Frame} (h : Open op ds fs) (gs : List Frame)
    (hne : fs ≠ []) :
    assembleFrom none (fs ++ gs) = assembleFrom (some (decide (op = .text), ds.flatten)) gs := by
  cases h with
  | nil => exact absurd rfl hne
  | @cons d ds _ =>
    simp only [List.cons_append, assembleFrom, Bool.false_eq_true, if_false, List.flatten_cons]
    clear hne
    rename_i hop
    clear hop
    induction ds generalizing d with
    | nil => simp
    | cons d' ds ih =>
      simp only [List.map_cons, List.cons_append, assembleFrom, Bool.false_eq_true, if_false,
        List.flatten_cons]
      have := ih (d := d ++ d')
      rw [this, List.append_assoc]

/-- What the frames carry. -/
theorem FramesRead.spec {maxSize : Option Int} {fs : List Frame} {ms : List Data} {cur : List Frame}
    (h : FramesRead maxSize fs ms cur) :
    readMessage maxSize (cur.map some) = none ∧ (∃ op ds, Open op ds cur) ∧
      ∃ done, fs.filter (!·.opcode.isCtrl) = done ++ cur ∧
        (∀ gs, assembleFrom none (done ++ gs) = assembleFrom none done ++ assembleFrom none gs) ∧
        Each Carries (assembleFrom none done) ms := by
  induction h with
  | nil => exact ⟨rfl, ⟨.text, [], .nil⟩, [], rfl, fun gs => rfl, .nil⟩
  | ctrl _ hf ih =>
    obtain ⟨h1, h2, done, h3, h4, h5⟩ := ih
    exact ⟨h1, h2, done, by simp [hf, h3], h4, h5⟩
  | @more fs ms cur f _ hf hv hn ih =>
    obtain ⟨h1, ⟨op, ds, h2⟩, done, h3, h4, h5⟩ := ih
    obtain ⟨-, op', -, ho⟩ := (readMessage_next h2 h1 hv).1 hn
    exact ⟨hn, ⟨op', _, ho⟩, done, by simp [hf, h3], h4, h5⟩
  | @done fs ms cur f m _ hf hv hn ih =>
    obtain ⟨h1, ⟨op, ds, h2⟩, done, h3, h4, h5⟩ := ih
    obtain ⟨hfin, op', d, k1, k2, k3, k4, -, k5⟩ := (readMessage_next h2 h1 hv).2 _ hn
    cases k3
    refine ⟨rfl, ⟨.text, [], .nil⟩, done ++ (cur ++ [f]), by simp [hf, h3], ?_, ?_⟩
    · intro gs
      rw [← List.append_assoc, Spec.assembleFrom_append hfin, List.append_assoc]
    · rw [h4]
      refine h5.append ?_
      by_cases hc : cur = []
      · subst hc
        have hds : ds = [] := by cases h2; rfl
        subst hds
        rw [k4 rfl] at k5
        simp only [List.nil_append, assembleFrom, hfin, if_true]
        exact .cons (by simpa using k5) .nil
      · rw [h2.assemble [f] hc]
        simp only [assembleFrom, hfin, if_true]
        rw [k1 hc] at k5
        exact .cons (by simpa using k5) .nil

theorem FramesRead.prefix {maxSize : Option Int} {fs gs : List Frame} {ms : List Data} {cur : List Frame}
    (h : FramesRead maxSize fs ms cur) :
    ∃ n, Each Carries ((assemble (fs ++ gs)).take n) ms := by
  obtain ⟨-, -, done, h3, h4, h5⟩ := h.spec
  refine ⟨ms.length, ?_⟩
  unfold assemble
  rw [List.filter_append, h3, List.append_assoc, h4, ← h5.length, List.take_left]
  exact h5

theorem FramesRead.all {maxSize : Option Int} {fs : List Frame} {ms : List Data} {cur : List Frame}
    (h : FramesRead maxSize fs ms cur) : Each Carries (assemble fs) ms := by
  obtain ⟨-, ⟨op, ds, h2⟩, done, h3, h4, h5⟩ := h.spec
  unfold assemble
  rw [h3, h4]
  have : assembleFrom none cur = [] := by
    by_cases hc : cur = []
    · rw [hc]; rfl
    · have := h2.assemble [] hc
      rw [List.append_nil] at this
      rw [this]; rfl
  rw [this, List.append_nil]
  exact h5

/-! ## Messages that can be read -/

theorem isDataFrame_eq (f : Frame) : isDataFrame f = !f.opcode.isCtrl := by
  unfold isDataFrame
  cases f.opcode <;> rfl

theorem Open.opcode {op : Opcode} {ds : List Bytes} {cur : List Frame} {f : Frame}
    (h : Open op ds (cur ++ [f])) :
    (cur = [] → f.opcode = .text ∨ f.opcode = .binary) ∧ (cur ≠ [] → f.opcode = .cont) := by
  generalize he : cur ++ [f] = fs at h
  cases h with
  | nil => simp at he
  | @cons d ds hop =>
    cases cur with
    | nil =>
      simp only [List.nil_append, List.cons.injEq] at he
      refine ⟨fun _ => by rw [he.1]; exact hop, by simp⟩
    | cons c cur =>
      simp only [List.cons_append, List.cons.injEq] at he
      refine ⟨by simp, fun _ => ?_⟩
      have : f ∈ ds.map fun d => ({ fin := false, opcode := .cont, data := d } : Frame) := by
        rw [← he.2]; simp
      obtain ⟨d', -, rfl⟩ := List.mem_map.1 this
      rfl

/-- Total size of payloads. -/
def payloadSize (fs : List Frame) : Nat := (fs.map fun f => f.data.length).sum

theorem FramesRead.state {maxSize : Option Int} {fs : List Frame} {ms : List Data} {cur : List Frame}
    (h : FramesRead maxSize fs ms cur) :
    Messages (fs.filter isDataFrame) (decide (cur ≠ [])) ∧ (cur ≠ [] → messageSize fs = payloadSize cur) := by
  induction h with
  | nil => exact ⟨.nil, by simp⟩
  | @ctrl fs ms cur f _ hf ih =>
    have hd : isDataFrame f = false := by rw [isDataFrame_eq, hf]; rfl
    refine ⟨by simpa [hd] using ih.1, fun hc => ?_⟩
    rw [messageSize_snoc, ← ih.2 hc]
    cases ho : f.opcode <;> simp_all [Opcode.isCtrl]
  | @more fs ms cur f hr hf hv hn ih =>
    have hd : isDataFrame f = true := by rw [isDataFrame_eq, hf]; rfl
    obtain ⟨h1, ⟨op, ds, h2⟩, -⟩ := hr.spec
    obtain ⟨hfin, op', -, ho⟩ := (readMessage_next h2 h1 hv).1 hn
    simp only [List.filter_append, List.filter_cons, hd, List.filter_nil, if_true]
    obtain ⟨k1, k2⟩ := ho.opcode
    by_cases hc : cur = []
    · subst hc
      have := ih.1
      simp only [ne_eq, not_true_eq_false, decide_false] at this
      refine ⟨by simpa using Messages.first this (k1 rfl) hfin, fun _ => ?_⟩
      rw [messageSize_snoc]
      rcases k1 rfl with h | h <;> simp [h, payloadSize]
    · have := ih.1
      simp only [ne_eq, hc, not_false_eq_true, decide_true] at this
      refine ⟨by simpa using Messages.middle this (k2 hc) hfin, fun _ => ?_⟩
      rw [messageSize_snoc, k2 hc, ih.2 hc]
      simp [payloadSize]
  | @done fs ms cur f m hr hf hv hn ih =>
    have hd : isDataFrame f = true := by rw [isDataFrame_eq, hf]; rfl
    obtain ⟨h1, ⟨op, ds, h2⟩, -⟩ := hr.spec
    obtain ⟨hfin, op', d, -, k2, -, k4, k5, -⟩ := (readMessage_next h2 h1 hv).2 _ hn
    simp only [List.filter_append, List.filter_cons, hd, List.filter_nil, if_true]
    by_cases hc : cur = []
    · subst hc
      have := ih.1
      simp only [ne_eq, not_true_eq_false, decide_false] at this
      exact ⟨by simpa using Messages.whole this (k4 rfl ▸ k2) hfin, by simp⟩
    · have := ih.1
      simp only [ne_eq, hc, not_false_eq_true, decide_true] at this
      exact ⟨by simpa using Messages.last this (k5 hc) hfin, by simp⟩

/-- The rest of a message. -/
theorem Spec.Messages.rest_of {P D : List Frame} (h1 : Messages P true) (h2 : Messages (P ++ D) false)
    (hv : ∀ f ∈ D, ValidFrame f) : ∃ (ds : List Bytes) (x : Bytes) (rest : List Frame),
      D = (ds.map fun d => ({ fin := false, opcode := .cont, data := d } : Frame)) ++
        { fin := true, opcode := .cont, data := x } :: rest := by
  induction D generalizing P with
  | nil =>
    rw [List.append_nil] at h2
    cases h1.unique h2
  | cons f D ih =>
    have h3 : Messages ((P ++ [f]) ++ D) false := by simpa using h2
    obtain ⟨v, h4⟩ := h3.prefix
    obtain ⟨hv', h5⟩ := h4.append_single
    have hcont : f.opcode = .cont := by
      rcases h5 with h5 | h5
      · exact h5.1
      · cases h5.2.unique h1
    cases hfin : f.fin with
    | true =>
      refine ⟨[], f.data, D, ?_⟩
      rw [valid_data (hv f (by simp)) hfin hcont]
      rfl
    | false =>
      rw [hfin] at hv'
      subst hv'
      obtain ⟨ds, x, rest, h6⟩ := ih h4 h3 (fun g hg => hv g (by simp [hg]))
      refine ⟨f.data :: ds, x, rest, ?_⟩
      rw [h6, List.map_cons, valid_data (hv f (by simp)) hfin hcont]
      rfl

theorem Open.extend {op : Opcode} {ds : List Bytes} {cur : List Frame} (h : Open op ds cur) (hne : cur ≠ [])
    (ds' : List Bytes) :
    Open op (ds ++ ds') (cur ++ ds'.map fun d => { fin := false, opcode := .cont, data := d }) := by
  cases h with
  | nil => exact absurd rfl hne
  | @cons d ds hop =>
    have := Open.cons (d := d) (ds := ds ++ ds') hop
    rw [List.map_append] at this
    exact this

/-- The message that the next frame belongs to. -/
theorem FramesRead.message {maxSize : Option Int} {pre : List Frame} {ms : List Data} {cur : List Frame}
    (h : FramesRead maxSize pre ms cur) {f : Frame} {D : List Frame}
    (hf : isDataFrame f = true) (hvf : ValidFrame f) (hv : ∀ g ∈ D, ValidFrame g)
    (hm : Messages (pre.filter isDataFrame ++ f :: D) false) :
    ∃ op ds fs x rest k, (op = .text ∨ op = .binary) ∧ Open op ds fs ∧
      cur ++ f :: D = fs ++ { fin := true, opcode := if fs = [] then op else .cont, data := x } :: rest ∧
      (cur ++ [f]) ++ k = fs ++ [{ fin := true, opcode := if fs = [] then op else .cont, data := x }] := by
  obtain ⟨hst, -⟩ := h.state
  obtain ⟨h1, ⟨op, ds, h2⟩, -⟩ := h.spec
  have h3 : Messages ((pre.filter isDataFrame ++ [f]) ++ D) false := by simpa using hm
  obtain ⟨v, h4⟩ := h3.prefix
  obtain ⟨hv', h5⟩ := h4.append_single
  -- the opcode of the message, and its frames including this one
  obtain ⟨op', hop', hfo, hopen⟩ : ∃ op', (op' = .text ∨ op' = .binary) ∧
      f.opcode = (if cur = [] then op' else .cont) ∧ Open op' ds cur := by
    by_cases hc : cur = []
    · subst hc
      simp only [ne_eq, not_true_eq_false, decide_false] at hst
      have hds : ds = [] := by cases h2; rfl
      subst hds
      rcases h5 with h5 | h5
      · cases h5.2.unique hst
      · exact ⟨f.opcode, h5.1, by simp, .nil⟩
    · simp only [ne_eq, hc, not_false_eq_true, decide_true] at hst
      have hop : op = .text ∨ op = .binary := by
        cases h2 with
        | nil => exact absurd rfl hc
        | cons hop => exact hop
      rcases h5 with h5 | h5
      · exact ⟨op, hop, by simp [hc, h5.1], h2⟩
      · cases h5.2.unique hst
  cases hfin : f.fin with
  | true =>
    have he : ({ fin := true, opcode := if cur = [] then op' else .cont, data := f.data } : Frame) = f :=
      valid_data hvf hfin hfo
    refine ⟨op', ds, cur, f.data, D, [], hop', hopen, ?_, ?_⟩
    · rw [he]
    · rw [he, List.append_nil]
  | false =>
    rw [hfin] at hv'
    subst hv'
    obtain ⟨ds2, x, rest, h6⟩ := h4.rest_of h3 hv
    have hopen' : Open op' (ds ++ [f.data]) (cur ++ [f]) := by
      by_cases hc : cur = []
      · subst hc
        have hds : ds = [] := by cases hopen; rfl
        subst hds
        have := Open.cons (d := f.data) (ds := []) hop'
        rw [show ({ fin := false, opcode := op', data := f.data } : Frame) = f from
          valid_data hvf hfin (by simpa using hfo)] at this
        exact this
      · have := hopen.extend hc [f.data]
        rw [List.map_cons, List.map_nil, show ({ fin := false, opcode := .cont, data := f.data } : Frame) = f from
          valid_data hvf hfin (by simpa [hc] using hfo)] at this
        exact this
    have hne : cur ++ [f] ++ (ds2.map fun d => ({ fin := false, opcode := .cont, data := d } : Frame)) ≠ [] := by
      simp
    refine ⟨op', _, _, x, rest, (ds2.map fun d => ({ fin := false, opcode := .cont, data := d } : Frame)) ++
        [{ fin := true, opcode := .cont, data := x }], hop', hopen'.extend (by simp) ds2, ?_, ?_⟩
    · rw [if_neg hne, h6]
      simp
    · rw [if_neg hne, List.append_assoc (cur ++ [f])]

theorem Open.assemble_last {op : Opcode} {ds : List Bytes} {fs : List Frame} (h : Open op ds fs) (x : Bytes)
    (rest : List Frame) :
    assembleFrom none (fs ++ { fin := true, opcode := if fs = [] then op else .cont, data := x } :: rest) =
      (decide (op = .text), (ds ++ [x]).flatten) :: assembleFrom none rest := by
  by_cases hc : fs = []
  · subst hc
    have hds : ds = [] := by cases h; rfl
    subst hds
    simp [assembleFrom]
  · rw [h.assemble _ hc]
    simp [assembleFrom]

/-- Reading the frames of valid messages raises no exception. -/
theorem FramesRead.no_error {maxSize : Option Int} {pre : List Frame} {ms : List Data} {cur : List Frame}
    (h : FramesRead maxSize pre ms cur) {f : Frame} {post : List Frame}
    (hv : ∀ g ∈ pre ++ f :: post, ValidFrame g) (hm : Messages ((pre ++ f :: post).filter isDataFrame) false)
    (ht : ∀ b, (true, b) ∈ assemble (pre ++ f :: post) → ∃ s, IsUtf8 b s) (hf : f.opcode.isCtrl = false)
    (e : Exc) : readMessage maxSize ((cur ++ [f]).map some) ≠ some (.error e) := by
  intro he
  have hd : isDataFrame f = true := by rw [isDataFrame_eq, hf]; rfl
  simp only [List.filter_append, List.filter_cons, hd, if_true] at hm
  obtain ⟨op, ds, fs, x, rest, k, h1, h2, h3, h4⟩ := h.message hd (hv f (by simp))
    (fun g hg => hv g (by simp [(List.mem_filter.1 hg).1])) hm
  obtain ⟨-, -, done, g1, g2, -⟩ := h.spec
  have hall : (decide (op = .text), (ds ++ [x]).flatten) ∈ assemble (pre ++ f :: post) := by
    unfold assemble
    have e1 : ∀ l : List Frame, l.filter (fun f => !f.opcode.isCtrl) = l.filter isDataFrame := by
      intro l; congr 1; funext f; rw [isDataFrame_eq]
    rw [e1] at g1 ⊢
    simp only [List.filter_append, List.filter_cons, hd, if_true]
    rw [g1, List.append_assoc, g2, h3, h2.assemble_last]
    simp
  have hlong := readMessage_some (ys := k.map some) he
  rw [← List.map_append, h4, h2.last] at hlong
  rcases h1 with rfl | rfl
  · obtain ⟨s, hs⟩ := ht _ (by simpa only [decide_true] using hall)
    have := ((C08_text maxSize (ds ++ [x]) (by simp)).1 _).2 ⟨s, rfl, hs⟩
    rw [hlong] at this
    cases this
  · rw [C08_binary maxSize _ (by simp)] at hlong
    cases hlong

end WS
