import Verif.Props.Session
import Verif.Props.Agreement

/-!
# End-to-end delivery with permessage-deflate: C69
-/

namespace WS

open Spec

variable {X : Type} {Z : Zlib}

/-! ## Specification -/

/-- More about `zlib`, for the decoder of a matching encoder.

* `strict`: the documentation of `decompress(data, max_length)` says that, if the limit is reached,
  unconsumed input is stored in `unconsumed_tail`.  Compressed data ends with an empty block, which
  can't be consumed before all data has been output.
* `compact`: data of at most `size` bytes is never compressed to 2^64 bytes. -/
structure Spec.Faithful (K : Contract Z) (size : Nat) : Prop where
  strict : ∀ {e d} data, K.Sync e d → ∀ {max : Int}, 0 < max → max < data.length → ∀ {out d'},
    Z.decompress d ((Z.compress e data).1 ++ (Z.flush (Z.compress e data).2).1) max = (.ok out, d') →
    Z.unconsumedTail d' ≠ []
  compact : ∀ e data, data.length ≤ size →
    ((Z.compress e data).1 ++ (Z.flush (Z.compress e data).2).1).length < 2 ^ 64

/-! ## The channel -/

theorem Pmd.deflate_len {K : Contract Z} {size : Nat} (hK : Faithful K size) {p p' : Pmd Z}
    {f g : Frame} (hs : f.data.length ≤ size) (h : p.deflate f = (.ok g, p')) :
    g.data.length < 2 ^ 64 := by
  unfold Pmd.deflate at h
  split at h
  · cases h
  · rename_i e he
    have := hK.compact e f.data hs
    simp only [Prod.mk.injEq, Except.ok.injEq] at h
    rw [← h.1]
    simp only
    generalize (Z.compress e f.data).1 ++ (Z.flush (Z.compress e f.data).2).1 = c at *
    split
    · rw [List.length_take]; omega
    · exact this

/-- The encoder that a frame is encoded with. -/
theorem Pmd.encode_deflate {p p' : Pmd Z} {f g : Frame} (h : p.encode f = (.ok g, p')) :
    (f.opcode.isCtrl = true ∧ g = f ∧ p' = p) ∨ (f.opcode.isCtrl = false ∧ ∃ e f1, f1.data = f.data ∧
      f1.fin = f.fin ∧ f1.opcode = f.opcode ∧ (f.opcode ≠ .cont → f1.rsv1 = true) ∧
      (f.opcode ≠ .cont → p.localNct = true → Z.compressobj p.localBits p.settings = .ok e) ∧
      (f.opcode = .cont ∨ p.localNct = false → p.encoder = some e) ∧
      { p with encoder := some e }.deflate f1 = (.ok g, p')) := by
  unfold Pmd.encode at h
  split at h
  · rename_i hc
    cases h
    exact .inl ⟨hc, rfl, rfl⟩
  · rename_i hc
    right
    have hd : ∀ f1 : Frame, p.deflate f1 = (.ok g, p') → ∃ e, p.encoder = some e ∧
        { p with encoder := some e }.deflate f1 = (.ok g, p') := by
      intro f1 h1
      cases he : p.encoder with
      | none => unfold Pmd.deflate at h1; rw [he] at h1; cases h1
      | some e =>
        refine ⟨e, rfl, ?_⟩
        have : ({ p with encoder := some e } : Pmd Z) = p := by cases p; simp_all
        rw [this]; exact h1
    refine ⟨by simpa using hc, ?_⟩
    split at h
    · rename_i hn
      simp only at h
      split at h
      · rename_i hl
        split at h
        · cases h
        · rename_i e he
          exact ⟨e, { f with rsv1 := true }, rfl, rfl, rfl, fun _ => rfl, fun _ _ => he,
            fun h => h.elim (absurd · hn) (by simp [hl]), h⟩
      · rename_i hl
        obtain ⟨e, h1, h2⟩ := hd _ h
        exact ⟨e, { f with rsv1 := true }, rfl, rfl, rfl, fun _ => rfl, fun _ h => absurd h hl,
          fun _ => h1, h2⟩
    · rename_i hn
      obtain ⟨e, h1, h2⟩ := hd _ h
      exact ⟨e, f, rfl, rfl, rfl, fun h => absurd h hn, fun h => absurd h hn, fun _ => h1, h2⟩

/-- Data that doesn't fit is refused. -/
theorem Pmd.inflate_refuses {K : Contract Z} {size : Nat} (hK : Faithful K size) (hB : Bounded Z)
    {p p' q : Pmd Z} {e : Z.Enc} {d : Z.Dec} (he : p.encoder = some e) (hd : q.decoder = some d)
    (hs : K.Sync e d) {f g g' : Frame} (h : p.deflate f = (.ok g, p')) (hg : g'.data = g.data)
    (hf : g'.fin = f.fin) {limit : Option Int} (hl : ¬ Fits limit f.data.length) :
    ∃ x q', q.inflate g' limit = (.error x, q') := by
  obtain ⟨m, rfl, hm0, hm⟩ : ∃ m, limit = some m ∧ m ≠ 0 ∧ m < (f.data.length : Int) := by
    cases limit with
    | none => exact absurd (fun m hm => by cases hm) hl
    | some m =>
      refine ⟨m, rfl, fun h => hl fun m' hm' => ?_, Int.not_le.1 fun h => hl fun m' hm' => ?_⟩
      · cases hm'; exact .inl h
      · cases hm'; exact .inr h
  obtain ⟨hsuf, _⟩ := K.step f.data hs
  have hstr := fun (h : 0 < m) => @hK.strict _ _ f.data hs m h hm
  simp only [Pmd.deflate, he] at h
  generalize (Z.compress e f.data).1 ++ (Z.flush (Z.compress e f.data).2).1 = c at *
  have hsb : emptyBlock.isSuffixOf c = true := by
    rw [List.isSuffixOf_iff_suffix]; exact hsuf
  rw [hsb, Bool.and_true] at h
  simp only [Prod.mk.injEq, Except.ok.injEq] at h
  have hdata : (if g'.fin = true then g'.data ++ emptyBlock else g'.data) = c := by
    rw [hg, hf, ← h.1]
    cases f.fin with
    | false => rfl
    | true =>
      obtain ⟨t, ht⟩ := hsuf
      simp only [if_true]
      rw [← ht]
      simp [emptyBlock]
  unfold Pmd.inflate
  rw [hd]
  simp only [hdata, Option.getD_some]
  cases hx : Z.decompress d c m with
  | mk r d' =>
    cases r with
    | error x => exact ⟨_, _, rfl⟩
    | ok out =>
      have hpos : 0 < m := by
        rcases Int.lt_trichotomy m 0 with h | h | h
        · obtain ⟨x, d2, hn⟩ := hB.negative d c m h
          rw [hx] at hn
          cases hn
        · exact absurd h hm0
        · exact h
      simp only
      rw [if_pos (hstr hpos hx)]
      exact ⟨_, _, rfl⟩

/-- A data frame that doesn't fit is refused. -/
theorem Paired.refuses {K : Contract Z} {size : Nat} (hK : Faithful K size) (hB : Bounded Z)
    {u u' : Bool} {p p' q : Pmd Z} (h : Paired K u p q) {f g : Frame} (hn : Next u f u')
    (hc : f.opcode.isCtrl = false) (he : p.encode f = (.ok g, p')) {limit : Option Int}
    (hl : ¬ Fits limit f.data.length) : ∃ x q', q.decode g limit = (.error x, q') := by
  rcases Pmd.encode_deflate he with ⟨hc', _⟩ | ⟨_, e, f1, e1, e2, e3, e4, e5, e6, e7⟩
  · rw [hc] at hc'; cases hc'
  have hg : g.fin = f1.fin ∧ g.opcode = f1.opcode ∧ g.rsv1 = f1.rsv1 := by
    unfold Pmd.deflate at e7
    simp only [Prod.mk.injEq, Except.ok.injEq] at e7
    rw [← e7.1]
    exact ⟨rfl, rfl, rfl⟩
  obtain ⟨g1, g2, g3⟩ := hg
  rw [← e1] at hl
  have key : ∀ (q1 : Pmd Z) d, q1.decoder = some d → K.Sync e d → ∀ g' : Frame, g'.data = g.data → g'.fin = f1.fin →
      ∃ x q', q1.inflate g' limit = (.error x, q') := fun q1 d h1 h2 g' h3 h4 =>
    Pmd.inflate_refuses (p := { p with encoder := some e }) hK hB rfl h1 h2 e7 h3 h4 hl
  unfold Pmd.decode
  rw [g2, e3, hc]
  simp only [Bool.false_eq_true, if_false]
  cases hn with
  | ctrl h => rw [hc] at h; cases h
  | start ho =>
    have hnt : f.opcode ≠ .cont := by rcases ho with ho | ho <;> rw [ho] <;> simp
    rw [if_neg hnt, g3, e4 hnt]
    simp only [Bool.not_true, Bool.false_eq_true, if_false]
    cases hnct : p.localNct with
    | true =>
      have hq : q.remoteNct = true := by rw [h.nct, hnct]
      refine key _ (Z.decompressobj q.remoteBits) ?_ (K.init h.bits (e5 hnt hnct)) _ rfl g1
      cases g.fin <;> simp [hq]
    | false =>
      obtain ⟨e', d, h1, h2, h3⟩ := h.sync (.inl hnct)
      have h4 := e6 (.inr hnct)
      rw [h1] at h4
      cases h4
      have hq : q.remoteNct = false := by rw [h.nct, hnct]
      refine key _ d ?_ h3 _ rfl g1
      cases g.fin <;> simp [hq, h2]
  | cont ho =>
    rw [if_pos ho, h.cont]
    simp only [Bool.not_true, Bool.false_eq_true, if_false]
    obtain ⟨e', d, h1, h2, h3⟩ := h.sync (.inr rfl)
    have h4 := e6 (.inl ho)
    rw [h1] at h4
    cases h4
    refine key _ d ?_ h3 _ rfl g1
    cases g.fin <;> simp [h2]

/-- Decoding doesn't change what encoding depends on. -/
theorem Pmd.decode_local (p : Pmd Z) (g : Frame) (limit : Option Int) :
    (p.decode g limit).2.encoder = p.encoder ∧ (p.decode g limit).2.localNct = p.localNct ∧
      (p.decode g limit).2.localBits = p.localBits ∧ (p.decode g limit).2.settings = p.settings := by
  have hi : ∀ (p : Pmd Z) g, (p.inflate g limit).2.encoder = p.encoder ∧
      (p.inflate g limit).2.localNct = p.localNct ∧
      (p.inflate g limit).2.localBits = p.localBits ∧
      (p.inflate g limit).2.settings = p.settings := by
    intro p g
    unfold Pmd.inflate
    split
    · exact ⟨rfl, rfl, rfl, rfl⟩
    · simp only
      split
      · exact ⟨rfl, rfl, rfl, rfl⟩
      · split <;> exact ⟨rfl, rfl, rfl, rfl⟩
  unfold Pmd.decode
  split
  · exact ⟨rfl, rfl, rfl, rfl⟩
  · split
    · split
      · exact ⟨rfl, rfl, rfl, rfl⟩
      · simp only
        obtain ⟨h1, h2, h3, h4⟩ := hi (if g.fin = true then { p with decodeCont := false } else p) g
        rw [h1, h2, h3, h4]
        split <;> exact ⟨rfl, rfl, rfl, rfl⟩
    · split
      · exact ⟨rfl, rfl, rfl, rfl⟩
      · simp only
        generalize hp1 : (if (!g.fin) = true then { p with decodeCont := true } else p) = p1
        obtain ⟨h1, h2, h3, h4⟩ := hi (if p1.remoteNct = true then
          { p1 with decoder := some (Z.decompressobj p1.remoteBits) } else p1) { g with rsv1 := false }
        rw [h1, h2, h3, h4, ← hp1]
        cases g.fin <;> simp <;> split <;> exact ⟨rfl, rfl, rfl, rfl⟩

/-- Encoding doesn't change what decoding depends on. -/
theorem Pmd.encode_remote (p : Pmd Z) (f : Frame) :
    (p.encode f).2.decoder = p.decoder ∧ (p.encode f).2.remoteNct = p.remoteNct ∧
      (p.encode f).2.remoteBits = p.remoteBits ∧ (p.encode f).2.decodeCont = p.decodeCont := by
  have hd : ∀ (p : Pmd Z) f, (p.deflate f).2.decoder = p.decoder ∧
      (p.deflate f).2.remoteNct = p.remoteNct ∧ (p.deflate f).2.remoteBits = p.remoteBits ∧
      (p.deflate f).2.decodeCont = p.decodeCont := by
    intro p f
    unfold Pmd.deflate
    split <;> exact ⟨rfl, rfl, rfl, rfl⟩
  unfold Pmd.encode
  split
  · exact ⟨rfl, rfl, rfl, rfl⟩
  · split
    · simp only
      split
      · split
        · exact ⟨rfl, rfl, rfl, rfl⟩
        · exact hd _ _
      · exact hd _ _
    · exact hd _ _

/-- Either no extension on both sides, or permessage-deflate on both sides. -/
def Spec.Deflated (K : Contract Z) (u : Bool) (xs ys : List (Pmd Z)) : Prop :=
  (xs = [] ∧ ys = []) ∨ ∃ p q, xs = [p] ∧ ys = [q] ∧ Paired K u p q ∧
    (p.localNct = true → ∃ e, Z.compressobj p.localBits p.settings = .ok e)

theorem finish_one {ops : ExtOps X} {x x' : X} {g f : Frame} {limit : Option Int}
    (h : ops.decode x g limit = (.ok f, x')) (hv : ValidFrame f) :
    Frame.finish ops [x] limit g = (.ok f, [x']) := by
  simp [Frame.finish, applyExts, h, (Frame.check_ok_iff f).2 hv]

theorem finish_one_error {ops : ExtOps X} {x x' : X} {g : Frame} {limit : Option Int} {e : Exc}
    (h : ops.decode x g limit = (.error e, x')) :
    Frame.finish ops [x] limit g = (.error e, [x']) := by
  simp [Frame.finish, applyExts, h]

theorem finish_one_state {ops : ExtOps X} (x : X) (g : Frame) (limit : Option Int) :
    (Frame.finish ops [x] limit g).2 = [(ops.decode x g limit).2] := by
  unfold Frame.finish
  simp only [List.reverse_cons, List.reverse_nil, List.nil_append, applyExts]
  cases ops.decode x g limit with
  | mk r x' =>
    cases r with
    | error e => rfl
    | ok f =>
      simp only
      cases f.check <;> rfl

/-- permessage-deflate makes a channel. -/
theorem Spec.Deflated.channel {K : Contract Z} {size : Nat} (hs : size < 2 ^ 64)
    (hK : Faithful K size) (hB : Bounded Z) : Channel (pmdOps Z) size (Deflated K) where
  send := by
    intro u xs ys f u' hR hn hv hsz
    rcases hR with ⟨rfl, rfl⟩ | ⟨p, q, rfl, rfl, hp, hz⟩
    · have hfin : ∀ limit, Frame.finish (pmdOps Z) [] limit f = (.ok f, []) := by
        intro limit
        simp [Frame.finish, applyExts, (Frame.check_ok_iff f).2 hv]
      exact ⟨f, [], rfl, by omega, ⟨[], hfin none, .inl ⟨rfl, rfl⟩⟩,
        fun limit => .inl ⟨[], hfin limit, .inl ⟨rfl, rfl⟩⟩⟩
    · have hf : (f.opcode.isCtrl = true ∧ u' = u) ∨
          ((f.opcode = .text ∨ f.opcode = .binary) ∧ f.rsv1 = false ∧ u = false ∧ u' = !f.fin) ∨
          (f.opcode = .cont ∧ u = true ∧ u' = !f.fin) := by
        cases hn with
        | ctrl h => exact .inl ⟨h, rfl⟩
        | start h => exact .inr (.inl ⟨h, hv.1, rfl, rfl⟩)
        | cont h => exact .inr (.inr ⟨h, rfl, rfl⟩)
      obtain ⟨g, p', q', h1, h2, h3, h4, h5, h6⟩ := hp.frame hz hf none (.inr fun m hm => by cases hm)
      have henc : applyExts (pmdOps Z).encode [p] f = (.ok g, [p']) := by
        simp [applyExts, pmdOps, h1]
      have hz' : p'.localNct = true → ∃ e, Z.compressobj p'.localBits p'.settings = .ok e := by
        rw [h4, h5, h6]; exact hz
      refine ⟨g, [p'], henc, ?_, ⟨[q'], finish_one h2 hv, .inr ⟨p', q', rfl, rfl, h3, hz'⟩⟩, ?_⟩
      · rcases Pmd.encode_deflate h1 with ⟨_, rfl, _⟩ | ⟨_, e, f1, e1, _, _, _, _, _, e7⟩
        · omega
        · exact Pmd.deflate_len hK (by rw [e1]; exact hsz) e7
      · intro limit
        by_cases hl : f.opcode.isCtrl = true ∨ Fits limit f.data.length
        · obtain ⟨g', p2, q2, k1, k2, k3, _⟩ := hp.frame hz hf limit hl
          rw [h1] at k1
          cases k1
          exact .inl ⟨[q2], finish_one k2 hv, .inr ⟨p', q2, rfl, rfl, k3, hz'⟩⟩
        · have hl := not_or.1 hl
          obtain ⟨x, q2, hx⟩ := hp.refuses hK hB hn (by simpa using hl.1) h1 hl.2
          exact .inr ⟨x, [q2], finish_one_error hx⟩
  receive := by
    intro u xs ys hR limit g
    rcases hR with ⟨rfl, rfl⟩ | ⟨p, q, rfl, rfl, hp, hz⟩
    · left
      refine ⟨?_, rfl⟩
      unfold Frame.finish
      simp only [List.reverse_nil, applyExts]
      cases g.check <;> rfl
    · right
      rw [finish_one_state]
      obtain ⟨h1, h2, h3, h4⟩ := Pmd.decode_local p g limit
      exact ⟨_, q, rfl, rfl, ⟨hp.nct.trans h2.symm, by show _ ≤ _; rw [show ((pmdOps Z).decode p g limit).2.localBits = _ from h3]; exact hp.bits, hp.cont, by
        intro h
        obtain ⟨e, d, k1, k2, k3⟩ := hp.sync (by rw [← h2]; exact h)
        exact ⟨e, d, h1.trans k1, k2, k3⟩⟩, by
        intro h
        obtain ⟨e, he⟩ := hz (h2.symm.trans h)
        exact ⟨e, by rw [← he]; exact congr (congrArg _ h3) h4⟩⟩
  answer := by
    intro u xs ys hR f
    rcases hR with ⟨rfl, rfl⟩ | ⟨p, q, rfl, rfl, hp, hz⟩
    · exact .inl ⟨rfl, rfl⟩
    · right
      have he : (applyExts (pmdOps Z).encode [q] f).2 = [(q.encode f).2] := by
        simp only [applyExts, pmdOps]
        cases q.encode f with
        | mk r x => cases r <;> rfl
      rw [he]
      obtain ⟨h1, h2, h3, h4⟩ := Pmd.encode_remote q f
      exact ⟨p, _, rfl, rfl, ⟨h2.trans hp.nct, by rw [h3]; exact hp.bits, h4.trans hp.cont, by
        intro h
        obtain ⟨e, d, k1, k2, k3⟩ := hp.sync h
        exact ⟨e, d, k1, h1.trans k2, k3⟩⟩, hz⟩

/-! ## The assumptions about zlib can be satisfied -/

theorem storedRun_short (k : Nat) (c rest : Bytes) (hk : k < c.length) {out : Bytes} {d : Stored}
    (h : storedRun (some k) [] c.length (c ++ rest) = .ok (out, d)) : d.tail ≠ [] := by
  induction c generalizing k out with
  | nil => simp at hk
  | cons b c ih =>
    cases k with
    | zero =>
      simp only [List.length_cons, List.cons_append, storedRun, Except.ok.injEq, Prod.mk.injEq] at h
      rw [← h.2]
      simp
    | succ k =>
      simp only [List.length_cons, List.cons_append, storedRun, Option.map_some,
        Nat.add_sub_cancel] at h
      split at h
      · cases h
      · rename_i o d' he
        simp only [Except.ok.injEq, Prod.mk.injEq] at h
        obtain ⟨_, rfl⟩ := h
        exact ih k (by simpa using hk) he

theorem storedRun_blocks_short (k fuel : Nat) (data rest : Bytes) (hf : data.length ≤ fuel)
    (hk : k < data.length) {out : Bytes} {d : Stored}
    (h : storedRun (some k) [] 0 (storedBlocks fuel data ++ rest) = .ok (out, d)) : d.tail ≠ [] := by
  induction fuel generalizing k data out with
  | zero => omega
  | succ fuel ih =>
    cases data with
    | nil => simp at hk
    | cons b data =>
      simp only [storedBlocks] at h
      generalize hd : b :: data = dd at *
      generalize hn : min dd.length 65535 = n at h
      rw [List.append_assoc, List.append_assoc, storedRun_header] at h
      have hlen : (UInt8.ofNat (n % 256)).toNat + 256 * (UInt8.ofNat (n / 256)).toNat =
          (dd.take n).length := by
        rw [List.length_take, UInt8.toNat_ofNat', UInt8.toNat_ofNat']
        omega
      rw [hlen] at h
      have hpos : 0 < dd.length := by omega
      by_cases hkn : k < (dd.take n).length
      · exact storedRun_short k _ _ hkn h
      · rw [storedRun_chunk _ _ _ (by intro k' hk'; cases hk'; omega)] at h
        simp only [Option.map_some] at h
        split at h
        · cases h
        · rename_i o d' he
          simp only [Except.ok.injEq, Prod.mk.injEq] at h
          obtain ⟨_, rfl⟩ := h
          refine ih _ (dd.drop n) ?_ ?_ he
          · rw [List.length_drop]; omega
          · rw [List.length_take] at hkn ⊢
            rw [List.length_drop]
            omega

theorem storedBlocks_len (fuel : Nat) (data : Bytes) :
    (storedBlocks fuel data).length ≤ 6 * data.length := by
  induction fuel generalizing data with
  | zero => simp [storedBlocks]
  | succ fuel ih =>
    cases data with
    | nil => simp [storedBlocks]
    | cons b data =>
      simp only [storedBlocks]
      generalize hd : b :: data = dd at *
      have hpos : 0 < dd.length := by rw [← hd]; simp
      have := ih (dd.drop (min dd.length 65535))
      simp only [List.length_append, List.length_cons, List.length_nil, List.length_take]
      rw [List.length_drop] at this
      omega

theorem storedZlib_faithful : Faithful storedZlib_contract (2 ^ 60) where
  strict := by
    rintro e d data rfl max h0 h1 out d' h
    simp only [storedZlib] at h ⊢
    rw [if_neg (by omega), if_neg (by omega)] at h
    split at h
    · cases h
    · rename_i o d2 he
      cases h
      exact storedRun_blocks_short max.toNat data.length data _ (Nat.le_refl _) (by omega) he
  compact := by
    intro e data h
    have := storedBlocks_len data.length data
    simp only [storedZlib, List.length_append, List.length_cons, List.length_nil]
    omega

/-! ## After a handshake -/

/-- Extensions that can be used together in both directions. -/
structure Spec.Linked (K : Contract Z) (cx sx : Pmd Z) : Prop where
  up : Paired K false cx sx
  down : Paired K false sx cx
  client : ∃ e, Z.compressobj cx.localBits cx.settings = .ok e
  server : ∃ e, Z.compressobj sx.localBits sx.settings = .ok e

/-- Any two valid configurations of permessage-deflate are compatible, if `zlib` can create the
encoders that they agree on. -/
theorem linked_compatible (K : Contract Z) (pc : PmdClientConfig Z) (ps : PmdServerConfig Z)
    (hc : pc.valid = true) (hs : ps.valid = true)
    (hz : ∀ answer sx, ps.processRequestParams pc.params.build [] = .ok (answer, sx) →
      (∃ e, Z.compressobj sx.remoteBits pc.settings = .ok e) ∧
        ∃ e, Z.compressobj sx.localBits ps.settings = .ok e) :
    Compatible (Linked K) [pc.factory] [ps.factory] := by
  apply C43_compatible (by simp)
  intro f hf g hg _ cacc sacc hp answer y h
  rw [List.mem_singleton.1 hf] at h ⊢
  rw [List.mem_singleton.1 hg] at h
  simp only [PmdClientConfig.factory, PmdServerConfig.factory] at h ⊢
  cases hp with
  | cons _ _ =>
    exfalso
    unfold PmdServerConfig.processRequestParams at h
    rw [if_pos (by simp [pmdOps])] at h
    cases h
  | nil =>
    simp only [List.map_nil] at h ⊢
    obtain ⟨z1, z2⟩ := hz _ _ h
    obtain ⟨cx, h1, h2, _⟩ := C47_agree_partial pc ps hc hs [] [] (by simp) h (.inr z1)
    unfold PmdServerConfig.processRequestParams at h
    split at h
    · cases h
    · split at h
      · cases h
      · split at h
        · cases h
        · split at h
          · cases h
          · rename_i x hx
            cases h
            refine ⟨PmdParams.build_tok _, cx, h1, ?_⟩
            unfold PmdClientConfig.processResponseParams at h1
            split at h1
            · cases h1
            · split at h1
              · cases h1
              · split at h1
                · cases h1
                · obtain ⟨_, _, a1, a2, a3, a4, a5⟩ := Pmd.new_inv hx
                  obtain ⟨_, _, b1, b2, b3, b4, b5⟩ := Pmd.new_inv h1
                  obtain ⟨m1, m2, m3, m4⟩ := h2
                  rw [← a1, ← a2, ← a3, ← a4] at hx
                  rw [← b1, ← b2, ← b3, ← b4] at h1
                  refine ⟨?_, ?_, ?_, ?_⟩
                  · rw [← m2] at hx
                    exact Paired.new K (Nat.le_of_eq m4) h1 hx
                  · rw [m1] at h1
                    exact Paired.new K (Nat.le_of_eq m3.symm) hx h1
                  · rw [m4, b5]; exact z1
                  · rw [a5]; exact z2

/-- permessage-deflate can't be enabled twice. -/
theorem negotiated_one {ps : PmdServerConfig Z} {offers answers : List ExtHeader}
    {acc xs : List (Pmd Z)} (h : Negotiated [ps.factory] offers acc answers xs) :
    xs.length + acc.length ≤ max acc.length 1 := by
  induction h with
  | nil => simp only [List.length_nil]; omega
  | skip _ _ ih => exact ih
  | @take name params offers acc answers exts response x hm hn ih =>
    obtain ⟨pre, g, post, e, _, hg, _⟩ := hm
    have hgg : g = ps.factory := by
      have : g ∈ [ps.factory] := by rw [e]; simp
      exact List.mem_singleton.1 this
    rw [hgg] at hg
    cases acc with
    | cons y acc =>
      exfalso
      simp only [PmdServerConfig.factory] at hg
      unfold PmdServerConfig.processRequestParams at hg
      rw [if_pos (by simp [pmdOps])] at hg
      cases hg
    | nil =>
      simp only [List.nil_append, List.length_cons, List.length_nil] at ih ⊢
      omega

theorem negotiated_none {fs : List (ServerFactory X)} (hfs : fs = []) {offers answers : List ExtHeader}
    {acc xs : List X} (h : Negotiated fs offers acc answers xs) : xs = [] := by
  induction h with
  | nil => rfl
  | skip _ _ ih => exact ih
  | take hm _ _ =>
    obtain ⟨pre, g, post, e, _⟩ := hm
    rw [hfs] at e
    cases pre <;> cases e

/-- **C69**, for a client and a server with or without permessage-deflate, from the beginning of the
connection.  A client sends a request; a server receives it in any pieces and accepts it; the client
receives the response in any pieces.  Then both sides make any calls that aren't part of the
handshake, in any order, with messages of at most `size` bytes, and each side receives the beginning
of what the other side has written, in any pieces, and maybe at the same time.  Each side delivers
what the other side sends. -/
theorem C69_deflate {cpy spy : PyEnv} {cc : ClientConfig (Pmd Z)} {sc : ServerConfig (Pmd Z)}
    {size : Nat} (h125 : 125 ≤ size) (h64 : size < 2 ^ 64)
    (K : Contract Z) (hK : Faithful K size) (hB : Bounded Z)
    (pc : PmdClientConfig Z) (ps : PmdServerConfig Z) (hpc : pc.valid = true) (hps : ps.valid = true)
    (hz : ∀ answer sx, ps.processRequestParams pc.params.build [] = .ok (answer, sx) →
      (∃ e, Z.compressobj sx.remoteBits pc.settings = .ok e) ∧
        ∃ e, Z.compressobj sx.localBits ps.settings = .ok e)
    (hcext : cc.extensions = none ∨ cc.extensions = some [pc.factory])
    (hsext : sc.extensions = none ∨ sc.extensions = some [ps.factory])
    {req : Request} (hconn : cc.connect cpy = .ok req)
    (hpath : ∀ c ∈ cc.uri.resourceName, 0x21 ≤ c ∧ c ≤ 0x7E)
    (hlen : cc.uri.resourceName.length + 15 ≤ 4110) (hreq : Sendable req.headers.rawItems)
    (hcx : values cc.extraHeaders p!"Sec-WebSocket-Extensions" = [])
    (hcp : values cc.extraHeaders p!"Sec-WebSocket-Protocol" = [])
    (hct : ∀ ps, cc.subprotocols = some ps → ∀ p ∈ ps, Tok p)
    (hsx : ∀ extra, sc.extraHeaders req.path req.headers = .ok extra →
      ∀ n ∈ handshakeNames, values extra n = [])
    (crand srand : Nat → Bytes) (hcr : ∀ i, (crand i).length = 4)
    (hsr : ∀ i, (srand i).length = 4) (cmax smax : Option Int) :
    let cenv := cc.env (pmdOps Z) crand hcr
    let senv := sc.env spy (pmdOps Z) srand hsr
    let c1 := ((clientInit cmax cc.origin).apply cenv (.handshake (.sendRequest req))).2
    ∀ chunks, chunks.flatten = c1.core.writes.flatten →
    let s1 := ((serverInit smax).feedAll senv chunks).2
    ∀ date r a, sc.accept spy date req = (.ok r, a) → r.statusCode = 101 →
    Sendable r.headers.rawItems →
    let s2 := (s1.apply senv (.handshake (.accept date req))).2
    let s3 := (s2.apply senv (.handshake (.sendResponse r))).2
    ∀ chunks', chunks'.flatten = s3.core.writes.flatten →
    let c2 := (c1.feedAll cenv chunks').2
    ∀ opsc opss, (∀ op ∈ opsc, op.isHandshake = false ∧ dataSize op ≤ size) →
      (∀ op ∈ opss, op.isHandshake = false ∧ dataSize op ≤ size) →
      (∀ more, c2.core.writes.flatten ++ received opss ++ more = (c2.output cenv opsc).flatten →
        Delivers cenv senv c2 s3 opsc opss more) ∧
      (∀ more, s3.core.writes.flatten ++ received opsc ++ more = (s3.output senv opss).flatten →
        Delivers senv cenv s3 c2 opss opsc more) := by
  intro cenv senv c1 chunks hch s1 date r a hacc h101 hsend s2 s3 chunks' hch' c2 opsc opss ho1 ho2
  have hcompat : Compatible (Linked K) (cc.extensions.getD []) (sc.extensions.getD []) := by
    have hl := linked_compatible K pc ps hpc hps hz
    rcases hcext with e | e <;> rcases hsext with e' | e' <;> rw [e, e']
    · exact fun f hf => nomatch hf
    · exact fun f hf => nomatch hf
    · rintro f hf cacc sacc hp answer y ⟨pre, g, post, e, _⟩
      cases pre <;> cases e
    · exact hl
  have hce : ∀ fs, cc.extensions = some fs → ∀ f ∈ fs, TokenExt (f.name, f.requestParams) := by
    intro fs hfs f hf
    rcases hcext with e | e
    · rw [e] at hfs; cases hfs
    · rw [e] at hfs
      cases hfs
      rw [List.mem_singleton.1 hf]
      exact PmdParams.build_tok _
  obtain ⟨hev, hst, hres⟩ := C43_agreement_partial (ops := pmdOps Z) hconn hpath hlen hreq hcx hcp hce
    hct hcompat hsx crand srand hcr hsr cmax smax chunks hch
  rcases hres date r a hacc with ⟨h, _⟩ | ⟨_, hso, hres⟩
  · exact absurd h101 h
  obtain ⟨hco, hcev, hsub, hpairs, hcf, hsf, -⟩ := hres hsend chunks' hch'
  -- at most one extension
  have hone : s3.core.exts.length ≤ 1 := by
    obtain ⟨_, hb, _⟩ := connect_lines hconn
    obtain ⟨key, eh, sub, origin, extra, h1, _⟩ := accept_101 hb.ok hacc h101
    obtain ⟨exts, he, ha, _⟩ := processRequest_assigned h1
    obtain ⟨offers, answers, _, hn, _⟩ := processExtensions_ok hb.ok he
    have hx : exts.length ≤ 1 := by
      rcases hsext with e | e <;> rw [e] at hn
      · rw [negotiated_none rfl hn]; simp
      · have := negotiated_one hn
        simp only [List.length_nil] at this
        omega
    have hs3 : s3.core.exts = exts := by
      simp only [s3, s2, Conn.apply, senv, ServerConfig.env, Core.sendResponse]
      rw [hacc, if_pos h101]
      cases r.serialize <;> simp [Assigned.store, ha]
    rw [hs3]; exact hx
  have hdefl : Deflated K false c2.core.exts s3.core.exts ∧
      Deflated K false s3.core.exts c2.core.exts := by
    generalize hgs : s3.core.exts = ys at hone
    generalize hgc : c2.core.exts = xs
    have hpairs : AllPairs (Linked K) xs ys := by rw [← hgs, ← hgc]; exact hpairs
    cases hpairs with
    | nil => exact ⟨.inl ⟨rfl, rfl⟩, .inl ⟨rfl, rfl⟩⟩
    | cons h ht =>
      cases ht with
      | nil => exact ⟨.inr ⟨_, _, rfl, rfl, h.up, fun _ => h.client⟩,
          .inr ⟨_, _, rfl, rfl, h.down, fun _ => h.server⟩⟩
      | cons _ _ => simp only [List.length_cons] at hone; omega
  have hlc : cenv.Lawful := ClientConfig.env_lawful cc (pmdOps_lawful Z) _ _
  have hls : senv.Lawful := ServerConfig.env_lawful sc spy (pmdOps_lawful Z) _ _
  have hchan := Deflated.channel h64 hK hB
  have hsev : eventFrames s3.core.events = [] := by
    have : s3.core.events = s1.core.events := by
      simp only [s3, s2, Conn.apply, senv, ServerConfig.env, Core.sendResponse]
      rw [hacc, if_pos h101]
      cases r.serialize <;> (simp only [Assigned.store]; cases a.exts <;> rfl)
    rw [this, hev]
    rfl
  have hoc : c2.Opened := ⟨hcf.2.1, hcf.2.2.1, by rw [hco]; simp, hcf.2.2.2.1, hcf.2.2.2.2, by rw [hcev]; rfl⟩
  have hos : s3.Opened := ⟨hsf.2.1, hsf.2.2.1, by rw [hso]; simp, hsf.2.2.2.1, hsf.2.2.2.2, hsev⟩
  exact ⟨fun more ht => C69_session hlc hls rfl h125 hchan c2 s3 hoc hos (by rw [hcf.1, hsf.1]; simp)
      hdefl.1 opsc (fun o h => (ho1 o h).1) (fun o h => (ho1 o h).2) opss (fun o h => (ho2 o h).1)
      more ht,
    fun more ht => C69_session hls hlc rfl h125 hchan s3 c2 hos hoc (by rw [hcf.1, hsf.1]; simp)
      hdefl.2 opss (fun o h => (ho2 o h).1) (fun o h => (ho2 o h).2) opsc (fun o h => (ho1 o h).1)
      more ht⟩

/-! ## Examples -/

def deflateEnv : Env (Pmd storedZlib) Empty Empty :=
  Env.deflate storedZlib (fun _ => [1, 2, 3, 4]) fun _ => rfl

/-- A client that resets its context after each message. -/
def deflatePeer : Conn (Pmd storedZlib) Empty :=
  ⟨{ (Conn.init .client .opened none : Conn (Pmd storedZlib) Empty).core with
    exts := [⟨false, true, 15, 9, (), some {}, none, false⟩] }, .init, .top⟩

/-- Its server, which only accepts messages of at most 16 bytes. -/
def deflateHost : Conn (Pmd storedZlib) Empty :=
  ⟨{ (Conn.init .server .opened (some 16) : Conn (Pmd storedZlib) Empty).core with
    exts := [⟨true, false, 9, 15, (), none, some (), false⟩] }, .init, .top⟩

/-- The client sends a fragmented message, with a ping between its fragments, then another message. -/
def deflateSent : List (Op Empty) :=
  [.sendText [0x61, 0x62] false, .sendPing [], .sendContinuation [0x63] true, .dataToSend,
    .sendBinary [1, 2, 3, 4] true]

/-- The server receives them in two pieces. -/
def deflateReceived : List (Op Empty) :=
  let bytes := (deflatePeer.output deflateEnv deflateSent).flatten
  [.receiveData (bytes.take 33), .eventsReceived, .receiveData (bytes.drop 33)]

example : deflatePeer.Opened ∧ deflateHost.Opened ∧ deflateEnv.Lawful ∧
    deflatePeer.core.side ≠ deflateHost.core.side ∧
    Deflated storedZlib_contract false deflatePeer.core.exts deflateHost.core.exts ∧
    (∀ op ∈ deflateSent, op.isHandshake = false ∧ dataSize op ≤ 2 ^ 60) ∧
    deflatePeer.core.writes.flatten ++ received deflateReceived ++ [] =
      (deflatePeer.output deflateEnv deflateSent).flatten ∧
    (deflatePeer.exec deflateEnv deflateSent).1.raised = [none, none, none, none, none] ∧
    (deflateHost.exec deflateEnv deflateReceived).1.raised = [none, none, none] ∧
    eventFrames (deflateHost.delivered deflateEnv deflateReceived) =
      [{ fin := false, opcode := .text, data := [0x61, 0x62] },
        { fin := true, opcode := .ping, data := [] },
        { fin := true, opcode := .cont, data := [0x63] },
        { fin := true, opcode := .binary, data := [1, 2, 3, 4] }] := by
  refine ⟨⟨rfl, rfl, by decide, rfl, rfl, rfl⟩, ⟨rfl, rfl, by decide, rfl, rfl, rfl⟩,
    Env.deflate_lawful _ _ _, by decide, ?_, ?_, by decide +kernel, by decide +kernel,
    by decide +kernel, by decide +kernel⟩
  · refine .inr ⟨_, _, rfl, rfl, ⟨rfl, by decide, rfl, ?_⟩, fun _ => ⟨(), rfl⟩⟩
    rintro (h | h) <;> cases h
  · intro op hop
    simp only [deflateSent, List.mem_cons, List.not_mem_nil, or_false] at hop
    rcases hop with rfl | rfl | rfl | rfl | rfl <;> exact ⟨rfl, by decide⟩

-- The client and the server of the example of C43 meet the hypotheses about extensions.
example : ∃ (pc : PmdClientConfig storedZlib) (ps : PmdServerConfig storedZlib),
    pc.valid = true ∧ ps.valid = true ∧ deflateClient.extensions = some [pc.factory] ∧
    chatServer.extensions = some [ps.factory] ∧
    ∀ answer sx, ps.processRequestParams pc.params.build [] = .ok (answer, sx) →
      (∃ e, storedZlib.compressobj sx.remoteBits pc.settings = .ok e) ∧
        ∃ e, storedZlib.compressobj sx.localBits ps.settings = .ok e := by
  refine ⟨{ params := { clientBits := some .any }, settings := () }, { settings := () }, rfl, rfl, rfl,
    rfl, ?_⟩
  intro answer sx h
  have hd : (match (({ settings := () } : PmdServerConfig storedZlib).processRequestParams
      ({ clientBits := some .any } : PmdParams).build []) with
      | .ok (_, sx) => decide (sx.remoteBits = 15 ∧ sx.localBits = 15)
      | .error _ => false) = true := by decide +kernel
  have h' : ({ settings := () } : PmdServerConfig storedZlib).processRequestParams
      ({ clientBits := some .any } : PmdParams).build [] = .ok (answer, sx) := h
  rw [h'] at hd
  simp only [decide_eq_true_eq] at hd
  rw [hd.1, hd.2]
  exact ⟨⟨(), rfl⟩, (), rfl⟩

end WS
