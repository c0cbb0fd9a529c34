import Verif.Props.Pmd

/-!
# C74: contexts of permessage-deflate are released
-/

namespace WS

open Spec

variable {Z : Zlib}

/-- A use of the extension. -/
inductive Spec.PmdUse where
  | encode (f : Frame)
  | decode (f : Frame) (maxSize : Option Int)

/-- Uses of an extension, all of which succeed. -/
inductive Spec.PmdUses : Pmd Z → List PmdUse → Pmd Z → Prop where
  | nil {p} : PmdUses p [] p
  | encode {p p1 p' f g us} : p.encode f = (.ok g, p1) → PmdUses p1 us p' →
      PmdUses p (.encode f :: us) p'
  | decode {p p1 p' f g m us} : p.decode f m = (.ok g, p1) → PmdUses p1 us p' →
      PmdUses p (.decode f m :: us) p'

/-- The frames of messages, from `b` to `b'`: `none` between messages, else the RSV1 bit of the first
frame of the current message (RFC 6455, 5.4; RFC 7692, 6). -/
inductive Spec.MsgFrames : Option Bool → List Frame → Option Bool → Prop where
  | nil {b} : MsgFrames b [] b
  | ctrl {f fs b b'} : f.opcode.isCtrl = true → MsgFrames b fs b' → MsgFrames b (f :: fs) b'
  | start {f fs b'} : f.opcode = .text ∨ f.opcode = .binary →
      MsgFrames (if f.fin then none else some f.rsv1) fs b' → MsgFrames none (f :: fs) b'
  | cont {f fs b b'} : f.opcode = .cont → MsgFrames (if f.fin then none else some b) fs b' →
      MsgFrames (some b) (f :: fs) b'

/-- The frames that are encoded. -/
def Spec.encoded : List PmdUse → List Frame
  | [] => []
  | .encode f :: us => f :: encoded us
  | .decode _ _ :: us => encoded us

/-- The frames that are decoded. -/
def Spec.decoded : List PmdUse → List Frame
  | [] => []
  | .encode _ :: us => decoded us
  | .decode f _ :: us => f :: decoded us

/-- The contexts that an extension holds, when `out` and `inc` are the current messages. -/
structure Spec.Holds (p : Pmd Z) (out inc : Option Bool) : Prop where
  encoder : p.encoder.isSome = true ↔ p.localNct = false ∨ out ≠ none
  decoder : p.decoder.isSome = true ↔ p.remoteNct = false ∨ inc = some true
  cont : p.decodeCont = true ↔ inc = some true

theorem deflate_ok {p p' : Pmd Z} {f g : Frame} (h : p.deflate f = (.ok g, p')) :
    p.encoder.isSome = true ∧ p'.decoder = p.decoder ∧ p'.localNct = p.localNct ∧
      p'.remoteNct = p.remoteNct ∧ p'.decodeCont = p.decodeCont ∧
      p'.encoder.isSome = !(f.fin && p.localNct) := by
  unfold Pmd.deflate at h
  split at h
  · cases h
  · rename_i e he
    simp only [Prod.mk.injEq, Except.ok.injEq] at h
    obtain ⟨-, rfl⟩ := h
    refine ⟨by simp [he], rfl, rfl, rfl, rfl, ?_⟩
    cases hf : f.fin <;> cases hn : p.localNct <;> simp [hf, hn]

theorem inflate_ok {p p' : Pmd Z} {f g : Frame} {m : Option Int} (h : p.inflate f m = (.ok g, p')) :
    p.decoder.isSome = true ∧ p'.encoder = p.encoder ∧ p'.localNct = p.localNct ∧
      p'.remoteNct = p.remoteNct ∧ p'.decodeCont = p.decodeCont ∧
      p'.decoder.isSome = !(f.fin && p.remoteNct) := by
  unfold Pmd.inflate at h
  split at h
  · cases h
  · rename_i d hd
    simp only at h
    split at h
    · cases h
    · split at h
      · cases h
      · simp only [Prod.mk.injEq, Except.ok.injEq] at h
        obtain ⟨-, rfl⟩ := h
        refine ⟨by simp [hd], rfl, rfl, rfl, rfl, ?_⟩
        cases hf : f.fin <;> cases hn : p.remoteNct <;> simp [hf, hn]

theorem Spec.Holds.encode {p p' : Pmd Z} {f g : Frame} {out inc : Option Bool} (hp : Holds p out inc)
    (h : p.encode f = (.ok g, p')) :
    (f.opcode.isCtrl = true → p' = p) ∧
      (f.opcode.isCtrl = false → ∀ b, Holds p' (if f.fin then none else some b) inc) ∧
      p'.localNct = p.localNct ∧ p'.remoteNct = p.remoteNct := by
  unfold Pmd.encode at h
  by_cases hc : f.opcode.isCtrl = true
  · rw [if_pos hc] at h
    cases h
    exact ⟨fun _ => rfl, fun h => by rw [hc] at h; (cases h), rfl, rfl⟩
  · have key : ∃ q : Pmd Z, ∃ f' : Frame, q.deflate f' = (.ok g, p') ∧ f'.fin = f.fin ∧ q.decoder = p.decoder ∧
        q.localNct = p.localNct ∧ q.remoteNct = p.remoteNct ∧ q.decodeCont = p.decodeCont := by
      rw [if_neg hc] at h
      simp only at h
      split at h
      · split at h
        · split at h
          · cases h
          · exact ⟨_, _, h, rfl, rfl, rfl, rfl, rfl⟩
        · exact ⟨_, _, h, rfl, rfl, rfl, rfl, rfl⟩
      · exact ⟨_, _, h, rfl, rfl, rfl, rfl, rfl⟩
    obtain ⟨q, f', hq, hfin, q1, q2, q3, q4⟩ := key
    obtain ⟨d1, d2, d3, d4, d5, d6⟩ := deflate_ok hq
    refine ⟨fun h => absurd h hc, fun _ b => ⟨?_, ?_, ?_⟩, d3.trans q2, d4.trans q3⟩
    · rw [d6, d3, hfin, q2]
      cases f.fin <;> cases p.localNct <;> simp
    · rw [d2, d4, q1, q3]; exact hp.decoder
    · rw [d5, q4]; exact hp.cont

theorem Spec.Holds.decode {p p' : Pmd Z} {f g : Frame} {m : Option Int} {out inc : Option Bool}
    (hp : Holds p out inc) (h : p.decode f m = (.ok g, p')) :
    p'.localNct = p.localNct ∧ p'.remoteNct = p.remoteNct ∧
      (f.opcode.isCtrl = true → p' = p) ∧
      (∀ b, f.opcode = .cont → inc = some b → Holds p' out (if f.fin then none else some b)) ∧
      (f.opcode = .text ∨ f.opcode = .binary → inc = none →
        Holds p' out (if f.fin then none else some f.rsv1)) := by
  unfold Pmd.decode at h
  by_cases hc : f.opcode.isCtrl = true
  · rw [if_pos hc] at h
    cases h
    refine ⟨rfl, rfl, fun _ => rfl, fun b h => ?_, fun h => ?_⟩
    · rw [h] at hc; cases hc
    · rcases h with h | h <;> rw [h] at hc <;> cases hc
  · rw [if_neg hc] at h
    by_cases hk : f.opcode = .cont
    · rw [if_pos hk] at h
      by_cases hd : p.decodeCont = true
      · rw [if_neg (by simp [hd])] at h
        simp only at h
        obtain ⟨d1, d2, d3, d4, d5, d6⟩ := inflate_ok h
        have hi := hp.cont.1 hd
        refine ⟨?_, ?_, fun h => absurd h hc, fun b _ hb => ⟨?_, ?_, ?_⟩, fun h => ?_⟩
        · rw [d3]; split <;> rfl
        · rw [d4]; split <;> rfl
        · rw [d2, d3]; split <;> exact hp.encoder
        · rw [d6, d4]
          rw [hi] at hb
          cases hb
          cases f.fin <;> cases hn : p.remoteNct <;> simp [hn]
        · rw [d5]
          rw [hi] at hb
          cases hb
          cases f.fin <;> simp [hd]
        · rw [hk] at h; rcases h with h | h <;> cases h
      · rw [if_pos (by simpa using hd)] at h
        cases h
        refine ⟨rfl, rfl, fun h => absurd h hc, fun b _ hb => ?_, fun h => ?_⟩
        · have hb' : b = false := by
            cases b with
            | false => rfl
            | true => exact absurd (hp.cont.2 hb) hd
          subst hb'
          have h1 := hp.decoder
          rw [hb] at h1
          refine ⟨hp.encoder, ?_, ?_⟩
          · cases f.fin <;> simpa using h1
          · cases f.fin <;> simpa using hd
        · rw [hk] at h; rcases h with h | h <;> cases h
    · rw [if_neg hk] at h
      have hnc : inc = none → p.decodeCont = false := fun hi => by
        have := hp.cont
        rw [hi] at this
        simpa using this
      by_cases hr : f.rsv1 = true
      · rw [if_neg (by simp [hr])] at h
        simp only at h
        obtain ⟨d1, d2, d3, d4, d5, d6⟩ := inflate_ok h
        refine ⟨?_, ?_, fun h => absurd h hc, fun b h => absurd h hk, fun _ hi => ⟨?_, ?_, ?_⟩⟩
        · rw [d3]; split <;> split <;> rfl
        · rw [d4]; split <;> split <;> rfl
        · rw [d2, d3]; split <;> split <;> exact hp.encoder
        · rw [d6, d4, hr]
          cases f.fin <;> cases hn : p.remoteNct <;> simp [hn]
        · rw [d5, hr]
          have := hnc hi
          cases f.fin <;> cases hn : p.remoteNct <;> simp [hn, this]
      · rw [if_pos (by simpa using hr)] at h
        cases h
        refine ⟨rfl, rfl, fun h => absurd h hc, fun b h => absurd h hk, fun _ hi => ?_⟩
        have hr' : f.rsv1 = false := by simpa using hr
        have h1 := hp.decoder
        rw [hi] at h1
        refine ⟨hp.encoder, ?_, ?_⟩
        · rw [hr']; cases f.fin <;> simpa using h1
        · rw [hr', hnc hi]; cases f.fin <;> simp

theorem Spec.Holds.uses {p p' : Pmd Z} {us : List PmdUse} {out inc out' inc' : Option Bool}
    (hp : Holds p out inc) (h : PmdUses p us p') (ho : MsgFrames out (encoded us) out')
    (hi : MsgFrames inc (decoded us) inc') :
    Holds p' out' inc' ∧ p'.localNct = p.localNct ∧ p'.remoteNct = p.remoteNct := by
  induction h generalizing out inc with
  | nil => cases ho; cases hi; exact ⟨hp, rfl, rfl⟩
  | encode he hu ih =>
    rename_i p0 p1 p2 f g us
    obtain ⟨e1, e2, e3, e4⟩ := hp.encode he
    have key : ∃ out1, MsgFrames out1 (encoded us) out' ∧ Holds p1 out1 inc := by
      cases ho with
      | ctrl hc hf => exact ⟨_, hf, (e1 hc) ▸ hp⟩
      | start ht hf =>
        refine ⟨_, hf, e2 ?_ _⟩
        rcases ht with ht | ht <;> rw [ht] <;> rfl
      | cont ht hf => exact ⟨_, hf, e2 (by rw [ht]; rfl) _⟩
    obtain ⟨out1, hf, hh⟩ := key
    obtain ⟨r1, r2, r3⟩ := ih hh hf hi
    exact ⟨r1, r2.trans e3, r3.trans e4⟩
  | decode he hu ih =>
    rename_i p0 p1 p2 f g m us
    obtain ⟨e3, e4, e1, e2, e5⟩ := hp.decode he
    have key : ∃ inc1, MsgFrames inc1 (decoded us) inc' ∧ Holds p1 out inc1 := by
      cases hi with
      | ctrl hc hf => exact ⟨_, hf, (e1 hc) ▸ hp⟩
      | start ht hf => exact ⟨_, hf, e5 ht rfl⟩
      | cont ht hf => exact ⟨_, hf, e2 _ ht rfl⟩
    obtain ⟨inc1, hf, hh⟩ := key
    obtain ⟨r1, r2, r3⟩ := ih hh ho hf
    exact ⟨r1, r2.trans e3, r3.trans e4⟩

/-- **C74.** After any successful use of the extension, it holds a compression context exactly if the
context is kept between messages or a message is being sent, and a decompression context exactly if the
context is kept between messages or a compressed message is being received. -/
theorem C74_released {rn ln : Bool} {rb lb : Nat} {settings : Z.Settings} {p p' : Pmd Z}
    (hnew : Pmd.new rn ln rb lb settings = .ok p) {us : List PmdUse} (h : PmdUses p us p')
    {out inc : Option Bool} (ho : MsgFrames none (encoded us) out) (hi : MsgFrames none (decoded us) inc) :
    (p'.encoder.isSome = true ↔ ln = false ∨ out ≠ none) ∧
      (p'.decoder.isSome = true ↔ rn = false ∨ inc = some true) := by
  have h0 : Holds p none none ∧ p.localNct = ln ∧ p.remoteNct = rn := by
    unfold Pmd.new at hnew
    split at hnew
    · cases hnew
    · split at hnew
      · cases hnew
      · simp only at hnew
        split at hnew
        · split at hnew
          · cases hnew
          · cases hnew
            refine ⟨⟨?_, ?_, ?_⟩, rfl, rfl⟩ <;> cases rn <;> simp_all
        · cases hnew
          refine ⟨⟨?_, ?_, ?_⟩, rfl, rfl⟩ <;> cases rn <;> simp_all
  obtain ⟨h1, h2, h3⟩ := h0
  obtain ⟨r1, r2, r3⟩ := h1.uses h ho hi
  have a := r1.encoder
  have b := r1.decoder
  rw [r2, h2] at a
  rw [r3, h3] at b
  exact ⟨a, b⟩

-- Sending the first fragment of a message creates the context, sending the last one deletes it.
example : ∃ p p1 p2 : Pmd storedZlib, Pmd.new true true 15 9 () = .ok p ∧
    PmdUses p [.encode { fin := false, opcode := .text, data := [0x61] }] p1 ∧
    p1.encoder.isSome = true ∧
    PmdUses p [.encode { fin := false, opcode := .text, data := [0x61] },
      .encode { fin := true, opcode := .cont, data := [0x62] }] p2 ∧
    p2.encoder.isSome = false :=
  ⟨_, _, _, rfl, .encode rfl .nil, rfl, .encode rfl (.encode rfl .nil), rfl⟩

end WS
