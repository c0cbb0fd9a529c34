import Verif.Lemmas.ConnFail

/-! Helper lemmas: the reason of the close frame sent when a connection fails is short. -/

namespace WS

open Spec

variable {X E H : Type}

/-- ASCII text that fits in a close frame. -/
def Short (m : PyStr) : Prop := (∀ c ∈ m, c < 128) ∧ m.length ≤ 123

instance (m : PyStr) : Decidable (Short m) := by unfold Short; infer_instance

theorem utf8Encode_ascii_length {s : PyStr} (h : ∀ c ∈ s, c < 128) :
    ∃ b, utf8Encode s = .ok b ∧ b.length = s.length := by
  induction s with
  | nil => exact ⟨[], rfl, rfl⟩
  | cons c s ih =>
    obtain ⟨b, h1, h2⟩ := ih fun x hx => h x (List.mem_cons_of_mem _ hx)
    have hc := h c (List.mem_cons_self ..)
    have : utf8EncodeCp c = some [UInt8.ofNat c] := by
      unfold utf8EncodeCp; rw [if_pos (by omega)]
    refine ⟨UInt8.ofNat c :: b, ?_, by simp [h2]⟩
    simp only [utf8Encode, this, h1]
    rfl

theorem serializeClose_short {code : Int} {m : PyStr} (hc : closeCodeOk code = true)
    (h : Short m) : ∃ d, serializeClose code m = .ok d ∧ d.length ≤ 125 := by
  obtain ⟨b, h1, h2⟩ := utf8Encode_ascii_length h.1
  refine ⟨packH code.toNat ++ b, ?_, ?_⟩
  · simp [serializeClose, checkClose, hc, h1]
  · have := h.2
    simp only [packH, List.length_append, List.length_cons, List.length_nil]
    omega

/-- Exceptions whose message fits in a close frame. -/
def BriefExc : Exc → Prop
  | .protocolError m | .payloadTooBig m => Short m
  | .unicodeDecodeError r s => Short (r ++ p!" at position " ++ decStr s)
  | _ => True

theorem BriefExc.serialize {e : Exc} (h : BriefExc e) (hc : (failCode e).1 ≠ 1006) :
    ∃ d, serializeClose (failCode e).1 (failCode e).2 = .ok d ∧ d.length ≤ 125 := by
  cases e with
  | protocolError m => exact serializeClose_short (code := 1002) (by decide) h
  | payloadTooBig m => exact serializeClose_short (code := 1009) (by decide) h
  | unicodeDecodeError r s => exact serializeClose_short (code := 1007) (by decide) h
  | eofError => exact absurd rfl hc
  | _ => exact serializeClose_short (code := 1011) (m := []) (by decide) (by decide)

theorem decStr_ascii_brief (n : Nat) : ∀ c ∈ decStr n, c < 128 := by
  induction n using decStr.induct with
  | case1 n h =>
    rw [decStr, if_pos h]
    intro c hc
    simp only [List.mem_singleton] at hc
    omega
  | case2 n h ih =>
    rw [decStr, if_neg h]
    intro c hc
    rw [List.mem_append] at hc
    rcases hc with hc | hc
    · exact ih c hc
    · simp only [List.mem_singleton] at hc; omega

theorem decStr_length (k : Nat) : ∀ n, n < 10 ^ (k + 1) → (decStr n).length ≤ k + 1 := by
  induction k with
  | zero => intro n h; rw [decStr, if_pos (by omega)]; simp
  | succ k ih =>
    intro n h
    rw [decStr]
    split
    · simp
    · have h1 : n / 10 < 10 ^ (k + 1) := by
        have : 10 ^ (k + 1 + 1) = 10 ^ (k + 1) * 10 := Nat.pow_succ ..
        omega
      have := ih _ h1
      simp only [List.length_append, List.length_cons, List.length_nil]
      omega

theorem intStr_ascii (i : Int) : ∀ c ∈ intStr i, c < 128 := by
  cases i with
  | ofNat n => exact decStr_ascii_brief n
  | negSucc n =>
    intro c hc
    simp only [intStr, List.mem_cons] at hc
    rcases hc with rfl | hc
    · omega
    · exact decStr_ascii_brief _ c hc

theorem intStr_length (i : Int) (k : Nat) (h : i.natAbs < 10 ^ (k + 1)) :
    (intStr i).length ≤ k + 2 := by
  cases i with
  | ofNat n => exact Nat.le_succ_of_le (decStr_length k n h)
  | negSucc n =>
    have := decStr_length k (n + 1) h
    simp only [intStr, List.length_cons]
    omega

theorem Short.append3 {a b c : PyStr} (ha : ∀ x ∈ a, x < 128) (hb : ∀ x ∈ b, x < 128)
    (hc : ∀ x ∈ c, x < 128) (hl : a.length + b.length + c.length ≤ 123) :
    Short (a ++ b ++ c) := by
  refine ⟨?_, by simp only [List.length_append]; omega⟩
  intro x hx
  simp only [List.mem_append] at hx
  rcases hx with (hx | hx) | hx
  · exact ha x hx
  · exact hb x hx
  · exact hc x hx

theorem tooBigMsg_short {n : Nat} {m : Int} (hn : n < 2 ^ 64) (hm : m.natAbs < 10 ^ 41) :
    Short (tooBigMsg n m) := by
  have h1 := decStr_length 19 n (by omega)
  have h2 := intStr_length m 40 hm
  have a1 : ∀ x ∈ p!"over size limit (", x < 128 := by decide
  have a2 : ∀ x ∈ p!" > ", x < 128 := by decide
  have a3 : ∀ x ∈ p!" bytes)", x < 128 := by decide
  unfold tooBigMsg
  refine ⟨?_, ?_⟩
  · intro x hx
    simp only [List.mem_append] at hx
    rcases hx with (((hx | hx) | hx) | hx) | hx
    · exact a1 x hx
    · exact decStr_ascii_brief n x hx
    · exact a2 x hx
    · exact intStr_ascii m x hx
    · exact a3 x hx
  · simp only [List.length_append, List.length_cons, List.length_nil]
    omega

/-- Limits with few digits. -/
def FewDigits (lim : Option Int) : Prop := ∀ m, lim = some m → m.natAbs < 10 ^ 41

theorem RawErr.brief {lim : Option Int} {e : Exc} (h : RawErr lim e) (hl : FewDigits lim) :
    BriefExc e := by
  rcases h with rfl | rfl | rfl | ⟨n, m, hm, hn, _, rfl⟩
  · exact trivial
  · show Short _; decide
  · show Short _; decide
  · exact tooBigMsg_short hn (hl m hm)

/-- The exceptions raised when decoding a frame have short messages. -/
def ExtOps.DecodeBrief (ops : ExtOps X) : Prop :=
  ∀ {x f lim e x'}, FewDigits lim → ops.decode x f lim = (.error e, x') → BriefExc e

theorem noExts_decodeBrief : noExts.DecodeBrief := fun {x} => nomatch x

theorem applyExts_brief {ops : ExtOps X} (hb : ops.DecodeBrief) {lim : Option Int}
    (hlim : FewDigits lim) {xs xs' : List X} {f : Frame} {e : Exc}
    (h : applyExts (fun x fr => ops.decode x fr lim) xs f = (.error e, xs')) : BriefExc e := by
  induction xs generalizing f xs' with
  | nil => simp [applyExts] at h
  | cons x xs ih =>
    simp only [applyExts] at h
    cases hx : ops.decode x f lim with
    | mk r x1 =>
      cases r with
      | error e1 =>
        rw [hx] at h
        simp only [Prod.mk.injEq, Except.error.injEq] at h
        rw [← h.1]
        exact hb hlim hx
      | ok f1 =>
        rw [hx] at h
        simp only [Prod.mk.injEq] at h
        exact ih (f := f1) (xs' := (applyExts (fun x fr => ops.decode x fr lim) xs f1).2)
          (by rw [← h.1])

theorem Frame.check_brief {f : Frame} {e : Exc} (h : f.check = .error e) : BriefExc e := by
  unfold Frame.check at h
  split at h
  · simp only [Except.error.injEq] at h; subst h; show Short _; decide
  · split at h
    · split at h
      · simp only [Except.error.injEq] at h; subst h; show Short _; decide
      · split at h
        · simp only [Except.error.injEq] at h; subst h; show Short _; decide
        · cases h
    · cases h

theorem utf8Scan_pos (fuel : Nat) : ∀ (b : Bytes) {s : PyStr} {pos : Nat} {e : Utf8Err},
    utf8Scan fuel b = (s, pos, some e) → pos ≤ b.length := by
  induction fuel with
  | zero => intro b s pos e h; simp [utf8Scan] at h
  | succ n ih =>
    intro b s pos e h
    cases b with
    | nil => simp [utf8Scan] at h
    | cons x xs =>
      simp only [utf8Scan] at h
      cases hf : utf8First (x :: xs) with
      | error e' =>
        rw [hf] at h
        simp only [Prod.mk.injEq] at h
        rw [← h.2.1]
        exact Nat.zero_le _
      | ok r =>
        obtain ⟨c, k⟩ := r
        rw [hf] at h
        simp only at h
        obtain ⟨enc, tail, h2, _, h3⟩ := utf8First_ok hf
        cases hs : utf8Scan n ((x :: xs).drop k) with
        | mk s1 r1 =>
          obtain ⟨p1, e1⟩ := r1
          rw [hs] at h
          simp only [Prod.mk.injEq] at h
          obtain ⟨_, rfl, rfl⟩ := h
          have := ih _ hs
          have hk : k ≤ (x :: xs).length := by
            rw [h2, ← h3]
            simp
          simp only [List.length_drop] at this
          omega

theorem parseClose_brief {d : Bytes} {e : Exc} (hd : d.length ≤ 125)
    (h : parseClose d = .error e) : BriefExc e := by
  match d, h with
  | [], h => simp [parseClose] at h
  | [_], h =>
    simp only [parseClose, Except.error.injEq] at h
    subst h; show Short _; decide
  | a :: b :: rest, h =>
    simp only [parseClose, checkClose] at h
    split at h
    · rename_i hc
      split at hc
      · simp only [Except.error.injEq] at hc h
        subst hc; subst h; show Short _; decide
      · cases hc
    · cases hu : utf8Decode rest with
      | ok s => rw [hu] at h; cases h
      | error e1 =>
        rw [hu] at h
        simp only [Except.error.injEq] at h
        subst h
        unfold utf8Decode at hu
        split at hu
        · cases hu
        · rename_i s pos e hs
          simp only [Except.error.injEq] at hu
          subst hu
          have hp := utf8Scan_pos _ _ hs
          simp only [List.length_cons] at hd
          have h1 := decStr_length 2 pos (by omega)
          refine Short.append3 ?_ (by decide) (decStr_ascii_brief pos) ?_
          · cases e <;> decide
          · cases e <;> simp only [Utf8Err.reason, List.length_cons, List.length_nil] <;> omega

theorem Core.sendFrame_ctrl_brief {env : Env X E H} (ht : env.ops.CtrlTransparent)
    {c c' : Core X E} {opcode : Opcode} {d : Bytes} (hop : opcode.isCtrl = true)
    (hd : d.length ≤ 125) {e : Exc}
    (h : c.sendFrame env { fin := true, opcode, data := d } = (some e, c')) : BriefExc e := by
  by_cases ho : c.state = .opened
  · obtain ⟨c1, h1⟩ := Core.sendFrame_ctrl_ok ht c opcode d hop hd ho
    rw [h1] at h; cases h
  · unfold Core.sendFrame at h
    rw [if_pos ho] at h
    simp only [Prod.mk.injEq, Option.some.injEq] at h
    rw [← h.1]
    trivial

theorem Core.handleFrame_brief {env : Env X E H} (ht : env.ops.CtrlTransparent)
    {c c' : Core X E} {f : Frame} {e : Exc} (hc : f.check = .ok ())
    (h : c.handleFrame env f = (some e, c')) : BriefExc e := by
  have hlen : f.opcode.isCtrl = true → f.data.length ≤ 125 := by
    intro hx
    have := ((Frame.check_ok_iff f).1 hc).2
    have h2 : IsControl f.opcode := by cases hop : f.opcode <;> simp_all [IsControl, Opcode.isCtrl]
    exact (this.2.2 h2).2
  unfold Core.handleFrame at h
  have dat :
      (if c.closeReceived then
        (some (Exc.protocolError p!"data frame after close frame"), c)
      else if c.curSize ≠ none then
        (some (.protocolError p!"expected a continuation frame"), c)
      else if f.fin then (none, { c with curSize := none })
      else (none, { c with curSize := some f.data.length })) = (some e, c') → BriefExc e := by
    intro h
    split at h
    · simp only [Prod.mk.injEq, Option.some.injEq] at h; rw [← h.1]; show Short _; decide
    · split at h
      · simp only [Prod.mk.injEq, Option.some.injEq] at h; rw [← h.1]; show Short _; decide
      · split at h <;> simp at h
  cases hop : f.opcode with
  | text => rw [hop] at h; exact dat h
  | binary => rw [hop] at h; exact dat h
  | cont =>
    rw [hop] at h
    simp only at h
    split at h
    · simp only [Prod.mk.injEq, Option.some.injEq] at h; rw [← h.1]; show Short _; decide
    · split at h
      · simp only [Prod.mk.injEq, Option.some.injEq] at h; rw [← h.1]; show Short _; decide
      · split at h <;> simp at h
  | pong => rw [hop] at h; simp at h
  | ping =>
    rw [hop] at h
    simp only at h
    split at h
    · exact Core.sendFrame_ctrl_brief ht rfl (hlen (by rw [hop]; rfl)) h
    · simp at h
  | close =>
    rw [hop] at h
    simp only at h
    have hlen := hlen (by rw [hop]; rfl)
    split at h
    · rename_i e1 hp
      simp only [Prod.mk.injEq, Option.some.injEq] at h
      rw [← h.1]
      exact parseClose_brief hlen hp
    · split at h
      · simp only [Prod.mk.injEq, Option.some.injEq] at h; rw [← h.1]; show Short _; decide
      · split at h
        · unfold Core.sendCloseFrame at h
          split at h
          · rename_i e1 c1 hx
            simp only [Prod.mk.injEq, Option.some.injEq] at h
            rw [← h.1]
            exact Core.sendFrame_ctrl_brief ht rfl hlen hx
          · simp only at h
            split at h
            · unfold Core.sendEof at h
              split at h
              · simp only [Prod.mk.injEq, Option.some.injEq] at h; rw [← h.1]; trivial
              · simp at h
            · simp at h
        · simp at h

theorem Core.Refuse.brief {env : Env X E H} (ht : env.ops.CtrlTransparent)
    (hb : env.ops.DecodeBrief) {c c' : Core X E} {e : Exc} (h : c.Refuse env e c')
    (hlim : FewDigits c.frameLimit) : BriefExc e := by
  obtain ⟨stale, raw, _, _, h⟩ := h
  unfold Core.frameRead at h
  cases hf : Frame.finish env.ops (stale.getD c.exts) c.frameLimit raw with
  | mk res xs =>
    rw [hf] at h
    cases res with
    | error e' =>
      simp only [Prod.mk.injEq, Option.some.injEq] at h
      obtain ⟨rfl, _⟩ := h
      unfold Frame.finish at hf
      cases ha : applyExts (fun x fr => env.ops.decode x fr c.frameLimit)
        (stale.getD c.exts).reverse raw with
      | mk r ys =>
        rw [ha] at hf
        cases r with
        | error e1 =>
          simp only [Prod.mk.injEq, Except.error.injEq] at hf
          rw [← hf.1]
          exact applyExts_brief hb hlim ha
        | ok f' =>
          simp only at hf
          cases hc : f'.check with
          | error e1 =>
            rw [hc] at hf
            simp only [Prod.mk.injEq, Except.error.injEq] at hf
            rw [← hf.1]
            exact Frame.check_brief hc
          | ok u => rw [hc] at hf; simp at hf
    | ok f =>
      have hc := Frame.finish_check hf
      simp only at h
      cases hx : Core.handleFrame env (if stale.isNone then { c with exts := xs } else c) f with
      | mk e' c1 =>
        rw [hx] at h
        cases e' with
        | none => simp at h
        | some e' =>
          simp only [Prod.mk.injEq, Option.some.injEq] at h
          obtain ⟨rfl, _⟩ := h
          exact Core.handleFrame_brief ht hc hx

/-! ## Limits stay within a few digits -/

/-- Decoding doesn't produce payloads of 2^64 bytes. -/
def ExtOps.DecodeSane (ops : ExtOps X) : Prop :=
  ∀ {x f lim f' x'}, ops.decode x f lim = (.ok f', x') → f.data.length < 2 ^ 64 →
    f'.data.length < 2 ^ 64

theorem noExts_decodeSane : noExts.DecodeSane := fun {x} => nomatch x

theorem applyExts_sane {ops : ExtOps X} (hd : ops.DecodeSane) {lim : Option Int}
    {xs xs' : List X} {f f' : Frame}
    (h : applyExts (fun x fr => ops.decode x fr lim) xs f = (.ok f', xs'))
    (hf : f.data.length < 2 ^ 64) : f'.data.length < 2 ^ 64 := by
  induction xs generalizing f f' xs' with
  | nil => simp only [applyExts, Prod.mk.injEq, Except.ok.injEq] at h; rw [← h.1]; exact hf
  | cons x xs ih =>
    simp only [applyExts] at h
    cases hx : ops.decode x f lim with
    | mk r x1 =>
      cases r with
      | error e => rw [hx] at h; simp at h
      | ok f1 =>
        rw [hx] at h
        simp only [Prod.mk.injEq] at h
        exact ih (f := f1) (f' := f')
          (xs' := (applyExts (fun x fr => ops.decode x fr lim) xs f1).2)
          (by rw [← h.1]) (hd hx hf)

/-- The size of the current message is close to the limit at most. -/
def Core.Bounded (c : Core X E) : Prop :=
  ∀ m, c.maxSize = some m → m.natAbs < 10 ^ 40 ∧
    ∀ n, c.curSize = some n → (n : Int) ≤ max m 0 + 2 ^ 64

theorem Core.Bounded.fewDigits {c : Core X E} (h : c.Bounded) : FewDigits c.frameLimit := by
  intro m hm
  unfold Core.frameLimit at hm
  cases hx : c.maxSize with
  | none => rw [hx] at hm; cases hm
  | some m0 =>
    obtain ⟨h1, h2⟩ := h m0 hx
    rw [hx] at hm
    cases hc : c.curSize with
    | none =>
      rw [hc] at hm
      simp only [Option.some.injEq] at hm
      omega
    | some n =>
      have := h2 n hc
      rw [hc] at hm
      simp only [Option.some.injEq] at hm
      omega

theorem Core.Bounded.accept {env : Env X E H} (hl : env.ops.Lawful) (hd : env.ops.DecodeSane)
    {c c' : Core X E} {f : Frame} (h : c.Bounded) (ha : c.Accept env f c') : c'.Bounded := by
  have hacc := ha.accepted hl
  obtain ⟨stale, raw, xs, c1, hw, hlt, hf, _, _⟩ := ha
  have hfl : f.data.length < 2 ^ 64 := by
    unfold Frame.finish at hf
    cases ha : applyExts (fun x fr => env.ops.decode x fr c.frameLimit)
      (stale.getD c.exts).reverse raw with
    | mk r ys =>
      rw [ha] at hf
      cases r with
      | error e => simp at hf
      | ok f' =>
        have := applyExts_sane hd ha hlt
        simp only at hf
        cases hc : f'.check with
        | error e => rw [hc] at hf; simp at hf
        | ok u =>
          rw [hc] at hf
          simp only [Prod.mk.injEq, Except.ok.injEq] at hf
          rw [← hf.1]
          exact this
  intro m hm
  rw [hacc.maxSize] at hm
  obtain ⟨h1, h2⟩ := h m hm
  refine ⟨h1, fun n hn => ?_⟩
  rw [hacc.curSize] at hn
  unfold nextCur at hn
  cases hop : f.opcode with
  | text =>
    rw [hop] at hn
    simp only at hn
    split at hn
    · cases hn
    · simp only [Option.some.injEq] at hn; omega
  | binary =>
    rw [hop] at hn
    simp only at hn
    split at hn
    · cases hn
    · simp only [Option.some.injEq] at hn; omega
  | cont =>
    rw [hop] at hn
    simp only at hn
    split at hn
    · cases hn
    · cases hc : c.curSize with
      | none => exact absurd hc (hacc.ok.cont hop)
      | some n0 =>
        rw [hc] at hn
        simp only [Option.getD_some, Option.some.injEq] at hn
        have : c.frameLimit = some (m - n0) := by unfold Core.frameLimit; rw [hm, hc]
        have := hw _ this
        omega
  | ping => rw [hop] at hn; exact h2 n hn
  | pong => rw [hop] at hn; exact h2 n hn
  | close => rw [hop] at hn; exact h2 n hn

theorem Core.Bounded.same {c c' : Core X E} (h : c.Bounded) (hs : Core.Same c c') :
    c'.Bounded := by
  unfold Core.Bounded
  rw [hs.maxSize, hs.curSize]
  exact h

theorem RecvPath.bounded {env : Env X E H} (hl : env.ops.Lawful) (hd : env.ops.DecodeSane)
    {c c' : Core X E} {evs : List (Event E)} (h : RecvPath env c evs c') (hb : c.Bounded) :
    c'.Bounded := by
  induction h with
  | nil => exact hb
  | frame ha _ ih => exact ih (hb.accept hl hd ha)
  | hs hs _ ih => exact ih (hb.same hs)
  | same hs _ ih => exact ih (hb.same hs)

end WS
