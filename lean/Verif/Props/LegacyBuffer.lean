import Verif.Model.LegacyBuffer
import Verif.Props.LegacyDrain

/-!
# C105: the write buffer of a legacy connection is bounded
-/

namespace WS.LegacyBuffer

open LegacyDrain (Flow Act Obs Fut Pc Inv)

/-! ## Specification -/

/-- Nobody cancels a call that waits. -/
def Spec.Uncancelled (es : List Event) : Prop := ∀ t, .cancel t ∉ es

/-- The size of the frames of these calls -/
def Spec.total (b : Buf) (calls : List Nat) : Nat := (calls.map b.frame).sum

/-! ## Calls that wait -/

/-- A call that started since writing is paused doesn't end. -/
def Stays (s : Flow) (t : Nat) : Prop :=
  match s.tasks t with
  | some (.acquiring f false) => s.lockFuts f ≠ .cancelled
  | some (.sleeping false) => True
  | some (.draining f false) => s.drainFuts f = .pending
  | _ => False

/-- What the other tasks keep -/
structure Keep (s s' : Flow) : Prop where
  paused : s'.paused = s.paused
  lost : s'.lost = s.lost
  broken : s'.broken = s.broken
  lock : ∀ f, s.lockFuts f ≠ .cancelled → s'.lockFuts f ≠ .cancelled
  drain : ∀ f, s.drainFuts f = .pending → s'.drainFuts f = .pending

theorem Keep.refl (s : Flow) : Keep s s := ⟨rfl, rfl, rfl, fun _ h => h, fun _ h => h⟩

theorem Keep.trans {a b c : Flow} (h : Keep a b) (h' : Keep b c) : Keep a c :=
  ⟨h'.paused.trans h.paused, h'.lost.trans h.lost, h'.broken.trans h.broken, fun f x => h'.lock f (h.lock f x),
    fun f x => h'.drain f (h.drain f x)⟩

theorem keep_wakeFirst (s : Flow) : Keep s s.wakeFirst := by
  unfold Flow.wakeFirst
  split
  · exact Keep.refl s
  · split
    · refine ⟨rfl, rfl, rfl, fun f h => ?_, fun _ h => h⟩
      simp only [LegacyDrain.set]
      split
      · nofun
      · exact h
    · exact Keep.refl s

theorem keep_release (s : Flow) (t : Nat) (o : Obs) : Keep s (s.release t o).1 := by
  unfold Flow.release
  split
  · exact Keep.trans (b := { s with locked := false }) ⟨rfl, rfl, rfl, fun _ h => h, fun _ h => h⟩ (keep_wakeFirst _)
  · exact Keep.refl s

theorem keep_suspend (s : Flow) (t : Nat) (pc : Option Pc) : Keep s (s.suspend t pc) :=
  ⟨rfl, rfl, rfl, fun _ h => h, fun _ h => h⟩

theorem keep_drainHelper (s : Flow) (t : Nat) : Keep s (s.drainHelper t).1 := by
  unfold Flow.drainHelper
  split
  · exact keep_release s t _
  split
  · exact keep_release s t _
  split
  · refine ⟨rfl, rfl, rfl, fun _ h => h, fun f h => ?_⟩
    simp only [Flow.suspend, LegacyDrain.set]
    split
    · rfl
    · exact h
  · exact keep_release s t _

theorem keep_drain (s : Flow) (t : Nat) : Keep s (s.drain t).1 := by
  unfold Flow.drain
  split
  · exact keep_release s t _
  split
  · exact keep_suspend s t _
  · exact keep_drainHelper s t

theorem keep_locked (s : Flow) (b : Bool) : Keep s { s with locked := b } := ⟨rfl, rfl, rfl, fun _ h => h, fun _ h => h⟩

theorem keep_write (s : Flow) (t : Nat) : Keep s (s.write t).1 := by
  unfold Flow.write
  split
  · exact (keep_locked s true).trans (keep_drain _ t)
  · refine ⟨rfl, rfl, rfl, fun f h => ?_, fun _ h => h⟩
    simp only [Flow.suspend, LegacyDrain.set]
    split
    · nofun
    · exact h

theorem keep_run {s : Flow} {t : Nat} {r : Flow × List Obs} (h : s.run t = some r) : Keep s r.1 := by
  unfold Flow.run at h
  split at h
  · cases h
  · rename_i f c _
    split at h
    · cases h
    have hk : Keep s ({ s with waiters := s.waiters.filter (· ≠ f) }.suspend t none) :=
      ⟨rfl, rfl, rfl, fun _ h => h, fun _ h => h⟩
    dsimp only at h
    split at h <;> cases h
    · dsimp only
      split
      · exact hk
      · exact hk.trans (keep_wakeFirst _)
    · exact (hk.trans (keep_locked _ true)).trans (keep_drain _ t)
  · dsimp only at h
    split at h <;> cases h
    · exact (keep_suspend s t none).trans (keep_release _ t _)
    · exact (keep_suspend s t none).trans (keep_drainHelper _ t)
  · dsimp only at h
    split at h <;> cases h
    all_goals exact (keep_suspend s t none).trans (keep_release _ t _)

theorem release_bad {s : Flow} {t : Nat} (h : ∀ o ∈ (s.release t (.raised t .assertionError)).2, o.bad = false) : False := by
  unfold Flow.release at h
  split at h
  · have := h _ (.head _); simp [Obs.bad] at this
  · have := h _ (.head _); simp [Obs.bad] at this

/-- In `_drain_helper`, a call waits when writing is paused. -/
theorem stays_drainHelper {s : Flow} {t : Nat} (hp : s.paused = true) (hl : s.lost = false)
    (hbad : ∀ o ∈ (s.drainHelper t).2, o.bad = false) : Stays (s.drainHelper t).1 t := by
  unfold Flow.drainHelper at hbad ⊢
  simp only [hl, hp, Bool.not_true, Bool.false_eq_true, if_false] at hbad ⊢
  split
  · simp [Stays, Flow.suspend, LegacyDrain.set]
  · rename_i hm
    rw [if_neg hm] at hbad
    exact (release_bad hbad).elim

theorem stays_drain {s : Flow} {t : Nat} (hp : s.paused = true) (hl : s.lost = false) (hb : s.broken = false)
    (hbad : ∀ o ∈ (s.drain t).2, o.bad = false) : Stays (s.drain t).1 t := by
  unfold Flow.drain at hbad ⊢
  simp only [hb, Bool.false_eq_true, if_false] at hbad ⊢
  split
  · simp [Stays, Flow.suspend, LegacyDrain.set]
  · rename_i hc
    rw [if_neg hc] at hbad
    exact stays_drainHelper hp hl hbad

theorem stays_write {s : Flow} {t : Nat} (hp : s.paused = true) (hl : s.lost = false) (hb : s.broken = false)
    (hbad : ∀ o ∈ (s.write t).2, o.bad = false) : Stays (s.write t).1 t := by
  unfold Flow.write at hbad ⊢
  split
  · rename_i hc
    rw [if_pos hc] at hbad
    exact stays_drain (s := { s with locked := true }) hp hl hb hbad
  · simp [Stays, Flow.suspend, LegacyDrain.set]

theorem Stays.keep {s s' : Flow} {t : Nat} (h : Stays s t) (hk : Keep s s') (ht : s'.tasks t = s.tasks t) : Stays s' t := by
  unfold Stays at *
  rw [ht]
  split at h
  · exact hk.lock _ h
  · trivial
  · exact hk.drain _ h
  · exact h.elim

/-- It still waits when it runs. -/
theorem Stays.run {s : Flow} {t : Nat} {r : Flow × List Obs} (h : Stays s t) (hp : s.paused = true) (hl : s.lost = false)
    (hb : s.broken = false) (hr : s.run t = some r) (hbad : ∀ o ∈ r.2, o.bad = false) : Stays r.1 t := by
  unfold Stays at h
  unfold Flow.run at hr
  split at h
  · rename_i f ht
    simp only [ht] at hr
    split at hr
    · cases hr
    split at hr
    · rename_i hc
      rcases hc with hc | hc
      · exact absurd hc h
      · cases hc
    · cases hr
      exact stays_drain hp hl hb hbad
  · rename_i ht
    simp only [ht, Bool.false_eq_true, if_false] at hr
    cases hr
    exact stays_drainHelper hp hl hbad
  · rename_i f ht
    simp only [ht] at hr
    simp only [Flow.suspend, h] at hr
    cases hr
  · exact h.elim

/-! ## The invariant -/

/-- While writing is paused, what exceeds the limit was written by calls that wait, except `x` bytes of calls that were cancelled. -/
structure Bounded (l : Limits) (x : Nat) (b : Buf) : Prop where
  inv : Inv b.flow none
  lost : b.flow.lost = true → b.size = 0
  broken : b.flow.lost = false → b.flow.broken = false
  open_ : b.flow.paused = false → b.size ≤ l.high
  paused : b.flow.paused = true → b.flow.lost = false → ∃ calls : List Nat, calls.Nodup ∧ (∀ t ∈ calls, Stays b.flow t) ∧
    b.size ≤ l.high + b.failed + Spec.total b calls + x

theorem act_eq {b b' : Buf} {a : Act} {os : List Obs} (h : b.act a = some (b', os)) :
    b.flow.step a = some (b'.flow, os) ∧ b' = { b with flow := b'.flow } := by
  simp only [Buf.act, Option.map_eq_some_iff] at h
  obtain ⟨⟨f, o⟩, h, he⟩ := h
  cases he
  exact ⟨h, rfl⟩

theorem total_congr {b b' : Buf} {calls : List Nat} (h : ∀ t ∈ calls, b'.frame t = b.frame t) :
    Spec.total b' calls = Spec.total b calls := by
  unfold Spec.total
  rw [List.map_congr_left h]

/-- A call to `write_frame` -/
theorem Bounded.written {l : Limits} {x : Nat} {b b' : Buf} {t n k : Nat} {os : List Obs} (h : Bounded l x b) (hk : k ≤ n)
    (ht : b.flow.tasks t = none) (hl : b.flow.lost = false) (flow : Flow) (hflow : flow = b.flow ∨ flow = { b.flow with paused := true })
    (hi : Inv flow none) (hp : flow.paused = false → b.size + k ≤ l.high)
    (hs : ({ flow := flow, size := b.size + k, frame := LegacyDrain.set b.frame t n, failed := b.failed } : Buf).act (.write t) = some (b', os)) :
    Bounded l x b' := by
  obtain ⟨hst, hb'⟩ := act_eq hs
  have hinv := LegacyDrain.inv_step hi hst
  have htn : flow.tasks t = none := by rcases hflow with h | h <;> rw [h] <;> exact ht
  have hll : flow.lost = false := by rcases hflow with h | h <;> rw [h] <;> exact hl
  have hbr : flow.broken = false := by rcases hflow with h' | h' <;> rw [h'] <;> exact h.broken hl
  simp only [Flow.step, htn, if_true, Option.some.injEq] at hst
  have hkeep := keep_write flow t
  have hlim := LegacyDrain.write_limits (s := flow) htn
  rw [hst] at hkeep hlim
  dsimp only at hkeep hlim hinv
  have hsize : b'.size = b.size + k := by rw [hb']
  have hframe : b'.frame = LegacyDrain.set b.frame t n := by rw [hb']
  have hfailed : b'.failed = b.failed := by rw [hb']
  refine ⟨hinv.1, fun hx => ?_, fun _ => hkeep.broken.trans hbr, fun hx => ?_, fun hx _ => ?_⟩
  · rw [hkeep.lost, hll] at hx; cases hx
  · rw [hsize]; exact hp (hkeep.paused ▸ hx)
  · have hfp : flow.paused = true := hkeep.paused ▸ hx
    have hstay : Stays b'.flow t := by
      have := stays_write (t := t) hfp hll hbr (by rw [hst]; exact hinv.2)
      rwa [hst] at this
    have hother : ∀ c, c ≠ t → Stays flow c → Stays b'.flow c := fun c hc hst' => hst'.keep hkeep (hlim.1 c hc)
    by_cases hbp : b.flow.paused = true
    · have hfe : flow = b.flow := by
        rcases hflow with h | h
        · exact h
        · rw [h]; cases hf : b.flow; simp only [hf] at hbp; rw [hbp]
      obtain ⟨calls, hnd, hcs, hle⟩ := h.paused hbp hl
      have hnot : t ∉ calls := by
        intro hm
        have := hcs t hm
        simp [Stays, ht] at this
      refine ⟨t :: calls, List.nodup_cons.2 ⟨hnot, hnd⟩, ?_, ?_⟩
      · intro c hc
        rcases List.mem_cons.1 hc with rfl | hc
        · exact hstay
        · exact hother c (fun he => hnot (he ▸ hc)) (by rw [hfe]; exact hcs c hc)
      · have hcongr : Spec.total b' calls = Spec.total b calls := total_congr fun c hc => by
          rw [hframe]; exact LegacyDrain.set_other fun he => hnot (he ▸ hc)
        have : Spec.total b' (t :: calls) = n + Spec.total b' calls := by
          simp [Spec.total, hframe, LegacyDrain.set]
        omega
    · have := h.open_ (by simpa using hbp)
      refine ⟨[t], by simp, ?_, ?_⟩
      · intro c hc
        rw [List.mem_singleton.1 hc]; exact hstay
      · have : Spec.total b' [t] = n := by simp [Spec.total, hframe, LegacyDrain.set]
        omega

theorem Bounded.step {l : Limits} {x : Nat} {b b' : Buf} {e : Event} {os : List Obs} (hl : l.low ≤ l.high) (h : Bounded l x b)
    (hc : ∀ t, e ≠ .cancel t) (hs : b.step l e = some (b', os)) : Bounded l x b' := by
  cases e with
  | cancel t => exact absurd rfl (hc t)
  | write t n k =>
    simp only [Buf.step] at hs
    split at hs
    case isFalse => cases hs
    rename_i hk
    split at hs
    · rename_i hlost
      obtain ⟨hst, hb'⟩ := act_eq hs
      have hinv := LegacyDrain.inv_step h.inv hst
      simp only [Flow.step, hk.2, if_true, Option.some.injEq] at hst
      have hkeep := keep_write b.flow t
      rw [hst] at hkeep
      dsimp only at hkeep hinv
      have hsize : b'.size = b.size := by rw [hb']
      have hz := h.lost hlost
      refine ⟨hinv.1, fun _ => by omega, fun hx => ?_, fun _ => by omega, fun _ hx => ?_⟩
      · rw [hkeep.lost, hlost] at hx; cases hx
      · rw [hkeep.lost, hlost] at hx; cases hx
    · rename_i hlost
      simp only [Bool.not_eq_true] at hlost
      split at hs
      · rename_i hhigh
        split at hs
        · cases hs
        · rename_i b1 o1 hp
          obtain ⟨hp1, hb1⟩ := act_eq hp
          have hinv := LegacyDrain.inv_step h.inv hp1
          simp only [Flow.step] at hp1
          split at hp1
          · cases hp1
          simp only [Option.some.injEq, Prod.mk.injEq] at hp1
          rw [hb1] at hs
          exact h.written hk.1 hk.2 hlost b1.flow (.inr hp1.1.symm) hinv.1
            (fun hx => by rw [← hp1.1] at hx; cases hx) hs
      · rename_i hhigh
        refine h.written hk.1 hk.2 hlost b.flow (.inl rfl) h.inv (fun hx => ?_) hs
        exact Nat.le_of_not_lt fun hlt => hhigh ⟨hlt, by simp [hx]⟩
  | fail n k =>
    simp only [Buf.step] at hs
    split at hs
    case isFalse => cases hs
    rename_i hk
    split at hs
    · cases hs; exact h
    rename_i hlost
    simp only [Bool.not_eq_true] at hlost
    split at hs
    · rename_i hhigh
      obtain ⟨hst, hb'⟩ := act_eq hs
      have hinv := LegacyDrain.inv_step h.inv hst
      have hp : b.flow.paused = false := by simpa using hhigh.2
      simp only [Flow.step, hp, Bool.false_eq_true, if_false, Option.some.injEq, Prod.mk.injEq] at hst
      have := h.open_ hp
      rw [hb', ← hst.1]
      have hi := hinv.1
      dsimp only at hi
      rw [← hst.1] at hi
      refine ⟨hi, fun hx => ?_, h.broken, fun hx => by (cases hx), fun _ _ => ⟨[], by simp, by simp, ?_⟩⟩
      · have hx : b.flow.lost = true := hx
        rw [hlost] at hx; cases hx
      · show b.size + k ≤ l.high + n + 0 + x
        omega
    · rename_i hhigh
      cases hs
      refine ⟨h.inv, fun hx => ?_, h.broken, fun hx => ?_, fun hx hx' => ?_⟩
      · have hx : b.flow.lost = true := hx
        rw [hlost] at hx; cases hx
      · have hx : b.flow.paused = false := hx
        exact Nat.le_of_not_lt fun hlt => hhigh ⟨hlt, by simp [hx]⟩
      · obtain ⟨calls, h1, h2, h3⟩ := h.paused hx hx'
        refine ⟨calls, h1, h2, ?_⟩
        show b.size + k ≤ l.high + n + Spec.total b calls + x
        omega
  | sent n =>
    simp only [Buf.step] at hs
    split at hs
    case isFalse => cases hs
    split at hs
    · rename_i hr
      obtain ⟨hst, hb'⟩ := act_eq hs
      have hinv := LegacyDrain.inv_step h.inv hst
      have hsize : b'.size = b.size - n := by rw [hb']
      have hrp := hr.2
      simp only [Flow.step, hr.1, if_true, Option.some.injEq, Prod.mk.injEq] at hst
      have hf : b'.flow.paused = false ∧ b'.flow.lost = b.flow.lost ∧ b'.flow.broken = b.flow.broken := by
        rw [← hst.1]
        unfold Flow.wakeDrain
        split
        · exact ⟨rfl, rfl, rfl⟩
        · split <;> exact ⟨rfl, rfl, rfl⟩
      refine ⟨hinv.1, fun hx => ?_, fun hx => ?_, fun _ => by omega, fun hx => ?_⟩
      · have := h.lost (hf.2.1 ▸ hx); omega
      · rw [hf.2.2]; exact h.broken (hf.2.1 ▸ hx)
      · rw [hf.1] at hx; cases hx
    · cases hs
      refine ⟨h.inv, fun hx => ?_, h.broken, fun hx => ?_, fun hx hx' => ?_⟩
      · have := h.lost hx; dsimp only; omega
      · have := h.open_ hx; dsimp only; omega
      · obtain ⟨calls, h1, h2, h3⟩ := h.paused hx hx'
        refine ⟨calls, h1, h2, ?_⟩
        show b.size - n ≤ l.high + b.failed + Spec.total b calls + x
        omega
  | discard =>
    cases hs
    exact ⟨h.inv, fun _ => rfl, h.broken, fun _ => Nat.zero_le _, fun _ _ => ⟨[], by simp, by simp, Nat.zero_le _⟩⟩
  | run t =>
    obtain ⟨hst, hb'⟩ := act_eq hs
    have hinv := LegacyDrain.inv_step h.inv hst
    have hst : b.flow.run t = some (b'.flow, os) := hst
    have hkeep := keep_run hst
    obtain ⟨_, _, hlim⟩ := LegacyDrain.run_limits hst
    dsimp only at hkeep hinv hlim
    have hsize : b'.size = b.size := by rw [hb']
    have hframe : b'.frame = b.frame := by rw [hb']
    have hfailed : b'.failed = b.failed := by rw [hb']
    refine ⟨hinv.1, fun hx => ?_, fun hx => ?_, fun hx => ?_, fun hx hx' => ?_⟩
    · rw [hsize]; exact h.lost (hkeep.lost ▸ hx)
    · rw [hkeep.broken]; exact h.broken (hkeep.lost ▸ hx)
    · rw [hsize]; exact h.open_ (hkeep.paused ▸ hx)
    · have hp : b.flow.paused = true := hkeep.paused ▸ hx
      have hlo : b.flow.lost = false := hkeep.lost ▸ hx'
      obtain ⟨calls, h1, h2, h3⟩ := h.paused hp hlo
      refine ⟨calls, h1, fun c hcm => ?_, ?_⟩
      · by_cases he : c = t
        · subst he
          exact (h2 c hcm).run hp hlo (h.broken hlo) hst hinv.2
        · exact (h2 c hcm).keep hkeep (hlim.1 c he)
      · rw [hsize, hfailed, total_congr (b := b) fun _ _ => by rw [hframe]]; exact h3
  | lost exc =>
    obtain ⟨hst, hb'⟩ := act_eq hs
    have hinv := LegacyDrain.inv_step h.inv hst
    have hsize : b'.size = 0 := by rw [hb']
    have hlo : b'.flow.lost = true := by
      simp only [Flow.step] at hst
      split at hst
      · cases hst
      · simp only [Option.some.injEq, Prod.mk.injEq] at hst
        rw [← hst.1]
        unfold Flow.wakeDrain
        repeat' split
        all_goals rfl
    refine ⟨hinv.1, fun _ => hsize, fun hx => ?_, fun _ => by omega, fun _ hx => ?_⟩ <;> rw [hlo] at hx <;> cases hx
  | close =>
    obtain ⟨hst, hb'⟩ := act_eq hs
    have hinv := LegacyDrain.inv_step h.inv hst
    have hst : ({ b.flow with closing := true }, ([] : List Obs)) = (b'.flow, os) := by simpa [Flow.step] using hst
    simp only [Prod.mk.injEq] at hst
    rw [hb', ← hst.1]
    have hi := hinv.1
    dsimp only at hi
    rw [← hst.1] at hi
    exact ⟨hi, h.lost, h.broken, h.open_, h.paused⟩

/-- Cancelling a call doesn't affect the others. -/
theorem Stays.cancel {s s' : Flow} {t c : Nat} (h : Stays s c) (hi : Inv s none) (hne : c ≠ t) (hs : s.cancel t = some s') :
    Stays s' c := by
  unfold Stays at h ⊢
  unfold Flow.cancel at hs
  split at hs
  · cases hs
  · rename_i f _ ht
    split at hs <;> cases hs
    · split at h <;> rename_i hc
      · simp only [hc]
        rw [LegacyDrain.set_other]
        · exact h
        · intro he
          rw [he] at hc
          exact hne (hi.one hc ht)
      · simp only [hc]
      · simp only [hc]; exact h
      · exact h.elim
    · simp only [Flow.suspend, LegacyDrain.set_other hne]
      exact h
  · cases hs
    simp only [Flow.suspend, LegacyDrain.set_other hne]
    exact h
  · rename_i f _ ht
    split at hs <;> cases hs
    · split at h <;> rename_i hc
      · simp only [hc]; exact h
      · simp only [hc]
      · exact absurd (hi.holder (.inr ⟨_, hc, rfl⟩) (.inr ⟨_, ht, rfl⟩)) hne
      · exact h.elim
    · simp only [Flow.suspend, LegacyDrain.set_other hne]
      exact h

theorem total_filter {b : Buf} {t : Nat} : ∀ {calls : List Nat}, calls.Nodup →
    Spec.total b calls ≤ Spec.total b (calls.filter (· ≠ t)) + b.frame t
  | [], _ => Nat.zero_le _
  | c :: calls, hn => by
    obtain ⟨h1, h2⟩ := List.nodup_cons.1 hn
    by_cases hc : c = t
    · subst hc
      have : (calls.filter (· ≠ c)) = calls := List.filter_eq_self.2 fun x hx => by
        simp only [ne_eq, decide_eq_true_eq]
        intro he; exact h1 (he ▸ hx)
      simp only [List.filter_cons, ne_eq, not_true, decide_false, Bool.false_eq_true, if_false]
      simp only [ne_eq] at this
      rw [this]
      simp only [Spec.total, List.map_cons, List.sum_cons]
      omega
    · have ih := total_filter (b := b) (t := t) h2
      simp only [List.filter_cons, ne_eq, hc, not_false_iff, decide_true, if_true]
      simp only [Spec.total, List.map_cons, List.sum_cons, ne_eq] at ih ⊢
      omega

theorem Bounded.cancelled {l : Limits} {x t : Nat} {b b' : Buf} {os : List Obs} (h : Bounded l x b)
    (hs : b.step l (.cancel t) = some (b', os)) : Bounded l (x + b.frame t) b' := by
  obtain ⟨hst, hb'⟩ := act_eq hs
  have hinv := LegacyDrain.inv_step h.inv hst
  simp only [Flow.step, Option.map_eq_some_iff] at hst
  obtain ⟨s1, hst, he⟩ := hst
  cases he
  have hp : b'.flow.paused = b.flow.paused ∧ b'.flow.lost = b.flow.lost ∧ b'.flow.broken = b.flow.broken := by
    generalize b'.flow = g at hst ⊢
    unfold Flow.cancel at hst
    split at hst
    · cases hst
    · split at hst <;> cases hst <;> exact ⟨rfl, rfl, rfl⟩
    · cases hst; exact ⟨rfl, rfl, rfl⟩
    · split at hst <;> cases hst <;> exact ⟨rfl, rfl, rfl⟩
  have hsize : b'.size = b.size := by rw [hb']
  have hframe : b'.frame = b.frame := by rw [hb']
  have hfailed : b'.failed = b.failed := by rw [hb']
  refine ⟨hinv.1, fun hx => ?_, fun hx => ?_, fun hx => ?_, fun hx hx' => ?_⟩
  · rw [hsize]; exact h.lost (hp.2.1 ▸ hx)
  · rw [hp.2.2]; exact h.broken (hp.2.1 ▸ hx)
  · rw [hsize]; exact h.open_ (hp.1 ▸ hx)
  · obtain ⟨calls, h1, h2, h3⟩ := h.paused (hp.1 ▸ hx) (hp.2.1 ▸ hx')
    refine ⟨calls.filter (· ≠ t), h1.filter _, fun c hc => ?_, ?_⟩
    · simp only [List.mem_filter, ne_eq, decide_eq_true_eq] at hc
      exact (h2 c hc.1).cancel h.inv hc.2 hst
    · rw [hsize, hfailed, total_congr (b := b) fun _ _ => by rw [hframe]]
      have := total_filter (b := b) (t := t) h1
      omega

theorem bounded_exec {l : Limits} (hl : l.low ≤ l.high) : ∀ {es : List Event} {b b' : Buf} {os : List Obs}, Bounded l 0 b →
    Spec.Uncancelled es → b.exec l es = some (b', os) → Bounded l 0 b'
  | [], _, _, _, h, _, hs => by cases hs; exact h
  | e :: es, b, b', os, h, hc, hs => by
    simp only [Buf.exec] at hs
    split at hs
    · cases hs
    · rename_i b1 o1 h1
      split at hs
      · cases hs
      · rename_i b2 o2 h2
        cases hs
        exact bounded_exec hl (h.step hl (fun t he => hc t (by rw [he]; exact .head _)) h1) (fun t hm => hc t (.tail _ hm)) h2

/-! ## Theorems -/

/-- **C105**: unless calls are cancelled, the buffer holds at most `write_limit` bytes, one frame for each call that hasn't
returned, and the close frame that `fail_connection` writes. -/
theorem C105_bounded_partial (writeLimit : Nat) {es : List Event} {b : Buf} {os : List Obs} (hc : Spec.Uncancelled es)
    (h : ({} : Buf).exec (limits writeLimit) es = some (b, os)) :
    ∃ calls : List Nat, calls.Nodup ∧ (∀ t ∈ calls, b.flow.tasks t ≠ none) ∧ 
      b.size ≤ writeLimit + b.failed + Spec.total b calls := by
  have hb : Bounded (limits writeLimit) 0 b :=
    bounded_exec (Nat.div_le_self _ _) ⟨LegacyDrain.inv_start, fun h => by (cases h), fun _ => rfl, fun _ => Nat.zero_le _, fun h => by (cases h)⟩ hc h
  by_cases hp : b.flow.paused = true
  · by_cases hl : b.flow.lost = true
    · exact ⟨[], by simp, by simp, by rw [hb.lost hl]; exact Nat.zero_le _⟩
    · obtain ⟨calls, h1, h2, h3⟩ := hb.paused hp (by simpa using hl)
      refine ⟨calls, h1, fun t ht hn => ?_, h3⟩
      have := h2 t ht
      simp [Stays, hn] at this
  · exact ⟨[], by simp, by simp, Nat.le_trans (hb.open_ (by simpa using hp)) (by simp only [limits]; omega)⟩

/-- Tasks and frames -/
structure Within (m k : Nat) (b : Buf) : Prop where
  frames : ∀ t, b.frame t ≤ m
  failed : b.failed ≤ m
  tasks : ∀ t, b.flow.tasks t ≠ none → t < k

/-- What tasks write -/
def Spec.Writes (m k : Nat) (es : List Event) : Prop :=
  (∀ t n j, .write t n j ∈ es → t < k ∧ n ≤ m) ∧ ∀ n j, .fail n j ∈ es → n ≤ m

theorem rank_none {p : Option Pc} (h : LegacyDrain.rank p = 0) : p = none := by
  cases p with
  | none => rfl
  | some p => cases p <;> simp [LegacyDrain.rank] at h

theorem act_within {m k : Nat} {b b' : Buf} {a : Act} {os : List Obs} (h : Within m k b) (ha : ∀ t, a = .write t → t < k)
    (hs : b.act a = some (b', os)) : Within m k b' := by
  obtain ⟨hst, hb'⟩ := act_eq hs
  refine ⟨by rw [hb']; exact h.frames, by rw [hb']; exact h.failed, fun t ht => ?_⟩
  have hr := LegacyDrain.step_rank hst t
  by_cases hw : a = .write t
  · exact ha t hw
  · by_cases hn : b.flow.tasks t = none
    · rw [hn, if_neg hw] at hr
      exact absurd (rank_none (by simp [LegacyDrain.rank] at hr ⊢; omega)) ht
    · exact h.tasks t hn

theorem within_step {l : Limits} {m k : Nat} {b b' : Buf} {e : Event} {os : List Obs} (h : Within m k b)
    (he : ∀ t n j, e = .write t n j → t < k ∧ n ≤ m) (he' : ∀ n j, e = .fail n j → n ≤ m) (hs : b.step l e = some (b', os)) : Within m k b' := by
  cases e with
  | write t n j =>
    obtain ⟨ht, hn⟩ := he t n j rfl
    have hf : ∀ x, LegacyDrain.set b.frame t n x ≤ m := by
      intro x
      simp only [LegacyDrain.set]
      split
      · exact hn
      · exact h.frames x
    have hw : ∀ t', Act.write t = .write t' → t' < k := fun t' hx => by cases hx; exact ht
    simp only [Buf.step] at hs
    split at hs
    case isFalse => cases hs
    split at hs
    · exact act_within (b := { b with frame := LegacyDrain.set b.frame t n }) ⟨hf, h.failed, h.tasks⟩ hw hs
    · split at hs
      · split at hs
        · cases hs
        · rename_i b1 _ hp
          exact act_within (act_within (b := { b with size := b.size + j, frame := LegacyDrain.set b.frame t n })
            ⟨hf, h.failed, h.tasks⟩ (fun _ hx => by cases hx) hp) hw hs
      · exact act_within (b := { b with size := b.size + j, frame := LegacyDrain.set b.frame t n }) ⟨hf, h.failed, h.tasks⟩ hw hs
  | sent n =>
    simp only [Buf.step] at hs
    split at hs
    case isFalse => cases hs
    split at hs
    · exact act_within (b := { b with size := b.size - n }) ⟨h.frames, h.failed, h.tasks⟩ (fun _ hx => by cases hx) hs
    · cases hs; exact ⟨h.frames, h.failed, h.tasks⟩
  | fail n j =>
    have hn := he' n j rfl
    simp only [Buf.step] at hs
    split at hs
    case isFalse => cases hs
    split at hs
    · cases hs; exact h
    split at hs
    · exact act_within (b := { b with size := b.size + j, failed := n }) ⟨h.frames, hn, h.tasks⟩ (fun _ hx => by cases hx) hs
    · cases hs; exact ⟨h.frames, hn, h.tasks⟩
  | discard => cases hs; exact ⟨h.frames, h.failed, h.tasks⟩
  | lost exc => exact act_within (b := { b with size := 0 }) ⟨h.frames, h.failed, h.tasks⟩ (fun _ hx => by cases hx) hs
  | run t | cancel t | close => exact act_within h (fun _ hx => by cases hx) hs

theorem within_exec {l : Limits} {m k : Nat} : ∀ {es : List Event} {b b' : Buf} {os : List Obs}, Within m k b →
    Spec.Writes m k es → b.exec l es = some (b', os) → Within m k b'
  | [], _, _, _, h, _, hs => by cases hs; exact h
  | e :: es, b, b', os, h, hw, hs => by
    simp only [Buf.exec] at hs
    split at hs
    · cases hs
    · rename_i b1 o1 h1
      split at hs
      · cases hs
      · rename_i b2 o2 h2
        cases hs
        exact within_exec (within_step h (fun t n j he => hw.1 t n j (by rw [he]; exact .head _))
            (fun n j he => hw.2 n j (by rw [he]; exact .head _)) h1)
          ⟨fun t n j hm => hw.1 t n j (.tail _ hm), fun n j hm => hw.2 n j (.tail _ hm)⟩ h2

theorem total_le {b : Buf} {m : Nat} (h : ∀ t, b.frame t ≤ m) : ∀ calls : List Nat, Spec.total b calls ≤ calls.length * m
  | [] => Nat.zero_le _
  | t :: calls => by
    have h1 := total_le h calls
    have h2 := h t
    simp only [Spec.total, List.map_cons, List.sum_cons, List.length_cons, Nat.succ_mul] at h1 ⊢
    omega

theorem length_le : ∀ {k : Nat} {l : List Nat}, l.Nodup → (∀ t ∈ l, t < k) → l.length ≤ k
  | 0, [], _, _ => Nat.le_refl _
  | 0, a :: _, _, h => absurd (h a (.head _)) (by omega)
  | k + 1, l, hn, h => by
    have h1 : (l.erase k).length ≤ k := length_le (hn.erase k) fun t ht => by
      have := h t (List.mem_of_mem_erase ht)
      have hne : t ≠ k := fun he => by rw [he] at ht; exact (hn.not_mem_erase) ht
      omega
    have := List.length_erase_le (a := k) (l := l)
    by_cases hm : k ∈ l
    · have := List.length_erase_of_mem hm; omega
    · rw [List.erase_of_not_mem hm] at h1; omega

/-- Cancellations -/
def Spec.cancels : List Event → Nat
  | [] => 0
  | .cancel _ :: es => Spec.cancels es + 1
  | _ :: es => Spec.cancels es

theorem cancels_exec {l : Limits} {m k : Nat} (hl : l.low ≤ l.high) : ∀ {es : List Event} {b b' : Buf} {os : List Obs} {x : Nat},
    Bounded l x b → Within m k b → Spec.Writes m k es → b.exec l es = some (b', os) →
    ∃ y, y ≤ x + Spec.cancels es * m ∧ Bounded l y b'
  | [], _, _, _, x, h, _, _, hs => by cases hs; exact ⟨x, by omega, h⟩
  | e :: es, b, b', os, x, h, hin, hw, hs => by
    simp only [Buf.exec] at hs
    split at hs
    · cases hs
    · rename_i b1 o1 h1
      split at hs
      · cases hs
      · rename_i b2 o2 h2
        cases hs
        have hin1 := within_step hin (fun t n j he => hw.1 t n j (by rw [he]; exact .head _))
          (fun n j he => hw.2 n j (by rw [he]; exact .head _)) h1
        have hw1 : Spec.Writes m k es := ⟨fun t n j hm => hw.1 t n j (.tail _ hm), fun n j hm => hw.2 n j (.tail _ hm)⟩
        by_cases hc : ∃ t, e = .cancel t
        · obtain ⟨t, rfl⟩ := hc
          obtain ⟨y, hy, hb⟩ := cancels_exec hl (h.cancelled h1) hin1 hw1 h2
          have := hin.frames t
          refine ⟨y, ?_, hb⟩
          simp only [Spec.cancels, Nat.succ_mul]
          omega
        · obtain ⟨y, hy, hb⟩ := cancels_exec hl (h.step hl (fun t he => hc ⟨t, he⟩) h1) hin1 hw1 h2
          refine ⟨y, ?_, hb⟩
          have : Spec.cancels (e :: es) = Spec.cancels es := by
            cases e with
            | cancel t => exact absurd ⟨t, rfl⟩ hc
            | _ => rfl
          rw [this]; exact hy

/-- **C105**: with `k` tasks that write frames of at most `m` bytes, the buffer holds at most `write_limit` bytes, one frame for each
task, one frame for each cancellation, and the close frame that `fail_connection` writes. -/
theorem C105_tasks (writeLimit m k : Nat) {es : List Event} {b : Buf} {os : List Obs} (hw : Spec.Writes m k es)
    (h : ({} : Buf).exec (limits writeLimit) es = some (b, os)) : b.size ≤ writeLimit + (k + 1 + Spec.cancels es) * m := by
  have hin0 : Within m k {} := ⟨fun _ => Nat.zero_le _, Nat.zero_le _, fun t ht => absurd rfl ht⟩
  have hin : Within m k b := within_exec hin0 hw h
  obtain ⟨y, hy, hb⟩ := cancels_exec (x := 0) (Nat.div_le_self _ _)
    ⟨LegacyDrain.inv_start, fun h => by (cases h), fun _ => rfl, fun _ => Nat.zero_le _, fun h => by (cases h)⟩ hin0 hw h
  rw [Nat.add_mul, Nat.succ_mul]
  by_cases hp : b.flow.paused = true
  · by_cases hl : b.flow.lost = true
    · rw [hb.lost hl]; exact Nat.zero_le _
    · obtain ⟨calls, h1, h2, h3⟩ := hb.paused hp (by simpa using hl)
      have h4 := total_le hin.frames calls
      have h5 := length_le h1 fun t ht => hin.tasks t fun hn => by
        have := h2 t ht
        simp [Stays, hn] at this
      have := Nat.mul_le_mul_right m h5
      have := hin.failed
      simp only [limits] at h3
      omega
  · have := hb.open_ (by simpa using hp)
    simp only [limits] at this
    omega

/-- Example: three tasks; the bound is reached. -/
example : ∃ b os, ({} : Buf).exec (limits 8) [.write 0 8 8, .write 0 5 5, .write 1 5 5, .write 2 5 5, .fail 5 5] = some (b, os) ∧
    b.size = 8 + (3 + 1) * 5 ∧ os = [.returned 0] ∧ b.flow.paused = true ∧ b.flow.tasks 0 ≠ none ∧ b.flow.tasks 1 ≠ none ∧
    b.flow.tasks 2 ≠ none := by
  refine ⟨_, _, rfl, rfl, rfl, rfl, ?_, ?_, ?_⟩ <;> nofun

/-- Example: one task, a cancellation; the bound is reached. -/
example : ∃ b os, ({} : Buf).exec (limits 8) [.write 0 8 8, .write 0 5 5, .cancel 0, .run 0, .write 0 5 5, .fail 5 5] = some (b, os) ∧
    b.size = 8 + (1 + 1 + 1) * 5 ∧ os = [.returned 0, .raised 0 .cancelled] ∧ b.flow.paused = true := ⟨_, _, rfl, rfl, rfl, rfl⟩

/-- **C105**: writing resumes as soon as the buffer holds at most a quarter of `write_limit`: when bytes were sent and writing
remains paused, it holds more. -/
theorem C105_resume (writeLimit n : Nat) {b b' : Buf} {os : List Obs} (h : b.step (limits writeLimit) (.sent n) = some (b', os)) :
    b'.flow.paused = true ↔ b.flow.paused = true ∧ writeLimit / 4 < b.size - n := by
  simp only [Buf.step] at h
  split at h
  · split at h
    · rename_i hc
      simp only [limits] at hc
      simp only [Buf.act, Flow.step, Option.map_eq_some_iff] at h
      have hp : b'.flow.paused = false := by
        obtain ⟨x, h1, h2⟩ := h
        cases h2
        repeat' split at h1
        all_goals first
          | cases h1; done
          | (cases h1; simp only [Flow.wakeDrain]; repeat' split
             all_goals rfl)
      simp only [hp]
      constructor
      · nofun
      · intro h; omega
    · rename_i hc
      cases h
      simp only [limits] at hc
      constructor
      · intro hp
        exact ⟨hp, Nat.lt_of_not_le fun hle => hc ⟨hp, hle⟩⟩
      · exact fun h => h.1
  · cases h

/-- Example: writing remains paused with 3 bytes, and resumes with 2 bytes. -/
example : ∃ b os, ({} : Buf).exec (limits 8) [.write 0 9 9, .sent 6] = some (b, os) ∧ b.flow.paused = true ∧
    ∃ b' os', b.step (limits 8) (.sent 1) = some (b', os') ∧ b'.flow.paused = false ∧ b'.size = 2 :=
  ⟨_, _, rfl, rfl, _, _, rfl, rfl, rfl⟩

/-- Calls that were cancelled while writing is paused -/
structure Idle (b : Buf) : Prop where
  paused : b.flow.paused = true
  lost : b.flow.lost = false
  broken : b.flow.broken = false
  closing : b.flow.closing = false
  locked : b.flow.locked = false
  waiters : b.flow.waiters = []
  wait : b.flow.mayWait = true
  tasks : ∀ t, b.flow.tasks t = none

theorem idle_write {l : Limits} {b : Buf} (h : Idle b) (n : Nat) :
    ∃ b' os, b.exec l [.write 0 n n, .cancel 0, .run 0] = some (b', os) ∧ Idle b' ∧ b'.size = b.size + n := by
  obtain ⟨h1, h2, h3, h4, h5, h6, h7, h8⟩ := h
  obtain ⟨⟨paused, lost, broken, closing, locked, waiters, drainWaiter, lockFuts, drainFuts, next, tasks⟩, size, frame, failed⟩ := b
  dsimp only at h1 h2 h3 h4 h5 h6 h8
  obtain rfl : tasks = fun _ => none := funext h8
  subst h1 h2 h3 h4 h5 h6
  have e1 : Buf.step l ⟨⟨true, false, false, false, false, [], drainWaiter, lockFuts, drainFuts, next, fun _ => none⟩, size, frame, failed⟩
      (.write 0 n n) = some (⟨⟨true, false, false, false, true, [], some next, lockFuts, LegacyDrain.set drainFuts next .pending, next + 1,
        LegacyDrain.set (fun _ => none) 0 (some (.draining next false))⟩, size + n, LegacyDrain.set frame 0 n, failed⟩, []) := by
    have h7' : Flow.mayWait ⟨true, false, false, false, true, [], drainWaiter, lockFuts, drainFuts, next, fun _ => none⟩ = true := h7
    simp [Buf.step, Buf.act, Flow.step, Flow.write, Flow.drain, Flow.drainHelper, h7', Flow.suspend]
  have e2 : Buf.step l (⟨⟨true, false, false, false, true, [], some next, lockFuts, LegacyDrain.set drainFuts next .pending, next + 1,
        LegacyDrain.set (fun _ => none) 0 (some (.draining next false))⟩, size + n, LegacyDrain.set frame 0 n, failed⟩) (.cancel 0) =
      some (⟨⟨true, false, false, false, true, [], some next, lockFuts, LegacyDrain.set (LegacyDrain.set drainFuts next .pending) next .cancelled,
        next + 1, LegacyDrain.set (fun _ => none) 0 (some (.draining next false))⟩, size + n, LegacyDrain.set frame 0 n, failed⟩, []) := by
    simp [Buf.step, Buf.act, Flow.step, Flow.cancel, LegacyDrain.set_same]
  have e3 : Buf.step l (⟨⟨true, false, false, false, true, [], some next, lockFuts, LegacyDrain.set (LegacyDrain.set drainFuts next .pending) next .cancelled,
        next + 1, LegacyDrain.set (fun _ => none) 0 (some (.draining next false))⟩, size + n, LegacyDrain.set frame 0 n, failed⟩) (.run 0) =
      some (⟨⟨true, false, false, false, false, [], some next, lockFuts, LegacyDrain.set (LegacyDrain.set drainFuts next .pending) next .cancelled,
        next + 1, LegacyDrain.set (LegacyDrain.set (fun _ => none) 0 (some (.draining next false))) 0 none⟩, size + n, LegacyDrain.set frame 0 n, failed⟩,
        [.raised 0 .cancelled]) := by
    simp [Buf.step, Buf.act, Flow.step, Flow.run, LegacyDrain.set_same, Flow.suspend, Flow.release, Flow.wakeFirst]
  refine ⟨_, _, by simp only [Buf.exec, e1, e2, e3]; rfl, ⟨rfl, rfl, rfl, rfl, rfl, rfl, ?_, ?_⟩, rfl⟩
  · simp [Flow.mayWait, LegacyDrain.set_same]
  · intro t
    simp only [LegacyDrain.set]
    split <;> rfl

theorem buf_append {l : Limits} : ∀ {es es' : List Event} {b b1 b2 : Buf} {os os' : List Obs}, b.exec l es = some (b1, os) →
    b1.exec l es' = some (b2, os') → b.exec l (es ++ es') = some (b2, os ++ os')
  | [], _, _, _, _, _, _, h, h' => by cases h; exact h'
  | e :: es, es', b, b1, b2, os, os', h, h' => by
    simp only [Buf.exec, List.cons_append] at h ⊢
    split at h
    · cases h
    · rename_i b3 o3 _
      split at h
      · cases h
      · rename_i b4 o4 h4
        cases h
        simp [buf_append h4 h']

/-- If calls are cancelled, the buffer isn't bounded: a task that gives up, for example because of a timeout, and tries again fills the
buffer with frames of one byte although no call is in progress and it makes one call at a time. -/
theorem C105_cancel_false (N : Nat) : ∃ (es : List Event) (b : Buf) (os : List Obs), ({} : Buf).exec (limits 0) es = some (b, os) ∧
    Spec.Writes 1 1 es ∧ (∀ t, b.flow.tasks t = none) ∧ N ≤ b.size := by
  have key : ∀ N, ∃ (es : List Event) (b : Buf) (os : List Obs), ({} : Buf).exec (limits 0) es = some (b, os) ∧
      Spec.Writes 1 1 es ∧ Idle b ∧ N < b.size := by
    intro N
    induction N with
    | zero =>
      refine ⟨[.write 0 1 1, .cancel 0, .run 0], _, _, rfl, ?_, ⟨rfl, rfl, rfl, rfl, rfl, rfl, rfl, ?_⟩, Nat.lt_succ_self 0⟩
      · refine ⟨fun t n j hm => ?_, fun n j hm => ?_⟩
        · simp at hm
          omega
        · simp at hm
      · intro t
        cases t <;> rfl
    | succ N ih =>
      obtain ⟨es, b, os, h1, h2, h3, h4⟩ := ih
      obtain ⟨b', os', e1, e2, e3⟩ := idle_write (l := limits 0) h3 1
      refine ⟨es ++ [.write 0 1 1, .cancel 0, .run 0], b', _, buf_append h1 e1, ?_, e2, by omega⟩
      refine ⟨fun t n j hm => ?_, fun n j hm => ?_⟩
      · rcases List.mem_append.1 hm with hm | hm
        · exact h2.1 t n j hm
        · simp at hm
          omega
      · rcases List.mem_append.1 hm with hm | hm
        · exact h2.2 n j hm
        · simp at hm
  obtain ⟨es, b, os, h1, h2, h3, h4⟩ := key N
  exact ⟨es, b, os, h1, h2, h3.tasks, by omega⟩

end WS.LegacyBuffer
