import Verif.Model.LegacySystem
import Verif.Props.LegacyOwner

/-!
# C102: a legacy server with all its tasks

The model is in `Verif.Model.LegacySystem`.
-/

namespace WS.LegacySystem

open LegacyLife (Call Config)
open LegacyOwner (Ok IsClose LifeOk Effect Apart)
open LegacyRegistry (Server)

/-! ## Specification -/

/-- The tasks that the server created aren't cancelled; `close_timeout` is positive. -/
def Spec.Ordinary (s : Sys) : Event → Prop
  | .conn i e =>
    (∀ c, s.conns[i]? = some c → LegacyOwner.Spec.Ordinary c e) ∧
    ∀ tasks k, s.closer = .closing tasks → (i, k) ∈ tasks → e ≠ .life (.call k .cancel) ∧
      (e = .life (.call k .timeout) → ∀ c, s.conns[i]? = some c → c.life.calls[k]? ≠ some .closeStart)
  | _ => True

/-- Executions -/
inductive Spec.Steps (cfg : Nat → Config) : Sys → Sys → Prop
  | refl (s : Sys) : Spec.Steps cfg s s
  | step {s t u : Sys} {e : Event} : Spec.Steps cfg s t → Spec.Ordinary t e → step cfg t e = some u →
      Spec.Steps cfg s u

/-- A task of the server has made the same progress. -/
def Spec.SameTask : LegacyRegistry.Task → Call → Prop
  | .scheduled, x => x = .closeStart
  | .running, x => x ≠ .closeStart
  | .ended, x => ∃ r, x = .ended r

/-- `close_task` is suspended in the same place. -/
def Spec.SameCloser (s : Sys) : Closer → LegacyRegistry.Closer → Prop
  | .none, c => c = .none
  | .created, c => c = .created
  | .stopped, c => c = .stopped
  | .closing ts, c => ∃ rs, c = .closing rs ∧ (∀ i k, (i, k) ∈ ts → ∃ t, (i, t) ∈ rs) ∧
      ∀ i t, (i, t) ∈ rs → ∃ k c x, (i, k) ∈ ts ∧ s.conns[i]? = some c ∧ c.life.calls[k]? = some x ∧ Spec.SameTask t x
  | .waiting ids, c => ∃ ids', c = .waiting ids' ∧ ∀ i, i ∈ ids' ↔ i ∈ ids
  | .done, c => c = .done

/-- The model of the server describes this server and every connection. -/
structure Spec.Describes (r : Server) (s : Sys) : Prop where
  length : r.conns.length = s.conns.length
  conns : ∀ (i : Nat) c, s.conns[i]? = some c → ∃ rc, LegacyOwner.Spec.Describes r i rc c
  serving : r.serving = s.serving
  closer : Spec.SameCloser s s.closer r.closer

/-- The connection is closed, or asyncio was told to close it. -/
def Spec.Closed (s : LegacyLife.St) : Prop := s.isClosing = true ∨ s.lost = true

/-! ## Invariants -/

/-- The tasks of the server -/
structure TaskOk (s : Sys) (ts : List (Nat × Nat)) (rs : List (Nat × LegacyRegistry.Task)) : Prop where
  unique : ∀ i k k', (i, k) ∈ ts → (i, k') ∈ ts → k = k'
  one : ∀ i t t', (i, t) ∈ rs → (i, t') ∈ rs → t = t'
  call : ∀ i k, (i, k) ∈ ts → ∃ c x, s.conns[i]? = some c ∧ c.life.calls[k]? = some x
  /-- it isn't the call that the handler makes. -/
  other : ∀ i k c, (i, k) ∈ ts → s.conns[i]? = some c → c.phase ≠ .closing k
  running : ∀ i k c x, (i, .running) ∈ rs → (i, k) ∈ ts → s.conns[i]? = some c → c.life.calls[k]? = some x →
    IsClose c.life x ∧ x ≠ .ended .cancelled ∧ c.life.transfer ≠ .absent

structure Inv (r : Server) (s : Sys) : Prop where
  describes : Spec.Describes r s
  ok : ∀ (i : Nat) c, s.conns[i]? = some c → Ok c
  tasks : ∀ ts rs, s.closer = .closing ts → r.closer = .closing rs → TaskOk s ts rs
  websockets : ∀ i ∈ r.websockets, i < r.conns.length
  nodup : r.websockets.Nodup
  keyError : r.keyError = false

/-- What steps of a handler do to calls -/
theorem handler_calls (cfg : Config) {c c' : LegacyHandler.Server.St} {e : LegacyHandler.Server.Event} {k : Nat}
    {x : Call} (h : LegacyHandler.Server.step cfg c e = some c') (hx : c.life.calls[k]? = some x) :
    c'.life.calls[k]? = some x ∨ ∃ ev s1 x', e = .life (.call k ev) ∧ c.life.callStep x ev = some (s1, x') ∧
      c' = { c with life := { s1 with calls := s1.calls.set k x' } } ∧ s1.calls = c.life.calls := by
  have hlt := (List.getElem?_eq_some_iff.1 hx).1
  have hfin : ∀ (t : LegacyHandler.Server.St) f, (t.finish f).life.calls = t.life.calls := by
    intro t f; unfold LegacyHandler.Server.St.finish; simp only; split <;> rfl
  cases e with
  | life e =>
    simp only [LegacyHandler.Server.step] at h
    split at h
    · split at h
      · cases h
      · next life hl =>
        cases h
        rcases LegacyOwner.calls_get cfg hx hl with h1 | ⟨ev, s1, x', h1, h2, h3, h4⟩
        · exact .inl h1
        · exact .inr ⟨ev, s1, x', by rw [h1], h2, by rw [h3], h4⟩
    · cases h
  | start => left; simp only [LegacyHandler.Server.step] at h; split at h <;> cases h; exact hx
  | accept =>
    left
    simp only [LegacyHandler.Server.step] at h
    split at h
    · split at h
      · next life hl =>
        cases h
        simp only [LegacyLife.step] at hl
        split at hl <;> cases hl
        exact hx
      · cases h; simp only [LegacyHandler.Server.St.reject, LegacyOwner.fail_calls]; exact hx
    · cases h
  | reject n =>
    left; simp only [LegacyHandler.Server.step] at h; split at h <;> cases h
    simp only [LegacyHandler.Server.St.reject, LegacyOwner.fail_calls]; exact hx
  | drop => left; simp only [LegacyHandler.Server.step] at h; split at h <;> cases h; rw [hfin]; exact hx
  | woken => left; simp only [LegacyHandler.Server.step] at h; split at h <;> cases h; rw [hfin]; exact hx
  | returned =>
    left
    simp only [LegacyHandler.Server.step, LegacyLife.step] at h
    split at h <;> cases h
    simp only
    rw [List.getElem?_append_left hlt]; exact hx
  | raised =>
    left
    simp only [LegacyHandler.Server.step] at h
    split at h <;> cases h
    rw [hfin]
    split
    · simp only [LegacyOwner.fail_calls]; exact hx
    · exact hx
  | closed =>
    left
    simp only [LegacyHandler.Server.step] at h
    split at h
    · simp only [Option.map_eq_some_iff] at h
      obtain ⟨f, _, rfl⟩ := h
      rw [hfin]; exact hx
    · cases h
  | cancel =>
    left
    simp only [LegacyHandler.Server.step] at h
    split at h <;> cases h <;> (try rw [hfin]) <;> exact hx

/-- The handler makes a new call, or none. -/
theorem handler_phase (cfg : Config) {c c' : LegacyHandler.Server.St} {e : LegacyHandler.Server.Event} {k : Nat}
    (h : LegacyHandler.Server.step cfg c e = some c') (hk : k < c.life.calls.length) (hp : c.phase ≠ .closing k) :
    c'.phase ≠ .closing k := by
  cases e with
  | life e =>
    simp only [LegacyHandler.Server.step] at h
    split at h
    · split at h <;> cases h; exact hp
    · cases h
  | start => simp only [LegacyHandler.Server.step] at h; split at h <;> cases h; simp
  | accept =>
    simp only [LegacyHandler.Server.step] at h
    split at h
    · split at h <;> cases h <;> simp [LegacyHandler.Server.St.reject]
    · cases h
  | reject n => simp only [LegacyHandler.Server.step] at h; split at h <;> cases h; simp [LegacyHandler.Server.St.reject]
  | drop => simp only [LegacyHandler.Server.step] at h; split at h <;> cases h; simp [LegacyHandler.Server.St.finish]
  | woken => simp only [LegacyHandler.Server.step] at h; split at h <;> cases h; simp [LegacyHandler.Server.St.finish]
  | returned =>
    simp only [LegacyHandler.Server.step, LegacyLife.step] at h
    split at h <;> cases h
    simp only [ne_eq, LegacyHandler.Server.Phase.closing.injEq]
    omega
  | raised => simp only [LegacyHandler.Server.step] at h; split at h <;> cases h; simp [LegacyHandler.Server.St.finish]
  | closed =>
    simp only [LegacyHandler.Server.step] at h
    split at h
    · simp only [Option.map_eq_some_iff] at h
      obtain ⟨f, _, rfl⟩ := h
      simp [LegacyHandler.Server.St.finish]
    · cases h
  | cancel =>
    simp only [LegacyHandler.Server.step] at h
    split at h <;> cases h <;> simp [LegacyHandler.Server.St.finish]

/-- Steps of a handler keep what `close` guarantees. -/
theorem handler_close (cfg : Config) {c c' : LegacyHandler.Server.St} {e : LegacyHandler.Server.Event} {x : Call}
    (k : Ok c) (ho : LegacyOwner.Spec.Ordinary c e) (h : LegacyHandler.Server.step cfg c e = some c')
    (ht : c.life.transfer ≠ .absent) (hx : IsClose c.life x) : c'.life.transfer ≠ .absent ∧ IsClose c'.life x := by
  have keep : ∀ {t : LegacyLife.St}, t.transfer = c.life.transfer → (LegacyOwner.Spec.Ended c.life → LegacyOwner.Spec.Ended t) →
      t.lost = c.life.lost → t.transfer ≠ .absent ∧ IsClose t x := by
    intro t h1 h2 h3
    refine ⟨by rwa [h1], ?_⟩
    unfold IsClose at hx ⊢
    split at hx <;> simp_all
    exact hx.imp h2 id
  have hfin : ∀ (t : LegacyHandler.Server.St) f, (t.finish f).life.transfer = t.life.transfer ∧
      (t.finish f).life.closer = t.life.closer ∧ (t.finish f).life.lost = t.life.lost := by
    intro t f; unfold LegacyHandler.Server.St.finish; simp only; split <;> exact ⟨rfl, rfl, rfl⟩
  have keepf : ∀ f, (c.finish f).life.transfer ≠ .absent ∧ IsClose (c.finish f).life x := fun f =>
    keep (hfin c f).1 (fun he => by unfold LegacyOwner.Spec.Ended; rw [(hfin c f).2.1]; exact he) (hfin c f).2.2
  cases e with
  | life e =>
    simp only [LegacyHandler.Server.step] at h
    split at h
    · next ha =>
      split at h
      · cases h
      · next life hl =>
        cases h
        obtain ⟨-, ef⟩ := LegacyOwner.good_step cfg (LegacyOwner.other_of_ordinary ho ha) hl k.life
        exact ⟨LegacyOwner.not_absent_of_effect ef ht, LegacyOwner.isClose_mono ef hx⟩
    · cases h
  | start => simp only [LegacyHandler.Server.step] at h; split at h <;> cases h; exact ⟨ht, hx⟩
  | accept =>
    simp only [LegacyHandler.Server.step] at h
    split at h
    · next hp => exact (ht (k.before (.inr hp)).1).elim
    · cases h
  | reject n =>
    simp only [LegacyHandler.Server.step] at h
    split at h
    · next hp => exact (ht (k.before (.inr hp)).1).elim
    · cases h
  | drop => simp only [LegacyHandler.Server.step] at h; split at h <;> cases h; exact keepf _
  | woken => simp only [LegacyHandler.Server.step] at h; split at h <;> cases h; exact keepf _
  | returned =>
    simp only [LegacyHandler.Server.step, LegacyLife.step] at h
    split at h <;> cases h
    exact keep rfl id rfl
  | raised =>
    simp only [LegacyHandler.Server.step] at h
    split at h <;> cases h
    split
    · exact keep ((hfin _ _).1.trans (LegacyOwner.fail_transfer _ _))
        (fun he => by
          have := LegacyOwner.fail_ended c.life 1011 he
          unfold LegacyOwner.Spec.Ended at this ⊢; rw [(hfin _ _).2.1]; exact this)
        ((hfin _ _).2.2.trans (LegacyOwner.fail_lost _ _))
    · exact keepf _
  | closed =>
    simp only [LegacyHandler.Server.step] at h
    split at h
    · simp only [Option.map_eq_some_iff] at h
      obtain ⟨f, _, rfl⟩ := h
      exact keepf _
    · cases h
  | cancel =>
    simp only [LegacyHandler.Server.step] at h
    split at h
    · next hp => exact (ho hp).elim
    all_goals first | (cases h; exact keepf _) | cases h

/-- A call to `close` isn't cancelled by something else. -/
theorem callStep_cancelled {s s' : LegacyLife.St} {c c' : Call} {e : LegacyLife.CallEv} (k : LifeOk s)
    (he : e ≠ .cancel) (hc : IsClose s c) (h : s.callStep c e = some (s', c')) : c' ≠ .ended .cancelled := by
  have h1 : ∀ t : LegacyLife.St, LifeOk t → t.closeEnd ≠ .ended .cancelled := by
    intro t kt hh
    have hk := kt.closer
    unfold LegacyLife.St.closeEnd LegacyLife.St.shield at hh
    split at hh
    · next b hb =>
      simp only [LegacyOwner.CloserOk, hb] at hk
      simp [hk.1] at hh
    · cases hh
  have h2 : ∀ t : LegacyLife.St, LifeOk t → t.closeRest ≠ .ended .cancelled := by
    intro t kt; unfold LegacyLife.St.closeRest; split
    · simp
    · exact h1 t kt
    · simp
  have h3 : ∀ t : LegacyLife.St, Call.ended t.closedExc ≠ .ended .cancelled := by
    intro t; unfold LegacyLife.St.closedExc; split <;> simp
  have kf := (LegacyOwner.good_fail s 1006 k).1
  unfold LegacyLife.St.callStep at h
  split at h
  · split at h <;> simp only [Option.some.injEq, Prod.mk.injEq] at h <;> obtain ⟨rfl, rfl⟩ := h
    · simp
    · exact h2 _ k
  · simp only [Option.some.injEq, Prod.mk.injEq] at h; obtain ⟨rfl, rfl⟩ := h; exact h2 _ kf
  · exact (he rfl).elim
  · split at h
    · simp only [Option.some.injEq, Prod.mk.injEq] at h; obtain ⟨rfl, rfl⟩ := h; exact h2 _ k
    · cases h
  · split at h
    · simp only [Option.some.injEq, Prod.mk.injEq] at h; obtain ⟨rfl, rfl⟩ := h; exact h3 _
    · cases h
  · simp only [Option.some.injEq, Prod.mk.injEq] at h; obtain ⟨rfl, rfl⟩ := h; exact h2 _ kf
  · exact (he rfl).elim
  · split at h
    · cases h
    · simp only [Option.some.injEq, Prod.mk.injEq] at h; obtain ⟨rfl, rfl⟩ := h; simp
  · split at h
    · simp only [Option.some.injEq, Prod.mk.injEq] at h; obtain ⟨rfl, rfl⟩ := h; exact h1 _ k
    · cases h
  · exact (he rfl).elim
  · split at h
    · simp only [Option.some.injEq, Prod.mk.injEq] at h; obtain ⟨rfl, rfl⟩ := h; exact h1 _ k
    · cases h
  all_goals first | exact (he rfl).elim | exact hc.elim | cases h

/-! ## The simulation -/

theorem run_append (a : Server) (x y : List (LegacyRegistry.Event Unit)) (b : Server)
    (h : LegacyRegistry.run a x = some b) : LegacyRegistry.run a (x ++ y) = LegacyRegistry.run b y := by
  induction x generalizing a with
  | nil => cases h; rfl
  | cons e x ih =>
    simp only [LegacyRegistry.run, List.cons_append] at h ⊢
    split at h
    · cases h
    · exact ih _ h

/-- Other connections are still described. -/
theorem describes_apart {r r' : Server} {i j : Nat} {rc : LegacyRegistry.Conn} {c : LegacyHandler.Server.St} (ha : Apart i r r')
    (hn : r'.websockets.Nodup) (hk : r'.keyError = false) (hj : j ≠ i)
    (h : LegacyOwner.Spec.Describes r j rc c) : LegacyOwner.Spec.Describes r' j rc c :=
  { h with conn := by rw [ha.conns j hj]; exact h.conn, registered := (ha.websockets j hj).trans h.registered,
           nodup := hn, keyError := hk }

/-- The model of the server may follow. -/
def Follows (r : Server) (s' : Sys) : Prop :=
  ∃ (es : List (LegacyRegistry.Event Unit)) (r' : Server), LegacyRegistry.run r es = some r' ∧ Inv r' s'

theorem getElem?_set {α : Type} {l : List α} {i j : Nat} {a b x : α} (h : l[i]? = some a) (hj : (l.set i b)[j]? = some x) :
    (j = i ∧ x = b) ∨ (j ≠ i ∧ l[j]? = some x) := by
  by_cases hji : j = i
  · subst hji
    rw [List.getElem?_set_self (List.getElem?_eq_some_iff.1 h).1] at hj
    exact .inl ⟨rfl, (Option.some.inj hj).symm⟩
  · rw [List.getElem?_set_ne (Ne.symm hji)] at hj
    exact .inr ⟨hji, hj⟩

/-- Connection `i` makes a step that isn't the first step of a task of the server; the model of the server makes steps of
this connection. -/
theorem follow_conn (cfg : Nat → Config) {r r' : Server} {s : Sys} {i : Nat} {c c' : LegacyHandler.Server.St}
    {rc' : LegacyRegistry.Conn} {e : LegacyHandler.Server.Event} (v : Inv r s) (hc : s.conns[i]? = some c)
    (ho : Spec.Ordinary s (.conn i e)) (hs : LegacyHandler.Server.step (cfg i) c e = some c')
    (hfirst : ∀ ts k ev, s.closer = .closing ts → (i, k) ∈ ts → e = .life (.call k ev) →
      c.life.calls[k]? ≠ some .closeStart)
    (ha : Apart i r r') (hd : LegacyOwner.Spec.Describes r' i rc' c') :
    Inv r' { s with conns := s.conns.set i c' } := by
  have hlt := (List.getElem?_eq_some_iff.1 hc).1
  have ho1 := ho.1 c hc
  have k_ok := v.ok i c hc
  have hnew : (s.conns.set i c')[i]? = some c' := List.getElem?_set_self hlt
  have hold : ∀ j, j ≠ i → (s.conns.set i c')[j]? = s.conns[j]? := fun j hj => List.getElem?_set_ne (Ne.symm hj)
  refine ⟨⟨?_, ?_, ?_, ?_⟩, ?_, ?_, ?_, hd.nodup, hd.keyError⟩
  · simp [ha.length, v.describes.length]
  · intro j cj hj
    rcases getElem?_set hc hj with ⟨rfl, rfl⟩ | ⟨hji, hj⟩
    · exact ⟨rc', hd⟩
    · obtain ⟨rcj, hrj⟩ := v.describes.conns j cj hj
      exact ⟨rcj, describes_apart ha hd.nodup hd.keyError hji hrj⟩
  · exact ha.serving.trans v.describes.serving
  · have hsc := v.describes.closer
    rw [ha.closer]
    simp only
    cases hcl : s.closer with
    | closing ts =>
      rw [hcl] at hsc
      obtain ⟨rs, hrs, h1, h2⟩ := hsc
      have tk := v.tasks ts rs hcl hrs
      refine ⟨rs, hrs, h1, ?_⟩
      intro j t hjt
      obtain ⟨k, cj, x, hk, hcj, hx, hst⟩ := h2 j t hjt
      by_cases hji : j = i
      · subst hji
        rw [hc] at hcj; cases hcj
        rcases handler_calls (cfg j) hs hx with hsame | ⟨ev, s1, x', he, hcs, hc', hcalls⟩
        · exact ⟨k, c', x, hk, hnew, hsame, hst⟩
        · have hx' : c'.life.calls[k]? = some x' := by
            rw [hc']; simp only [hcalls]
            exact List.getElem?_set_self (List.getElem?_eq_some_iff.1 hx).1
          have hst' := LegacyOwner.callStep_start hcs
          refine ⟨k, c', x', hk, hnew, hx', ?_⟩
          cases t with
          | scheduled => exact (hfirst ts k ev hcl hk he (by rw [hx]; exact congrArg some hst)).elim
          | running => exact hst'.1
          | ended => obtain ⟨res, hres⟩ := hst; exact (hst'.2 res hres).elim
      · exact ⟨k, cj, x, hk, by rw [hold j hji]; exact hcj, hx, hst⟩
    | _ => rw [hcl] at hsc; exact hsc
  · intro j cj hj
    rcases getElem?_set hc hj with ⟨rfl, rfl⟩ | ⟨_, hj⟩
    · exact LegacyOwner.ok_step (cfg j) k_ok ho1 hs
    · exact v.ok j cj hj
  · intro ts rs hts hrs
    rw [ha.closer] at hrs
    have tk := v.tasks ts rs hts hrs
    refine ⟨tk.unique, tk.one, ?_, ?_, ?_⟩
    · intro j k hjk
      obtain ⟨cj, x, hcj, hx⟩ := tk.call j k hjk
      by_cases hji : j = i
      · subst hji
        rw [hc] at hcj; cases hcj
        rcases handler_calls (cfg j) hs hx with hsame | ⟨ev, s1, x', he, hcs, hc', hcalls⟩
        · exact ⟨c', x, hnew, hsame⟩
        · refine ⟨c', x', hnew, ?_⟩
          rw [hc']; simp only [hcalls]
          exact List.getElem?_set_self (List.getElem?_eq_some_iff.1 hx).1
      · exact ⟨cj, x, by simp only [hold j hji]; exact hcj, hx⟩
    · intro j k cj hjk hj
      rcases getElem?_set hc hj with ⟨rfl, rfl⟩ | ⟨_, hj⟩
      · obtain ⟨c0, x, hc0, hx⟩ := tk.call j k hjk
        rw [hc] at hc0; cases hc0
        exact handler_phase (cfg j) hs (List.getElem?_eq_some_iff.1 hx).1 (tk.other j k c hjk hc)
      · exact tk.other j k cj hjk hj
    · intro j k cj x hjr hjk hj hx
      rcases getElem?_set hc hj with ⟨rfl, rfl⟩ | ⟨_, hj⟩
      · obtain ⟨c0, x0, hc0, hx0⟩ := tk.call j k hjk
        rw [hc] at hc0; cases hc0
        obtain ⟨r1, r2, r3⟩ := tk.running j k c x0 hjr hjk hc hx0
        obtain ⟨q1, q2⟩ := handler_close (cfg j) k_ok ho1 hs r3 r1
        rcases handler_calls (cfg j) hs hx0 with hsame | ⟨ev, s1, x', he, hcs, hc', hcalls⟩
        · rw [hsame] at hx; cases hx
          exact ⟨q2, r2, q1⟩
        · have hx' : cj.life.calls[k]? = some x' := by
            rw [hc']; simp only [hcalls]
            exact List.getElem?_set_self (List.getElem?_eq_some_iff.1 hx0).1
          rw [hx'] at hx; cases hx
          have hev : ev ≠ .cancel := fun h => (ho.2 ts k hts hjk).1 (by rw [he, h])
          refine ⟨?_, callStep_cancelled k_ok.life hev r1 hcs, q1⟩
          have := LegacyOwner.isClose_step k_ok.life r3 r1 hcs
          rw [hc']
          unfold IsClose at this ⊢; exact this
      · exact tk.running j k cj x hjr hjk hj hx
  · intro j hj
    rw [ha.length]
    by_cases hji : j = i
    · subst hji; rw [v.describes.length]; exact hlt
    · exact v.websockets j ((ha.websockets j hji).1 hj)

theorem mem_map_task {rs : List (Nat × LegacyRegistry.Task)} {i j : Nat} {t t' : LegacyRegistry.Task}
    (h : (j, t) ∈ rs.map fun t => if t.1 = i then (i, t') else t) : (j = i ∧ t = t') ∨ (j ≠ i ∧ (j, t) ∈ rs) := by
  rw [List.mem_map] at h
  obtain ⟨⟨a, b⟩, hab, h⟩ := h
  split at h
  · cases h; exact .inl ⟨rfl, rfl⟩
  · next hne => cases h; exact .inr ⟨hne, hab⟩

theorem samePhase_set {c : LegacyHandler.Server.St} {p : LegacyRegistry.Phase} {k : Nat} {x : Call} {t : LegacyLife.St}
    (hk : c.phase ≠ .closing k) (ht : t.calls = c.life.calls) (h : LegacyOwner.Spec.SamePhase c p) :
    LegacyOwner.Spec.SamePhase { c with life := { t with calls := t.calls.set k x } } p := by
  unfold LegacyOwner.Spec.SamePhase at h ⊢
  simp only [ht]
  cases hp : c.phase with
  | closing i =>
    have hik : k ≠ i := fun h => hk (by rw [hp, h])
    simp only [hp] at h ⊢
    rw [List.getElem?_set_ne hik]; exact h
  | _ => simp only [hp] at h ⊢; exact h

/-- A task of the server makes its first step. -/
theorem follow_first (cfg : Nat → Config) {r : Server} {s : Sys} {i k : Nat} {c c' : LegacyHandler.Server.St}
    {ev : LegacyLife.CallEv} {ts : List (Nat × Nat)} (v : Inv r s) (hc : s.conns[i]? = some c)
    (ho : Spec.Ordinary s (.conn i (.life (.call k ev))))
    (hs : LegacyHandler.Server.step (cfg i) c (.life (.call k ev)) = some c') (hts : s.closer = .closing ts)
    (hik : (i, k) ∈ ts) (hx : c.life.calls[k]? = some .closeStart) :
    Follows r { s with conns := s.conns.set i c' } := by
  have hlt := (List.getElem?_eq_some_iff.1 hc).1
  have hklt := (List.getElem?_eq_some_iff.1 hx).1
  have kok := v.ok i c hc
  have hokc' := LegacyOwner.ok_step (cfg i) kok (ho.1 c hc) hs
  obtain ⟨hcan, htim⟩ := ho.2 ts k hts hik
  have hsc := v.describes.closer
  rw [hts] at hsc
  obtain ⟨rs, hrs, h1, h2⟩ := hsc
  have tk := v.tasks ts rs hts hrs
  obtain ⟨rc, hd⟩ := v.describes.conns i c hc
  -- the task is scheduled
  have hsched : (i, LegacyRegistry.Task.scheduled) ∈ rs := by
    obtain ⟨t, ht⟩ := h1 i k hik
    obtain ⟨k', c0, x, hk', hc0, hx0, hst⟩ := h2 i t ht
    have := tk.unique i k k' hik hk'
    subst this
    rw [hc] at hc0; cases hc0
    rw [hx] at hx0; cases hx0
    cases t with
    | scheduled => exact ht
    | running => exact (hst rfl).elim
    | ended => obtain ⟨_, h⟩ := hst; cases h
  have hstep : ∃ s1 x', c.life.callStep .closeStart .run = some (s1, x') ∧
      c' = { c with life := { s1 with calls := s1.calls.set k x' } } ∧ s1.calls = c.life.calls := by
    simp only [LegacyHandler.Server.step] at hs
    split at hs
    · split at hs
      · cases hs
      · next life hl =>
        cases hs
        simp only [LegacyLife.step, hx] at hl
        split at hl
        · cases hl
        · next s1 x' hcs =>
          cases hl
          have hev : ev = .run := by
            cases ev with
            | run => rfl
            | cancel => exact (hcan rfl).elim
            | timeout => exact (htim rfl c hc hx).elim
            | drained ok => simp [LegacyLife.St.callStep] at hcs
            | woken => simp [LegacyLife.St.callStep] at hcs
          subst hev
          exact ⟨s1, x', hcs, rfl, (LegacyOwner.good_callStep hcs).2.1⟩
    · cases hs
  obtain ⟨s1, x', hcs, rfl, hcalls⟩ := hstep
  have hother := tk.other i k c hik hc
  have hopen := (LegacyOwner.sameState_open hd.state).1
  -- what the step does
  have heff : s1.transfer = c.life.transfer ∧ s1.lost = c.life.lost ∧ s1.closer = c.life.closer ∧
      s1.isClosing = c.life.isClosing ∧ s1.state = (if c.life.state = .opened then .closing else c.life.state) ∧
      (c.life.transfer = .absent → x' = .ended .attributeError) := by
    simp only [LegacyLife.St.callStep] at hcs
    split at hcs <;> simp only [Option.some.injEq, Prod.mk.injEq] at hcs <;> obtain ⟨rfl, rfl⟩ := hcs
    · next ho => exact ⟨rfl, rfl, rfl, rfl, by simp [ho], fun ha => by
        have := (kok.life.absent ha).1
        simp [ho] at this⟩
    · next ho => exact ⟨rfl, rfl, rfl, rfl, by simp [ho], fun ha => by simp [LegacyLife.St.closeRest, ha]⟩
  obtain ⟨e1, e2, e3, e4, e5, e6⟩ := heff
  -- the state of the model of the server
  let t' : LegacyRegistry.Task := if rc.opened then .running else .ended
  let rc' : LegacyRegistry.Conn := if rc.opened then rc.sendClose 1001 else rc
  let rs' := rs.map fun t => if t.1 = i then (i, t') else t
  let r' : Server := { r.put i rc' with closer := .closing rs' }
  have hrun : LegacyRegistry.step (X := Unit) r (.taskStarts i) = some r' := by
    simp only [LegacyRegistry.step, hrs, hd.conn, if_pos hsched]
    by_cases hop : rc.opened = true
    · simp only [hop, if_true, r', rs', rc', t']
    · have hset : r.conns.set i rc = r.conns := by
        apply List.ext_getElem?
        intro j
        by_cases hji : j = i
        · subst hji; rw [List.getElem?_set_self (by rw [v.describes.length]; exact hlt)]; exact hd.conn.symm
        · rw [List.getElem?_set_ne (Ne.symm hji)]
      have hop' : rc.opened = false := by simpa using hop
      simp only [hop', Bool.false_eq_true, if_false, r', rs', rc', t', LegacyRegistry.Server.put, hset]
  have hrc : rc' = { rc with state := rc'.state, code := rc'.code } := by
    simp only [rc', LegacyRegistry.Conn.sendClose]; split <;> (try split) <;> rfl
  have hrcs : LegacyOwner.Spec.SameState s1.state rc'.state := by
    rw [e5]
    by_cases hst : c.life.state = .opened
    · have hop : rc.opened = true := hd.opened.2 fun ha => by have := (kok.life.absent ha).1; simp [hst] at this
      simp [hst, rc', hop, LegacyRegistry.Conn.sendClose, hopen.1 hst, LegacyOwner.Spec.SameState]
    · have hne : rc.state ≠ .open := fun h => hst (hopen.2 h)
      have : rc'.state = rc.state := by simp only [rc', LegacyRegistry.Conn.sendClose, hne]; split <;> rfl
      rw [this, if_neg hst]; exact hd.state
  have hd' : LegacyOwner.Spec.Describes r' i rc' { c with life := { s1 with calls := s1.calls.set k x' } } := by
    refine { conn := LegacyOwner.put_conn _ hd.conn, registered := hd.registered, nodup := hd.nodup, keyError := hd.keyError,
             state := hrcs, phase := ?_, opened := ?_, lost := ?_, closeEnded := ?_, transport := ?_, cancelled := ?_ }
    · rw [hrc]; exact samePhase_set hother hcalls hd.phase
    · rw [hrc]; simp only [e1]; exact hd.opened
    · rw [hrc]; simp only [e2]; exact hd.lost
    · rw [hrc]; simp only [LegacyOwner.Spec.Ended, e1, e3]; exact hd.closeEnded
    · rw [hrc]; simp only [e4]; exact hd.transport
    · rw [hrc]; exact hd.cancelled
  have happart : ∀ j, j ≠ i → r'.conns[j]? = r.conns[j]? := fun j hj => (Apart.put i r rc').conns j hj
  have hlen : r'.conns.length = r.conns.length := (Apart.put i r rc').length
  have hnew : (s.conns.set i { c with life := { s1 with calls := s1.calls.set k x' } })[i]? =
      some { c with life := { s1 with calls := s1.calls.set k x' } } := List.getElem?_set_self hlt
  have hold : ∀ j, j ≠ i → (s.conns.set i { c with life := { s1 with calls := s1.calls.set k x' } })[j]? = s.conns[j]? :=
    fun j hj => List.getElem?_set_ne (Ne.symm hj)
  have hx' : (s1.calls.set k x')[k]? = some x' := by rw [hcalls]; exact List.getElem?_set_self hklt
  have hset : ∀ {k0 : Nat} {x0 : Call}, (i, k0) ∈ ts → (s1.calls.set k x')[k0]? = some x0 → k0 = k ∧ x0 = x' := by
    intro k0 x0 h0 h
    have := tk.unique i k0 k h0 hik
    subst this
    rw [hx'] at h
    exact ⟨rfl, (Option.some.inj h).symm⟩
  refine ⟨[.taskStarts i], r', by simp [LegacyRegistry.run, hrun], ⟨⟨?_, ?_, ?_, ?_⟩, ?_, ?_, ?_, hd'.nodup, hd'.keyError⟩⟩
  · simp [hlen, v.describes.length]
  · intro j cj hj
    rcases getElem?_set hc hj with ⟨rfl, rfl⟩ | ⟨hji, hj⟩
    · exact ⟨rc', hd'⟩
    · obtain ⟨rcj, hrj⟩ := v.describes.conns j cj hj
      exact ⟨rcj, { hrj with conn := by rw [happart j hji]; exact hrj.conn }⟩
  · exact v.describes.serving
  · simp only [hts]
    refine ⟨rs', rfl, ?_, ?_⟩
    · intro j k0 hjk
      obtain ⟨t, ht⟩ := h1 j k0 hjk
      by_cases hji : j = i
      · exact ⟨t', List.mem_map.2 ⟨(j, t), ht, by simp [hji]⟩⟩
      · exact ⟨t, List.mem_map.2 ⟨(j, t), ht, by simp [hji]⟩⟩
    · intro j t hjt
      rcases mem_map_task hjt with ⟨rfl, rfl⟩ | ⟨hji, hjt⟩
      · refine ⟨k, _, x', hik, hnew, hx', ?_⟩
        by_cases hop : rc.opened = true
        · simp only [t', hop, if_true]; exact (LegacyOwner.callStep_start hcs).1
        · have ha : c.life.transfer = .absent := Classical.byContradiction fun h => hop (hd.opened.2 h)
          simp only [t', hop, e6 ha]; exact ⟨_, rfl⟩
      · obtain ⟨k0, cj, x, hk0, hcj, hxx, hst⟩ := h2 j t hjt
        exact ⟨k0, cj, x, hk0, by rw [hold j hji]; exact hcj, hxx, hst⟩
  · intro j cj hj
    rcases getElem?_set hc hj with ⟨rfl, rfl⟩ | ⟨_, hj⟩
    · exact hokc'
    · exact v.ok j cj hj
  · intro ts0 rs0 hts0 hrs0
    simp only [hts] at hts0
    cases hts0
    cases hrs0
    refine ⟨tk.unique, ?_, ?_, ?_, ?_⟩
    · intro j t u ht hu
      rcases mem_map_task ht with ⟨rfl, rfl⟩ | ⟨h1, ht⟩ <;> rcases mem_map_task hu with ⟨h2, rfl⟩ | ⟨h2, hu⟩
      · rfl
      · exact (h2 rfl).elim
      · exact (h1 h2).elim
      · exact tk.one j t u ht hu
    · intro j k0 hjk
      obtain ⟨cj, x, hcj, hxx⟩ := tk.call j k0 hjk
      by_cases hji : j = i
      · subst hji
        have := tk.unique j k0 k hjk hik
        subst this
        exact ⟨_, x', hnew, hx'⟩
      · exact ⟨cj, x, by simp only [hold j hji]; exact hcj, hxx⟩
    · intro j k0 cj hjk hj
      rcases getElem?_set hc hj with ⟨rfl, rfl⟩ | ⟨_, hj⟩
      · exact tk.other j k0 c hjk hc
      · exact tk.other j k0 cj hjk hj
    · intro j k0 cj x hjr hjk hj hxx
      rcases getElem?_set hc hj with ⟨rfl, rfl⟩ | ⟨hji, hj⟩
      · obtain ⟨rfl, rfl⟩ := hset hjk hxx
        rcases mem_map_task hjr with ⟨_, ht⟩ | ⟨h, _⟩
        · have hop : rc.opened = true := Classical.byContradiction fun h => by simp [t', h] at ht
          have hta := hd.opened.1 hop
          have := LegacyOwner.isClose_step kok.life hta (c := .closeStart) trivial hcs
          refine ⟨?_, callStep_cancelled kok.life (by simp) (c := .closeStart) trivial hcs, by simp only [e1]; exact hta⟩
          unfold IsClose at this ⊢; exact this
        · exact (h rfl).elim
      · rcases mem_map_task hjr with ⟨h, _⟩ | ⟨_, hjr⟩
        · exact (hji h).elim
        · exact tk.running j k0 cj x hjr hjk hj hxx
  · intro j hj
    rw [hlen]; exact v.websockets j hj

/-- The tasks of the server end, in the model of the server. -/
theorem tasks_end : ∀ (n : Nat) (r : Server) (rs : List (Nat × LegacyRegistry.Task)),
    (rs.filter (·.2 = .running)).length ≤ n → r.closer = .closing rs → (∀ i, (i, .scheduled) ∉ rs) →
    (∀ i, (i, .running) ∈ rs → ∃ rc, r.conns[i]? = some rc ∧ (rc.closeEnded = true ∨ rc.lost = true)) →
    ∃ (es : List (LegacyRegistry.Event Unit)) (rs' : List (Nat × LegacyRegistry.Task)),
      LegacyRegistry.run r es = some { r with closer := .closing rs' } ∧ ∀ t ∈ rs', t.2 = .ended
  | 0, r, rs, hn, hcl, hs, hr => by
    refine ⟨[], rs, ?_, ?_⟩
    · simp only [LegacyRegistry.run, Option.some.injEq]; rw [← hcl]
    · rintro ⟨i, t⟩ ht
      cases t with
      | scheduled => exact (hs i ht).elim
      | running =>
        have : (i, LegacyRegistry.Task.running) ∈ rs.filter (·.2 = .running) := List.mem_filter.2 ⟨ht, by simp⟩
        exact absurd (List.length_pos_of_mem this) (by omega)
      | ended => rfl
  | n + 1, r, rs, hn, hcl, hs, hr => by
    by_cases hex : ∃ i, (i, LegacyRegistry.Task.running) ∈ rs
    · obtain ⟨i, hi⟩ := hex
      obtain ⟨rc, hrc, hend⟩ := hr i hi
      let rs1 := rs.map fun t => if t.1 = i then (i, LegacyRegistry.Task.ended) else t
      have hstep : LegacyRegistry.step (X := Unit) r (.taskEnds i) = some { r with closer := .closing rs1 } := by
        simp only [LegacyRegistry.step, hcl, hrc, hi, hend, true_and, if_true, rs1]
      have hcount : ∀ l : List (Nat × LegacyRegistry.Task),
          ((l.map fun t => if t.1 = i then (i, LegacyRegistry.Task.ended) else t).filter (·.2 = .running)).length ≤
            (l.filter (·.2 = .running)).length ∧ ((i, LegacyRegistry.Task.running) ∈ l →
          ((l.map fun t => if t.1 = i then (i, LegacyRegistry.Task.ended) else t).filter (·.2 = .running)).length <
            (l.filter (·.2 = .running)).length) := by
        intro l
        induction l with
        | nil => simp
        | cons a l ih =>
          obtain ⟨j, t⟩ := a
          by_cases hj : j = i
          · subst hj
            cases t <;> simp [List.filter_cons] at ih ⊢ <;> omega
          · have hne : ¬ i = j := fun h => hj h.symm
            cases t <;> simp [List.filter_cons, hj, hne] at ih ⊢ <;> omega
      obtain ⟨es, rs', h1, h2⟩ := tasks_end n { r with closer := .closing rs1 } rs1
        (by have := (hcount rs).2 hi; simp only [rs1]; omega) rfl
        (fun j hj => by rcases mem_map_task hj with ⟨_, h⟩ | ⟨_, h⟩; cases h; exact hs j h)
        (fun j hj => by rcases mem_map_task hj with ⟨_, h⟩ | ⟨_, h⟩; cases h; exact hr j h)
      exact ⟨.taskEnds i :: es, rs', by simp only [LegacyRegistry.run, hstep]; exact h1, h2⟩
    · refine ⟨[], rs, ?_, ?_⟩
      · simp only [LegacyRegistry.run, Option.some.injEq]; rw [← hcl]
      · rintro ⟨i, t⟩ ht
        cases t with
        | scheduled => exact (hs i ht).elim
        | running => exact (hex ⟨i, ht⟩).elim
        | ended => rfl

theorem mem_websockets {s : Sys} {i : Nat} : i ∈ s.websockets ↔ ∃ c, s.conns[i]? = some c ∧ c.registered = true := by
  unfold Sys.websockets
  rw [List.mem_filter, List.mem_range]
  constructor
  · rintro ⟨h1, h2⟩
    rw [List.getElem?_eq_getElem h1] at h2
    exact ⟨s.conns[i], List.getElem?_eq_getElem h1, by simpa using h2⟩
  · rintro ⟨c, h1, h2⟩
    exact ⟨(List.getElem?_eq_some_iff.1 h1).1, by simp [h1, h2]⟩

theorem inv_websockets {r : Server} {s : Sys} (v : Inv r s) (i : Nat) : i ∈ r.websockets ↔ i ∈ s.websockets := by
  rw [mem_websockets]
  constructor
  · intro h
    have hlt : i < s.conns.length := by rw [← v.describes.length]; exact v.websockets i h
    have hc := List.getElem?_eq_getElem hlt
    obtain ⟨rc, hd⟩ := v.describes.conns i _ hc
    exact ⟨_, hc, hd.registered.1 h⟩
  · rintro ⟨c, hc, hreg⟩
    obtain ⟨rc, hd⟩ := v.describes.conns i _ hc
    exact hd.registered.2 hreg

theorem createTask_same (c : LegacyHandler.Server.St) : (createTask c).registered = c.registered ∧
    (createTask c).phase = c.phase ∧ (createTask c).life.state = c.life.state ∧
    (createTask c).life.transfer = c.life.transfer ∧ (createTask c).life.lost = c.life.lost ∧
    (createTask c).life.closer = c.life.closer ∧ (createTask c).life.isClosing = c.life.isClosing := by
  unfold createTask; split <;> exact ⟨rfl, rfl, rfl, rfl, rfl, rfl, rfl⟩

theorem createTask_calls {c : LegacyHandler.Server.St} {k : Nat} {x : Call} (h : c.life.calls[k]? = some x) :
    (createTask c).life.calls[k]? = some x := by
  unfold createTask; split
  · simp only; rw [List.getElem?_append_left (List.getElem?_eq_some_iff.1 h).1]; exact h
  · exact h

theorem createTask_ok {c : LegacyHandler.Server.St} (k : Ok c) : Ok (createTask c) := by
  unfold createTask
  split
  · refine ⟨(LegacyOwner.good_append (c' := .closeStart) (fun _ _ => trivial) k.life).1, k.before, k.after, k.refusing, ?_,
      k.registered⟩
    intro i hi
    obtain ⟨x, hx, hic⟩ := k.call i hi
    refine ⟨x, ?_, ?_⟩
    · simp only; rw [List.getElem?_append_left (List.getElem?_eq_some_iff.1 hx).1]; exact hx
    · unfold IsClose at hic ⊢; exact hic
  · exact k

theorem createTask_describes {r : Server} {i : Nat} {rc : LegacyRegistry.Conn} {c : LegacyHandler.Server.St} (k : Ok c)
    (h : LegacyOwner.Spec.Describes r i rc c) : LegacyOwner.Spec.Describes r i rc (createTask c) := by
  obtain ⟨e1, e2, e3, e4, e5, e6, e7⟩ := createTask_same c
  refine { conn := h.conn, registered := by rw [e1]; exact h.registered, nodup := h.nodup, keyError := h.keyError,
           state := by rw [e3]; exact h.state, phase := ?_, opened := by rw [e4]; exact h.opened,
           lost := by rw [e5]; exact h.lost,
           closeEnded := by unfold LegacyOwner.Spec.Ended; rw [e4, e6]; exact h.closeEnded,
           transport := by rw [e7]; exact h.transport, cancelled := by rw [e2]; exact h.cancelled }
  have hp := h.phase
  unfold LegacyOwner.Spec.SamePhase at hp ⊢
  rw [e2]
  cases hph : c.phase with
  | closing j =>
    obtain ⟨x, hx, _⟩ := k.call j hph
    simp only [hph, hx] at hp
    simp only [createTask_calls hx]; exact hp
  | _ => simp only [hph] at hp ⊢; exact hp

/-- The server creates tasks. -/
theorem follow_snapshot (cfg : Nat → Config) {r : Server} {s s' : Sys} (v : Inv r s)
    (h : step cfg s .snapshot = some s') :
    ∃ r', LegacyRegistry.step (X := Unit) r .snapshot = some r' ∧ Inv r' s' := by
  simp only [step] at h
  have hsc := v.describes.closer
  split at h
  · next hcl =>
    cases h
    rw [hcl] at hsc
    have hsc' : r.closer = .stopped := hsc
    have hget : ∀ {j : Nat} {c : LegacyHandler.Server.St}, (s.conns.map createTask)[j]? = some c →
        ∃ c0, s.conns[j]? = some c0 ∧ c = createTask c0 := by
      intro j c hj
      rw [List.getElem?_map, Option.map_eq_some_iff] at hj
      obtain ⟨c0, h1, h2⟩ := hj
      exact ⟨c0, h1, h2.symm⟩
    have hput : ∀ {j : Nat} {c : LegacyHandler.Server.St}, s.conns[j]? = some c →
        (s.conns.map createTask)[j]? = some (createTask c) := by
      intro j c hj; rw [List.getElem?_map, hj]; rfl
    have hmem : ∀ {j k : Nat}, (j, k) ∈ (s.websockets.map fun i => (i, (s.conns[i]?.map (·.life.calls.length)).getD 0)) ↔
        j ∈ s.websockets ∧ k = (s.conns[j]?.map (·.life.calls.length)).getD 0 := by
      intro j k
      rw [List.mem_map]
      constructor
      · rintro ⟨i, hi, h⟩; cases h; exact ⟨hi, rfl⟩
      · rintro ⟨hi, rfl⟩; exact ⟨j, hi, rfl⟩
    have hmemr : ∀ {j : Nat} {t}, (j, t) ∈ (r.websockets.map (·, LegacyRegistry.Task.scheduled)) ↔
        j ∈ s.websockets ∧ t = .scheduled := by
      intro j t
      rw [List.mem_map, ← inv_websockets v]
      constructor
      · rintro ⟨i, hi, h⟩; cases h; exact ⟨hi, rfl⟩
      · rintro ⟨hi, rfl⟩; exact ⟨j, hi, rfl⟩
    have hcall : ∀ {j : Nat}, j ∈ s.websockets → ∃ c, s.conns[j]? = some c ∧
        (createTask c).life.calls[(s.conns[j]?.map (·.life.calls.length)).getD 0]? = some .closeStart := by
      intro j hj
      obtain ⟨c, hc, hreg⟩ := mem_websockets.1 hj
      refine ⟨c, hc, ?_⟩
      simp [hc, createTask, hreg]
    refine ⟨{ r with closer := .closing (r.websockets.map (·, .scheduled)) },
      by simp [LegacyRegistry.step, hsc'],
      ⟨⟨by simp [v.describes.length], ?_, v.describes.serving, ?_⟩, ?_, ?_, v.websockets, v.nodup, v.keyError⟩⟩
    · intro j c hj
      obtain ⟨c0, h0, rfl⟩ := hget hj
      obtain ⟨rc, hd⟩ := v.describes.conns j c0 h0
      exact ⟨rc, { createTask_describes (v.ok j c0 h0) hd with }⟩
    · refine ⟨_, rfl, fun j k hjk => ⟨.scheduled, hmemr.2 ⟨(hmem.1 hjk).1, rfl⟩⟩, fun j t hjt => ?_⟩
      obtain ⟨hj, rfl⟩ := hmemr.1 hjt
      obtain ⟨c, hc, hx⟩ := hcall hj
      exact ⟨_, createTask c, .closeStart, hmem.2 ⟨hj, rfl⟩, hput hc, hx, rfl⟩
    · intro j c hj
      obtain ⟨c0, h0, rfl⟩ := hget hj
      exact createTask_ok (v.ok j c0 h0)
    · intro ts rs hts hrs
      cases hts
      cases hrs
      refine ⟨?_, ?_, ?_, ?_, ?_⟩
      · intro i k k' h1 h2; rw [(hmem.1 h1).2, (hmem.1 h2).2]
      · intro i t t' h1 h2; rw [(hmemr.1 h1).2, (hmemr.1 h2).2]
      · intro i k hik
        obtain ⟨hj, rfl⟩ := hmem.1 hik
        obtain ⟨c, hc, hx⟩ := hcall hj
        exact ⟨_, _, hput hc, hx⟩
      · intro i k c hik hc
        obtain ⟨c0, h0, rfl⟩ := hget hc
        obtain ⟨hj, rfl⟩ := hmem.1 hik
        rw [(createTask_same c0).2.1]
        intro hp
        obtain ⟨x, hx, _⟩ := (v.ok i c0 h0).call _ hp
        have := (List.getElem?_eq_some_iff.1 hx).1
        simp [h0] at this
      · intro i k c x hir
        exact absurd (hmemr.1 hir).2 (by simp)
  · cases h

/-- The tasks of the server ended. -/
theorem follow_tasks (cfg : Nat → Config) {r : Server} {s s' : Sys} (v : Inv r s)
    (h : step cfg s .tasksEnded = some s') :
    ∃ (es : List (LegacyRegistry.Event Unit)) (r1 r2 : Server), LegacyRegistry.run r es = some r1 ∧ r1.conns = r.conns ∧
      LegacyRegistry.step (X := Unit) r1 .tasksEnded = some r2 ∧ Inv r2 s' := by
  simp only [step] at h
  have hsc := v.describes.closer
  split at h
  · next ts hcl =>
    split at h
    · next hall =>
      cases h
      rw [hcl] at hsc
      obtain ⟨rs, hrs, h1, h2⟩ := hsc
      have tk := v.tasks ts rs hcl hrs
      have hended : ∀ {i t}, (i, t) ∈ rs → ∃ k c res, (i, k) ∈ ts ∧ s.conns[i]? = some c ∧
          c.life.calls[k]? = some (.ended res) ∧ Spec.SameTask t (.ended res) := by
        intro i t hit
        obtain ⟨k, c, x, hk, hc, hx, hst⟩ := h2 i t hit
        have := List.all_eq_true.1 hall (i, k) hk
        simp only [Sys.taskEnded, hc, hx] at this
        split at this
        · next res heq => cases heq; exact ⟨k, c, res, hk, hc, hx, hst⟩
        · cases this
      obtain ⟨es, rs', hrun, hall'⟩ := tasks_end _ r rs (Nat.le_refl _) hrs
        (fun i hi => by
          obtain ⟨_, _, _, _, _, _, hst⟩ := hended hi
          cases hst)
        (fun i hi => by
          obtain ⟨k, c, res, hk, hc, hx, _⟩ := hended hi
          obtain ⟨q1, q2, q3⟩ := tk.running i k c _ hi hk hc hx
          obtain ⟨rc, hd⟩ := v.describes.conns i c hc
          refine ⟨rc, hd.conn, ?_⟩
          have hic : LegacyOwner.Spec.Ended c.life ∨ c.life.lost = true := by
            cases res <;> simp only [IsClose] at q1 <;> first | exact q1 | exact (q2 rfl).elim
          rcases hic with hx | hx
          · exact .inl (hd.closeEnded.2 ⟨hx, q3⟩)
          · exact .inr (by rw [hd.lost]; exact hx))
      refine ⟨es, { r with closer := .closing rs' }, { r with closer := .waiting r.websockets }, hrun, rfl, ?_,
        ⟨⟨v.describes.length, ?_, v.describes.serving, ?_⟩, v.ok, by simp, v.websockets, v.nodup, v.keyError⟩⟩
      · simp only [LegacyRegistry.step]
        rw [if_pos hall']
      · intro j c hj
        obtain ⟨rc, hd⟩ := v.describes.conns j c hj
        exact ⟨rc, { hd with }⟩
      · exact ⟨_, rfl, fun i => inv_websockets v i⟩
    · cases h
  · cases h

/-- The model of the server follows. -/
theorem follow (cfg : Nat → Config) {r : Server} {s s' : Sys} {e : Event} (v : Inv r s) (ho : Spec.Ordinary s e)
    (h : step cfg s e = some s') : Follows r s' := by
  cases e with
  | accept =>
    simp only [step] at h
    cases h
    have hnin : r.conns.length ∉ r.websockets := fun h => Nat.lt_irrefl _ (v.websockets _ h)
    have hnod : (r.websockets ++ [r.conns.length]).Nodup := by
      rw [List.nodup_append]
      refine ⟨v.nodup, by simp, ?_⟩
      intro a ha b hb
      rw [List.mem_singleton.1 hb]
      exact fun h => hnin (h ▸ ha)
    have hget : ∀ {j : Nat} {c : LegacyHandler.Server.St},
        (s.conns ++ [({} : LegacyHandler.Server.St)])[j]? = some c →
        (j < s.conns.length ∧ s.conns[j]? = some c) ∨ (j = s.conns.length ∧ c = ({} : LegacyHandler.Server.St)) := by
      intro j c hj
      by_cases hlt : j < s.conns.length
      · rw [List.getElem?_append_left hlt] at hj; exact .inl ⟨hlt, hj⟩
      · have h2 := (List.getElem?_eq_some_iff.1 hj).1
        simp only [List.length_append, List.length_singleton] at h2
        have hj' : j = s.conns.length := by omega
        subst hj'
        simp at hj
        exact .inr ⟨rfl, hj.symm⟩
    refine ⟨[.accept], { r with conns := r.conns ++ [{}], websockets := r.websockets ++ [r.conns.length] }, rfl,
      ⟨⟨?_, ?_, v.describes.serving, ?_⟩, ?_, ?_, ?_, hnod, v.keyError⟩⟩
    · simp [v.describes.length]
    · intro j c hj
      rcases hget hj with ⟨hlt, hj⟩ | ⟨rfl, rfl⟩
      · obtain ⟨rc, hd⟩ := v.describes.conns j c hj
        have hlt' : j < r.conns.length := by rw [v.describes.length]; exact hlt
        refine ⟨rc, { hd with conn := ?_, registered := ?_, nodup := hnod, keyError := v.keyError }⟩
        · simp only; rw [List.getElem?_append_left hlt']; exact hd.conn
        · rw [← hd.registered]; simp; omega
      · refine ⟨{}, ?_, ?_, hnod, v.keyError, rfl, rfl, by simp, rfl, by simp, by simp, by simp⟩
        · simp [← v.describes.length]
        · simp [← v.describes.length]
    · have hsc := v.describes.closer
      simp only
      cases hcl : s.closer with
      | closing ts =>
        rw [hcl] at hsc
        obtain ⟨rs, hrs, h1, h2⟩ := hsc
        refine ⟨rs, hrs, h1, fun j t hjt => ?_⟩
        obtain ⟨k, c, x, hk, hc, hx, hst⟩ := h2 j t hjt
        exact ⟨k, c, x, hk, by simp only; rw [List.getElem?_append_left (List.getElem?_eq_some_iff.1 hc).1]; exact hc, hx, hst⟩
      | _ => rw [hcl] at hsc; exact hsc
    · intro j c hj
      rcases hget hj with ⟨_, hj⟩ | ⟨_, rfl⟩
      · exact v.ok j c hj
      · exact ⟨⟨by simp, by simp, by simp [LegacyOwner.CloserOk], by simp⟩, by simp, by simp, by simp, by simp, by simp⟩
    · intro ts rs hts hrs
      have tk := v.tasks ts rs hts hrs
      have hlt : ∀ {i k}, (i, k) ∈ ts → i < s.conns.length := by
        intro i k hik
        obtain ⟨c, _, hc, _⟩ := tk.call i k hik
        exact (List.getElem?_eq_some_iff.1 hc).1
      refine ⟨tk.unique, tk.one, ?_, ?_, ?_⟩
      · intro i k hik
        obtain ⟨c, x, hc, hx⟩ := tk.call i k hik
        exact ⟨c, x, by simp only; rw [List.getElem?_append_left (hlt hik)]; exact hc, hx⟩
      · intro i k c hik hc
        simp only at hc
        rw [List.getElem?_append_left (hlt hik)] at hc
        exact tk.other i k c hik hc
      · intro i k c x hir hik hc hx
        simp only at hc
        rw [List.getElem?_append_left (hlt hik)] at hc
        exact tk.running i k c x hir hik hc hx
    · intro j hj
      simp only [List.mem_append, List.mem_singleton] at hj
      simp only [List.length_append, List.length_singleton]
      rcases hj with hj | rfl
      · have := v.websockets j hj; omega
      · omega
  | conn i e =>
    simp only [step] at h
    split at h
    · cases h
    · next c hc =>
      split at h
      · cases h
      · next hacc =>
        split at h
        · cases h
        · next c' hs =>
          cases h
          by_cases hfirst : ∃ ts k ev, s.closer = .closing ts ∧ (i, k) ∈ ts ∧ e = .life (.call k ev) ∧
              c.life.calls[k]? = some .closeStart
          · obtain ⟨ts, k, ev, h1, h2, rfl, h4⟩ := hfirst
            exact follow_first cfg v hc ho hs h1 h2 h4
          · obtain ⟨rc, hd⟩ := v.describes.conns i c hc
            obtain ⟨es, r', rc', hr, ha, hd'⟩ := LegacyOwner.sim_step (cfg i) (v.ok i c hc) hd (ho.1 c hc)
              (fun he => by
                rw [v.describes.serving]
                exact Classical.byContradiction fun hx => hacc ⟨he, by simpa using hx⟩) hs
            exact ⟨es, r', hr, follow_conn cfg v hc ho hs
              (fun ts k ev h1 h2 h3 h4 => hfirst ⟨ts, k, ev, h1, h2, h3, h4⟩) ha hd'⟩
  | serverClose =>
    simp only [step] at h
    have hsc := v.describes.closer
    split at h
    · next hcl =>
      cases h
      rw [hcl] at hsc
      have hsc' : r.closer = .none := hsc
      refine ⟨[.serverClose], { r with closer := .created }, by simp [LegacyRegistry.run, LegacyRegistry.step, hsc'],
        ⟨⟨v.describes.length, ?_, v.describes.serving, rfl⟩, v.ok, by simp, v.websockets, v.nodup, v.keyError⟩⟩
      intro j c hj
      obtain ⟨rc, hd⟩ := v.describes.conns j c hj
      exact ⟨rc, { hd with }⟩
    · cases h; exact ⟨[], r, rfl, v⟩
  | stop =>
    simp only [step] at h
    have hsc := v.describes.closer
    split at h
    · next hcl =>
      cases h
      rw [hcl] at hsc
      have hsc' : r.closer = .created := hsc
      refine ⟨[.stop], { r with closer := .stopped, serving := false },
        by simp [LegacyRegistry.run, LegacyRegistry.step, hsc'],
        ⟨⟨v.describes.length, ?_, rfl, rfl⟩, v.ok, by simp, v.websockets, v.nodup, v.keyError⟩⟩
      intro j c hj
      obtain ⟨rc, hd⟩ := v.describes.conns j c hj
      exact ⟨rc, { hd with }⟩
    · cases h
  | snapshot =>
    obtain ⟨r', hr, v'⟩ := follow_snapshot cfg v h
    exact ⟨[.snapshot], r', by simp [LegacyRegistry.run, hr], v'⟩
  | tasksEnded =>
    obtain ⟨es, r1, r2, hr, -, hs, v'⟩ := follow_tasks cfg v h
    exact ⟨es ++ [.tasksEnded], r2, by rw [run_append _ _ _ _ hr]; simp [LegacyRegistry.run, hs], v'⟩
  | handlersEnded =>
    simp only [step] at h
    have hsc := v.describes.closer
    split at h
    · next ids hcl =>
      split at h
      · next hall =>
        cases h
        rw [hcl] at hsc
        obtain ⟨ids', hids, hm⟩ := hsc
        refine ⟨[.handlersEnded], { r with closer := .done }, ?_,
          ⟨⟨v.describes.length, ?_, v.describes.serving, rfl⟩, v.ok, by simp, v.websockets, v.nodup, v.keyError⟩⟩
        · simp only [LegacyRegistry.run, LegacyRegistry.step, hids]
          rw [if_pos]
          intro i hi
          have := List.all_eq_true.1 hall i ((hm i).1 hi)
          unfold Sys.handlerEnded at this
          split at this
          · cases this
          · next c hc =>
            obtain ⟨rc, hd⟩ := v.describes.conns i c hc
            split at this
            · next f hp =>
              have hph := hd.phase
              simp only [LegacyOwner.Spec.SamePhase, hp] at hph
              simp [hd.conn, hph]
            · cases this
        · intro j c hj
          obtain ⟨rc, hd⟩ := v.describes.conns j c hj
          exact ⟨rc, { hd with }⟩
      · cases h
    · cases h

/-! ## Theorems -/

theorem follow_steps (cfg : Nat → Config) {r : Server} {s s' : Sys} (v : Inv r s) (h : Spec.Steps cfg s s') :
    Follows r s' := by
  induction h with
  | refl => exact ⟨[], r, rfl, v⟩
  | step _ ho hs ih =>
    obtain ⟨es, r1, hr, v1⟩ := ih
    obtain ⟨es', r2, hr', v2⟩ := follow cfg v1 ho hs
    exact ⟨es ++ es', r2, by rw [run_append _ _ _ _ hr]; exact hr', v2⟩

theorem inv_init : Inv {} {} :=
  ⟨⟨rfl, by simp, rfl, rfl⟩, by simp, by simp, by simp, by simp, rfl⟩

/-- **C102 the model of the server describes the server with all its tasks**: whatever happens to a server, its
connections, their handlers and their tasks, there are events of `Verif.Model.LegacyRegistry` that lead to a state where
connections are in the same state, handlers are suspended in the same place, the same connections are registered, and
the task that closes the server is suspended in the same place. -/
theorem C102_describes (cfg : Nat → Config) {s : Sys} (h : Spec.Steps cfg {} s) :
    ∃ (es : List (LegacyRegistry.Event Unit)) (r : Server), LegacyRegistry.run {} es = some r ∧ Spec.Describes r s := by
  obtain ⟨es, r, hr, v⟩ := follow_steps cfg inv_init h
  exact ⟨es, r, hr, v.describes⟩

/-- **C102 the registry**: a connection is registered if and only if its handler is in progress. -/
theorem C102_registered (cfg : Nat → Config) {s : Sys} (h : Spec.Steps cfg {} s) (i : Nat) :
    i ∈ s.websockets ↔ ∃ c, s.conns[i]? = some c ∧ ∀ e, c.phase ≠ .ended e := by
  obtain ⟨_, r, _, v⟩ := follow_steps cfg inv_init h
  rw [mem_websockets]
  constructor
  · rintro ⟨c, hc, hr⟩; exact ⟨c, hc, (v.ok i c hc).registered.1 hr⟩
  · rintro ⟨c, hc, hr⟩; exact ⟨c, hc, (v.ok i c hc).registered.2 hr⟩

theorem ended_of_done {c : LegacyHandler.Server.St} (h : LegacyOwner.Spec.SamePhase c .done) :
    ∃ e, c.phase = .ended e := by
  unfold LegacyOwner.Spec.SamePhase at h
  cases hp : c.phase with
  | ended e => exact ⟨e, rfl⟩
  | closing i => simp only [hp] at h; split at h <;> simp at h
  | _ => simp only [hp] at h; cases h

theorem closed_of_closed {r : Server} {i : Nat} {rc : LegacyRegistry.Conn} {c : LegacyHandler.Server.St}
    (h : LegacyOwner.Spec.Describes r i rc c) (hc : LegacyRegistry.Spec.Closed rc) : Spec.Closed c.life :=
  hc.imp h.transport fun hl => by rw [← h.lost]; exact hl

/-- **C102 shutdown**: when `wait_closed()` returns, the handlers of all connections made before the server waited for
handlers have ended, and these connections are closed, unless the task of their handler was cancelled. -/
theorem C102_shutdown (cfg : Nat → Config) {s1 s2 s3 : Sys} (h1 : Spec.Steps cfg {} s1)
    (h2 : step cfg s1 .tasksEnded = some s2) (h3 : Spec.Steps cfg s2 s3) (hdone : s3.closer = .done) {i : Nat}
    (hi : i < s1.conns.length) :
    ∃ c e, s3.conns[i]? = some c ∧ c.phase = .ended e ∧ (Spec.Closed c.life ∨ e = .cancelled) := by
  obtain ⟨es, r, hr, v⟩ := follow_steps cfg inv_init h1
  obtain ⟨es1, r1, r2, hr1, hc1, hs1, v2⟩ := follow_tasks cfg v h2
  obtain ⟨es3, r3, hr3, v3⟩ := follow_steps cfg v2 h3
  have hd3 : r3.closer = .done := by have := v3.describes.closer; rw [hdone] at this; exact this
  obtain ⟨rc, hrc, hp, hcl⟩ := LegacyRegistry.C63_shutdown_partial (es ++ es1) es3 r1 r2 r3
    (by rw [run_append _ _ _ _ hr]; exact hr1) hs1 hr3 hd3 i (by rw [hc1, v.describes.length]; exact hi)
  have hlt : i < s3.conns.length := by
    rw [← v3.describes.length]; exact (List.getElem?_eq_some_iff.1 hrc).1
  obtain ⟨rc', hd⟩ := v3.describes.conns i _ (List.getElem?_eq_getElem hlt)
  have heq : rc' = rc := by have := hd.conn; rw [hrc] at this; exact (Option.some.inj this).symm
  subst heq
  have hph := hd.phase
  rw [hp] at hph
  obtain ⟨e, he⟩ := ended_of_done hph
  refine ⟨_, e, List.getElem?_eq_getElem hlt, he, hcl.imp (closed_of_closed hd) fun h => ?_⟩
  have := hd.cancelled.1 h
  rw [he] at this
  cases this; rfl

/-- **C102 open connections**: a connection that was open when the server created tasks to close connections is closed
when these tasks ended, even if the task of its handler was cancelled. -/
theorem C102_open_closed (cfg : Nat → Config) {s0 s0' s1 s2 s3 : Sys} (h0 : Spec.Steps cfg {} s0)
    (hsnap : step cfg s0 .snapshot = some s0') (h1 : Spec.Steps cfg s0' s1) (h2 : step cfg s1 .tasksEnded = some s2)
    (h3 : Spec.Steps cfg s2 s3) {i : Nat} {c : LegacyHandler.Server.St} (hc : s0.conns[i]? = some c)
    (hreg : i ∈ s0.websockets) (ho : c.life.transfer ≠ .absent) :
    ∃ c', s3.conns[i]? = some c' ∧ Spec.Closed c'.life := by
  obtain ⟨es, r, hr, v⟩ := follow_steps cfg inv_init h0
  obtain ⟨r0', hs0, v0'⟩ := follow_snapshot cfg v hsnap
  obtain ⟨es', r1, hr1, v1⟩ := follow_steps cfg v0' h1
  obtain ⟨es1, r1', r2, hr1', hc1, hs1, v2⟩ := follow_tasks cfg v1 h2
  obtain ⟨es3, r3, hr3, v3⟩ := follow_steps cfg v2 h3
  obtain ⟨rc, hd⟩ := v.describes.conns i c hc
  have hst : r.closer = .stopped := by
    have := v.describes.closer
    simp only [step] at hsnap
    split at hsnap
    · next hcl => rw [hcl] at this; exact this
    · cases hsnap
  obtain ⟨rc3, hrc3, hcl⟩ := LegacyRegistry.C63_open_closed es (es' ++ es1) es3 r r1' r2 r3 hr hst
    (by simp only [LegacyRegistry.run, hs0]; rw [run_append _ _ _ _ hr1]; exact hr1') hs1 hr3 i rc hd.conn
    ((inv_websockets v i).2 hreg) (hd.opened.2 ho)
  have hlt : i < s3.conns.length := by
    rw [← v3.describes.length]; exact (List.getElem?_eq_some_iff.1 hrc3).1
  obtain ⟨rc', hd'⟩ := v3.describes.conns i _ (List.getElem?_eq_getElem hlt)
  have heq : rc' = rc3 := by have := hd'.conn; rw [hrc3] at this; exact (Option.some.inj this).symm
  subst heq
  exact ⟨_, List.getElem?_eq_getElem hlt, closed_of_closed hd' hcl⟩

/-- **C102 no new connections**: once the underlying server is closed, no connection opens. -/
theorem C102_no_new (cfg : Nat → Config) {s s' : Sys} (h : Spec.Steps cfg {} s) (hserv : s.serving = false)
    (h' : Spec.Steps cfg s s') {i : Nat} {c' : LegacyHandler.Server.St} (hc' : s'.conns[i]? = some c')
    (ho : c'.life.transfer ≠ .absent) : ∃ c, s.conns[i]? = some c ∧ c.life.transfer ≠ .absent := by
  obtain ⟨es, r, hr, v⟩ := follow_steps cfg inv_init h
  obtain ⟨es', r', hr', v'⟩ := follow_steps cfg v h'
  obtain ⟨rc', hd'⟩ := v'.describes.conns i c' hc'
  obtain ⟨rc, hrc, hop⟩ := LegacyRegistry.C63_no_new es es' r r' hr (by rw [v.describes.serving]; exact hserv) hr' i rc'
    hd'.conn (hd'.opened.2 ho)
  have hlt : i < s.conns.length := by
    rw [← v.describes.length]; exact (List.getElem?_eq_some_iff.1 hrc).1
  obtain ⟨rc0, hd⟩ := v.describes.conns i _ (List.getElem?_eq_getElem hlt)
  have heq : rc0 = rc := by have := hd.conn; rw [hrc] at this; exact (Option.some.inj this).symm
  subst heq
  exact ⟨_, List.getElem?_eq_getElem hlt, hd.opened.1 hop⟩

/-! ## Connections -/

/-- A call to `close()` that may have ended -/
def CloseCall (s : LegacyLife.St) (k : Nat) : Prop :=
  ∃ x, s.calls[k]? = some x ∧ (LegacyLife.Spec.closePending x = true ∨ ∃ r, x = .ended r)

/-- Each connection, its handler and its tasks -/
structure Each (cfg : Nat → Config) (s : Sys) : Prop where
  reach : ∀ (i : Nat) c, s.conns[i]? = some c → ∃ es, LegacyHandler.Server.run (cfg i) {} es = some c
  tasks : ∀ ts i k, s.closer = .closing ts → (i, k) ∈ ts → ∃ c, s.conns[i]? = some c ∧ CloseCall c.life k

theorem handler_run_append {cfg : Config} {es : List LegacyHandler.Server.Event} :
    ∀ {s s' s'' : LegacyHandler.Server.St} {e : LegacyHandler.Server.Event},
    LegacyHandler.Server.run cfg s es = some s' → LegacyHandler.Server.step cfg s' e = some s'' →
    LegacyHandler.Server.run cfg s (es ++ [e]) = some s'' := by
  induction es with
  | nil => intro s s' s'' e h h'; cases h; simp [LegacyHandler.Server.run, h']
  | cons e0 es ih =>
    intro s s' s'' e h h'
    simp only [LegacyHandler.Server.run, Option.bind_eq_some_iff, List.cons_append] at h ⊢
    obtain ⟨s1, h1, h2⟩ := h
    exact ⟨s1, h1, ih h2 h'⟩

theorem createTask_step (cfg : Config) (c : LegacyHandler.Server.St) (hr : c.registered = true) :
    LegacyHandler.Server.step cfg c (.life .close) = some (createTask c) := by
  simp [LegacyHandler.Server.step, LegacyHandler.allowed, LegacyLife.step, createTask, hr]

theorem handler_closed {cfg : Config} {c c' : LegacyHandler.Server.St} {e : LegacyHandler.Server.Event} {k : Nat}
    (h : LegacyHandler.Server.step cfg c e = some c') (hk : CloseCall c.life k) :
    CloseCall c'.life k := by
  obtain ⟨x, hx, hp⟩ := hk
  rcases handler_calls cfg h hx with h1 | ⟨ev, s1, x', -, hs, hc', hcalls⟩
  · exact ⟨x, h1, hp⟩
  · have hlt := (List.getElem?_eq_some_iff.1 hx).1
    subst hc'
    refine ⟨x', by simp [hcalls, hlt], ?_⟩
    rcases hp with hp | ⟨r, rfl⟩
    · rcases LegacyLife.callStep_close hs hp with h2 | ⟨r, h2, -⟩
      · exact .inl h2
      · exact .inr ⟨r, h2⟩
    · simp [LegacyLife.St.callStep] at hs

theorem Each.step {cfg : Nat → Config} {s s' : Sys} {e : Event} (v : Each cfg s) (h : step cfg s e = some s') :
    Each cfg s' := by
  cases e with
  | accept =>
    simp only [LegacySystem.step] at h
    cases h
    refine ⟨fun i c hc => ?_, fun ts i k hcl hm => ?_⟩
    · by_cases hi : i < s.conns.length
      · rw [List.getElem?_append_left hi] at hc; exact v.reach i c hc
      · rw [List.getElem?_append_right (by omega)] at hc
        obtain ⟨rfl⟩ := List.mem_singleton.1 (List.mem_of_getElem? hc)
        exact ⟨[], rfl⟩
    · obtain ⟨c, hc, hk⟩ := v.tasks ts i k hcl hm
      exact ⟨c, by rw [List.getElem?_append_left (List.getElem?_eq_some_iff.1 hc).1]; exact hc, hk⟩
  | conn i e =>
    simp only [LegacySystem.step] at h
    split at h
    · cases h
    · next c hc =>
      split at h
      · cases h
      · split at h
        · cases h
        · next c' hs =>
          cases h
          refine ⟨fun j cj hj => ?_, fun ts j k hcl hm => ?_⟩
          · by_cases hij : i = j
            · subst hij
              rw [List.getElem?_set_self (List.getElem?_eq_some_iff.1 hc).1] at hj
              cases hj
              obtain ⟨es, hr⟩ := v.reach i c hc
              exact ⟨es ++ [e], handler_run_append hr hs⟩
            · rw [List.getElem?_set_ne hij] at hj; exact v.reach j cj hj
          · obtain ⟨cj, hj, hk⟩ := v.tasks ts j k hcl hm
            by_cases hij : i = j
            · subst hij
              rw [hc] at hj; cases hj
              exact ⟨c', List.getElem?_set_self (List.getElem?_eq_some_iff.1 hc).1, handler_closed hs hk⟩
            · exact ⟨cj, by rw [List.getElem?_set_ne hij]; exact hj, hk⟩
  | serverClose =>
    simp only [LegacySystem.step] at h
    split at h
    · cases h; exact ⟨v.reach, fun ts i k hcl => by cases hcl⟩
    · cases h; exact v
  | stop =>
    simp only [LegacySystem.step] at h
    split at h
    · cases h; exact ⟨v.reach, fun ts i k hcl => by cases hcl⟩
    · cases h
  | snapshot =>
    simp only [LegacySystem.step] at h
    split at h
    · cases h
      refine ⟨fun i c hc => ?_, fun ts i k hcl hm => ?_⟩
      · rw [List.getElem?_map, Option.map_eq_some_iff] at hc
        obtain ⟨c0, hc0, rfl⟩ := hc
        obtain ⟨es, hr⟩ := v.reach i c0 hc0
        cases hreg : c0.registered
        · exact ⟨es, by simpa [createTask, hreg] using hr⟩
        · exact ⟨es ++ [.life .close], handler_run_append hr (createTask_step _ _ hreg)⟩
      · cases hcl
        simp only [List.mem_map, Prod.mk.injEq] at hm
        obtain ⟨j, hj, rfl, rfl⟩ := hm
        obtain ⟨c, hc, hreg⟩ := mem_websockets.1 hj
        refine ⟨createTask c, by rw [List.getElem?_map, hc]; rfl, .closeStart, ?_, .inl rfl⟩
        simp [createTask, hreg, hc]
    · cases h
  | tasksEnded =>
    simp only [LegacySystem.step] at h
    split at h
    · split at h
      · cases h; exact ⟨v.reach, fun ts i k hcl => by cases hcl⟩
      · cases h
    · cases h
  | handlersEnded =>
    simp only [LegacySystem.step] at h
    split at h
    · split at h
      · cases h; exact ⟨v.reach, fun ts i k hcl => by cases hcl⟩
      · cases h
    · cases h

theorem Each.run {cfg : Nat → Config} : ∀ {es : List Event} {s s' : Sys}, Each cfg s → run cfg s es = some s' → Each cfg s'
  | [], _, _, v, h => by cases h; exact v
  | e :: es, s, s', v, h => by
    simp only [LegacySystem.run] at h
    split at h
    · cases h
    · next s1 h1 => exact (v.step h1).run h

theorem each_init (cfg : Nat → Config) : Each cfg {} := ⟨fun i c hc => by simp at hc, fun ts i k hcl => by cases hcl⟩

/-- **C102 connections**: what happens to a connection of the server is what happens to a connection alone, whatever happens to
the others.  So all claims about a handler (C87) and about a connection (C82) hold for every connection of the
server. -/
theorem C102_connections (cfg : Nat → Config) {es : List Event} {s : Sys} (h : run cfg {} es = some s) {i : Nat}
    {c : LegacyHandler.Server.St} (hc : s.conns[i]? = some c) :
    (∃ es', LegacyHandler.Server.run (cfg i) {} es' = some c) ∧ ∃ es', LegacyLife.run (cfg i) {} es' = some c.life := by
  obtain ⟨es', h'⟩ := ((each_init cfg).run h).reach i c hc
  exact ⟨⟨es', h'⟩, LegacyHandler.Server.C87_refines h'⟩

/-- **C102 tasks end**: as long as tasks that close connections haven't ended, the library does something: the server never waits
for a client. -/
theorem C102_tasks_end (cfg : Nat → Config) {es : List Event} {s : Sys} (h : run cfg {} es = some s)
    {ts : List (Nat × Nat)} (hcl : s.closer = .closing ts)
    (hst : ∀ i e, LegacyLife.Spec.internal e = true → step cfg s (.conn i (.life e)) = none) :
    ∃ s', step cfg s .tasksEnded = some s' := by
  have v := (each_init cfg).run h
  have hall : ts.all s.taskEnded = true := by
    rw [List.all_eq_true]
    rintro ⟨i, k⟩ hm
    obtain ⟨c, hc, hk⟩ := v.tasks ts i k hcl hm
    obtain ⟨es', hr⟩ := v.reach i c hc
    have hok := (LegacyHandler.Server.ok_init (cfg i)).run hr
    have hno : ∀ e, LegacyLife.Spec.internal e = true →
        LegacyHandler.allowed (decide (c.phase = .created ∨ c.phase = .handshake)) e = true →
        LegacyLife.step (cfg i) c.life e = none := by
      intro e he ha
      have := hst i e he
      simp only [LegacySystem.step, hc, LegacyHandler.Server.step, ha, if_true] at this
      rw [if_neg (by simp)] at this
      cases hx : LegacyLife.step (cfg i) c.life e with
      | none => rfl
      | some l => simp [hx] at this
    obtain ⟨x, hx, hp | ⟨r, rfl⟩⟩ := hk
    · exfalso
      by_cases hop : c.phase = .created ∨ c.phase = .handshake
      · have hci := hok.reach.inv.calls x (List.mem_of_getElem? hx)
        have ha := (hok.opening hop).1
        cases x with
        | closeStart =>
          have := hno (.call k .run) rfl rfl
          simp only [LegacyLife.step, hx, LegacyLife.St.callStep] at this
          split at this
          · next h2 => split at h2 <;> cases h2
          · cases this
        | closeWriting => simp [LegacyLife.CallInv, ha] at hci
        | closeWaitTransfer t => simp [LegacyLife.CallInv, ha] at hci
        | closeWaitCloser => simp [LegacyLife.CallInv, ha] at hci
        | _ => simp [LegacyLife.Spec.closePending] at hp
      · refine hok.reach.inv.progress (cfg := cfg i) hx hp fun e he => hno e he ?_
        rw [decide_eq_false hop]
        cases e with
        | call j e => cases e <;> rfl
        | _ => first | rfl | (cases he; done)
    · simp [Sys.taskEnded, hc, hx]
  refine ⟨{ s with closer := .waiting s.websockets }, ?_⟩
  simp only [LegacySystem.step, hcl, hall, if_true]

/-- **C102 handlers end**: likewise, the server never waits for a client whose handler returned. -/
theorem C102_handlers_end (cfg : Nat → Config) {es : List Event} {s : Sys} (h : run cfg {} es = some s) {i k : Nat}
    {c : LegacyHandler.Server.St} (hc : s.conns[i]? = some c) (hp : c.phase = .closing k)
    (hst : ∀ e, LegacyLife.Spec.internal e = true → step cfg s (.conn i (.life e)) = none) :
    ∃ s', step cfg s (.conn i .closed) = some s' ∧ s'.handlerEnded i = true := by
  have v := (each_init cfg).run h
  obtain ⟨es', hr⟩ := v.reach i c hc
  have hstuck : LegacyLife.Spec.Stuck (cfg i) c.life := by
    intro e he
    have := hst e he
    have ha : LegacyHandler.allowed (decide (c.phase = .created ∨ c.phase = .handshake)) e = true := by
      rw [decide_eq_false (by simp [hp])]
      cases e with
      | call j e => cases e <;> rfl
      | _ => first | rfl | (cases he; done)
    simp only [LegacySystem.step, hc, LegacyHandler.Server.step, ha, if_true] at this
    rw [if_neg (by simp)] at this
    cases hx : LegacyLife.step (cfg i) c.life e with
    | none => rfl
    | some l => simp [hx] at this
  obtain ⟨-, -, hend⟩ := LegacyHandler.Server.C87_ends hr hp (es' := []) (by simp) rfl
  obtain ⟨e, c', hs, hpe⟩ := hend hstuck
  have hs' : LegacyHandler.Server.step (cfg i) c .closed = some c' := hs
  refine ⟨{ s with conns := s.conns.set i c' }, ?_, ?_⟩
  · simp [LegacySystem.step, hc, hs']
  · simp only [Sys.handlerEnded]
    rw [List.getElem?_set_self (List.getElem?_eq_some_iff.1 hc).1]
    simp [hpe]

/-! ## Example -/

theorem steps_list (cfg : Nat → Config) (s0 : Sys) : ∀ (es : List Event) (s s' : Sys), Spec.Steps cfg s0 s →
    (∀ e ∈ es, ∀ t, Spec.Ordinary t e) → run cfg s es = some s' → Spec.Steps cfg s0 s'
  | [], _, _, h, _, hr => by cases hr; exact h
  | e :: es, s, s', h, ho, hr => by
    simp only [LegacySystem.run] at hr
    split at hr
    · cases hr
    · next t hs => exact steps_list cfg s0 es t s' (.step h (ho e (by simp) s) hs) (fun x hx => ho x (by simp [hx])) hr

/-- A connection is opened; another is made; the server is closed. -/
def exampleBefore : List Event :=
  [.accept, .conn 0 .start, .conn 0 .accept, .conn 0 (.life .closerRun), .accept, .conn 1 .start, .serverClose, .stop]

/-- The first connection is closed by the closing handshake; the second one is refused. -/
def exampleClosing : List Event :=
  [.conn 0 (.life (.call 0 .run)), .conn 1 (.life (.call 0 .run)), .conn 1 (.reject 503),
   .conn 0 (.life (.call 0 (.drained true))), .conn 0 (.life (.receive (.close 1000))), .conn 0 (.life .closerRun),
   .conn 0 (.life (.lost false)), .conn 0 (.life .closerLost), .conn 0 (.life (.call 0 .woken))]

/-- The handlers end. -/
def exampleAfter : List Event :=
  [.conn 0 .returned, .conn 0 (.life (.call 1 .run)), .conn 0 .closed, .conn 1 (.life .closerRun),
   .conn 1 (.life (.lost false)), .conn 1 .woken, .handlersEnded]

example : ∃ s0 s0' s1 s2 s3, let cfg := fun _ => (⟨false, false⟩ : Config)
    Spec.Steps cfg {} s0 ∧ s0.websockets = [0, 1] ∧ (s0.conns[0]?.map (·.life.transfer)) = some .reading ∧
    s0.serving = false ∧
    step cfg s0 .snapshot = some s0' ∧ s0'.closer = .closing [(0, 0), (1, 0)] ∧ Spec.Steps cfg s0' s1 ∧
    step cfg s1 .tasksEnded = some s2 ∧ s2.closer = .waiting [0, 1] ∧ Spec.Steps cfg s2 s3 ∧ s3.closer = .done ∧
    s3.websockets = [] ∧ s3.conns.map (·.responses) = [[101], [503]] :=
  ⟨_, _, _, _, _,
    steps_list _ _ exampleBefore {} _ (.refl _) (by simp [exampleBefore, Spec.Ordinary, LegacyOwner.Spec.Ordinary]) rfl,
    rfl, rfl, rfl, rfl, rfl,
    steps_list _ _ exampleClosing _ _ (.refl _)
      (by simp [exampleClosing, Spec.Ordinary, LegacyOwner.Spec.Ordinary]) rfl,
    rfl, rfl,
    steps_list _ _ exampleAfter _ _ (.refl _) (by simp [exampleAfter, Spec.Ordinary, LegacyOwner.Spec.Ordinary]) rfl,
    rfl, rfl, rfl⟩

end WS.LegacySystem
