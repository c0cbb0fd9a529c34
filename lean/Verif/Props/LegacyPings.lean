import Verif.Lemmas.LegacyPings
import Verif.Lemmas.LegacyPinging
import Verif.Lemmas.LegacyCloseInfo

/-!
# C55, C56: pings and pongs; C57: close frames; C59: exceptions

Executions are arbitrary sequences of `Act`, starting when the connection is opened.
-/

namespace WS.LegacyConn

/-! ## C57 -/

/-- At most one close frame is written, and no frame follows it, whatever the tasks do. -/
theorem C57_close_frame {as : List Act} {s : Conn} {os : List Obs}
    (h : Conn.exec {} as = some (s, os)) :
    Spec.NothingAfterClose (s.log.map (·.2)) ∧
      ((s.log.map (·.2)).filter (·.opcode = .close)).length ≤ 1 := by
  obtain ⟨ext, h1, -, h3, -⟩ := Conn.exec_grows h
  simp only [Conn.frames, List.map_nil, List.nil_append] at h1
  rw [h1]
  refine ⟨h3, ?_⟩
  clear h h1
  induction ext with
  | nil => simp
  | cons f fs ih =>
    by_cases hf : f.opcode = .close
    · have := h3 [] f fs rfl hf
      subst this
      simp [hf]
    · simp only [List.filter_cons, hf, decide_false, Bool.false_eq_true, if_false]
      refine ih ?_
      intro pre g post he hg
      exact h3 (f :: pre) g post (by simp [he]) hg

/-- Frames are written in the OPEN state only, and the connection leaves this state when a close
frame is written. -/
theorem C57_open {as : List Act} {s : Conn} {os : List Obs} (h : Conn.exec {} as = some (s, os))
    {f : Frame} (hf : f ∈ s.log.map (·.2)) (hc : f.opcode = .close) : s.state ≠ .opened := by
  obtain ⟨ext, h1, -, -, h4, -⟩ := Conn.exec_grows h
  simp only [Conn.frames, List.map_nil, List.nil_append] at h1
  intro ho
  exact h4 ho f (h1 ▸ hf) hc

/-- `close` and the peer's close frame at the same time; then a failure. -/
example : (Conn.exec {} [.call (.send (.plain true b!"a")), .call (.close [3, 232]), .recvClose [3, 233],
    .fail 1011, .call (.send (.plain true b!"b")), .resume 0 .ok]).map
    (fun p => (p.1.log.map (fun q => q.2.opcode), p.2)) =
    some ([.text, .close], [.returned 0]) := by decide +kernel

/-! ## C55 -/

/-- The pings that wait for a pong. -/
def Conn.pending (s : Conn) : List Nat := s.pings.map (·.2)

/-- Invariant. -/
structure PingsOk (s : Conn) : Prop where
  keys : (s.pings.map (·.1)).Nodup
  sorted : s.pending.Pairwise (· < ·)
  pendLt : ∀ f ∈ s.pending, f < s.calls.length
  ackLt : ∀ f ∈ s.acked, f < s.calls.length
  abLt : ∀ f ∈ s.aborted, f < s.calls.length
  pend : ∀ f ∈ s.pending, f ∉ s.acked
  openAb : s.state ≠ .closed → s.aborted = []
  closedAb : s.state = .closed → ∀ f ∈ s.pending, f ∈ s.aborted
  disj : ∀ f ∈ s.acked, f ∉ s.aborted
  data : ∀ p ∈ s.pings, ∃ e, s.calls[p.2]? = some (.ping e p.1)
  log : ∀ i ∈ pingIds s.log, i ∈ s.pending ∨ i ∈ s.acked ∨ i ∈ s.aborted
  logSorted : (pingIds s.log).Pairwise (· < ·)
  logLt : ∀ i ∈ pingIds s.log, i < s.calls.length

theorem PingsOk.init : PingsOk {} := by
  constructor <;> simp [Conn.pending, pingIds]

theorem getElem?_append_some {α : Type} {l l' : List α} {i : Nat} {x : α} (h : l[i]? = some x) :
    (l ++ l')[i]? = some x := by
  have := (List.getElem?_eq_some_iff.1 h).1
  rw [List.getElem?_append_left this]
  exact h

theorem PingsOk.step {s s' : Conn} {a : Act} {o : List Obs} (hok : PingsOk s)
    (hs : s.step a = some (s', o)) : PingsOk s' := by
  have hst := Conn.step_pings hs
  cases hst with
  | other cs h hc hn hp =>
    have hcl : s'.state = .closed → s.state = .closed := hc.1
    have hc : s.state = .closed → s'.state = .closed := hc.2
    simp only [Conn.pp, Prod.mk.injEq] at h
    obtain ⟨e1, e2, e3, e4, e5⟩ := h
    have hlen : s.calls.length ≤ s'.calls.length := by rw [e4]; simp
    constructor
    · rw [e1]; exact hok.keys
    · simp only [Conn.pending, e1]; exact hok.sorted
    · simp only [Conn.pending, e1]; exact fun f hf => Nat.lt_of_lt_of_le (hok.pendLt f hf) hlen
    · rw [e2]; exact fun f hf => Nat.lt_of_lt_of_le (hok.ackLt f hf) hlen
    · rw [e3]; exact fun f hf => Nat.lt_of_lt_of_le (hok.abLt f hf) hlen
    · simp only [Conn.pending, e1, e2]; exact hok.pend
    · rw [e3]; exact fun hx => hok.openAb fun hy => hx (hc hy)
    · simp only [Conn.pending, e1, e3]; exact fun hx => hok.closedAb (hcl hx)
    · rw [e2, e3]; exact hok.disj
    · rw [e1, e4]
      intro p hp
      obtain ⟨e, he⟩ := hok.data p hp
      exact ⟨e, getElem?_append_some he⟩
    · simp only [Conn.pending, e1, e2, e3, e5]; exact hok.log
    · rw [e5]; exact hok.logSorted
    · rw [e5]; exact fun f hf => Nat.lt_of_lt_of_le (hok.logLt f hf) hlen
  | @ping explicit d _ w hw hd ho hst h =>
    simp only [Conn.pp, Prod.mk.injEq] at h
    obtain ⟨e1, e2, e3, e4, e5⟩ := h
    have hlen : s'.calls.length = s.calls.length + 1 := by rw [e4]; simp
    have hab := hok.openAb (by rw [ho]; simp)
    have hcl : s'.state ≠ .closed := by
      rw [hst, ho]; simp
    have hp : s'.pending = s.pending ++ [s.calls.length] := by simp [Conn.pending, e1]
    constructor
    · rw [e1]
      simp only [List.map_append, List.map_cons, List.map_nil]
      exact List.nodup_append.2 ⟨hok.keys, by simp, by
        intro x hx y hy; simp only [List.mem_singleton] at hy; subst hy; exact fun he => hd (he ▸ hx)⟩
    · rw [hp]
      refine List.pairwise_append.2 ⟨hok.sorted, by simp, ?_⟩
      intro x hx y hy
      simp only [List.mem_singleton] at hy
      subst hy
      exact hok.pendLt x hx
    · rw [hp, hlen]
      intro f hf
      simp only [List.mem_append, List.mem_singleton] at hf
      rcases hf with hf | rfl
      · have := hok.pendLt f hf; omega
      · omega
    · rw [e2, hlen]; exact fun f hf => Nat.lt_succ_of_lt (hok.ackLt f hf)
    · rw [e3, hlen]; exact fun f hf => Nat.lt_succ_of_lt (hok.abLt f hf)
    · rw [hp, e2]
      intro f hf
      simp only [List.mem_append, List.mem_singleton] at hf
      rcases hf with hf | rfl
      · exact hok.pend f hf
      · exact fun hx => Nat.lt_irrefl _ (hok.ackLt _ hx)
    · rw [e3]; exact fun _ => hab
    · exact fun hx => absurd hx hcl
    · rw [e2, e3]; exact hok.disj
    · rw [e1, e4]
      intro p hp
      simp only [List.mem_append, List.mem_singleton] at hp
      rcases hp with hp | rfl
      · obtain ⟨e, he⟩ := hok.data p hp
        exact ⟨e, getElem?_append_some he⟩
      · exact ⟨explicit, by simp⟩
    · rw [hp, e2, e3, e5]
      intro i hi
      simp only [List.mem_append, List.mem_singleton] at hi ⊢
      rcases hi with hi | hi
      · rcases hok.log i hi with h1 | h1 | h1
        · exact .inl (.inl h1)
        · exact .inr (.inl h1)
        · exact .inr (.inr h1)
      · rcases hw with rfl | rfl
        · simp only [List.mem_singleton] at hi; exact .inl (.inr hi)
        · cases hi
    · rw [e5]
      refine List.pairwise_append.2 ⟨hok.logSorted, ?_, ?_⟩
      · rcases hw with rfl | rfl <;> simp
      · intro x hx y hy
        rcases hw with rfl | rfl
        · simp only [List.mem_singleton] at hy; subst hy; exact hok.logLt x hx
        · cases hy
    · rw [e5, hlen]
      intro i hi
      rcases List.mem_append.1 hi with hi | hi
      · exact Nat.lt_succ_of_lt (hok.logLt i hi)
      · rcases hw with rfl | rfl
        · simp only [List.mem_singleton] at hi; omega
        · cases hi
  | @pong d _ futs rest hsp hst h =>
    simp only [Conn.pp, Prod.mk.injEq] at h
    obtain ⟨e1, e2, e3, e4, e5⟩ := h
    obtain ⟨pre, fut, hl, hf, hpre⟩ := splitPings_some hsp
    have hpend : s.pending = futs ++ rest.map (·.2) := by
      simp [Conn.pending, hl, hf]
    have hp : s'.pending = rest.map (·.2) := by simp [Conn.pending, e1]
    have hsub : ∀ f ∈ s'.pending, f ∈ s.pending := by
      rw [hp, hpend]; exact fun f hf => List.mem_append_right _ hf
    have hack : ∀ f, f ∈ s'.acked ↔ f ∈ s.acked ∨ (f ∈ futs ∧ f ∉ s.aborted) := by
      intro f
      rw [e2]
      simp only [List.mem_append, List.mem_filter, decide_eq_true_eq]
      constructor
      · rintro (⟨h1, -, h2⟩ | h1)
        · exact .inr ⟨h1, h2⟩
        · exact .inl h1
      · rintro (h1 | ⟨h1, h2⟩)
        · exact .inr h1
        · exact .inl ⟨h1, hok.pend f (by rw [hpend]; exact List.mem_append_left _ h1), h2⟩
    have hsort := hok.sorted
    rw [hpend] at hsort
    have hso := List.pairwise_append.1 hsort
    constructor
    · rw [e1]
      have := hok.keys
      rw [hl] at this
      simp only [List.map_append, List.map_cons] at this
      exact (List.nodup_cons.1 (List.nodup_append.1 this).2.1).2
    · rw [hp]; exact hso.2.1
    · rw [e4]; exact fun f hf => hok.pendLt f (hsub f hf)
    · rw [e4]
      intro f hf
      rcases (hack f).1 hf with h1 | ⟨h1, -⟩
      · exact hok.ackLt f h1
      · exact hok.pendLt f (by rw [hpend]; exact List.mem_append_left _ h1)
    · rw [e3, e4]; exact hok.abLt
    · intro f hf hx
      rcases (hack f).1 hx with h1 | ⟨h1, -⟩
      · exact hok.pend f (hsub f hf) h1
      · rw [hp] at hf
        exact Nat.lt_irrefl _ (hso.2.2 f h1 f hf)
    · rw [e3, hst]; exact hok.openAb
    · rw [e3, hst]; exact fun hx f hf => hok.closedAb hx f (hsub f hf)
    · rw [e3]
      intro f hf
      rcases (hack f).1 hf with h1 | ⟨-, h1⟩
      · exact hok.disj f h1
      · exact h1
    · rw [e1, e4]
      intro p hp
      exact hok.data p (by rw [hl]; simp [hp])
    · rw [e3, e5]
      intro i hi
      rcases hok.log i hi with h1 | h1 | h1
      · by_cases hb : i ∈ s.aborted
        · exact .inr (.inr hb)
        · rw [hpend] at h1
          rcases List.mem_append.1 h1 with h1 | h1
          · exact .inr (.inl ((hack i).2 (.inr ⟨h1, hb⟩)))
          · exact .inl (by rw [hp]; exact h1)
      · exact .inr (.inl ((hack i).2 (.inl h1)))
      · exact .inr (.inr h1)
    · rw [e5]; exact hok.logSorted
    · rw [e5, e4]; exact hok.logLt
  | lost hx hst h =>
    simp only [Conn.pp, Prod.mk.injEq] at h
    obtain ⟨e1, e2, e3, e4, e5⟩ := h
    have hab := hok.openAb hx
    have hp : s'.pending = s.pending := by simp [Conn.pending, e1]
    have e3 : s'.aborted = s.pending := by rw [e3, hab]; simp [Conn.pending]
    constructor
    · rw [e1]; exact hok.keys
    · rw [hp]; exact hok.sorted
    · rw [hp, e4]; exact hok.pendLt
    · rw [e2, e4]; exact hok.ackLt
    · rw [e3, e4]; exact hok.pendLt
    · rw [hp, e2]; exact hok.pend
    · exact fun hy => absurd hst hy
    · rw [hp, e3]; exact fun _ _ h => h
    · rw [e2, e3]; exact fun f hf hy => hok.pend f hy hf
    · rw [e1, e4]; exact hok.data
    · rw [hp, e2, e3, e5]
      intro i hi
      rcases hok.log i hi with h1 | h1 | h1
      · exact .inl h1
      · exact .inr (.inl h1)
      · rw [hab] at h1; cases h1
    · rw [e5]; exact hok.logSorted
    · rw [e5, e4]; exact hok.logLt

theorem PingsOk.exec {as : List Act} {s : Conn} {os : List Obs}
    (h : Conn.exec {} as = some (s, os)) : PingsOk s :=
  Conn.exec_induction (P := fun _ s _ => PingsOk s) PingsOk.init
    (fun _ _ _ _ _ _ _ hp hs => hp.step hs) h

/-- An unsolicited pong has no effect. -/
theorem C55_unsolicited {s s' : Conn} {o : List Obs} {d : Bytes} (hs : s.step (.recvPong d) = some (s', o))
    (hd : ∀ i, (d, i) ∉ s.pings) : s' = s := by
  have hst := Conn.step_pings hs
  cases hst with
  | other _ _ _ _ hp => exact (hp d rfl).1
  | pong hsp _ _ =>
    obtain ⟨pre, fut, hl, -⟩ := splitPings_some hsp
    exact absurd (by rw [hl]; simp) (hd fut)

/-- A pong that matches ping `g` acknowledges the pings that were waiting and were sent no later than
`g`, and no other one; these don't wait any more, the others still do. (Calls are numbered in order.) -/
theorem C55_acknowledges {as : List Act} {s s' : Conn} {os o : List Obs} {d : Bytes} {g : Nat}
    (h : Conn.exec {} as = some (s, os)) (hs : s.step (.recvPong d) = some (s', o))
    (hg : (d, g) ∈ s.pings) (hopen : s.state ≠ .closed) :
    (∀ f, f ∈ s'.acked ↔ f ∈ s.acked ∨ (f ∈ s.pending ∧ f ≤ g)) ∧
    (∀ p, p ∈ s'.pings ↔ p ∈ s.pings ∧ g < p.2) ∧ s'.aborted = s.aborted ∧ s'.log = s.log := by
  have hok := PingsOk.exec h
  have hst := Conn.step_pings hs
  have hlog : s'.log = s.log := by
    simp only [Conn.step] at hs
    split at hs
    · cases hs
      unfold Conn.recvPong
      split <;> rfl
    · cases hs
  cases hst with
  | other _ _ _ _ hp => exact absurd (List.mem_map_of_mem hg) (hp d rfl).2
  | @pong _ _ futs rest hsp hst h =>
    simp only [Conn.pp, Prod.mk.injEq] at h
    obtain ⟨e1, e2, e3, e4, e5⟩ := h
    obtain ⟨pre, fut, hl, hf, hpre⟩ := splitPings_some hsp
    have hfut : fut = g := by
      rw [hl] at hg
      simp only [List.mem_append, List.mem_cons, Prod.mk.injEq, true_and] at hg
      rcases hg with hg | rfl | hg
      · exact absurd (List.mem_map_of_mem hg) hpre
      · rfl
      · have := hok.keys
        rw [hl] at this
        simp only [List.map_append, List.map_cons] at this
        exact absurd (List.mem_map_of_mem hg) (List.nodup_cons.1 (List.nodup_append.1 this).2.1).1
    subst hfut
    have hab := hok.openAb hopen
    have hsort := hok.sorted
    simp only [Conn.pending, hl, List.map_append, List.map_cons] at hsort
    have hso := List.pairwise_append.1 hsort
    have hso2 := List.pairwise_cons.1 hso.2.1
    refine ⟨?_, ?_, e3, hlog⟩
    · intro f
      rw [e2, hab]
      simp only [List.mem_append, List.mem_filter, decide_eq_true_eq]
      constructor
      · rintro (⟨h1, h2, -⟩ | h1)
        · refine .inr ⟨?_, ?_⟩
          · simp only [Conn.pending, hl, List.map_append, List.map_cons, List.mem_append, List.mem_cons]
            rw [hf] at h1
            simp only [List.mem_append, List.mem_singleton] at h1
            rcases h1 with h1 | h1
            · exact .inl h1
            · exact .inr (.inl h1)
          · rw [hf] at h1
            simp only [List.mem_append, List.mem_singleton] at h1
            rcases h1 with h1 | h1
            · exact Nat.le_of_lt (hso.2.2 f h1 fut (by simp))
            · omega
        · exact .inl h1
      · rintro (h1 | ⟨h1, h2⟩)
        · exact .inr h1
        · refine .inl ⟨?_, hok.pend f h1, by simp⟩
          simp only [Conn.pending, hl, List.map_append, List.map_cons, List.mem_append,
            List.mem_cons] at h1
          rw [hf]
          simp only [List.mem_append, List.mem_singleton]
          rcases h1 with h1 | h1 | h1
          · exact .inl h1
          · exact .inr h1
          · have := hso2.1 f h1; omega
    · intro p
      rw [e1, hl]
      simp only [List.mem_append, List.mem_cons]
      constructor
      · intro hp
        exact ⟨.inr (.inr hp), hso2.1 p.2 (List.mem_map_of_mem hp)⟩
      · rintro ⟨hp | hp | hp, hlt⟩
        · have := hso.2.2 p.2 (List.mem_map_of_mem hp) fut (by simp)
          omega
        · subst hp; simp at hlt
        · exact hp

/-- Pings wait in the order in which they were sent: ping frames are written in the order of the
calls; and `pings` associates them with their payload. -/
theorem C55_order {as : List Act} {s : Conn} {os : List Obs} (h : Conn.exec {} as = some (s, os)) :
    (pingIds s.log).Pairwise (· < ·) ∧ ∀ p ∈ s.pings, ∃ e, s.calls[p.2]? = some (.ping e p.1) :=
  ⟨(PingsOk.exec h).logSorted, (PingsOk.exec h).data⟩

/-- A ping that was sent is waiting, acknowledged or aborted, only one of these; it's aborted only
when the connection is lost, and then no ping is left without a result. -/
theorem C55_outcome {as : List Act} {s : Conn} {os : List Obs} (h : Conn.exec {} as = some (s, os)) :
    (∀ i ∈ pingIds s.log, i ∈ s.pending ∨ i ∈ s.acked ∨ i ∈ s.aborted) ∧
    (∀ i ∈ s.acked, i ∉ s.aborted ∧ i ∉ s.pending) ∧
    (s.state ≠ .closed → s.aborted = []) ∧
    (s.state = .closed → ∀ i ∈ pingIds s.log, i ∈ s.acked ∨ i ∈ s.aborted) := by
  have hok := PingsOk.exec h
  refine ⟨hok.log, fun i hi => ⟨hok.disj i hi, fun hp => hok.pend i hp hi⟩, hok.openAb, ?_⟩
  intro hc i hi
  rcases hok.log i hi with h1 | h1 | h1
  · exact .inr (hok.closedAb hc i h1)
  · exact .inl h1
  · exact .inr h1

/-- A ping is acknowledged only if a pong was received with its payload, or with the payload of a
ping that was sent after it. -/
theorem C55_sound {as : List Act} {s : Conn} {os : List Obs} (h : Conn.exec {} as = some (s, os)) :
    ∀ f ∈ s.acked, ∃ g d e, f ≤ g ∧ s.calls[g]? = some (.ping e d) ∧ .recvPong d ∈ as := by
  refine Conn.exec_induction (P := fun as s _ => ∀ f ∈ s.acked,
    ∃ g d e, f ≤ g ∧ s.calls[g]? = some (.ping e d) ∧ .recvPong d ∈ as) ?_ ?_ h
  · intro f hf; cases hf
  · intro as a s s' os o hex ih hs f hf
    have hok := PingsOk.exec hex
    have old : f ∈ s.acked → (∃ cs, s'.calls = s.calls ++ cs) →
        ∃ g d e, f ≤ g ∧ s'.calls[g]? = some (.ping e d) ∧ .recvPong d ∈ as ++ [a] := by
      rintro hfa ⟨cs, hcs⟩
      obtain ⟨g, d, e, h1, h2, h3⟩ := ih f hfa
      exact ⟨g, d, e, h1, by rw [hcs]; exact getElem?_append_some h2, List.mem_append_left _ h3⟩
    have hst := Conn.step_pings hs
    cases hst with
    | other cs h =>
      simp only [Conn.pp, Prod.mk.injEq] at h
      exact old (h.2.1 ▸ hf) ⟨cs, h.2.2.2.1⟩
    | ping _ _ _ _ h =>
      simp only [Conn.pp, Prod.mk.injEq] at h
      exact old (h.2.1 ▸ hf) ⟨_, h.2.2.2.1⟩
    | lost _ _ h =>
      simp only [Conn.pp, Prod.mk.injEq] at h
      exact old (h.2.1 ▸ hf) ⟨[], by rw [h.2.2.2.1]; simp⟩
    | @pong d _ futs rest hsp hst h =>
      simp only [Conn.pp, Prod.mk.injEq] at h
      rw [h.2.1] at hf
      rcases List.mem_append.1 hf with hf | hf
      · obtain ⟨pre, fut, hl, hfu, hpre⟩ := splitPings_some hsp
        have hmem := (List.mem_filter.1 hf).1
        obtain ⟨e, he⟩ := hok.data (d, fut) (by rw [hl]; simp)
        refine ⟨fut, d, e, ?_, by rw [h.2.2.2.1]; exact he, by simp⟩
        have hsort := hok.sorted
        simp only [Conn.pending, hl, List.map_append, List.map_cons] at hsort
        have hso := List.pairwise_append.1 hsort
        rw [hfu] at hmem
        simp only [List.mem_append, List.mem_singleton] at hmem
        rcases hmem with h1 | h1
        · exact Nat.le_of_lt (hso.2.2 f h1 fut (by simp))
        · omega
      · exact old hf ⟨[], by rw [h.2.2.2.1]; simp⟩

/-- Three pings; a pong for the second one; the connection is lost. -/
example : (Conn.exec {} [.call (.ping true [1]), .call (.ping true [2]), .call (.ping false [3]),
    .resume 0 .ok, .resume 1 .ok, .recvPong [9], .recvPong [2], .lost]).map
    (fun p => (p.1.acked, p.1.aborted, p.2)) =
    some ([0, 1], [2], [.pinged 0 0, .pinged 1 1]) := by decide +kernel

/-! ## C56 -/

theorem pinging_waits {as : List Act} {s : Conn} {os : List Obs} (h : Conn.exec {} as = some (s, os)) :
    ∀ i d, s.tasks i = some (.pinging d) → (d, i) ∈ s.pings ∨ i ∈ s.acked ∨ i ∈ s.aborted := by
  refine Conn.exec_induction (P := fun _ s _ => ∀ i d, s.tasks i = some (.pinging d) →
    (d, i) ∈ s.pings ∨ i ∈ s.acked ∨ i ∈ s.aborted) ?_ ?_ h
  · intro i d hi; cases hi
  · intro as a s s' os o hex ih hs i d hi
    rcases Conn.step_keeps hs hi with hi | ⟨e, -, -, h3⟩
    · have hst := Conn.step_pings hs
      have hok := PingsOk.exec hex
      have ih := ih i d hi
      cases hst with
      | other cs h =>
        simp only [Conn.pp, Prod.mk.injEq] at h
        rw [h.1, h.2.1, h.2.2.1]
        exact ih
      | ping _ _ _ _ h =>
        simp only [Conn.pp, Prod.mk.injEq] at h
        rw [h.1, h.2.1, h.2.2.1]
        rcases ih with h1 | h1 | h1
        · exact .inl (List.mem_append_left _ h1)
        · exact .inr (.inl h1)
        · exact .inr (.inr h1)
      | lost _ _ h =>
        simp only [Conn.pp, Prod.mk.injEq] at h
        rw [h.1, h.2.1, h.2.2.1]
        rcases ih with h1 | h1 | h1
        · exact .inl h1
        · exact .inr (.inl h1)
        · exact .inr (.inr (List.mem_append_right _ h1))
      | @pong d' _ futs rest hsp hst h =>
        simp only [Conn.pp, Prod.mk.injEq] at h
        rw [h.1, h.2.1, h.2.2.1]
        obtain ⟨pre, fut, hl, hfu, hpre⟩ := splitPings_some hsp
        rcases ih with h1 | h1 | h1
        · by_cases hb : i ∈ s.aborted
          · exact .inr (.inr hb)
          · have hna := hok.pend i (List.mem_map_of_mem h1)
            rw [hl] at h1
            simp only [List.mem_append, List.mem_cons, Prod.mk.injEq] at h1
            refine or_assoc.1 (.inl ?_)
            rcases h1 with h1 | ⟨-, rfl⟩ | h1
            · refine .inr (List.mem_append_left _ (List.mem_filter.2 ⟨?_, by simp [hb, hna]⟩))
              rw [hfu]
              exact List.mem_append_left _ (List.mem_map_of_mem h1)
            · refine .inr (List.mem_append_left _ (List.mem_filter.2 ⟨?_, by simp [hb, hna]⟩))
              rw [hfu]
              simp
            · exact .inl h1
        · exact .inr (.inl (List.mem_append_right _ h1))
        · exact .inr (.inr h1)
    · exact .inl h3

/-- When flow control lets `ping` resume, it returns its own waiter.  Missing: `ping` fails if its
pong was received already (`C56_false`), although flow control doesn't prevent receiving it; it may
also return the waiter of another ping, see the example. -/
theorem C56_ping_partial {as : List Act} {s : Conn} {os : List Obs} {i : Nat} {d : Bytes}
    (h : Conn.exec {} as = some (s, os)) (hi : s.tasks i = some (.pinging d)) (hopen : s.state ≠ .closed)
    (hpong : i ∉ s.acked) :
    ∃ s', s.step (.resume i .ok) = some (s', [.pinged i i]) ∧ i ∉ s'.acked := by
  have hok := PingsOk.exec h
  have hmem : (d, i) ∈ s.pings := by
    rcases pinging_waits h i d hi with h1 | h1 | h1
    · exact h1
    · exact absurd h1 hpong
    · rw [hok.openAb hopen] at h1; cases h1
  have hfind : s.pings.find? (·.1 = d) = some (d, i) := by
    have hk := hok.keys
    generalize s.pings = l at hmem hk
    induction l with
    | nil => cases hmem
    | cons x xs ih =>
      simp only [List.map_cons, List.nodup_cons] at hk
      simp only [List.find?_cons]
      rcases List.mem_cons.1 hmem with rfl | hm
      · simp
      · have hne : x.1 ≠ d := fun he => hk.1 (he ▸ List.mem_map_of_mem hm)
        simp only [hne, decide_false]
        exact ih hm hk.2
  refine ⟨s.setTask i none, ?_, hpong⟩
  simp [Conn.step, Conn.resume, hi, Conn.afterPing, hfind]

/-- C56 fails: a pong that is received while `ping` waits for flow control makes it raise
`KeyError`. -/
theorem C56_false : ∃ (s s' : Conn), Conn.exec {} [.call (.ping true [1]), .recvPong [1]] = some (s, []) ∧
    s.acked = [0] ∧ s.step (.resume 0 .ok) = some (s', [.raised 0 .keyError]) :=
  ⟨_, _, rfl, rfl, rfl⟩

/-- If another ping was sent with the same payload in the meantime, `ping` returns its waiter, which
isn't resolved. -/
example : (Conn.exec {} [.call (.ping true [1]), .recvPong [1], .call (.ping true [1]),
    .resume 0 .ok]).map (fun p => (p.1.acked, p.2)) = some ([0], [.pinged 0 1]) := by decide +kernel

/-! ## C59 -/

/-- The close frame that `transfer_data` received, if any. -/
def Spec.closeReceived (as : List Act) : Option (Int × PyStr) :=
  (as.filterMap fun a =>
    match a with
    | .recvClose data => (parseClose data).toOption
    | _ => none).getLast?

theorem closeInfo_eq {as : List Act} {s : Conn} {os : List Obs} (h : Conn.exec {} as = some (s, os)) :
    s.closeInfo = if s.state = .closed then some ((Spec.closeReceived as).getD (1006, []))
      else Spec.closeReceived as := by
  refine Conn.exec_induction (P := fun as s _ => s.closeInfo =
    if s.state = .closed then some ((Spec.closeReceived as).getD (1006, []))
      else Spec.closeReceived as) rfl ?_ h
  intro as a s s' os o hex ih hs
  have same : Shut s s' → s'.closeInfo = s.closeInfo →
      Spec.closeReceived (as ++ [a]) = Spec.closeReceived as →
      s'.closeInfo = if s'.state = .closed then some ((Spec.closeReceived (as ++ [a])).getD (1006, []))
        else Spec.closeReceived (as ++ [a]) := by
    intro h1 h2 h3
    rw [h2, h3, ih]
    by_cases hc : s.state = .closed
    · rw [if_pos hc, if_pos (h1.2 hc)]
    · rw [if_neg hc, if_neg (fun hx => hc (h1.1 hx))]
  have hrec : ∀ {b : Act}, (∀ d, b ≠ .recvClose d) →
      Spec.closeReceived (as ++ [b]) = Spec.closeReceived as := by
    intro b hb
    unfold Spec.closeReceived
    rw [List.filterMap_append]
    cases b <;> first | exact absurd rfl (hb _) | simp
  have shut : a ≠ .lost → Shut s s' := by
    intro hn
    have hst := Conn.step_pings hs
    cases hst with
    | other _ _ hc _ _ => exact hc
    | ping _ _ _ hst _ => exact .same hst
    | pong _ hst _ => exact .same hst
    | lost _ _ _ => exact absurd rfl hn
  cases a <;> simp only [Conn.step] at hs
  case call c => exact same (shut (by simp)) (Conn.call_closeInfo hs) (hrec (by simp))
  case resume => exact same (shut (by simp)) (Conn.resume_closeInfo hs) (hrec (by simp))
  case cancel => exact same (shut (by simp)) (Conn.cancel_closeInfo hs) (hrec (by simp))
  case recvClose data =>
    have hsh := shut (by simp)
    split at hs
    · cases hs
      rw [s.recvClose_closeInfo data]
      cases hp : (parseClose data).toOption with
      | none =>
        have : Spec.closeReceived (as ++ [.recvClose data]) = Spec.closeReceived as := by
          simp [Spec.closeReceived, hp]
        have := same hsh (by rw [s.recvClose_closeInfo data, hp]) this
        rw [s.recvClose_closeInfo data, hp] at this
        exact this
      | some info =>
        have : Spec.closeReceived (as ++ [.recvClose data]) = some info := by
          simp [Spec.closeReceived, hp]
        rw [this]
        simp
    · cases hs
  case recvPing =>
    have hsh := shut (by simp)
    split at hs
    · cases hs; exact same hsh (s.recvPing_closeInfo _) (hrec (by simp))
    · cases hs
  case recvPong =>
    have hsh := shut (by simp)
    split at hs
    · cases hs
      refine same hsh ?_ (hrec (by simp))
      unfold Conn.recvPong
      split <;> rfl
    · cases hs
  case resumeTransfer =>
    have hsh := shut (by simp)
    simp only [Option.map_eq_some_iff, Prod.mk.injEq] at hs
    obtain ⟨s1, h1, rfl, rfl⟩ := hs
    exact same hsh (Conn.resumeTransfer_closeInfo h1) (hrec (by simp))
  case transferFails =>
    have hsh := shut (by simp)
    split at hs
    · cases hs; exact same hsh (s.transferFails_closeInfo _) (hrec (by simp))
    · cases hs
  case cancelTransfer =>
    have hsh := shut (by simp)
    split at hs
    · cases hs
    · cases hs; exact same hsh rfl (hrec (by simp))
  case fail =>
    have hsh := shut (by simp)
    cases hs; exact same hsh (s.fail_closeInfo _) (hrec (by simp))
  case lost =>
    split at hs
    · cases hs
    · rename_i hc
      cases hs
      rw [if_neg hc] at ih
      rw [hrec (by simp)]
      simp [Conn.lost, ih]

/-- Once the connection is closed, `connection_closed_exc` is a `ConnectionClosedOK` exactly when the
close code is 1000 or 1001.  The code and reason that it carries are those of the close frame that
was received, or else 1006 and the empty string. -/
theorem C59_exception {as : List Act} {s : Conn} {os : List Obs} (h : Conn.exec {} as = some (s, os))
    (hc : s.state = .closed) :
    ∃ ok code reason, s.closedExc = some (ok, code, reason) ∧
      (ok = true ↔ code = 1000 ∨ code = 1001) ∧
      (code, reason) = (Spec.closeReceived as).getD (1006, []) := by
  have := closeInfo_eq h
  rw [if_pos hc] at this
  refine ⟨_, _, _, by rw [Conn.closedExc, this]; rfl, ?_, rfl⟩
  simp

/-- `ConnectionClosedOK` is raised only after a close frame with such a code was received. -/
theorem C59_ok {as : List Act} {s : Conn} {os : List Obs} (h : Conn.exec {} as = some (s, os))
    (hc : s.state = .closed) {code : Int} {reason : PyStr}
    (hx : s.closedExc = some (true, code, reason)) :
    ∃ data, .recvClose data ∈ as ∧ parseClose data = .ok (code, reason) ∧
      (code = 1000 ∨ code = 1001) := by
  obtain ⟨ok, c, r, h1, h2, h3⟩ := C59_exception h hc
  rw [hx] at h1
  cases h1
  have hcode := h2.1 rfl
  cases hr : Spec.closeReceived as with
  | none =>
    rw [hr] at h3
    simp only [Option.getD_none, Prod.mk.injEq] at h3
    rcases hcode with e | e <;> rw [h3.1] at e <;> exact absurd e (by decide)
  | some info =>
    rw [hr] at h3
    simp only [Option.getD_some] at h3
    subst h3
    have hm := List.mem_of_getLast? hr
    obtain ⟨a, ha, he⟩ := List.mem_filterMap.1 hm
    cases a with
    | recvClose data =>
      refine ⟨data, ha, ?_, hcode⟩
      simp only at he
      cases hp : parseClose data with
      | error e => rw [hp] at he; cases he
      | ok v => rw [hp] at he; cases he; rfl
    | _ => cases he

/-- A close frame with code 1001 and reason "bye"; and a connection that is lost without one. -/
example : (Conn.exec {} [.recvClose ([3, 233] ++ b!"bye"), .resumeTransfer .ok, .lost]).map
    (·.1.closedExc) = some (some (true, 1001, p!"bye")) := by decide +kernel

example : (Conn.exec {} [.lost]).map (·.1.closedExc) = some (some (false, 1006, [])) := by
  decide +kernel

end WS.LegacyConn
