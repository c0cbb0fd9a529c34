import Verif.Model.LegacyKeepalive

/-!
# C79: keepalive detects peers that don't respond, and only these
-/

namespace WS.LegacyKeepalive

/-! ## Specification -/

/-- The states of the executions in which every state satisfies `P`. -/
inductive Reach (cfg : Config) (P : St → Prop) : St → Prop
  | init : P (init cfg) → Reach cfg P (init cfg)
  | step {s s' e} : Reach cfg P s → step cfg s e = some s' → P s' → Reach cfg P s'

/-- Any execution -/
abbrev Reachable (cfg : Config) : St → Prop := Reach cfg fun _ => True

/-- The connection is open. -/
def St.Alive (s : St) : Prop := s.state = .opened ∧ s.transfer ≠ .exited

/-- The peer answers a ping that was sent at time `t`, at index `pre.length` of the history: it sends a pong with
the same payload, or with the payload of a later ping, less than `timeout` after the ping. -/
def Answered (timeout : Nat) (t : Nat) (data : Bytes) (post : List (Nat × Hist)) : Prop :=
  ∃ mid a d rest, post = mid ++ (a, .arrived (.pong d)) :: rest ∧ a < t + timeout ∧
    (d = data ∨ ∃ t', (t', Hist.sent d) ∈ mid)

/-- The peer has answered all pings so far, unless there's some time left. -/
def Responsive (timeout : Nat) (s : St) : Prop :=
  ∀ pre t data post, s.trace = pre ++ (t, .sent data) :: post → t + timeout ≤ s.now →
    Answered timeout t data post

/-- `transfer_data` isn't waiting for the application, and not for the transport. -/
def NotBlocked (s : St) : Prop := s.transfer = .reading ∨ s.transfer = .exited

/-- The transport isn't paused when it's time to send a ping. -/
def NotPaused (s : St) : Prop := ∀ wake, s.phase = .sleeping wake → wake ≤ s.now → s.paused = false

/-- The full claim, first part: an open connection has read something from the peer in the last
`ping_interval + ping_timeout`. -/
def Detects : Prop :=
  ∀ (cfg : Config) (timeout : Nat) (s : St), cfg.timeout = some timeout → Reachable cfg s → s.Alive →
    s.now ≤ cfg.interval + timeout ∨ ∃ t i, (t, Hist.read i) ∈ s.trace ∧ s.now ≤ t + cfg.interval + timeout

/-- The full claim, second part: a connection isn't failed if the peer responds. -/
def Patient : Prop :=
  ∀ (cfg : Config) (timeout : Nat) (s : St), cfg.timeout = some timeout → Reach cfg (Responsive timeout) s →
    s.failed = none

/-- `transfer_data` hasn't read an answer to a ping since it was sent, neither a pong with the same payload nor a pong
with the payload of a later ping. -/
def Unanswered (data : Bytes) (post : List (Nat × Hist)) : Prop :=
  ∀ mid a d rest, post = mid ++ (a, .read (.pong d)) :: rest → d ≠ data ∧ ∀ t', (t', Hist.sent d) ∉ mid

/-- The full claim, third part: there's at most one ping of `keepalive_ping` that hasn't been answered. -/
def OnePending : Prop :=
  ∀ (cfg : Config) (s : St), Reachable cfg s → (s.pings.filter (·.2)).length ≤ 1

/-! ## Lemmas -/

theorem reach_mono {cfg : Config} {P Q : St → Prop} (h : ∀ s, P s → Q s) {s : St} (hs : Reach cfg P s) :
    Reach cfg Q s := by
  induction hs with
  | init hp => exact .init (h _ hp)
  | step _ h2 hp ih => exact .step ih h2 (h _ hp)

theorem reach_here {cfg : Config} {P : St → Prop} {s : St} (hs : Reach cfg P s) : P s := by
  cases hs with
  | init hp => exact hp
  | step _ _ hp => exact hp

theorem mem_ack {data : Bytes} {ps : List (Bytes × Bool)} {p : Bytes × Bool} (h : p ∈ ack data ps) : p ∈ ps := by
  induction ps with
  | nil => exact h
  | cons q qs ih =>
    simp only [ack] at h
    split at h
    · exact List.mem_cons_of_mem _ h
    · exact List.mem_cons_of_mem _ (ih h)

theorem ack_sublist (data : Bytes) (ps : List (Bytes × Bool)) : (ack data ps).Sublist ps := by
  induction ps with
  | nil => exact List.Sublist.refl _
  | cons q qs ih =>
    simp only [ack]
    split
    · exact List.sublist_cons_self ..
    · exact ih.cons _

theorem keys_mark (data : Bytes) (ps : List (Bytes × Bool)) : (mark data ps).map (·.1) = ps.map (·.1) := by
  induction ps with
  | nil => rfl
  | cons p ps ih =>
    simp only [mark, List.map_cons, List.map_map] at ih ⊢
    rw [ih]
    congr 1
    split <;> rfl

theorem mem_mark {data : Bytes} {ps : List (Bytes × Bool)} (h : data ∈ ps.map (·.1)) : (data, true) ∈ mark data ps := by
  obtain ⟨p, hp, rfl⟩ := List.mem_map.1 h
  exact List.mem_map.2 ⟨p, hp, by simp⟩

theorem mem_mark_of {data d : Bytes} {ps : List (Bytes × Bool)} {f : Bool} (h : (d, f) ∈ mark data ps) (hd : d ≠ data) :
    (d, f) ∈ ps := by
  obtain ⟨p, hp, he⟩ := List.mem_map.1 h
  split at he
  · rename_i hq
    cases he
    exact absurd hq hd
  · rw [← he]; exact hp

/-! ## Detection -/

/-- The invariant for detection -/
structure DInv (cfg : Config) (timeout : Nat) (s : St) : Prop where
  read : s.lastRead ≤ s.now
  trace : s.lastRead = 0 ∨ ∃ i, (s.lastRead, Hist.read i) ∈ s.trace
  sleeping : ∀ wake, s.phase = .sleeping wake → s.now ≤ wake ∧ wake ≤ s.lastRead + cfg.interval
  pinging : ∀ data, s.phase ≠ .pinging data
  stuck : s.phase = .stuck → ¬s.Alive
  waiting : ∀ data deadline, s.phase = .waiting data deadline → s.now ≤ deadline ∧
    deadline ≤ s.lastRead + cfg.interval + timeout ∧ ((data, true) ∉ s.pings → s.now = s.lastRead)
  exited : ∀ how, s.phase = .exited how → ¬s.Alive

/-- Steps that change neither the phase nor the pings -/
theorem dinv_of {cfg : Config} {timeout : Nat} {s s' : St} (hi : DInv cfg timeout s)
    (h1 : s'.phase = s.phase) (h2 : s'.now = s.now) (h3 : s.lastRead ≤ s'.lastRead) (h4 : s'.lastRead ≤ s.now)
    (h5 : s'.lastRead = 0 ∨ ∃ i, (s'.lastRead, Hist.read i) ∈ s'.trace)
    (h6 : ∀ p ∈ s.pings, p ∈ s'.pings ∨ s'.lastRead = s.now) (h7 : s'.Alive → s.Alive) : DInv cfg timeout s' := by
  obtain ⟨i1, i2, i3, i4, i5, i6, i7⟩ := hi
  refine ⟨by omega, h5, ?_, ?_, ?_, ?_, ?_⟩
  · intro w hw
    have := i3 w (h1 ▸ hw)
    omega
  · rw [h1]; exact i4
  · rw [h1]; exact fun hs ha => i5 hs (h7 ha)
  · intro d dl hw
    obtain ⟨a, b, c⟩ := i6 d dl (h1 ▸ hw)
    refine ⟨by omega, by omega, fun hd => ?_⟩
    by_cases hk : (d, true) ∈ s.pings
    · rcases h6 _ hk with h | h
      · exact absurd h hd
      · omega
    · have := c hk
      omega
  · rw [h1]; exact fun how hs ha => i7 how hs (h7 ha)

theorem dinv_step {cfg : Config} {timeout : Nat} {s s' : St} {e : Ev} (ht : cfg.timeout = some timeout)
    (hi : DInv cfg timeout s) (hp : NotPaused s) (h : step cfg s e = some s') : DInv cfg timeout s' := by
  have hi' := hi
  obtain ⟨i1, i2, i3, i4, i5, i6, i7⟩ := hi'
  cases e with
  | tick =>
    simp only [step] at h
    split at h
    · cases h
    · rename_i hr
      cases h
      simp only [Bool.or_eq_true, not_or, Bool.not_eq_true] at hr
      obtain ⟨⟨hk, -⟩, -⟩ := hr
      refine ⟨by simp only; omega, i2, ?_, i4, i5, ?_, i7⟩
      · intro w hw
        have := i3 w hw
        simp only at hw ⊢
        simp only [St.keepaliveReady, hw, decide_eq_false_iff_not] at hk
        omega
      · intro d dl hw
        obtain ⟨a, b, c⟩ := i6 d dl hw
        simp only at hw ⊢
        simp only [St.keepaliveReady, hw, Bool.or_eq_false_iff, decide_eq_false_iff_not, Classical.not_not] at hk
        refine ⟨by omega, b, fun hd => absurd hk.1.1 hd⟩
  | arrive i =>
    cases h
    refine dinv_of hi rfl rfl (Nat.le_refl _) i1 ?_ (fun d hd => .inl hd) id
    rcases i2 with h | ⟨i, h⟩
    · exact .inl h
    · exact .inr ⟨i, List.mem_append_left _ h⟩
  | transfer =>
    simp only [step, St.transferStep] at h
    split at h
    · rename_i htr
      split at h
      · cases h
      · rename_i i a rest hin
        have halive : s.state = .opened → s.Alive := fun h => ⟨h, by rw [htr]; simp⟩
        split at h
        · split at h
          · cases h
            exact dinv_of hi rfl rfl i1 (Nat.le_refl _) (.inr ⟨_, List.mem_append_right _ (List.mem_singleton.2 rfl)⟩)
              (fun d hd => .inl hd) fun ha => halive ha.1
          · cases h
            exact dinv_of hi rfl rfl i1 (Nat.le_refl _) (.inr ⟨_, List.mem_append_right _ (List.mem_singleton.2 rfl)⟩)
              (fun d hd => .inl hd) fun ha => halive ha.1
        · split at h
          · cases h
            exact dinv_of hi rfl rfl i1 (Nat.le_refl _) (.inr ⟨_, List.mem_append_right _ (List.mem_singleton.2 rfl)⟩)
              (fun d hd => .inl hd) fun ha => halive ha.1
          · split at h <;> cases h <;>
            exact dinv_of hi rfl rfl i1 (Nat.le_refl _) (.inr ⟨_, List.mem_append_right _ (List.mem_singleton.2 rfl)⟩)
              (fun d hd => .inl hd) fun ha => halive ha.1
        · split at h
          · cases h
            exact dinv_of hi rfl rfl i1 (Nat.le_refl _) (.inr ⟨_, List.mem_append_right _ (List.mem_singleton.2 rfl)⟩)
              (fun d hd => .inr rfl) fun ha => halive ha.1
          · cases h
            exact dinv_of hi rfl rfl i1 (Nat.le_refl _) (.inr ⟨_, List.mem_append_right _ (List.mem_singleton.2 rfl)⟩)
              (fun d hd => .inl hd) fun ha => halive ha.1
    · rename_i htr
      split at h
      · cases h
        exact dinv_of hi rfl rfl (Nat.le_refl _) i1 i2 (fun d hd => .inl hd) fun ha => ⟨ha.1, by rw [htr]; simp⟩
      · cases h
    · rename_i htr
      split at h
      · cases h
      · cases h
        exact dinv_of hi rfl rfl (Nat.le_refl _) i1 i2 (fun d hd => .inl hd) fun ha => ⟨ha.1, by rw [htr]; simp⟩
    · cases h
    · cases h
  | transferEnds =>
    cases h
    exact dinv_of hi rfl rfl (Nat.le_refl _) i1 i2 (fun d hd => .inl hd) fun ha => absurd rfl ha.2
  | recv =>
    simp only [step] at h
    split at h
    · cases h
    · cases h
      exact dinv_of hi rfl rfl (Nat.le_refl _) i1 i2 (fun d hd => .inl hd) id
  | userPing data =>
    simp only [step] at h
    split at h
    · cases h
      refine dinv_of hi rfl rfl (Nat.le_refl _) i1 ?_ (fun d hd => .inl ?_) id
      · rcases i2 with h | ⟨i, h⟩
        · exact .inl h
        · exact .inr ⟨i, List.mem_append_left _ h⟩
      · exact List.mem_append_left _ hd
    · cases h
  | pause =>
    cases h
    exact dinv_of hi rfl rfl (Nat.le_refl _) i1 i2 (fun d hd => .inl hd) id
  | resume =>
    cases h
    exact dinv_of hi rfl rfl (Nat.le_refl _) i1 i2 (fun d hd => .inl hd) id
  | close =>
    simp only [step] at h
    split at h
    · cases h
      exact dinv_of hi rfl rfl (Nat.le_refl _) i1 i2 (fun d hd => .inl hd) fun ha => absurd ha.1 (by simp)
    · cases h
  | lost =>
    cases h
    exact dinv_of hi rfl rfl (Nat.le_refl _) i1 i2 (fun d hd => .inl hd) fun ha => absurd ha.1 (by simp)
  | cancel =>
    simp only [step] at h
    split at h
    · rename_i hc
      cases h
      simp only [St.cancelReady, Bool.and_eq_true, decide_eq_true_eq] at hc
      refine ⟨i1, i2, by simp, by simp, by simp, by simp, fun _ _ ha => ha.2 hc.1⟩
    · cases h
  | keepalive data =>
    simp only [step, St.keepalive] at h
    split at h
    · rename_i wake hph
      obtain ⟨a, b⟩ := i3 wake hph
      split at h
      · rename_i hw
        split at h
        · rename_i hopen
          split at h
          · have hnp := hp wake hph hw
            rw [hnp] at h
            simp only [Bool.false_eq_true, if_false, Option.some.injEq] at h
            subst h
            have hk : data ∈ (s.sendPing data true).keys := by
              simp [St.keys, St.sendPing]
            rw [St.afterPing, if_pos hk, ht]
            refine ⟨i1, ?_, by simp, by simp, by simp, ?_, by simp⟩
            · rcases i2 with h | ⟨i, h⟩
              · exact .inl h
              · exact .inr ⟨i, List.mem_append_left _ h⟩
            · intro d dl he
              simp only [Phase.waiting.injEq] at he
              obtain ⟨rfl, rfl⟩ := he
              refine ⟨?_, ?_, fun hd => absurd (mem_mark hk) hd⟩
              · simp only [St.sendPing]; omega
              · simp only [St.sendPing]; omega
          · cases h
        · rename_i hopen
          have hna : ¬s.Alive := fun ha => hopen (by simp [St.isOpen, ha.1, ha.2])
          split at h
          · cases h
            exact ⟨i1, i2, by simp, by simp, by simp, by simp, fun _ _ => hna⟩
          · cases h
            exact ⟨i1, i2, by simp, by simp, fun _ => hna, by simp, by simp⟩
      · cases h
    · rename_i d hph
      exact absurd hph (i4 d)
    · rename_i hph
      split at h
      · cases h
        exact ⟨i1, i2, by simp, by simp, by simp, by simp, fun _ _ => i5 hph⟩
      · cases h
    · rename_i d dl hph
      obtain ⟨a, b, c⟩ := i6 d dl hph
      split at h
      · rename_i hd
        cases h
        have := c hd
        refine ⟨i1, i2, ?_, by simp, by simp, by simp, by simp⟩
        intro w hw
        simp only [Phase.sleeping.injEq] at hw
        subst hw
        simp only
        omega
      · split at h
        · rename_i hcl
          cases h
          exact ⟨i1, i2, by simp, by simp, by simp, by simp, fun _ _ ha => by
            have := ha.1
            simp only at this
            rw [hcl] at this
            cases this⟩
        · split at h
          · cases h
            exact ⟨i1, i2, by simp, by simp, by simp, by simp, fun _ _ ha => ha.2 rfl⟩
          · cases h
    · cases h

theorem dinv_reach {cfg : Config} {timeout : Nat} {s : St} (ht : cfg.timeout = some timeout)
    (h : Reach cfg NotPaused s) : DInv cfg timeout s := by
  induction h with
  | init =>
    refine ⟨by simp [init], .inl rfl, ?_, by simp [init], by simp [init], by simp [init], by simp [init]⟩
    intro w hw
    simp only [init, Phase.sleeping.injEq] at hw
    subst hw
    simp [init]
  | step hr hs _ ih => exact dinv_step ht ih (reach_here hr) hs

/-- **C79, first part, partial.** An open connection has read something from the peer in the last
`ping_interval + ping_timeout`.  What is missing: executions in which writing is paused when a ping is sent
(false, `C79_paused_false` and `C79_keyError_false`). -/
theorem C79_detects_partial {cfg : Config} {timeout : Nat} {s : St} (ht : cfg.timeout = some timeout)
    (h : Reach cfg NotPaused s) (ha : s.Alive) :
    s.now ≤ cfg.interval + timeout ∨ ∃ t i, (t, Hist.read i) ∈ s.trace ∧ s.now ≤ t + cfg.interval + timeout := by
  obtain ⟨i1, i2, i3, i4, i5, i6, i7⟩ := dinv_reach ht h
  have hn : s.now ≤ s.lastRead + cfg.interval + timeout := by
    cases hp : s.phase with
    | sleeping w => have := i3 w hp; omega
    | pinging d => exact absurd hp (i4 d)
    | stuck => exact absurd ha (i5 hp)
    | waiting d dl => have := i6 d dl hp; omega
    | exited how => exact absurd ha (i7 how hp)
  rcases i2 with h | ⟨i, h⟩
  · left; omega
  · exact .inr ⟨_, i, h, hn⟩

/-! ## Patience -/

/-- `keepalive_ping` has sent the ping whose payload is `data`, and it hasn't been acknowledged, or it has been sent
again. -/
def St.Waits (s : St) (data : Bytes) : Prop :=
  (s.phase = .pinging data ∧ data ∈ s.keys) ∨ ∃ deadline, s.phase = .waiting data deadline ∧ (data, true) ∈ s.pings

theorem waits_key {s : St} {data : Bytes} (h : s.Waits data) : data ∈ s.keys := by
  rcases h with ⟨-, h⟩ | ⟨_, -, h⟩
  · exact h
  · exact List.mem_map_of_mem h

/-- The pings and the pongs since `keepalive_ping` sent a ping, if it hasn't been acknowledged -/
structure Pending (timeout : Nat) (s : St) (data : Bytes) : Prop where
  pending : ∃ pre t post A B f, s.trace = pre ++ (t, Hist.sent data) :: post ∧ t ≤ s.now ∧
    (∀ deadline, s.phase = .waiting data deadline → t + timeout ≤ deadline) ∧
    s.pings = A ++ (data, f) :: B ∧
    (∀ t' d, (t', Hist.sent d) ∈ post → d ∈ B.map (·.1)) ∧
    (∀ mid a d rest, post = mid ++ (a, Hist.arrived (.pong d)) :: rest →
      (d = data ∨ ∃ t', (t', Hist.sent d) ∈ mid) → (Item.pong d, a) ∈ s.incoming)

structure PInv (timeout : Nat) (s : St) : Prop where
  nodup : s.keys.Nodup
  incoming : (∃ how, s.phase = .exited how) ∨ ∀ p ∈ s.incoming, p.2 = s.now
  failed : s.failed = none
  pending : ∀ data, s.Waits data → Pending timeout s data

theorem append_snoc_split {α : Type} {l : List α} {x : α} {mid : List α} {y : α} {rest : List α}
    (h : l ++ [x] = mid ++ y :: rest) :
    (mid = l ∧ y = x ∧ rest = []) ∨ ∃ rest', rest = rest' ++ [x] ∧ l = mid ++ y :: rest' := by
  rcases List.eq_nil_or_concat rest with rfl | ⟨rest', z, rfl⟩
  · have := List.append_inj' h rfl
    exact .inl ⟨this.1.symm, by simpa using this.2.symm, rfl⟩
  · right
    rw [show mid ++ y :: (rest'.concat z) = (mid ++ y :: rest') ++ [z] from by simp] at h
    have := List.append_inj' h rfl
    have hz : x = z := by simpa using this.2
    subst hz
    exact ⟨rest', by simp, this.1⟩

/-- Steps that don't change the pings and the phase, but may add something to the history. -/
theorem pending_trace {timeout : Nat} {s s' : St} {data : Bytes} (h : Pending timeout s data)
    (h1 : s'.now = s.now) (h2 : s'.phase = s.phase) (h3 : s'.pings = s.pings) (x : Nat × Hist)
    (h4 : s'.trace = s.trace ++ [x]) (h5 : ∀ t d, x ≠ (t, .sent d))
    (h6 : ∀ a d, x = (a, .arrived (.pong d)) → (Item.pong d, a) ∈ s'.incoming)
    (h7 : ∀ d a, d ∈ s.keys → (Item.pong d, a) ∈ s.incoming → (Item.pong d, a) ∈ s'.incoming) :
    Pending timeout s' data := by
  obtain ⟨pre, t, post, A, B, f, e1, e2, e3, e4, e5, e6⟩ := h.pending
  refine ⟨pre, t, post ++ [x], A, B, f, by rw [h4, e1]; simp, by omega, by rw [h2]; exact e3, by rw [h3]; exact e4,
    ?_, ?_⟩
  · intro t' d hd
    rcases List.mem_append.1 hd with hd | hd
    · exact e5 t' d hd
    · exact absurd (List.mem_singleton.1 hd).symm (h5 t' d)
  · intro mid a d rest hr hd
    have hk : d ∈ s.keys := by
      unfold St.keys
      rw [e4]
      rcases hd with rfl | ⟨t', hd⟩
      · simp
      · have : (t', Hist.sent d) ∈ post := by
          have hm : (t', Hist.sent d) ∈ post ++ [x] := by rw [hr]; exact List.mem_append_left _ hd
          rcases List.mem_append.1 hm with hm | hm
          · exact hm
          · exact absurd (List.mem_singleton.1 hm).symm (h5 t' d)
        have := e5 t' d this
        simp [this]
    rcases append_snoc_split hr with ⟨rfl, hx, -⟩ | ⟨rest', -, hr'⟩
    · exact h6 a d hx.symm
    · exact h7 d a hk (e6 mid a d rest' hr' hd)

theorem mem_keys_ack {data d : Bytes} {ps : List (Bytes × Bool)} (h : d ∈ (ack data ps).map (·.1)) :
    d ∈ ps.map (·.1) := by
  obtain ⟨p, hp, rfl⟩ := List.mem_map.1 h
  exact List.mem_map_of_mem (mem_ack hp)

/-- A pong for a ping, or for a later one, acknowledges it. -/
theorem ack_later {data d : Bytes} {A B : List (Bytes × Bool)} {f : Bool}
    (hn : ((A ++ (data, f) :: B).map (·.1)).Nodup) (hd : d = data ∨ d ∈ B.map (·.1)) :
    data ∉ (ack d (A ++ (data, f) :: B)).map (·.1) := by
  induction A with
  | nil =>
    simp only [List.nil_append, List.map_cons, List.nodup_cons] at hn
    simp only [List.nil_append, ack]
    split
    · exact hn.1
    · exact fun hm => hn.1 (mem_keys_ack hm)
  | cons p A ih =>
    simp only [List.cons_append, List.map_cons, List.nodup_cons] at hn
    simp only [List.cons_append, ack]
    split
    · rename_i hp
      exfalso
      apply hn.1
      rw [hp, List.map_append, List.map_cons]
      rcases hd with rfl | hd
      · simp
      · simp [hd]
    · exact ih hn.2

/-- A pong for an earlier ping doesn't acknowledge it. -/
theorem ack_earlier {data d : Bytes} {A B : List (Bytes × Bool)} {f : Bool} (hd : d ∈ A.map (·.1)) :
    ∃ A', ack d (A ++ (data, f) :: B) = A' ++ (data, f) :: B := by
  induction A with
  | nil => cases hd
  | cons p A ih =>
    simp only [List.cons_append, ack]
    split
    · exact ⟨A, rfl⟩
    · rename_i hp
      refine ih ?_
      rcases List.mem_cons.1 hd with h | h
      · exact absurd h.symm hp
      · exact h

theorem pinv_step {cfg : Config} {timeout : Nat} {s s' : St} {e : Ev} (ht : cfg.timeout = some timeout)
    (hi : PInv timeout s) (hr : Responsive timeout s) (hb : NotBlocked s) (h : step cfg s e = some s') :
    PInv timeout s' := by
  obtain ⟨i1, i2, i3, i4⟩ := hi
  -- Steps that change neither the pings, nor the phase, nor the history.
  have same : s'.now = s.now → s'.phase = s.phase → s'.pings = s.pings → s'.trace = s.trace →
      s'.incoming = s.incoming → s'.failed = s.failed → PInv timeout s' := by
    intro h1 h2 h3 h4 h5 h6
    refine ⟨by rw [St.keys, h3]; exact i1, by rw [h2, h5, h1]; exact i2, by rw [h6]; exact i3, ?_⟩
    intro data hc
    rw [St.Waits, St.keys, h2, h3] at hc
    obtain ⟨pre, t, post, A, B, f, e1, e2, e3, e4, e5, e6⟩ := (i4 data hc).pending
    exact ⟨pre, t, post, A, B, f, by rw [h4]; exact e1, by rw [h1]; exact e2, by rw [h2]; exact e3, by rw [h3]; exact e4,
      e5, by rw [h5]; exact e6⟩
  cases e with
  | tick =>
    simp only [step] at h
    split at h
    · cases h
    · rename_i hrd
      cases h
      simp only [Bool.or_eq_true, not_or, Bool.not_eq_true] at hrd
      obtain ⟨⟨hk, htr⟩, hcr⟩ := hrd
      refine ⟨i1, ?_, i3, ?_⟩
      · rcases hb with hb | hb
        · simp only [St.transferReady, hb, Bool.not_eq_false', List.isEmpty_iff] at htr
          exact .inr (by simp [htr])
        · left
          simp only [St.cancelReady, hb, decide_true, Bool.true_and] at hcr
          split at hcr
          · rename_i how hp
            exact ⟨how, hp⟩
          · cases hcr
      · intro data hc
        obtain ⟨pre, t, post, A, B, f, e1, e2, e3, e4, e5, e6⟩ := (i4 data hc).pending
        exact ⟨pre, t, post, A, B, f, e1, by simp only; omega, e3, e4, e5, e6⟩
  | arrive i =>
    cases h
    refine ⟨i1, ?_, i3, ?_⟩
    · rcases i2 with h | h
      · exact .inl h
      · right
        intro p hp
        rcases List.mem_append.1 hp with hp | hp
        · exact h p hp
        · rw [List.mem_singleton.1 hp]
    · intro data hc
      refine pending_trace (i4 data hc) rfl rfl rfl _ rfl (by simp) ?_ (fun d a _ h => List.mem_append_left _ h)
      intro a d he
      simp only [Prod.mk.injEq, Hist.arrived.injEq] at he
      rw [he.1, he.2]
      simp
  | transfer =>
    simp only [step, St.transferStep] at h
    split at h
    · rename_i htr
      split at h
      · cases h
      · rename_i i a rest hin
        have hinc : (∃ how, s.phase = .exited how) ∨ ∀ p ∈ rest, p.2 = s.now := by
          rcases i2 with h | h
          · exact .inl h
          · exact .inr fun p hp => h p (by rw [hin]; exact List.mem_cons_of_mem _ hp)
        -- Frames other than pongs
        have other : s'.now = s.now → s'.phase = s.phase → s'.pings = s.pings → s'.incoming = rest →
            s'.trace = s.trace ++ [(s.now, .read i)] → s'.failed = s.failed →
            (∀ d ∈ s.keys, i ≠ .pong d) → PInv timeout s' := by
          intro h1 h2 h3 h4 h5 h6 h7
          refine ⟨by rw [St.keys, h3]; exact i1, by rw [h2, h4, h1]; exact hinc, by rw [h6]; exact i3, ?_⟩
          intro data hc
          rw [St.Waits, St.keys, h2, h3] at hc
          refine pending_trace (i4 data hc) h1 h2 h3 _ h5 (by simp) (by simp) ?_
          intro d a' hd hm
          rw [hin] at hm
          rw [h4]
          rcases List.mem_cons.1 hm with hm | hm
          · have := congrArg Prod.fst hm
            exact absurd this.symm (h7 d hd)
          · exact hm
        split at h
        · split at h
          · cases h
            exact other rfl rfl rfl rfl rfl rfl (by simp)
          · cases h
            exact other rfl rfl rfl rfl rfl rfl (by simp)
        · split at h
          · cases h
            exact other rfl rfl rfl rfl rfl rfl (by simp)
          · split at h <;> cases h <;> exact other rfl rfl rfl rfl rfl rfl (by simp)
        · rename_i x
          split at h
          · rename_i hx
            cases h
            refine ⟨?_, hinc, i3, ?_⟩
            · exact i1.sublist ((ack_sublist x s.pings).map _)
            · intro data hc
              have hk := waits_key hc
              have hc' : s.Waits data := by
                rcases hc with ⟨h1, h2⟩ | ⟨dl, h1, h2⟩
                · exact .inl ⟨h1, mem_keys_ack h2⟩
                · exact .inr ⟨dl, h1, mem_ack h2⟩
              obtain ⟨pre, t, post, A, B, f, e1, e2, e3, e4, e5, e6⟩ := (i4 data hc').pending
              have hnot : ¬(x = data ∨ x ∈ B.map (·.1)) := by
                intro hx'
                have hn : ((A ++ (data, f) :: B).map (·.1)).Nodup := by rw [← e4]; exact i1
                have := ack_later hn hx'
                rw [← e4] at this
                exact this hk
              have hxA : x ∈ A.map (·.1) := by
                have hx : x ∈ s.keys := hx
                rw [St.keys, e4] at hx
                simp only [List.map_append, List.map_cons, List.mem_append, List.mem_cons] at hx
                rcases hx with hx | hx | hx
                · exact hx
                · exact absurd (.inl hx) hnot
                · exact absurd (.inr hx) hnot
              obtain ⟨A', hA'⟩ := ack_earlier (data := data) (B := B) (f := f) hxA
              refine ⟨pre, t, post ++ [(s.now, .read (.pong x))], A', B, f, by simp only; rw [e1]; simp, e2, e3,
                by simp only; rw [e4]; exact hA', ?_, ?_⟩
              · intro t' d hd
                rcases List.mem_append.1 hd with hd | hd
                · exact e5 t' d hd
                · simp at hd
              · intro mid a' d rest' hr' hd
                rcases append_snoc_split hr' with ⟨-, hx', -⟩ | ⟨rest'', -, hr''⟩
                · simp at hx'
                · have hm := e6 mid a' d rest'' hr'' hd
                  rw [hin] at hm
                  rcases List.mem_cons.1 hm with hm | hm
                  · simp only [Prod.mk.injEq, Item.pong.injEq] at hm
                    obtain ⟨rfl, rfl⟩ := hm
                    exfalso
                    apply hnot
                    rcases hd with rfl | ⟨t', hd⟩
                    · exact .inl rfl
                    · exact .inr (e5 t' d (by rw [hr'']; exact List.mem_append_left _ hd))
                  · exact hm
          · rename_i hx
            cases h
            refine other rfl rfl rfl rfl rfl rfl ?_
            rintro d hd he
            cases he
            exact hx hd
    · rename_i htr
      rcases hb with hb | hb <;> rw [htr] at hb <;> cases hb
    · rename_i htr
      rcases hb with hb | hb <;> rw [htr] at hb <;> cases hb
    · cases h
    · cases h
  | transferEnds =>
    cases h
    exact same rfl rfl rfl rfl rfl rfl
  | recv =>
    simp only [step] at h
    split at h
    · cases h
    · cases h
      exact same rfl rfl rfl rfl rfl rfl
  | userPing x =>
    simp only [step] at h
    split at h
    · rename_i hx
      cases h
      refine ⟨?_, i2, i3, ?_⟩
      · simp only [St.keys, St.sendPing, List.map_append, List.map_cons, List.map_nil]
        rw [List.nodup_append]
        refine ⟨i1, by simp, ?_⟩
        rintro a ha b hb rfl
        exact hx.2 (by rw [List.mem_singleton.1 hb] at ha; exact ha)
      · intro data hc
        by_cases hkd : s.Waits data
        · obtain ⟨pre, t, post, A, B, f, e1, e2, e3, e4, e5, e6⟩ := (i4 data hkd).pending
          refine ⟨pre, t, post ++ [(s.now, .sent x)], A, B ++ [(x, false)], f,
            by simp only [St.sendPing]; rw [e1]; simp, e2, e3, by simp only [St.sendPing]; rw [e4]; simp, ?_, ?_⟩
          · intro t' d hd
            rw [List.map_append, List.mem_append]
            rcases List.mem_append.1 hd with hd | hd
            · exact .inl (e5 t' d hd)
            · simp only [List.mem_singleton, Prod.mk.injEq, Hist.sent.injEq] at hd
              exact .inr (by simp [hd.2])
          · intro mid a' d rest' hr' hd
            rcases append_snoc_split hr' with ⟨-, hx', -⟩ | ⟨rest'', -, hr''⟩
            · simp at hx'
            · exact e6 mid a' d rest'' hr'' hd
        · rcases hc with ⟨h1, h2⟩ | ⟨dl, h1, h2⟩
          · have hdx : data = x := by
              simp only [St.keys, St.sendPing, List.map_append, List.mem_append, List.map_cons, List.map_nil,
                List.mem_singleton] at h2
              rcases h2 with h2 | h2
              · exact absurd (.inl ⟨h1, h2⟩) hkd
              · exact h2
            subst hdx
            refine ⟨s.trace, s.now, [], s.pings, [], false, rfl, Nat.le_refl _, ?_, rfl, by simp, by simp⟩
            intro dl hdl
            have h1' : s.phase = .pinging data := h1
            have hdl' : s.phase = .waiting data dl := hdl
            rw [h1'] at hdl'
            cases hdl'
          · exfalso
            apply hkd
            right
            refine ⟨dl, h1, ?_⟩
            simp only [St.sendPing, List.mem_append, List.mem_singleton, Prod.mk.injEq, Bool.true_eq_false,
              and_false, or_false] at h2
            exact h2
    · cases h
  | pause =>
    cases h
    exact same rfl rfl rfl rfl rfl rfl
  | resume =>
    cases h
    exact same rfl rfl rfl rfl rfl rfl
  | close =>
    simp only [step] at h
    split at h
    · cases h
      exact same rfl rfl rfl rfl rfl rfl
    · cases h
  | lost =>
    cases h
    exact same rfl rfl rfl rfl rfl rfl
  | cancel =>
    simp only [step] at h
    split at h
    · cases h
      exact ⟨i1, .inl ⟨_, rfl⟩, i3, by simp [St.Waits]⟩
    · cases h
  | keepalive data =>
    have nowait : ∀ how, PInv timeout { s with phase := .exited how } := fun how =>
      ⟨i1, .inl ⟨_, rfl⟩, i3, by simp [St.Waits]⟩
    have inc : ∀ {ph}, s.phase = ph → (∀ how, ph ≠ .exited how) → ∀ p ∈ s.incoming, p.2 = s.now := by
      intro ph h1 h2
      rcases i2 with ⟨how, h⟩ | h
      · exact absurd (h1.symm.trans h) (h2 how)
      · exact h
    simp only [step, St.keepalive] at h
    split at h
    · rename_i wake hph
      have hinc := inc hph (by simp)
      split at h
      · split at h
        · split at h
          · rename_i hd
            have hnd : (s.sendPing data true).keys.Nodup := by
              simp only [St.keys, St.sendPing, List.map_append, List.map_cons, List.map_nil]
              rw [List.nodup_append]
              refine ⟨i1, by simp, ?_⟩
              rintro a ha b hb rfl
              exact hd.2 (by rw [List.mem_singleton.1 hb] at ha; exact ha)
            split at h
            · cases h
              refine ⟨hnd, .inr hinc, i3, ?_⟩
              rintro d (⟨h1, -⟩ | ⟨dl, h1, -⟩)
              · cases h1
                exact ⟨s.trace, s.now, [], s.pings, [], true, rfl, Nat.le_refl _, by simp, rfl, by simp, by simp⟩
              · cases h1
            · have hk : data ∈ (s.sendPing data true).keys := by simp [St.keys, St.sendPing]
              rw [St.afterPing, if_pos hk, ht] at h
              cases h
              refine ⟨?_, .inr hinc, i3, ?_⟩
              · rw [St.keys]
                simp only
                rw [keys_mark]
                exact hnd
              · rintro d (⟨h1, -⟩ | ⟨dl, h1, -⟩)
                · cases h1
                · cases h1
                  refine ⟨s.trace, s.now, [], mark data s.pings, [], true, rfl, Nat.le_refl _, ?_, ?_, by simp, by simp⟩
                  · intro dl' h'
                    simp only [Phase.waiting.injEq] at h'
                    rw [← h'.2]
                    exact Nat.le_refl _
                  · simp [mark, St.sendPing]
          · cases h
        · split at h
          · cases h
            exact nowait _
          · cases h
            exact ⟨i1, .inr hinc, i3, by simp [St.Waits]⟩
      · cases h
    · rename_i d hph
      have hinc := inc hph (by simp)
      split at h
      · cases h
        exact nowait _
      · split at h
        · cases h
        · simp only [Option.some.injEq] at h
          subst h
          rw [St.afterPing]
          split
          · rename_i hk
            rw [ht]
            refine ⟨by rw [St.keys]; simp only; rw [keys_mark]; exact i1, .inr hinc, i3, ?_⟩
            rintro d' (⟨h1, -⟩ | ⟨dl, h1, -⟩)
            · cases h1
            · cases h1
              obtain ⟨pre, t, post, A, B, f, e1, e2, e3, e4, e5, e6⟩ := (i4 d (.inl ⟨hph, hk⟩)).pending
              refine ⟨pre, t, post, mark d A, mark d B, true, e1, e2, ?_, ?_, ?_, e6⟩
              · intro dl' h'
                simp only [Phase.waiting.injEq] at h'
                omega
              · simp [e4, mark]
              · rw [keys_mark]; exact e5
          · exact nowait _
    · rename_i hph
      split at h
      · cases h
        exact nowait _
      · cases h
    · rename_i d dl hph
      have hinc := inc hph (by simp)
      split at h
      · cases h
        exact ⟨i1, .inr hinc, i3, by simp [St.Waits]⟩
      · rename_i hd
        split at h
        · cases h
          exact nowait _
        · split at h
          · rename_i hdl
            exfalso
            obtain ⟨pre, t, post, A, B, f, e1, e2, e3, e4, e5, e6⟩ :=
              (i4 d (.inr ⟨dl, hph, Classical.not_not.1 hd⟩)).pending
            have h3 := e3 dl hph
            obtain ⟨mid, a, x, rest, hpost, ha, hx⟩ := hr pre t d post e1 (by omega)
            have := hinc _ (e6 mid a x rest hpost hx)
            simp only at this
            omega
          · cases h
    · cases h

theorem pinv_reach {cfg : Config} {timeout : Nat} {s : St} (ht : cfg.timeout = some timeout)
    (h : Reach cfg (fun s => Responsive timeout s ∧ NotBlocked s) s) : PInv timeout s := by
  induction h with
  | init => exact ⟨by simp [init, St.keys], .inr (by simp [init]), rfl, by simp [init, St.Waits]⟩
  | step hr hs _ ih => exact pinv_step ht ih (reach_here hr).1 (reach_here hr).2 hs

/-- **C79, second part, partial.** A connection isn't failed if the peer responds.  What is missing: executions in
which the application doesn't receive messages fast enough, or in which writing is paused when a pong is sent,
so that `transfer_data` doesn't read the pong (false, `C79_backpressure_false`). -/
theorem C79_patient_partial {cfg : Config} {timeout : Nat} {s : St} (ht : cfg.timeout = some timeout)
    (h : Reach cfg (fun s => Responsive timeout s ∧ NotBlocked s) s) : s.failed = none :=
  (pinv_reach ht h).failed

/-- Nothing prevents `transfer_data` from reading: writing isn't paused, there's room in the queue, which is always the
case if `max_queue` is `None`, and no ping is received after the application started closing the connection. -/
def Undisturbed (cfg : Config) (s : St) : Prop :=
  s.paused = false ∧ (∀ m, cfg.maxQueue = some m → s.messages < m) ∧ s.transfer ≠ .stuck

theorem notBlocked_step {cfg : Config} {s s' : St} {e : Ev} (hb : NotBlocked s) (hu : Undisturbed cfg s)
    (hu' : s'.transfer ≠ .stuck) (h : step cfg s e = some s') : NotBlocked s' := by
  obtain ⟨u1, u2, u3⟩ := hu
  have hroom : ∀ s1 : St, s1.messages = s.messages → s1.room cfg = true := by
    intro s1 h1
    rw [St.room]
    split
    · rfl
    · rename_i m hm
      rw [h1]
      exact decide_eq_true (u2 m hm)
  have keep : s'.transfer = s.transfer → NotBlocked s' := fun ht => by rw [NotBlocked, ht]; exact hb
  cases e with
  | transfer =>
    rcases hb with hb | hb
    · simp only [step, St.transferStep, hb] at h
      split at h
      · cases h
      · rename_i i t incoming hi
        cases i with
        | message =>
          simp only at h
          split at h
          · cases h
            exact .inl rfl
          · rename_i hn
            exact absurd (hroom _ rfl) hn
        | ping =>
          simp only at h
          split at h
          · cases h
            simp [NotBlocked, u1]
          · split at h
            · cases h; exact .inr rfl
            · cases h; exact absurd rfl hu'
        | pong data =>
          simp only at h
          split at h <;> cases h <;> exact .inl rfl
    · simp [step, St.transferStep, hb] at h
  | transferEnds => cases h; exact .inr rfl
  | keepalive data =>
    simp only [step, St.keepalive] at h
    have haft : ∀ (s1 : St) d, (s1.afterPing cfg d).transfer = s1.transfer := by
      intro s1 d
      unfold St.afterPing
      split
      · split <;> rfl
      · rfl
    split at h
    · split at h
      · split at h
        · split at h
          · split at h
            · cases h; exact keep rfl
            · cases h; exact keep (haft _ _)
          · cases h
        · split at h <;> cases h <;> exact keep rfl
      · cases h
    · split at h
      · cases h; exact keep rfl
      · split at h
        · cases h
        · cases h; exact keep (haft _ _)
    · split at h
      · cases h; exact keep rfl
      · cases h
    · split at h
      · cases h; exact keep rfl
      · split at h
        · cases h; exact keep rfl
        · split at h
          · cases h; exact .inr rfl
          · cases h
    · cases h
  | tick => simp only [step] at h; split at h <;> cases h; exact keep rfl
  | arrive i => cases h; exact keep rfl
  | recv => simp only [step] at h; split at h <;> cases h; exact keep rfl
  | userPing data => simp only [step] at h; split at h <;> cases h; exact keep rfl
  | pause => cases h; exact keep rfl
  | resume => cases h; exact keep rfl
  | close => simp only [step] at h; split at h <;> cases h; exact keep rfl
  | lost => cases h; exact keep rfl
  | cancel => simp only [step] at h; split at h <;> cases h; exact keep rfl

/-- **C79, second part, partial.** A connection isn't failed if the peer responds, the application receives messages
fast enough (or `max_queue` is `None`) and the transport doesn't pause writing. -/
theorem C79_undisturbed_partial {cfg : Config} {timeout : Nat} {s : St} (ht : cfg.timeout = some timeout)
    (h : Reach cfg (fun s => Responsive timeout s ∧ Undisturbed cfg s) s) : NotBlocked s ∧ s.failed = none := by
  have hr : Reach cfg (fun s => Responsive timeout s ∧ NotBlocked s) s := by
    induction h with
    | init hp => exact .init ⟨hp.1, .inl rfl⟩
    | step h1 h2 hp ih =>
      exact .step ih h2 ⟨hp.1, notBlocked_step (reach_here ih).2 (reach_here h1).2 hp.2.2.2 h2⟩
  exact ⟨(reach_here hr).2, C79_patient_partial ht hr⟩

/-! ## Soundness -/

structure Silent (timeout : Nat) (s : St) (data : Bytes) : Prop where
  silent : ∃ pre t post A B f, s.trace = pre ++ (t, Hist.sent data) :: post ∧ t ≤ s.now ∧
    (∀ deadline, s.phase = .waiting data deadline → t + timeout ≤ deadline) ∧
    s.pings = A ++ (data, f) :: B ∧
    (∀ t' d, (t', Hist.sent d) ∈ post → d ∈ B.map (·.1)) ∧ Unanswered data post

structure SInv (timeout : Nat) (s : St) : Prop where
  nodup : s.keys.Nodup
  failed : ∀ f, s.failed = some f → s.transfer = .exited ∧
    ∃ pre t data post, s.trace = pre ++ (t, Hist.sent data) :: post ∧ t + timeout ≤ f ∧ Unanswered data post
  silent : ∀ data, s.Waits data → Silent timeout s data

theorem unanswered_snoc {data : Bytes} {post : List (Nat × Hist)} {x : Nat × Hist} (h : Unanswered data post)
    (hx : ∀ a d, x = (a, .read (.pong d)) → d ≠ data ∧ ∀ t', (t', Hist.sent d) ∉ post) :
    Unanswered data (post ++ [x]) := by
  intro mid a d rest hr
  rcases append_snoc_split hr with ⟨rfl, he, -⟩ | ⟨rest', -, hr'⟩
  · exact hx a d he.symm
  · exact h mid a d rest' hr'

theorem sinv_step {cfg : Config} {timeout : Nat} {s s' : St} {e : Ev} (ht : cfg.timeout = some timeout)
    (hi : SInv timeout s) (h : step cfg s e = some s') : SInv timeout s' := by
  obtain ⟨i1, i2, i3⟩ := hi
  -- Steps that change neither the pings, nor the phase, nor the history.
  have same : s.now ≤ s'.now → s'.phase = s.phase → s'.pings = s.pings → s'.trace = s.trace →
      s'.failed = s.failed → (s.transfer = .exited → s'.transfer = .exited) → SInv timeout s' := by
    intro h1 h2 h3 h4 h5 h6
    refine ⟨by rw [St.keys, h3]; exact i1, ?_, ?_⟩
    · rw [h4, h5]
      exact fun f hf => ⟨h6 (i2 f hf).1, (i2 f hf).2⟩
    · intro data hc
      rw [St.Waits, St.keys, h2, h3] at hc
      obtain ⟨pre, t, post, A, B, f, e1, e2, e3, e4, e5, e6⟩ := (i3 data hc).silent
      exact ⟨pre, t, post, A, B, f, by rw [h4]; exact e1, by omega, by rw [h2]; exact e3, by rw [h3]; exact e4, e5, e6⟩
  cases e with
  | tick =>
    simp only [step] at h
    split at h
    · cases h
    · cases h
      exact same (Nat.le_succ _) rfl rfl rfl rfl id
  | arrive i =>
    cases h
    refine ⟨i1, ?_, ?_⟩
    · intro f hf
      obtain ⟨h1, pre, t, data, post, e1, e2, e3⟩ := i2 f hf
      exact ⟨h1, pre, t, data, post ++ [(s.now, .arrived i)], by simp only; rw [e1]; simp, e2,
        unanswered_snoc e3 (by simp)⟩
    · intro data hc
      obtain ⟨pre, t, post, A, B, f, e1, e2, e3, e4, e5, e6⟩ := (i3 data hc).silent
      refine ⟨pre, t, post ++ [(s.now, .arrived i)], A, B, f, by simp only; rw [e1]; simp, e2, e3, e4, ?_,
        unanswered_snoc e6 (by simp)⟩
      intro t' d hd
      rcases List.mem_append.1 hd with hd | hd
      · exact e5 t' d hd
      · simp at hd
  | transfer =>
    simp only [step, St.transferStep] at h
    split at h
    · rename_i htr
      have nofail : ∀ {f}, s.failed ≠ some f := by
        intro f hf
        have := (i2 f hf).1
        rw [htr] at this
        cases this
      split at h
      · cases h
      · rename_i i a rest hin
        -- Frames that don't acknowledge pings
        have other : s'.now = s.now → s'.phase = s.phase → s'.pings = s.pings →
            s'.trace = s.trace ++ [(s.now, .read i)] → s'.failed = s.failed →
            (∀ d ∈ s.keys, i ≠ .pong d) → SInv timeout s' := by
          intro h1 h2 h3 h5 h6 h7
          refine ⟨by rw [St.keys, h3]; exact i1, by rw [h6]; exact fun f hf => absurd hf nofail, ?_⟩
          intro data hc
          rw [St.Waits, St.keys, h2, h3] at hc
          obtain ⟨pre, t, post, A, B, f, e1, e2, e3, e4, e5, e6⟩ := (i3 data hc).silent
          refine ⟨pre, t, post ++ [(s.now, .read i)], A, B, f, by rw [h5, e1]; simp, by omega, by rw [h2]; exact e3,
            by rw [h3]; exact e4, ?_, unanswered_snoc e6 ?_⟩
          · intro t' d hd
            rcases List.mem_append.1 hd with hd | hd
            · exact e5 t' d hd
            · simp at hd
          · intro a' d he
            simp only [Prod.mk.injEq, Hist.read.injEq] at he
            refine ⟨?_, ?_⟩
            · rintro rfl
              exact h7 d (waits_key hc) he.2
            · intro t' hm
              have := e5 t' d hm
              exact h7 d (by rw [St.keys, e4]; simp [this]) he.2
        split at h
        · split at h
          · cases h
            exact other rfl rfl rfl rfl rfl (by simp)
          · cases h
            exact other rfl rfl rfl rfl rfl (by simp)
        · split at h
          · cases h
            exact other rfl rfl rfl rfl rfl (by simp)
          · split at h <;> cases h <;> exact other rfl rfl rfl rfl rfl (by simp)
        · rename_i x
          split at h
          · rename_i hx
            cases h
            refine ⟨?_, fun f hf => absurd hf nofail, ?_⟩
            · exact i1.sublist ((ack_sublist x s.pings).map _)
            · intro data hc
              have hk := waits_key hc
              have hc' : s.Waits data := by
                rcases hc with ⟨h1, h2⟩ | ⟨dl, h1, h2⟩
                · exact .inl ⟨h1, mem_keys_ack h2⟩
                · exact .inr ⟨dl, h1, mem_ack h2⟩
              obtain ⟨pre, t, post, A, B, f, e1, e2, e3, e4, e5, e6⟩ := (i3 data hc').silent
              have hnot : ¬(x = data ∨ x ∈ B.map (·.1)) := by
                intro hx'
                have hn : ((A ++ (data, f) :: B).map (·.1)).Nodup := by rw [← e4]; exact i1
                have := ack_later hn hx'
                rw [← e4] at this
                exact this hk
              have hxA : x ∈ A.map (·.1) := by
                have hx : x ∈ s.keys := hx
                rw [St.keys, e4] at hx
                simp only [List.map_append, List.map_cons, List.mem_append, List.mem_cons] at hx
                rcases hx with hx | hx | hx
                · exact hx
                · exact absurd (.inl hx) hnot
                · exact absurd (.inr hx) hnot
              obtain ⟨A', hA'⟩ := ack_earlier (data := data) (B := B) (f := f) hxA
              refine ⟨pre, t, post ++ [(s.now, .read (.pong x))], A', B, f, by simp only; rw [e1]; simp, e2, e3,
                by simp only; rw [e4]; exact hA', ?_, unanswered_snoc e6 ?_⟩
              · intro t' d hd
                rcases List.mem_append.1 hd with hd | hd
                · exact e5 t' d hd
                · simp at hd
              · intro a' d he
                simp only [Prod.mk.injEq, Hist.read.injEq, Item.pong.injEq] at he
                rw [← he.2]
                exact ⟨fun h => hnot (.inl h), fun t' hm => hnot (.inr (e5 t' x hm))⟩
          · rename_i hx
            cases h
            refine other rfl rfl rfl rfl rfl ?_
            rintro d hd he
            cases he
            exact hx hd
    · rename_i htr
      split at h
      · cases h
        exact same (Nat.le_refl _) rfl rfl rfl rfl fun h => absurd (htr.symm.trans h) (by simp)
      · cases h
    · rename_i htr
      split at h
      · cases h
      · cases h
        exact same (Nat.le_refl _) rfl rfl rfl rfl fun h => absurd (htr.symm.trans h) (by simp)
    · cases h
    · cases h
  | transferEnds =>
    cases h
    exact same (Nat.le_refl _) rfl rfl rfl rfl fun _ => rfl
  | recv =>
    simp only [step] at h
    split at h
    · cases h
    · cases h
      exact same (Nat.le_refl _) rfl rfl rfl rfl id
  | userPing x =>
    simp only [step] at h
    split at h
    · rename_i hx
      cases h
      refine ⟨?_, ?_, ?_⟩
      · simp only [St.keys, St.sendPing, List.map_append, List.map_cons, List.map_nil]
        rw [List.nodup_append]
        refine ⟨i1, by simp, ?_⟩
        rintro a ha b hb rfl
        exact hx.2 (by rw [List.mem_singleton.1 hb] at ha; exact ha)
      · intro f hf
        have := (i2 f hf).1
        simp [St.isOpen, this] at hx
      · intro data hc
        by_cases hkd : s.Waits data
        · obtain ⟨pre, t, post, A, B, f, e1, e2, e3, e4, e5, e6⟩ := (i3 data hkd).silent
          refine ⟨pre, t, post ++ [(s.now, .sent x)], A, B ++ [(x, false)], f,
            by simp only [St.sendPing]; rw [e1]; simp, e2, e3, by simp only [St.sendPing]; rw [e4]; simp, ?_,
            unanswered_snoc e6 (by simp)⟩
          intro t' d hd
          rw [List.map_append, List.mem_append]
          rcases List.mem_append.1 hd with hd | hd
          · exact .inl (e5 t' d hd)
          · simp only [List.mem_singleton, Prod.mk.injEq, Hist.sent.injEq] at hd
            exact .inr (by simp [hd.2])
        · rcases hc with ⟨h1, h2⟩ | ⟨dl, h1, h2⟩
          · have hdx : data = x := by
              simp only [St.keys, St.sendPing, List.map_append, List.mem_append, List.map_cons, List.map_nil,
                List.mem_singleton] at h2
              rcases h2 with h2 | h2
              · exact absurd (.inl ⟨h1, h2⟩) hkd
              · exact h2
            subst hdx
            refine ⟨s.trace, s.now, [], s.pings, [], false, rfl, Nat.le_refl _, ?_, rfl, by simp, by simp [Unanswered]⟩
            intro dl hdl
            have h1' : s.phase = .pinging data := h1
            have hdl' : s.phase = .waiting data dl := hdl
            rw [h1'] at hdl'
            cases hdl'
          · exfalso
            apply hkd
            right
            refine ⟨dl, h1, ?_⟩
            simp only [St.sendPing, List.mem_append, List.mem_singleton, Prod.mk.injEq, Bool.true_eq_false,
              and_false, or_false] at h2
            exact h2
    · cases h
  | pause =>
    cases h
    exact same (Nat.le_refl _) rfl rfl rfl rfl id
  | resume =>
    cases h
    exact same (Nat.le_refl _) rfl rfl rfl rfl id
  | close =>
    simp only [step] at h
    split at h
    · cases h
      exact same (Nat.le_refl _) rfl rfl rfl rfl id
    · cases h
  | lost =>
    cases h
    exact same (Nat.le_refl _) rfl rfl rfl rfl id
  | cancel =>
    simp only [step] at h
    split at h
    · cases h
      exact ⟨i1, i2, by simp [St.Waits]⟩
    · cases h
  | keepalive data =>
    have nowait : ∀ how, SInv timeout { s with phase := .exited how } := fun how =>
      ⟨i1, i2, by simp [St.Waits]⟩
    simp only [step, St.keepalive] at h
    split at h
    · rename_i wake hph
      split at h
      · split at h
        · rename_i hopen
          have nofail : ∀ {f}, s.failed ≠ some f := by
            intro f hf
            have := (i2 f hf).1
            simp [St.isOpen, this] at hopen
          split at h
          · rename_i hd
            have hnd : (s.sendPing data true).keys.Nodup := by
              simp only [St.keys, St.sendPing, List.map_append, List.map_cons, List.map_nil]
              rw [List.nodup_append]
              refine ⟨i1, by simp, ?_⟩
              rintro a ha b hb rfl
              exact hd.2 (by rw [List.mem_singleton.1 hb] at ha; exact ha)
            split at h
            · cases h
              refine ⟨hnd, fun f hf => absurd hf nofail, ?_⟩
              rintro d (⟨h1, -⟩ | ⟨dl, h1, -⟩)
              · cases h1
                exact ⟨s.trace, s.now, [], s.pings, [], true, rfl, Nat.le_refl _, by simp, rfl, by simp,
                  by simp [Unanswered]⟩
              · cases h1
            · have hk : data ∈ (s.sendPing data true).keys := by simp [St.keys, St.sendPing]
              rw [St.afterPing, if_pos hk, ht] at h
              cases h
              refine ⟨?_, fun f hf => absurd hf nofail, ?_⟩
              · rw [St.keys]
                simp only
                rw [keys_mark]
                exact hnd
              · rintro d (⟨h1, -⟩ | ⟨dl, h1, -⟩)
                · cases h1
                · cases h1
                  refine ⟨s.trace, s.now, [], mark data s.pings, [], true, rfl, Nat.le_refl _, ?_, ?_, by simp,
                    by simp [Unanswered]⟩
                  · intro dl' h'
                    simp only [Phase.waiting.injEq] at h'
                    rw [← h'.2]
                    exact Nat.le_refl _
                  · simp [mark, St.sendPing]
          · cases h
        · split at h
          · cases h
            exact nowait _
          · cases h
            exact ⟨i1, i2, by simp [St.Waits]⟩
      · cases h
    · rename_i d hph
      split at h
      · cases h
        exact nowait _
      · split at h
        · cases h
        · simp only [Option.some.injEq] at h
          subst h
          rw [St.afterPing]
          split
          · rename_i hk
            rw [ht]
            refine ⟨by rw [St.keys]; simp only; rw [keys_mark]; exact i1, i2, ?_⟩
            rintro d' (⟨h1, -⟩ | ⟨dl, h1, -⟩)
            · cases h1
            · cases h1
              obtain ⟨pre, t, post, A, B, f, e1, e2, e3, e4, e5, e6⟩ := (i3 d (.inl ⟨hph, hk⟩)).silent
              refine ⟨pre, t, post, mark d A, mark d B, true, e1, e2, ?_, ?_, ?_, e6⟩
              · intro dl' h'
                simp only [Phase.waiting.injEq] at h'
                omega
              · simp [e4, mark]
              · rw [keys_mark]; exact e5
          · exact nowait _
    · rename_i hph
      split at h
      · cases h
        exact nowait _
      · cases h
    · rename_i d dl hph
      split at h
      · cases h
        exact ⟨i1, i2, by simp [St.Waits]⟩
      · rename_i hd
        split at h
        · cases h
          exact nowait _
        · split at h
          · rename_i hdl
            cases h
            obtain ⟨pre, t, post, A, B, f, e1, e2, e3, e4, e5, e6⟩ :=
              (i3 d (.inr ⟨dl, hph, Classical.not_not.1 hd⟩)).silent
            have h3 := e3 dl hph
            refine ⟨i1, ?_, by simp [St.Waits]⟩
            intro f hf
            simp only [Option.some.injEq] at hf
            exact ⟨rfl, pre, t, d, post, e1, by omega, e6⟩
          · cases h
    · cases h

/-- **C79.** `keepalive_ping` fails a connection only if it hasn't read an answer to a ping which was sent
`ping_timeout` earlier or more. -/
theorem C79_sound {cfg : Config} {timeout f : Nat} {s : St} (ht : cfg.timeout = some timeout)
    (h : Reachable cfg s) (hf : s.failed = some f) :
    ∃ pre t data post, s.trace = pre ++ (t, Hist.sent data) :: post ∧ t + timeout ≤ f ∧ Unanswered data post := by
  have : SInv timeout s := by
    clear hf
    induction h with
    | init => exact ⟨by simp [init, St.keys], by simp [init], by simp [init, St.Waits]⟩
    | step _ hs _ ih => exact sinv_step ht ih hs
  exact (this.failed f hf).2

/-- **C79.** `keepalive_ping` doesn't fail connections if there's no timeout. -/
theorem C79_noTimeout {cfg : Config} {s : St} (ht : cfg.timeout = none) (h : Reachable cfg s) : s.failed = none := by
  have : s.failed = none ∧ ∀ data deadline, s.phase ≠ .waiting data deadline := by
    induction h with
    | init => exact ⟨rfl, by simp [init]⟩
    | @step s s' e _ hs _ ih =>
      obtain ⟨h1, h2⟩ := ih
      cases e <;> simp only [step, St.transferStep, St.keepalive, St.afterPing, St.sendPing, ht] at hs
      all_goals
        repeat' split at hs
        all_goals first
          | (cases hs; done)
          | (cases hs; exact ⟨h1, by first | exact h2 | simp⟩)
          | (exfalso; exact h2 _ _ ‹_›)
  exact this.1

/-! ## At most one ping -/

structure QInv (s : St) : Prop where
  nodup : s.keys.Nodup
  own : ∀ p ∈ s.pings, p.2 = true →
    s.phase = .pinging p.1 ∨ (∃ deadline, s.phase = .waiting p.1 deadline) ∨ ∃ how, s.phase = .exited how
  count : (s.pings.filter (·.2)).length ≤ 1

theorem count_of {ps : List (Bytes × Bool)} {data : Bytes} (hn : (ps.map (·.1)).Nodup)
    (h : ∀ p ∈ ps, p.2 = true → p.1 = data) : (ps.filter (·.2)).length ≤ 1 := by
  induction ps with
  | nil => simp
  | cons q qs ih =>
    simp only [List.map_cons, List.nodup_cons] at hn
    rw [List.filter_cons]
    split
    · rename_i hq
      have hq1 := h q (List.mem_cons_self ..) hq
      have : qs.filter (·.2) = [] := by
        rw [List.filter_eq_nil_iff]
        intro p hp hp2
        apply hn.1
        rw [hq1, ← h p (List.mem_cons_of_mem _ hp) hp2]
        exact List.mem_map_of_mem hp
      simp [this]
    · exact ih hn.2 fun p hp => h p (List.mem_cons_of_mem _ hp)

theorem nodup_snoc {ps : List (Bytes × Bool)} {data : Bytes} {f : Bool} (hn : (ps.map (·.1)).Nodup)
    (hd : data ∉ ps.map (·.1)) : ((ps ++ [(data, f)]).map (·.1)).Nodup := by
  simp only [List.map_append, List.map_cons, List.map_nil]
  rw [List.nodup_append]
  refine ⟨hn, by simp, ?_⟩
  rintro a ha b hb rfl
  exact hd (by rw [List.mem_singleton.1 hb] at ha; exact ha)

theorem qinv_ping {cfg : Config} {timeout : Nat} {s : St} {data : Bytes} (ht : cfg.timeout = some timeout)
    (hn : s.keys.Nodup) (hc : (s.pings.filter (·.2)).length ≤ 1) (ho : ∀ p ∈ s.pings, p.2 = true → p.1 = data) :
    QInv (s.afterPing cfg data) := by
  rw [St.afterPing]
  split
  · rename_i hk
    rw [ht]
    have hm : ∀ p ∈ mark data s.pings, p.2 = true → p.1 = data := by
      rintro ⟨d, f⟩ hp hf
      apply Classical.byContradiction
      intro hd
      exact hd (ho _ (mem_mark_of hp hd) hf)
    have hn' : ((mark data s.pings).map (·.1)).Nodup := by rw [keys_mark]; exact hn
    exact ⟨hn', fun p hp hf => .inr (.inl ⟨_, by rw [hm p hp hf]⟩), count_of hn' hm⟩
  · exact ⟨hn, fun p _ _ => .inr (.inr ⟨_, rfl⟩), hc⟩

theorem qinv_step {cfg : Config} {timeout : Nat} {s s' : St} {e : Ev} (ht : cfg.timeout = some timeout)
    (hi : QInv s) (h : step cfg s e = some s') : QInv s' := by
  obtain ⟨i1, i2, i3⟩ := hi
  have same : s'.phase = s.phase → s'.pings = s.pings → QInv s' := fun h1 h2 =>
    ⟨by rw [St.keys, h2]; exact i1, by rw [h1, h2]; exact i2, by rw [h2]; exact i3⟩
  cases e with
  | userPing x =>
    simp only [step] at h
    split at h
    · rename_i hx
      cases h
      refine ⟨nodup_snoc i1 hx.2, ?_, ?_⟩
      · intro p hp hf
        rcases List.mem_append.1 hp with hp | hp
        · exact i2 p hp hf
        · rw [List.mem_singleton.1 hp] at hf
          cases hf
      · simpa [St.sendPing, List.filter_append] using i3
    · cases h
  | cancel =>
    simp only [step] at h
    split at h
    · cases h
      exact ⟨i1, fun p _ _ => .inr (.inr ⟨_, rfl⟩), i3⟩
    · cases h
  | transfer =>
    simp only [step, St.transferStep] at h
    repeat' split at h
    all_goals first
      | (cases h; done)
      | (cases h; exact same rfl rfl)
      | skip
    cases h
    refine ⟨i1.sublist ((ack_sublist _ s.pings).map _), fun p hp => i2 p (mem_ack hp), ?_⟩
    exact Nat.le_trans ((ack_sublist _ s.pings).filter _).length_le i3
  | keepalive data =>
    have exits : ∀ how, QInv { s with phase := .exited how } := fun how =>
      ⟨i1, fun p _ _ => .inr (.inr ⟨_, rfl⟩), i3⟩
    simp only [step, St.keepalive] at h
    split at h
    · rename_i wake hph
      have none : ∀ p ∈ s.pings, p.2 ≠ true := by
        intro p hp hf
        rcases i2 p hp hf with h | ⟨_, h⟩ | ⟨_, h⟩ <;> rw [hph] at h <;> cases h
      split at h
      · split at h
        · split at h
          · rename_i hd
            have hn := nodup_snoc (f := true) i1 hd.2
            have ho : ∀ p ∈ s.pings ++ [(data, true)], p.2 = true → p.1 = data := by
              intro p hp hf
              rcases List.mem_append.1 hp with hp | hp
              · exact absurd hf (none p hp)
              · rw [List.mem_singleton.1 hp]
            split at h
            · cases h
              exact ⟨hn, fun p hp hf => .inl (by rw [ho p hp hf]), count_of hn ho⟩
            · simp only [Option.some.injEq] at h
              subst h
              exact qinv_ping ht hn (count_of hn ho) ho
          · cases h
        · split at h
          · cases h
            exact exits _
          · cases h
            exact ⟨i1, fun p hp hf => absurd hf (none p hp), i3⟩
      · cases h
    · rename_i d hph
      split at h
      · cases h
        exact exits _
      · split at h
        · cases h
        · simp only [Option.some.injEq] at h
          subst h
          refine qinv_ping ht i1 i3 ?_
          intro p hp hf
          rcases i2 p hp hf with h | ⟨_, h⟩ | ⟨_, h⟩ <;> rw [hph] at h <;> cases h
          rfl
    · split at h
      · cases h
        exact exits _
      · cases h
    · rename_i d dl hph
      split at h
      · rename_i hd
        cases h
        refine ⟨i1, ?_, i3⟩
        rintro ⟨x, f⟩ hp hf
        exfalso
        simp only at hf
        subst hf
        rcases i2 _ hp rfl with h | ⟨_, h⟩ | ⟨_, h⟩ <;> rw [hph] at h <;> cases h
        exact hd hp
      · split at h
        · cases h
          exact exits _
        · split at h
          · cases h
            exact ⟨i1, fun p _ _ => .inr (.inr ⟨_, rfl⟩), i3⟩
          · cases h
    · cases h
  | _ =>
    simp only [step] at h
    repeat' split at h
    all_goals first
      | (cases h; done)
      | (cases h; exact same rfl rfl)

/-- **C79, third part, partial.** There's at most one ping of `keepalive_ping` that hasn't been answered.  What is
missing: the case when there's no timeout (false, `C79_unbounded_false`). -/
theorem C79_pending_partial {cfg : Config} {s : St} (ht : cfg.timeout ≠ none) (h : Reachable cfg s) :
    (s.pings.filter (·.2)).length ≤ 1 := by
  obtain ⟨timeout, ht⟩ := Option.ne_none_iff_exists'.1 ht
  have : QInv s := by
    induction h with
    | init => exact ⟨by simp [init, St.keys], by simp [init], by simp [init]⟩
    | step _ hs _ ih => exact qinv_step ht ih hs
  exact this.count

/-! ## Progress -/

/-- The steps of the tasks, other than the application's -/
def IsTask : Ev → Prop
  | .transfer | .cancel | .keepalive _ => True
  | _ => False

/-- The tasks run until they're suspended, and then time passes. -/
def Proceeds (cfg : Config) (s : St) : Prop :=
  ∃ es s' s'', (∀ e ∈ es, IsTask e) ∧ exec cfg s es = some s' ∧ step cfg s' .tick = some s''

theorem proceeds_cons {cfg : Config} {s s' : St} {e : Ev} (he : IsTask e) (h : step cfg s e = some s')
    (hp : Proceeds cfg s') : Proceeds cfg s := by
  obtain ⟨es, s1, s2, h1, h2, h3⟩ := hp
  refine ⟨e :: es, s1, s2, ?_, by simp only [exec]; rw [h]; exact h2, h3⟩
  intro x hx
  rcases List.mem_cons.1 hx with rfl | hx
  · exact he
  · exact h1 x hx

theorem proceeds_now {cfg : Config} {s : St} (h1 : s.keepaliveReady = false) (h2 : s.transferReady cfg = false)
    (h3 : s.cancelReady = false) : Proceeds cfg s :=
  ⟨[], s, { s with now := s.now + 1 }, by simp, rfl, by simp [step, h1, h2, h3]⟩

theorem proceeds_exited {cfg : Config} {s : St} {how : Exit} (h1 : s.phase = .exited how)
    (h2 : s.transferReady cfg = false) : Proceeds cfg s :=
  proceeds_now (by simp [St.keepaliveReady, h1]) h2 (by simp [St.cancelReady, h1])

/-- After `ping` -/
theorem proceeds_afterPing {cfg : Config} {s : St} {data : Bytes} (hi : 0 < cfg.interval ∨ cfg.timeout ≠ none)
    (h1 : s.transferReady cfg = false) (h2 : s.transfer ≠ .exited) (h3 : s.state ≠ .closed) :
    Proceeds cfg (s.afterPing cfg data) := by
  rw [St.afterPing]
  split
  · rename_i hk
    split
    · rename_i ht
      have : 0 < cfg.interval := by
        rcases hi with h | h
        · exact h
        · exact absurd ht h
      exact proceeds_now (by simp [St.keepaliveReady]; omega) h1 (by simp [St.cancelReady, h2])
    · rename_i timeout ht
      by_cases h0 : timeout = 0
      · refine proceeds_cons (e := .keepalive []) trivial ?_ (proceeds_exited (how := .timedOut) (s :=
          { s with phase := .exited .timedOut, pings := mark data s.pings, failed := some s.now, transfer := .exited
                   state := if s.state = .opened then .closing else s.state }) rfl (by simp [St.transferReady]))
        simp only [step, St.keepalive]
        rw [if_neg (Classical.not_not.2 (mem_mark hk)), if_neg h3, if_pos (by omega)]
      · refine proceeds_now ?_ h1 (by simp [St.cancelReady, h2])
        simp only [St.keepaliveReady, Bool.or_eq_false_iff, decide_eq_false_iff_not]
        exact ⟨⟨Classical.not_not.2 (mem_mark hk), h3⟩, by omega⟩
  · exact proceeds_exited (how := .keyError) rfl h1

theorem proceeds_sleeping {cfg : Config} {s : St} {wake : Nat} (hi : 0 < cfg.interval ∨ cfg.timeout ≠ none)
    (hf : ∃ data : Bytes, data.length = 4 ∧ data ∉ s.keys)
    (h1 : s.transferReady cfg = false) (h2 : s.cancelReady = false) (hp : s.phase = .sleeping wake) :
    Proceeds cfg s := by
  by_cases hw : wake ≤ s.now
  · have hx : s.transfer ≠ .exited := fun hx => by simp [St.cancelReady, hx, hp] at h2
    cases ho : s.isOpen with
    | true =>
      obtain ⟨data, hl, hd⟩ := hf
      have hst : s.state ≠ .closed := by
        intro hs
        simp [St.isOpen, hs] at ho
      cases hpz : s.paused with
      | true =>
        refine proceeds_cons (e := .keepalive data) trivial (s' := { s.sendPing data true with phase := .pinging data })
          ?_ ?_
        · simp only [step, St.keepalive, hp]
          rw [if_pos hw, if_pos ho, if_pos ⟨hl, hd⟩, if_pos hpz]
        · exact proceeds_now (by simp [St.keepaliveReady, St.sendPing, hpz, hst]) h1
            (by simp [St.cancelReady, St.sendPing, hx])
      | false =>
        refine proceeds_cons (e := .keepalive data) trivial (s' := (s.sendPing data true).afterPing cfg data)
          ?_ ?_
        · simp only [step, St.keepalive, hp]
          rw [if_pos hw, if_pos ho, if_pos ⟨hl, hd⟩, if_neg (by simp [hpz])]
        · exact proceeds_afterPing hi h1 hx hst
    | false =>
      by_cases hs : s.state = .closed
      · refine proceeds_cons (e := .keepalive []) trivial (s' := { s with phase := .exited .connectionClosed })
          ?_ (proceeds_exited (how := .connectionClosed) rfl h1)
        simp only [step, St.keepalive, hp]
        rw [if_pos hw, if_neg (by simp [ho]), if_pos hs]
      · refine proceeds_cons (e := .keepalive []) trivial (s' := { s with phase := .stuck }) ?_ ?_
        · simp only [step, St.keepalive, hp]
          rw [if_pos hw, if_neg (by simp [ho]), if_neg hs]
        · exact proceeds_now (by simp [St.keepaliveReady, hs]) h1 (by simp [St.cancelReady, hx])
  · exact proceeds_now (by simp [St.keepaliveReady, hp]; omega) h1 h2

theorem proceeds_quiet {cfg : Config} {s : St} (hi : 0 < cfg.interval ∨ cfg.timeout ≠ none)
    (hf : ∃ data : Bytes, data.length = 4 ∧ data ∉ s.keys)
    (h1 : s.transferReady cfg = false) (h2 : s.cancelReady = false) : Proceeds cfg s := by
  cases hp : s.phase with
  | exited how => exact proceeds_exited hp h1
  | sleeping wake => exact proceeds_sleeping hi hf h1 h2 hp
  | pinging d =>
    have hx : s.transfer ≠ .exited := fun hx => by simp [St.cancelReady, hx, hp] at h2
    by_cases hs : s.state = .closed
    · refine proceeds_cons (e := .keepalive []) trivial (s' := { s with phase := .exited .connectionClosed })
        ?_ (proceeds_exited (how := .connectionClosed) rfl h1)
      simp only [step, St.keepalive, hp]
      rw [if_pos hs]
    · cases hpz : s.paused with
      | true => exact proceeds_now (by simp [St.keepaliveReady, hp, hpz, hs]) h1 h2
      | false =>
        refine proceeds_cons (e := .keepalive []) trivial (s' := s.afterPing cfg d) ?_
          (proceeds_afterPing hi h1 hx hs)
        simp only [step, St.keepalive, hp]
        rw [if_neg hs, if_neg (by simp [hpz])]
  | stuck =>
    by_cases hs : s.state = .closed
    · refine proceeds_cons (e := .keepalive []) trivial (s' := { s with phase := .exited .connectionClosed })
        ?_ (proceeds_exited (how := .connectionClosed) rfl h1)
      simp only [step, St.keepalive, hp]
      rw [if_pos hs]
    · exact proceeds_now (by simp [St.keepaliveReady, hp, hs]) h1 h2
  | waiting d dl =>
    have hx : s.transfer ≠ .exited := fun hx => by simp [St.cancelReady, hx, hp] at h2
    by_cases hd : (d, true) ∈ s.pings
    · by_cases hs : s.state = .closed
      · refine proceeds_cons (e := .keepalive []) trivial (s' := { s with phase := .exited .connectionClosed })
          ?_ (proceeds_exited (how := .connectionClosed) rfl h1)
        simp only [step, St.keepalive, hp]
        rw [if_neg (Classical.not_not.2 hd), if_pos hs]
      · by_cases hdl : dl ≤ s.now
        · refine proceeds_cons (e := .keepalive []) trivial ?_ (proceeds_exited (how := .timedOut) (s :=
            { s with phase := .exited .timedOut, failed := some s.now, transfer := .exited
                     state := if s.state = .opened then .closing else s.state }) rfl (by simp [St.transferReady]))
          simp only [step, St.keepalive, hp]
          rw [if_neg (Classical.not_not.2 hd), if_neg hs, if_pos hdl]
        · exact proceeds_now (by simp [St.keepaliveReady, hp, hd, hs]; omega) h1 h2
    · refine proceeds_cons (e := .keepalive []) trivial (s' := { s with phase := .sleeping (s.now + cfg.interval) }) ?_
        (proceeds_sleeping hi hf h1 (by simp [St.cancelReady, hx]) rfl)
      simp only [step, St.keepalive, hp]
      rw [if_pos hd]

/-- What `transfer_data` has to do -/
def St.work (s : St) : Nat :=
  2 * s.incoming.length + if s.transfer = .reading then 0 else 1

theorem transfer_work {cfg : Config} {s : St} (h : s.transferReady cfg = true) :
    ∃ s', step cfg s .transfer = some s' ∧ s'.work < s.work ∧ (∀ d ∈ s'.keys, d ∈ s.keys) := by
  simp only [step, St.transferStep]
  cases ht : s.transfer with
  | reading =>
    simp only
    cases hin : s.incoming with
    | nil => simp [St.transferReady, ht, hin] at h
    | cons p rest =>
      obtain ⟨i, a⟩ := p
      simp only
      cases i with
      | message =>
        simp only
        split
        · exact ⟨_, rfl, by simp only [St.work, hin, ht, List.length_cons]; omega, fun d hd => hd⟩
        · exact ⟨_, rfl, by simp [St.work, hin, ht]; omega, fun d hd => hd⟩
      | ping =>
        simp only
        split
        · refine ⟨_, rfl, ?_, fun d hd => hd⟩
          simp only [St.work, hin, ht, List.length_cons]
          split <;> simp <;> omega
        · split <;> exact ⟨_, rfl, by simp [St.work, hin, ht]; omega, fun d hd => hd⟩
      | pong x =>
        simp only
        split
        · exact ⟨_, rfl, by simp only [St.work, hin, ht, List.length_cons]; omega, fun d hd => mem_keys_ack hd⟩
        · exact ⟨_, rfl, by simp only [St.work, hin, ht, List.length_cons]; omega, fun d hd => hd⟩
  | putting =>
    simp only [St.transferReady, ht] at h
    simp only [h, if_true]
    exact ⟨_, rfl, by simp [St.work, ht], fun d hd => hd⟩
  | ponging =>
    simp only [St.transferReady, ht, Bool.not_eq_true'] at h
    simp only [h]
    exact ⟨_, rfl, by simp [St.work, ht], fun d hd => hd⟩
  | stuck => simp [St.transferReady, ht] at h
  | exited => simp [St.transferReady, ht] at h

/-- **C79.** Time can always pass: from any state, after finitely many steps of the tasks, they're all suspended.
(If `ping_interval` is 0 and there's no timeout, `keepalive_ping` never stops sending pings.) -/
theorem C79_progress {cfg : Config} {s : St} (hi : 0 < cfg.interval ∨ cfg.timeout ≠ none)
    (hf : ∃ data : Bytes, data.length = 4 ∧ data ∉ s.keys) : Proceeds cfg s := by
  generalize hn : s.work = n
  induction n using Nat.strongRecOn generalizing s with
  | _ n ih =>
    cases h1 : s.transferReady cfg with
    | true =>
      obtain ⟨s', h, hw, hk⟩ := transfer_work h1
      obtain ⟨d, hl, hd⟩ := hf
      exact proceeds_cons (e := .transfer) trivial h (ih s'.work (by omega) ⟨d, hl, fun hd' => hd (hk d hd')⟩ rfl)
    | false =>
      cases h2 : s.cancelReady with
      | true =>
        refine proceeds_cons (e := .cancel) trivial (s' := { s with phase := .exited .cancelled }) ?_
          (proceeds_exited (how := .cancelled) rfl h1)
        simp [step, h2]
      | false => exact proceeds_quiet hi hf h1 h2

/-! ## What isn't true -/

theorem reachable_step {cfg : Config} {s s' : St} (e : Ev) (hs : Reachable cfg s) (h : step cfg s e = some s') :
    Reachable cfg s' :=
  .step hs h trivial

/-- Time passes while no task can run. -/
theorem reachable_ticks {cfg : Config} {s : St} (n : Nat) (hs : Reachable cfg s)
    (h : ∀ k, k < n → St.keepaliveReady { s with now := s.now + k } = false)
    (h1 : s.transferReady cfg = false) (h2 : s.cancelReady = false) :
    Reachable cfg { s with now := s.now + n } := by
  induction n with
  | zero => exact hs
  | succ n ih =>
    refine reachable_step .tick (ih fun k hk => h k (by omega)) ?_
    have e1 := h n (by omega)
    have e2 : St.transferReady cfg { s with now := s.now + n } = false := h1
    have e3 : St.cancelReady { s with now := s.now + n } = false := h2
    simp only [step, e1, e2, e3]
    rfl

/-- `keepalive_ping` sent the first ping while writing is paused. -/
def pausedState (cfg : Config) : St :=
  { phase := .pinging [0, 0, 0, 0], now := cfg.interval, paused := true, pings := [([0, 0, 0, 0], true)]
    trace := [(cfg.interval, .sent [0, 0, 0, 0])] }

theorem reachable_pausedState (cfg : Config) : Reachable cfg (pausedState cfg) := by
  have h0 : Reachable cfg { init cfg with paused := true } :=
    reachable_step .pause (.init trivial) rfl
  have h1 := reachable_ticks cfg.interval h0
    (by intro k hk; simp [St.keepaliveReady, init]; omega) rfl rfl
  refine reachable_step (.keepalive [0, 0, 0, 0]) h1 ?_
  simp [step, St.keepalive, init, St.isOpen, St.keys, St.sendPing, pausedState]

/-- **C79, first part.** If writing is paused when `keepalive_ping` sends a ping, and stays paused, then
`keepalive_ping` waits forever, whatever the timeout: a connection whose peer disappeared stays open for as
long as you like. -/
theorem C79_paused_false (cfg : Config) (n : Nat) :
    ∃ s, Reachable cfg s ∧ s.Alive ∧ n ≤ s.now ∧ ∀ t i, (t, Hist.arrived i) ∉ s.trace ∧ (t, Hist.read i) ∉ s.trace := by
  refine ⟨{ pausedState cfg with now := cfg.interval + n }, ?_, ⟨rfl, by simp [pausedState]⟩, by simp only; omega,
    by simp [pausedState]⟩
  exact reachable_ticks n (reachable_pausedState cfg) (by intro k _; simp [St.keepaliveReady, pausedState]) rfl rfl

/-- **C79, first part.** If writing is paused when `keepalive_ping` sends a ping, and the peer answers before it
resumes, then `keepalive_ping` crashes, and nothing detects that the peer disappears afterwards, even though writing
isn't paused any more. -/
theorem C79_keyError_false (cfg : Config) (n : Nat) :
    ∃ s, Reachable cfg s ∧ s.Alive ∧ s.paused = false ∧ cfg.interval + n ≤ s.now ∧
      ∀ t i, (t, Hist.arrived i) ∈ s.trace ∨ (t, Hist.read i) ∈ s.trace → t ≤ cfg.interval := by
  let s1 : St := { pausedState cfg with
    pings := [], lastRead := cfg.interval
    trace := [(cfg.interval, .sent [0, 0, 0, 0]), (cfg.interval, .arrived (.pong [0, 0, 0, 0])),
      (cfg.interval, .read (.pong [0, 0, 0, 0]))] }
  have h1 : Reachable cfg s1 := by
    refine reachable_step .transfer (reachable_step (.arrive (.pong [0, 0, 0, 0])) (reachable_pausedState cfg) rfl) ?_
    simp [step, St.transferStep, pausedState, St.keys, ack, s1]
  have h2 : Reachable cfg { s1 with paused := false } := reachable_step .resume h1 rfl
  have h3 : Reachable cfg { s1 with paused := false, phase := .exited .keyError } :=
    reachable_step (.keepalive []) h2 (by simp [step, St.keepalive, St.afterPing, s1, pausedState, St.keys])
  refine ⟨{ s1 with paused := false, phase := .exited .keyError, now := cfg.interval + n },
    reachable_ticks n h3 (by intro k _; simp [St.keepaliveReady]) rfl rfl, ⟨rfl, by simp [s1, pausedState]⟩, rfl,
    Nat.le_refl _, ?_⟩
  intro t i h
  simp only [s1, List.mem_cons, Prod.mk.injEq, List.not_mem_nil, or_false] at h
  rcases h with (h | h | h) | (h | h | h)
  all_goals first | exact Nat.le_of_eq h.1 | (exact absurd h.2 (by simp))

/-- **C79, first part: the full claim is false.** -/
theorem C79_detects_false : ¬Detects := by
  intro h
  obtain ⟨s, hr, ha, hn, ht⟩ := C79_paused_false { interval := 20, timeout := some 20, maxQueue := some 32 } 41
  rcases h _ 20 s rfl hr ha with h | ⟨t, i, h, -⟩
  · simp only at h
    omega
  · exact (ht t i).2 h

/-- Every ping is answered at once, or there's some time left. -/
def answeredAtOnce (timeout now : Nat) : List (Nat × Hist) → Bool
  | (t, .sent data) :: post =>
    (now < t + timeout || (match post with
      | (a, .arrived (.pong d)) :: _ => a < t + timeout && d = data
      | _ => false)) && answeredAtOnce timeout now post
  | _ :: post => answeredAtOnce timeout now post
  | [] => true

theorem answeredAtOnce_iff {timeout now : Nat} {l : List (Nat × Hist)} (h : answeredAtOnce timeout now l = true)
    {pre : List (Nat × Hist)} {t : Nat} {data : Bytes} {post : List (Nat × Hist)}
    (hl : l = pre ++ (t, .sent data) :: post) (hn : t + timeout ≤ now) : Answered timeout t data post := by
  induction pre generalizing l with
  | nil =>
    subst hl
    simp only [List.nil_append, answeredAtOnce, Bool.and_eq_true, Bool.or_eq_true, decide_eq_true_eq] at h
    rcases h.1 with h | h
    · omega
    · split at h
      · rename_i a d rest _
        simp only [Bool.and_eq_true, decide_eq_true_eq] at h
        exact ⟨[], a, d, rest, rfl, h.1, .inl h.2⟩
      · cases h
  | cons x pre ih =>
    subst hl
    refine ih ?_ rfl
    obtain ⟨t', x⟩ := x
    cases x with
    | sent d =>
      simp only [List.cons_append, answeredAtOnce, Bool.and_eq_true] at h
      exact h.2
    | arrived i => exact h
    | read i => exact h

/-- An execution in which every ping is answered at once -/
def execAnswered (cfg : Config) (timeout : Nat) (s : St) : List Ev → Option St
  | [] => some s
  | e :: es =>
    match step cfg s e with
    | none => none
    | some s' => if answeredAtOnce timeout s'.now s'.trace then execAnswered cfg timeout s' es else none

theorem execAnswered_reach {cfg : Config} {timeout : Nat} {es : List Ev} {s s' : St} (hs : Reach cfg (Responsive timeout) s)
    (h : execAnswered cfg timeout s es = some s') : Reach cfg (Responsive timeout) s' := by
  induction es generalizing s with
  | nil => cases h; exact hs
  | cons e es ih =>
    simp only [execAnswered] at h
    split at h
    · cases h
    · rename_i s1 h1
      split at h
      · rename_i h2
        exact ih (.step hs h1 fun pre t data post he hn => answeredAtOnce_iff h2 he hn) h
      · cases h

/-- The default parameters -/
def defaults : Config := { interval := 20, timeout := some 20, maxQueue := some 32 }

/-- The peer sends 33 messages, and the application doesn't receive them.  After 20 seconds, `keepalive_ping` sends a
ping; the peer answers at once; after 20 more seconds, the connection is failed. -/
def backpressure : List Ev :=
  (List.replicate 33 [Ev.arrive .message, .transfer]).flatten ++ List.replicate 20 .tick ++
    [.keepalive [0, 0, 0, 0], .arrive (.pong [0, 0, 0, 0])] ++ List.replicate 20 .tick ++ [.keepalive []]

theorem backpressure_fails :
    ((execAnswered defaults 20 (init defaults) backpressure).map (·.failed)) = some (some 40) := by
  decide +kernel

/-- **C79, second part: the full claim is false.** With the default parameters, a connection whose peer responds at
once is failed if the application doesn't receive messages fast enough. -/
theorem C79_backpressure_false : ¬Patient := by
  intro h
  have hb := backpressure_fails
  cases he : execAnswered defaults 20 (init defaults) backpressure with
  | none => rw [he] at hb; cases hb
  | some s =>
    rw [he] at hb
    simp only [Option.map_some, Option.some.injEq] at hb
    have := h defaults 20 s rfl (execAnswered_reach (.init (by intro pre t data post h1 h2; simp [init] at h1)) he)
    rw [this] at hb
    cases hb

/-- A payload -/
def payload (n : Nat) : Bytes := [UInt8.ofNat (n / 16777216), UInt8.ofNat (n / 65536), UInt8.ofNat (n / 256), UInt8.ofNat n]

theorem payload_inj {m n : Nat} (hm : m < 4294967296) (hn : n < 4294967296) (h : payload m = payload n) : m = n := by
  simp only [payload, List.cons.injEq, and_true] at h
  obtain ⟨h1, h2, h3, h4⟩ := h
  have f : ∀ {a b : Nat}, UInt8.ofNat a = UInt8.ofNat b → a % 256 = b % 256 := by
    intro a b hab
    have := congrArg UInt8.toNat hab
    simpa using this
  have := f h1
  have := f h2
  have := f h3
  have := f h4
  omega

/-- **C79, third part: the full claim is false.** Without a timeout, a connection whose peer doesn't answer keeps
sending pings, and remembers all of them (as many as there are payloads). -/
theorem C79_unbounded_false (cfg : Config) (ht : cfg.timeout = none) (n : Nat) (hn : n < 4294967296) :
    ∃ s, Reachable cfg s ∧ s.Alive ∧ (s.pings.filter (·.2)).length = n := by
  suffices h : ∃ s, Reachable cfg s ∧ s.phase = .sleeping (s.now + cfg.interval) ∧ s.state = .opened ∧
      s.transfer = .reading ∧ s.incoming = [] ∧ s.paused = false ∧
      s.pings = (List.range n).map fun k => (payload k, true) by
    obtain ⟨s, h1, h2, h3, h4, h5, h6, h7⟩ := h
    refine ⟨s, h1, ⟨h3, by simp [h4]⟩, ?_⟩
    rw [h7, List.filter_eq_self.2 (by simp)]
    simp
  induction n with
  | zero => exact ⟨init cfg, .init trivial, by simp [init], rfl, rfl, rfl, rfl, rfl⟩
  | succ n ih =>
    obtain ⟨s, h1, h2, h3, h4, h5, h6, h7⟩ := ih (by omega)
    have g := reachable_ticks cfg.interval h1
      (by intro k hk; simp [St.keepaliveReady, h2]; omega) (by simp [St.transferReady, h4, h5])
      (by simp [St.cancelReady, h4])
    have hk : payload n ∉ s.keys := by
      intro hm
      simp only [St.keys, h7, List.map_map, List.mem_map, List.mem_range, Function.comp_apply] at hm
      obtain ⟨k, hk, he⟩ := hm
      have := payload_inj (by omega) (by omega) he
      omega
    refine ⟨_, reachable_step (.keepalive (payload n)) g
      (s' := { s with now := s.now + cfg.interval, phase := .sleeping (s.now + cfg.interval + cfg.interval)
                      pings := s.pings ++ [(payload n, true)]
                      trace := s.trace ++ [(s.now + cfg.interval, .sent (payload n))] }) ?_, rfl, h3, h4, h5, h6, ?_⟩
    · have hl : (payload n).length = 4 := rfl
      have hk' : payload n ∉ St.keys { s with now := s.now + cfg.interval } := hk
      simp only [step, St.keepalive, h2, Nat.le_refl, if_true]
      rw [if_pos (by simp [St.isOpen, h3, h4]), if_pos ⟨hl, hk'⟩, if_neg (by simp [h6]), St.afterPing,
        if_pos (by simp [St.keys, St.sendPing]), ht]
      rfl
    · simp only [h7, List.range_succ, List.map_append, List.map_cons, List.map_nil]

theorem C79_onePending_false : ¬OnePending := by
  intro h
  obtain ⟨s, hr, -, hs⟩ := C79_unbounded_false { interval := 1, timeout := none, maxQueue := none } rfl 2 (by omega)
  have := h _ s hr
  omega

/-! ## Examples -/

/-- Decides `NotPaused`. -/
def notPaused (s : St) : Bool :=
  match s.phase with
  | .sleeping wake => s.now < wake || !s.paused
  | _ => true

theorem notPaused_iff {s : St} (h : notPaused s = true) : NotPaused s := by
  intro wake hp hw
  simp only [notPaused, hp, Bool.or_eq_true, decide_eq_true_eq, Bool.not_eq_true'] at h
  rcases h with h | h
  · omega
  · exact h

/-- An execution in which every state satisfies a condition -/
def execWhile (cfg : Config) (p : St → Bool) (s : St) : List Ev → Option St
  | [] => some s
  | e :: es =>
    match step cfg s e with
    | none => none
    | some s' => if p s' then execWhile cfg p s' es else none

theorem execWhile_reach {cfg : Config} {p : St → Bool} {P : St → Prop} (hp : ∀ s, p s = true → P s) {es : List Ev}
    {s s' : St} (hs : Reach cfg P s) (h : execWhile cfg p s es = some s') : Reach cfg P s' := by
  induction es generalizing s with
  | nil => cases h; exact hs
  | cons e es ih =>
    simp only [execWhile] at h
    split at h
    · cases h
    · split at h
      · exact ih (.step hs ‹_› (hp _ ‹_›)) h
      · cases h

/-- The peer answers the first ping, sends a message, and disappears; the second ping isn't answered. -/
def disappears : List Ev :=
  List.replicate 20 .tick ++ [.keepalive [1, 2, 3, 4]] ++ List.replicate 5 .tick ++
    [.arrive (.pong [1, 2, 3, 4]), .arrive .message, .transfer, .transfer, .keepalive []] ++
    List.replicate 20 .tick ++ [.keepalive [5, 6, 7, 8]] ++ List.replicate 20 .tick

/-- `C79_detects_partial`: 40 seconds after it read something, the connection is still open … -/
example : ∃ s, Reach defaults NotPaused s ∧ s.Alive ∧ s.now = 65 ∧ s.lastRead = 25 := by
  have h : (execWhile defaults notPaused (init defaults) disappears).map
      (fun s => (s.state, s.transfer, s.now, s.lastRead)) = some (.opened, .reading, 65, 25) := by decide +kernel
  cases he : execWhile defaults notPaused (init defaults) disappears with
  | none => rw [he] at h; cases h
  | some s =>
    rw [he] at h
    simp only [Option.map_some, Option.some.injEq, Prod.mk.injEq] at h
    refine ⟨s, execWhile_reach (fun _ => notPaused_iff) (.init ?_) he, ⟨h.1, by simp [h.2.1]⟩, h.2.2.1, h.2.2.2⟩
    exact notPaused_iff (by decide)

/-- … and it's failed at once: `C79_sound`. -/
example : (exec defaults (init defaults) (disappears ++ [.keepalive []])).map (·.failed) = some (some 65) := by
  decide +kernel

/-- `C79_patient_partial`: pings that are answered after 19 seconds -/
def slow : List Ev :=
  List.replicate 20 .tick ++ [.keepalive [1, 2, 3, 4]] ++ List.replicate 19 .tick ++
    [.arrive (.pong [1, 2, 3, 4]), .transfer, .keepalive []] ++ List.replicate 20 .tick ++ [.keepalive [5, 6, 7, 8]] ++
    List.replicate 19 .tick ++ [.arrive (.pong [5, 6, 7, 8]), .transfer, .keepalive []] ++ List.replicate 5 .tick

/-- Decides `NotBlocked`, and a condition that implies `Responsive` when pongs arrive right after pings. -/
def calm (s : St) : Bool :=
  answeredAtOnce 20 s.now s.trace && (s.transfer = .reading || s.transfer = .exited)

example : ∃ s, Reach defaults (fun s => Responsive 20 s ∧ NotBlocked s) s ∧ s.now = 83 ∧ s.failed = none := by
  have h : (execWhile defaults calm (init defaults) slow).map (·.now) = some 83 := by decide +kernel
  cases he : execWhile defaults calm (init defaults) slow with
  | none => rw [he] at h; cases h
  | some s =>
    rw [he] at h
    simp only [Option.map_some, Option.some.injEq] at h
    have hr : Reach defaults (fun s => Responsive 20 s ∧ NotBlocked s) s := by
      refine execWhile_reach ?_ (.init ⟨?_, .inl rfl⟩) he
      · intro s hs
        simp only [calm, Bool.and_eq_true, Bool.or_eq_true, decide_eq_true_eq] at hs
        exact ⟨fun pre t data post he hn => answeredAtOnce_iff hs.1 he hn, hs.2⟩
      · intro pre t data post h1 h2
        simp [init] at h1
    exact ⟨s, hr, h, C79_patient_partial rfl hr⟩

/-- `C79_undisturbed_partial`: with `max_queue=None`, 40 messages that the application doesn't receive don't prevent the
connection from reading the pong. -/
def unlimited : Config := { interval := 20, timeout := some 20, maxQueue := none }

def flood : List Ev :=
  (List.replicate 40 [Ev.arrive .message, .transfer]).flatten ++ List.replicate 20 .tick ++ [.keepalive [1, 2, 3, 4]] ++
    List.replicate 19 .tick ++ [.arrive (.pong [1, 2, 3, 4]), .transfer, .keepalive []] ++ List.replicate 5 .tick

/-- Decides `Undisturbed` for `unlimited`. -/
def free (s : St) : Bool :=
  answeredAtOnce 20 s.now s.trace && !s.paused && decide (s.transfer ≠ .stuck)

example : ∃ s, Reach unlimited (fun s => Responsive 20 s ∧ Undisturbed unlimited s) s ∧ s.now = 44 ∧ s.messages = 40 ∧
    s.failed = none := by
  have h : (execWhile unlimited free (init unlimited) flood).map (fun s => (s.now, s.messages)) = some (44, 40) := by
    decide +kernel
  cases he : execWhile unlimited free (init unlimited) flood with
  | none => rw [he] at h; cases h
  | some s =>
    rw [he] at h
    simp only [Option.map_some, Option.some.injEq, Prod.mk.injEq] at h
    have hr : Reach unlimited (fun s => Responsive 20 s ∧ Undisturbed unlimited s) s := by
      refine execWhile_reach ?_ (.init ⟨?_, rfl, nofun, nofun⟩) he
      · intro s hs
        simp only [free, Bool.and_eq_true, Bool.not_eq_true', decide_eq_true_eq] at hs
        exact ⟨fun pre t data post he hn => answeredAtOnce_iff hs.1.1 he hn, hs.1.2, nofun, hs.2⟩
      · intro pre t data post h1 h2
        simp [init] at h1
    exact ⟨s, hr, h.1, h.2, (C79_undisturbed_partial rfl hr).2⟩

/-! ## Messages -/

/-- The number of messages that `transfer_data` read -/
def messagesRead (trace : List (Nat × Hist)) : Nat := trace.countP fun x => x.2 = .read .message

/-- `r` messages were received: any other message that `transfer_data` read is in the queue, or `transfer_data` waits for
room in the queue for this message, or was interrupted while it did. -/
structure Accounted (cfg : Config) (r : Nat) (s : St) : Prop where
  putting : s.transfer = .putting → messagesRead s.trace = r + s.messages + 1
  running : s.transfer ≠ .putting → s.transfer ≠ .exited → messagesRead s.trace = r + s.messages
  lower : r + s.messages ≤ messagesRead s.trace
  upper : messagesRead s.trace ≤ r + s.messages + 1
  bounded : ∀ m, cfg.maxQueue = some m → s.messages ≤ m

theorem messagesRead_snoc (l : List (Nat × Hist)) (t : Nat) (x : Hist) :
    messagesRead (l ++ [(t, x)]) = messagesRead l + if x = .read .message then 1 else 0 := by
  unfold messagesRead
  rw [List.countP_append, List.countP_singleton]
  simp

theorem Accounted.of {cfg : Config} {r : Nat} {s s' : St} (h : Accounted cfg r s) (h1 : s'.messages = s.messages)
    (h2 : messagesRead s'.trace = messagesRead s.trace) (h3 : s'.transfer = s.transfer ∨ s'.transfer = .exited) :
    Accounted cfg r s' := by
  obtain ⟨a, b, c, d, e⟩ := h
  constructor <;> grind

theorem afterPing_frame (cfg : Config) (s : St) (data : Bytes) :
    (s.afterPing cfg data).messages = s.messages ∧ (s.afterPing cfg data).trace = s.trace ∧
      (s.afterPing cfg data).transfer = s.transfer := by
  unfold St.afterPing; grind

theorem account_step {cfg : Config} {s s' : St} {e : Ev} {r : Nat} (h : step cfg s e = some s')
    (hi : Accounted cfg r s) : Accounted cfg (r + if e = .recv then 1 else 0) s' := by
  have hsnoc := messagesRead_snoc s.trace s.now
  cases e with
  | transfer =>
    obtain ⟨a, b, c, d, e⟩ := hi
    simp only [step, St.transferStep, St.room] at h
    constructor <;> grind
  | keepalive data =>
    have hp := afterPing_frame cfg (s.sendPing data true) data
    have hq := fun data => afterPing_frame cfg s data
    simp only [step, St.keepalive] at h
    simp only [St.sendPing] at hp h
    refine hi.of ?_ ?_ ?_ <;> grind
  | recv =>
    obtain ⟨a, b, c, d, e⟩ := hi
    simp only [step] at h
    constructor <;> grind
  | _ =>
    simp only [step, St.sendPing] at h
    refine hi.of ?_ ?_ ?_ <;> grind

/-- **C79.** Keepalive doesn't interfere with messages: `transfer_data` reads every message once, puts it in the queue,
and the application receives it once; the queue holds at most `max_queue` messages.  The message for which it waits for
room in the queue is lost if `transfer_data` is interrupted, e.g. because no pong was received. -/
theorem C79_messages {cfg : Config} {es : List Ev} {s : St} (h : exec cfg (init cfg) es = some s) :
    (s.transfer = .putting → messagesRead s.trace = es.count .recv + s.messages + 1) ∧
    (s.transfer ≠ .putting → s.transfer ≠ .exited → messagesRead s.trace = es.count .recv + s.messages) ∧
    es.count .recv + s.messages ≤ messagesRead s.trace ∧ messagesRead s.trace ≤ es.count .recv + s.messages + 1 ∧
    ∀ m, cfg.maxQueue = some m → s.messages ≤ m := by
  suffices H : ∀ {s0 : St} {r : Nat}, Accounted cfg r s0 → exec cfg s0 es = some s →
      Accounted cfg (r + es.count .recv) s by
    have h0 : Accounted cfg 0 (init cfg) := by
      constructor <;> simp [init, messagesRead]
    obtain ⟨a, b, c, d, e⟩ := H h0 h
    simp only [Nat.zero_add] at a b c d
    exact ⟨a, b, c, d, e⟩
  clear h
  induction es with
  | nil => intro s0 r hi h; cases h; simpa using hi
  | cons e es ih =>
    intro s0 r hi h
    simp only [exec] at h
    split at h
    · cases h
    · next s1 h1 =>
      have := ih (account_step h1 hi) h
      rw [List.count_cons]
      have he : r + (es.count .recv + if (e == Ev.recv) = true then 1 else 0) =
          r + (if e = .recv then 1 else 0) + es.count .recv := by
        simp only [beq_iff_eq]; omega
      rw [he]
      exact this

/-- Example for `C79_messages`: the queue is full, then the application receives a message. -/
example : (exec { defaults with maxQueue := some 1 } (init defaults)
      [.arrive .message, .transfer, .arrive .message, .transfer, .recv, .transfer]).map
        (fun s => (s.messages, s.transfer, messagesRead s.trace)) = some (1, .reading, 2) := by
  decide +kernel

/-- `C79_pending_partial`: a ping of `keepalive_ping` between two pings of the application -/
example : (exec defaults (init defaults) (Ev.userPing [1] :: List.replicate 20 .tick ++ [.keepalive [1, 2, 3, 4],
    .userPing [2]])).map (·.pings) = some [([1], false), ([1, 2, 3, 4], true), ([2], false)] := by
  decide +kernel

/-- The pong for the first ping of the application doesn't acknowledge the ping of `keepalive_ping`, the pong for the
second one does. -/
example : ((exec defaults (init defaults) (Ev.userPing [1] :: List.replicate 20 .tick ++ [.keepalive [1, 2, 3, 4],
    .userPing [2], .arrive (.pong [1]), .transfer])).map (·.phase)) = some (.waiting [1, 2, 3, 4] 40) ∧
  ((exec defaults (init defaults) (Ev.userPing [1] :: List.replicate 20 .tick ++ [.keepalive [1, 2, 3, 4],
    .userPing [2], .arrive (.pong [2]), .transfer, .keepalive []])).map (·.phase)) = some (.sleeping 40) := by
  decide +kernel

end WS.LegacyKeepalive
