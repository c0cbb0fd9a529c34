import Verif.Model.Connection
import Verif.Lemmas.Frames

/-! Helper lemmas on the parser loop of a connection: unfolding, progress, resumption. -/

namespace WS

variable {X E H : Type}

theorem Frame.parseRaw_done_lt {mask : Bool} {lim : Option Int} {r r' : Reader} {f : Frame}
    (h : (Frame.parseRaw mask lim).run r = .done f r') : r'.buf.length < r.buf.length := by
  obtain ⟨bytes, hb, _, hw, _⟩ := Frame.parseRaw_done h
  have hl : bytes ≠ [] := by
    rintro rfl
    obtain ⟨key, hk, h1, h2, l7, ext, _, _, _, _, e⟩ := hw
    cases key <;> simp at e
  rw [hb, List.length_append]
  have := List.length_pos_iff.2 hl
  omega

/-- Any sufficient amount of fuel gives the same result. -/
theorem Conn.loop_fuel (env : Env X E H) (c : Core X E) (r : Reader) (n : Nat)
    (h : r.buf.length < n) : Conn.loop env n c r = Conn.parseTop env c r := by
  have key : ∀ (k : Nat) (n m : Nat) (c : Core X E) (r : Reader), r.buf.length ≤ k →
      r.buf.length < n → r.buf.length < m → Conn.loop env n c r = Conn.loop env m c r := by
    intro k
    induction k with
    | zero =>
      intro n m c r hk hn hm
      obtain ⟨n, rfl⟩ : ∃ n', n = n' + 1 := ⟨n - 1, by omega⟩
      obtain ⟨m, rfl⟩ : ∃ m', m = m' + 1 := ⟨m - 1, by omega⟩
      have hb : r.buf = [] := List.eq_nil_of_length_eq_zero (by omega)
      simp only [Conn.loop]
      cases he : r.eof <;> simp [Reader.atEof, hb, he]
    | succ k ih =>
      intro n m c r hk hn hm
      obtain ⟨n, rfl⟩ : ∃ n', n = n' + 1 := ⟨n - 1, by omega⟩
      obtain ⟨m, rfl⟩ : ∃ m', m = m' + 1 := ⟨m - 1, by omega⟩
      simp only [Conn.loop]
      split
      · rfl
      · rfl
      · split
        · rfl
        · rfl
        · rename_i hd
          have := Frame.parseRaw_done_lt hd
          split
          · rfl
          · exact ih _ _ _ _ (by omega) (by omega) (by omega)
  exact key _ _ _ c r (Nat.le_refl _) h (by omega)

/-- One iteration of the parser loop, without fuel. -/
theorem Conn.parseTop_eq (env : Env X E H) (c : Core X E) (r : Reader) :
    Conn.parseTop env c r =
      match r.atEof with
      | none => (none, ⟨c, r, .top⟩)
      | some true =>
        match c.atEnd with
        | (some e, c) => (some e, ⟨c, r, .dead⟩)
        | (none, c) => (none, ⟨c, r, .parked⟩)
      | some false =>
        match (Frame.parseRaw c.maskIn c.frameLimit).run r with
        | .blocked co r => (none, ⟨c, r, .inFrame co c.frameLimit none⟩)
        | .raised e r => (some e, ⟨c, r, .dead⟩)
        | .done raw r =>
          match c.frameRead env c.frameLimit none raw with
          | (some e, c) => (some e, ⟨c, r, .dead⟩)
          | (none, c) => Conn.parseTop env c r := by
  rw [Conn.parseTop, Conn.loop]
  cases r.atEof with
  | none => rfl
  | some b =>
    cases b with
    | true => rfl
    | false =>
      simp only
      cases hd : (Frame.parseRaw c.maskIn c.frameLimit).run r with
      | blocked co r1 => rfl
      | raised e r1 => rfl
      | done raw r1 =>
        have := Frame.parseRaw_done_lt hd
        simp only
        cases c.frameRead env c.frameLimit none raw with
        | mk e c' =>
          cases e with
          | some e => rfl
          | none => exact Conn.loop_fuel env _ _ _ (by omega)

/-- Append received data to the buffer. -/
def Conn.push (c : Conn X E) (d : Bytes) : Conn X E := { c with reader := c.reader.push d }

@[simp] theorem Conn.push_core (c : Conn X E) (d : Bytes) : (c.push d).core = c.core := rfl
@[simp] theorem Conn.push_pstate (c : Conn X E) (d : Bytes) : (c.push d).pstate = c.pstate := rfl
@[simp] theorem Conn.push_reader (c : Conn X E) (d : Bytes) :
    (c.push d).reader = c.reader.push d := rfl
@[simp] theorem Conn.push_nil (c : Conn X E) : c.push [] = c := by simp [Conn.push]
theorem Conn.push_push (c : Conn X E) (a b : Bytes) : (c.push a).push b = c.push (a ++ b) := by
  simp [Conn.push, Reader.push_push]

/-- Suspended parser states that can be resumed on more data. -/
def PState.Ready (r : Reader) : PState X E → Prop
  | .hs co => co.Ready r
  | .top => True
  | .inFrame co _ _ => co.Ready r
  | .parked => False
  | .dead => True

/-- The parser waits for data that has not arrived. -/
def PState.Stuck (r : Reader) : PState X E → Prop
  | .hs co => co.run r = .blocked co r
  | .top => r.buf = []
  | .inFrame co _ _ => co.run r = .blocked co r
  | .parked => False
  | .dead => False

theorem Reader.atEof_push {r : Reader} (h : r.buf ≠ []) (d : Bytes) :
    (r.push d).atEof = some false := by
  simp [Reader.atEof, h]

theorem Conn.parseTop_push (env : Env X E H) (c : Core X E) (r : Reader) (heof : r.eof = false)
    (d : Bytes) :
    Conn.parseTop env c (r.push d) =
      match Conn.parseTop env c r with
      | (none, k) => Conn.resume env (k.push d)
      | (some e, k) => (some e, k.push d) := by
  have key : ∀ (n : Nat) (c : Core X E) (r : Reader), r.eof = false → r.buf.length ≤ n →
      Conn.parseTop env c (r.push d) =
        match Conn.parseTop env c r with
        | (none, k) => Conn.resume env (k.push d)
        | (some e, k) => (some e, k.push d) := by
    intro n
    induction n with
    | zero =>
      intro c r heof hn
      have hb : r.buf = [] := List.eq_nil_of_length_eq_zero (by omega)
      have : r.atEof = none := by simp [Reader.atEof, hb, heof]
      rw [Conn.parseTop_eq env c r, this]
      rfl
    | succ n ih =>
      intro c r heof hn
      by_cases hb : r.buf = []
      · have : r.atEof = none := by simp [Reader.atEof, hb, heof]
        rw [Conn.parseTop_eq env c r, this]
        rfl
      · have h1 : r.atEof = some false := by simp [Reader.atEof, hb]
        have h2 := Reader.atEof_push hb d
        rw [Conn.parseTop_eq env c r, h1, Conn.parseTop_eq env c (r.push d), h2]
        simp only
        have hp := Coro.run_push heof
          (.fresh (Frame.parseRaw_fresh c.maskIn c.frameLimit)) d
        rw [hp]
        cases hr : (Frame.parseRaw c.maskIn c.frameLimit).run r with
        | raised e r1 => rfl
        | blocked co r1 =>
          rfl
        | done raw r1 =>
          have hlt := Frame.parseRaw_done_lt hr
          have he1 : r1.eof = false := by
            obtain ⟨_, _, h, _⟩ := Frame.parseRaw_done hr
            rw [h, heof]
          simp only [Outcome.resume]
          cases hf : c.frameRead env c.frameLimit none raw with
          | mk e c' =>
            cases e with
            | some e => rfl
            | none => exact ih c' r1 he1 (by omega)
  exact key _ c r heof (Nat.le_refl _)

/-- Everything the parser returns: on which reader and in which suspended state. -/
theorem Conn.parseTop_ready (env : Env X E H) (c : Core X E) (r : Reader) :
    (Conn.parseTop env c r).2.reader.eof = r.eof ∧
    ((Conn.parseTop env c r).1 ≠ none → (Conn.parseTop env c r).2.pstate = .dead) ∧
    ((Conn.parseTop env c r).1 = none →
      (r.eof = true ∧ (Conn.parseTop env c r).2.pstate = .parked) ∨
      (r.eof = false ∧ (Conn.parseTop env c r).2.pstate ≠ .dead ∧
        (Conn.parseTop env c r).2.pstate.Ready (Conn.parseTop env c r).2.reader ∧
        (Conn.parseTop env c r).2.pstate.Stuck (Conn.parseTop env c r).2.reader)) := by
  have key : ∀ (n : Nat) (c : Core X E) (r : Reader), r.buf.length ≤ n →
    (Conn.parseTop env c r).2.reader.eof = r.eof ∧
    ((Conn.parseTop env c r).1 ≠ none → (Conn.parseTop env c r).2.pstate = .dead) ∧
    ((Conn.parseTop env c r).1 = none →
      (r.eof = true ∧ (Conn.parseTop env c r).2.pstate = .parked) ∨
      (r.eof = false ∧ (Conn.parseTop env c r).2.pstate ≠ .dead ∧
        (Conn.parseTop env c r).2.pstate.Ready (Conn.parseTop env c r).2.reader ∧
        (Conn.parseTop env c r).2.pstate.Stuck (Conn.parseTop env c r).2.reader)) := by
    intro n
    induction n with
    | zero =>
      intro c r hn
      have hb : r.buf = [] := List.eq_nil_of_length_eq_zero (by omega)
      cases he : r.eof with
      | false =>
        have h1 : r.atEof = none := by simp [Reader.atEof, hb, he]
        have hp := Conn.parseTop_eq env c r
        rw [h1] at hp
        simp only at hp
        rw [hp]
        refine ⟨he, by simp, fun _ => .inr ⟨rfl, by simp, trivial, hb⟩⟩
      | true =>
        have h1 : r.atEof = some true := by simp [Reader.atEof, hb, he]
        rw [Conn.parseTop_eq env c r, h1]
        simp only
        cases hc : c.atEnd with
        | mk e c' => cases e <;> simp [he]
    | succ n ih =>
      intro c r hn
      by_cases hb : r.buf = []
      · cases he : r.eof with
        | false =>
          have h1 : r.atEof = none := by simp [Reader.atEof, hb, he]
          have hp := Conn.parseTop_eq env c r
          rw [h1] at hp
          simp only at hp
          rw [hp]
          refine ⟨he, by simp, fun _ => .inr ⟨rfl, by simp, trivial, hb⟩⟩
        | true =>
          have h1 : r.atEof = some true := by simp [Reader.atEof, hb, he]
          rw [Conn.parseTop_eq env c r, h1]
          simp only
          cases hc : c.atEnd with
          | mk e c' => cases e <;> simp [he]
      · have h1 : r.atEof = some false := by simp [Reader.atEof, hb]
        rw [Conn.parseTop_eq env c r, h1]
        simp only
        obtain ⟨_, _, heq⟩ := Coro.run_suffix (Frame.parseRaw c.maskIn c.frameLimit) r
        cases hr : (Frame.parseRaw c.maskIn c.frameLimit).run r with
        | raised e r1 =>
          rw [hr] at heq
          exact ⟨heq, by simp, by simp⟩
        | blocked co r1 =>
          obtain ⟨h2, h3, h4⟩ := Coro.run_ready
            (.fresh (Frame.parseRaw_fresh c.maskIn c.frameLimit)) hr
          refine ⟨h3, by simp, fun _ => .inr ⟨h4, by simp, h2, ?_⟩⟩
          have := Coro.run_push h4 (.fresh (Frame.parseRaw_fresh c.maskIn c.frameLimit)) []
          rw [hr] at this
          simp only [Reader.push_nil, Outcome.resume, hr] at this
          exact this.symm
        | done raw r1 =>
          have hlt := Frame.parseRaw_done_lt hr
          rw [hr] at heq
          simp only
          cases hf : c.frameRead env c.frameLimit none raw with
          | mk e c' =>
            cases e with
            | some e => exact ⟨heq, by simp, by simp⟩
            | none =>
              have := ih c' r1 (by omega)
              simp only [Outcome.reader] at heq
              rw [heq] at this
              exact this
  exact key _ c r (Nat.le_refl _)

/-- Resuming on more data is the same as resuming, then resuming again with more data. -/
theorem Conn.resume_push (env : Env X E H) (k : Conn X E) (heof : k.reader.eof = false)
    (h : k.pstate.Ready k.reader) (hd : k.pstate ≠ .dead) (d : Bytes) :
    Conn.resume env (k.push d) =
      match Conn.resume env k with
      | (none, k') => Conn.resume env (k'.push d)
      | (some e, k') => (some e, k'.push d) := by
  cases hp : k.pstate with
  | dead => exact absurd hp hd
  | parked => rw [hp] at h; exact h.elim
  | top =>
    simp only [Conn.resume, Conn.push_pstate, hp, Conn.push_core, Conn.push_reader]
    exact Conn.parseTop_push env _ _ heof d
  | inFrame co lim stale =>
    rw [hp] at h
    simp only [Conn.resume, Conn.push_pstate, hp, Conn.push_core, Conn.push_reader]
    rw [Coro.run_push heof h d]
    cases hr : co.run k.reader with
    | raised e r1 => rfl
    | blocked co' r1 => rfl
    | done raw r1 =>
      simp only [Outcome.resume]
      have he1 : r1.eof = false := by
        obtain ⟨_, _, heq⟩ := Coro.run_suffix co k.reader
        rw [hr] at heq
        rw [← heof]; exact heq
      cases hf : k.core.frameRead env lim stale raw with
      | mk e c' =>
        cases e with
        | some e => rfl
        | none => exact Conn.parseTop_push env _ _ he1 d
  | hs co =>
    rw [hp] at h
    simp only [Conn.resume, Conn.push_pstate, hp, Conn.push_core, Conn.push_reader]
    rw [Coro.run_push heof h d]
    cases hr : co.run k.reader with
    | raised e r1 => rfl
    | blocked co' r1 => rfl
    | done ev r1 =>
      simp only [Outcome.resume]
      have he1 : r1.eof = false := by
        obtain ⟨_, _, heq⟩ := Coro.run_suffix co k.reader
        rw [hr] at heq
        rw [← heof]; exact heq
      cases hf : env.onHs ev k.core with
      | mk e c' =>
        cases e with
        | some e => rfl
        | none => exact Conn.parseTop_push env _ _ he1 d

/-- A connection between two API calls: the parser has been run as far as possible. -/
def Conn.Settled (k : Conn X E) : Prop :=
  (k.reader.eof = true ∧ (k.pstate = .parked ∨ k.pstate = .dead)) ∨
  (k.reader.eof = false ∧ k.pstate = .dead) ∨
  (k.reader.eof = false ∧ k.pstate ≠ .dead ∧ k.pstate.Ready k.reader ∧ k.pstate.Stuck k.reader)

/-- Running the parser leaves the connection settled. -/
theorem Conn.resume_settled (env : Env X E H) (k : Conn X E)
    (h : k.pstate.Ready k.reader) (hd : k.pstate ≠ .dead) :
    (k.resume env).2.Settled ∧ ((k.resume env).1 ≠ none ↔ (k.resume env).2.pstate = .dead) ∧
      (k.resume env).2.reader.eof = k.reader.eof := by
  have top : ∀ (c : Core X E) (r : Reader), r.eof = k.reader.eof →
      (Conn.parseTop env c r).2.Settled ∧
      ((Conn.parseTop env c r).1 ≠ none ↔ (Conn.parseTop env c r).2.pstate = .dead) ∧
      (Conn.parseTop env c r).2.reader.eof = k.reader.eof := by
    intro c r he
    obtain ⟨h1, h2, h3⟩ := Conn.parseTop_ready env c r
    refine ⟨?_, ⟨h2, fun hd hn => ?_⟩, by rw [h1, he]⟩
    rotate_left
    · rcases h3 hn with ⟨_, b⟩ | ⟨_, b, _⟩
      · rw [hd] at b; cases b
      · exact b hd
    cases hx : (Conn.parseTop env c r).1 with
    | some e =>
      have := h2 (by simp [hx])
      cases hr : r.eof
      · exact .inr (.inl ⟨by rw [h1, hr], this⟩)
      · exact .inl ⟨by rw [h1, hr], .inr this⟩
    | none =>
      rcases h3 hx with ⟨a, b⟩ | ⟨a, hdd, b, c'⟩
      · exact .inl ⟨by rw [h1, a], .inl b⟩
      · exact .inr (.inr ⟨by rw [h1, a], hdd, b, c'⟩)
  have dead : ∀ (c : Core X E) (r : Reader), r.eof = k.reader.eof →
      Conn.Settled (⟨c, r, .dead⟩ : Conn X E) := by
    intro c r he
    cases hr : r.eof
    · exact .inr (.inl ⟨hr, rfl⟩)
    · exact .inl ⟨hr, .inr rfl⟩
  cases hp : k.pstate with
  | dead => exact absurd hp hd
  | parked => rw [hp] at h; exact h.elim
  | top =>
    simp only [Conn.resume, hp]
    exact top _ _ rfl
  | inFrame co lim stale =>
    rw [hp] at h
    simp only [Conn.resume, hp]
    obtain ⟨_, _, heq⟩ := Coro.run_suffix co k.reader
    cases hr : co.run k.reader with
    | raised e r1 =>
      rw [hr] at heq
      exact ⟨dead _ _ heq, by simp, heq⟩
    | blocked co' r1 =>
      rw [hr] at heq
      obtain ⟨a, b, c⟩ := Coro.run_ready h hr
      refine ⟨.inr (.inr ⟨by rw [b]; exact c, by simp, a, ?_⟩), by simp, b⟩
      have hrun := Coro.run_push c h []
      rw [hr] at hrun
      simp only [Reader.push_nil, Outcome.resume, hr] at hrun
      exact hrun.symm
    | done raw r1 =>
      rw [hr] at heq
      simp only
      cases hf : k.core.frameRead env lim stale raw with
      | mk e c' =>
        cases e with
        | some e => exact ⟨dead _ _ heq, by simp, heq⟩
        | none => exact top _ _ heq
  | hs co =>
    rw [hp] at h
    simp only [Conn.resume, hp]
    obtain ⟨_, _, heq⟩ := Coro.run_suffix co k.reader
    cases hr : co.run k.reader with
    | raised e r1 =>
      rw [hr] at heq
      exact ⟨dead _ _ heq, by simp, heq⟩
    | blocked co' r1 =>
      rw [hr] at heq
      obtain ⟨a, b, c⟩ := Coro.run_ready h hr
      refine ⟨.inr (.inr ⟨by rw [b]; exact c, by simp, a, ?_⟩), by simp, b⟩
      have hrun := Coro.run_push c h []
      rw [hr] at hrun
      simp only [Reader.push_nil, Outcome.resume, hr] at hrun
      exact hrun.symm
    | done ev r1 =>
      rw [hr] at heq
      simp only
      cases hf : env.onHs ev k.core with
      | mk e c' =>
        cases e with
        | some e => exact ⟨dead _ _ heq, by simp, heq⟩
        | none => exact top _ _ heq

theorem Conn.step_alive (env : Env X E H) (k : Conn X E) (hd : k.pstate ≠ .dead) :
    k.step env =
      match k.resume env with
      | (none, c) => (none, c)
      | (some e, c) =>
        match c.core.failConnection env (failCode e).1 (failCode e).2 with
        | (some e', core) => (some e', { c with core })
        | (none, core) => (some e, { c with core := { core with parserExc := some e } }) := by
  unfold Conn.step
  split
  · rename_i h; exact absurd h hd
  · rfl

theorem Conn.step_dead (env : Env X E H) (k : Conn X E) (hd : k.pstate = .dead) :
    k.step env = (if k.core.parserExc = none then some .assertionError else some .runtimeError, k) := by
  unfold Conn.step
  rw [hd]
  simp only
  split <;> rfl

/-- After a step, the connection is settled. -/
theorem Conn.step_settled (env : Env X E H) (k : Conn X E) (h : k.pstate.Ready k.reader) :
    (k.step env).2.Settled ∧ (k.step env).2.reader.eof = k.reader.eof ∧
      ((k.step env).1 ≠ none → (k.step env).2.pstate = .dead) := by
  by_cases hd : k.pstate = .dead
  · rw [Conn.step_dead env k hd]
    refine ⟨?_, rfl, fun _ => hd⟩
    cases he : k.reader.eof
    · exact .inr (.inl ⟨he, hd⟩)
    · exact .inl ⟨he, .inr hd⟩
  · obtain ⟨h1, h2, h3⟩ := Conn.resume_settled env k h hd
    rw [Conn.step_alive env k hd]
    cases hr : k.resume env with
    | mk e c =>
      rw [hr] at h1 h2 h3
      cases e with
      | none => exact ⟨h1, h3, by simp⟩
      | some e =>
        have hdd := h2.1 (by simp)
        simp only at h1 hdd h3 ⊢
        have : ∀ core, Conn.Settled { c with core } := by
          intro core
          cases he : c.reader.eof
          · exact .inr (.inl ⟨he, hdd⟩)
          · exact .inl ⟨he, .inr hdd⟩
        cases hf : c.core.failConnection env (failCode e).1 (failCode e).2 with
        | mk e' core =>
          cases e' with
          | some e' => exact ⟨this _, h3, fun _ => hdd⟩
          | none => exact ⟨this _, h3, fun _ => hdd⟩

/-- Stepping on more data is the same as stepping, then stepping again with more data. -/
theorem Conn.step_push (env : Env X E H) (k : Conn X E) (heof : k.reader.eof = false)
    (h : k.pstate.Ready k.reader) (d : Bytes) :
    Conn.step env (k.push d) =
      match Conn.step env k with
      | (none, k') => Conn.step env (k'.push d)
      | (some e, k') => (some e, k'.push d) := by
  by_cases hd : k.pstate = .dead
  · rw [Conn.step_dead env k hd, Conn.step_dead env (k.push d) hd]
    simp only [Conn.push_core]
    by_cases hx : k.core.parserExc = none
    · simp only [hx, if_true]
    · simp only [hx, if_false]
  · rw [Conn.step_alive env k hd, Conn.step_alive env (k.push d) hd,
      Conn.resume_push env k heof h hd d]
    cases hr : k.resume env with
    | mk e k1 =>
      cases e with
      | none =>
        simp only
        have hd1 : (k1.push d).pstate ≠ .dead := by
          intro hd1
          obtain ⟨h1, h2, h3⟩ := Conn.resume_settled env k h hd
          rw [hr] at h2
          exact absurd (h2.2 hd1) (by simp)
        rw [Conn.step_alive env _ hd1]
      | some e =>
        simp only
        cases hf : k1.core.failConnection env (failCode e).1 (failCode e).2 with
        | mk e' core => cases e' <;> simp [hf, Conn.push]

/-- A stuck parser does nothing when resumed. -/
theorem Conn.resume_stuck (env : Env X E H) (k : Conn X E) (heof : k.reader.eof = false)
    (h : k.pstate.Stuck k.reader) : k.resume env = (none, k) := by
  obtain ⟨core, r, p⟩ := k
  cases p with
  | dead => exact h.elim
  | parked => exact h.elim
  | top =>
    simp only [PState.Stuck] at h
    have h1 : r.atEof = none := by simp [Reader.atEof, h, show r.eof = false from heof]
    simp only [Conn.resume]
    rw [Conn.parseTop_eq, h1]
  | inFrame co lim stale =>
    simp only [PState.Stuck] at h
    simp only [Conn.resume, h]
  | hs co =>
    simp only [PState.Stuck] at h
    simp only [Conn.resume, h]

theorem PState.Ready.push {p : PState X E} {r : Reader} (h : p.Ready r) (d : Bytes) :
    p.Ready (r.push d) := by
  cases p with
  | dead => trivial
  | parked => exact h.elim
  | top => trivial
  | inFrame co lim stale => exact Coro.Ready.push (c := co) h d
  | hs co => exact Coro.Ready.push (c := co) h d

theorem Coro.Ready.eof {α : Type} {c : Coro α} {r : Reader} (h : c.Ready r) (b : Bool) :
    c.Ready { r with eof := b } := by
  cases h with
  | fresh h => exact .fresh h
  | line p k hp hn hk => exact .line p k hp hn hk

theorem PState.Ready.setEof {p : PState X E} {r : Reader} (h : p.Ready r) (b : Bool) :
    p.Ready { r with eof := b } := by
  cases p with
  | dead => trivial
  | parked => exact h.elim
  | top => trivial
  | inFrame co lim stale => exact Coro.Ready.eof (c := co) h b
  | hs co => exact Coro.Ready.eof (c := co) h b

theorem Conn.Settled.ready {k : Conn X E} (h : k.Settled) (heof : k.reader.eof = false) :
    k.pstate.Ready k.reader := by
  rcases h with ⟨a, _⟩ | ⟨_, a⟩ | ⟨_, _, a, _⟩
  · rw [heof] at a; cases a
  · rw [a]; trivial
  · exact a

theorem Conn.receiveData_eq (env : Env X E H) (k : Conn X E) (d : Bytes) :
    k.receiveData env d =
      if k.reader.eof then (some .eofError, k) else Conn.step env (k.push d) := by
  unfold Conn.receiveData Reader.feedData
  by_cases h : k.reader.eof <;> simp [h, Conn.push, Reader.push]

theorem Conn.receiveEof_eq (env : Env X E H) (k : Conn X E) :
    k.receiveEof env =
      if k.reader.eof then (some .eofError, k)
      else Conn.step env { k with reader := { k.reader with eof := true } } := by
  unfold Conn.receiveEof Reader.feedEof
  by_cases h : k.reader.eof <;> simp [h]

theorem PState.Ready.rebind {p : PState X E} {r : Reader} (h : p.Ready r) (old : List X) :
    (p.rebind old).Ready r := by
  unfold PState.rebind
  split
  · exact h
  · exact h

theorem Conn.Settled.core {k : Conn X E} (h : k.Settled) (core : Core X E) :
    Conn.Settled { k with core } := h

theorem Conn.Settled.rebind {k : Conn X E} (h : k.Settled) (core : Core X E) (old : List X) :
    Conn.Settled { k with core, pstate := k.pstate.rebind old } := by
  obtain ⟨c, r, p⟩ := k
  cases p with
  | inFrame co lim stale =>
    cases stale with
    | some _ => exact h
    | none =>
      rcases h with ⟨a, b⟩ | ⟨_, a⟩ | ⟨a, _, b, c⟩
      · rcases b with b | b <;> cases b
      · cases a
      · exact .inr (.inr ⟨a, by simp [PState.rebind], b, c⟩)
  | _ => exact h

/-- Every API call leaves the connection settled. -/
theorem Conn.apply_settled (env : Env X E H) {k : Conn X E} (h : k.Settled) (op : Op H) :
    (k.apply env op).2.Settled := by
  cases op with
  | receiveData d =>
    simp only [Conn.apply, Conn.receiveData_eq]
    split
    · exact h
    · rename_i he
      exact (Conn.step_settled env _ ((h.ready (by simpa using he)).push d)).1
  | receiveEof =>
    simp only [Conn.apply, Conn.receiveEof_eq]
    split
    · exact h
    · rename_i he
      exact (Conn.step_settled env _ ((h.ready (by simpa using he)).setEof true)).1
  | handshake x =>
    simp only [Conn.apply]
    split
    · exact h.core _
    · exact h.rebind _ _
  | _ => exact h.core _

theorem Conn.exec_settled (env : Env X E H) {k : Conn X E} (h : k.Settled) (ops : List (Op H)) :
    (k.exec env ops).2.Settled := by
  induction ops generalizing k with
  | nil => exact h
  | cons op ops ih => exact ih (Conn.apply_settled env h op)

theorem Conn.init_settled (side : Side) (state : State) (m : Option Int) :
    (Conn.init side state m : Conn X E).Settled :=
  .inr (.inr ⟨rfl, by simp [Conn.init], trivial, rfl⟩)

end WS
