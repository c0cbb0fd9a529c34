import Verif.Props.LegacyRegistry

/-!
# C100: shutting down a legacy server ends

The model is in `Verif.Model.LegacyRegistry`.
-/

namespace WS.LegacyRegistry

variable {X : Type}

/-! ## Specification -/

/-- The events that occur once the server is closing, provided that connection handlers end: asyncio calls
`connection_lost` and tasks that wait for something that happened go on.  `connection_lost` is called once and
`close_connection` ends once.  If `clients` is true, clients take part: those in the opening handshake send their
request, or the connection breaks. -/
def Spec.Internal (clients : Bool) (s : Server) : Event X → Prop
  | .handshake _ _ _ | .handshakeError _ => clients = true
  | .lose i => ∃ c, s.conns[i]? = some c ∧ c.lost = false
  | .closeEnds i => ∃ c, s.conns[i]? = some c ∧ c.closeEnded = false
  | .waited _ | .returned _ | .raised _ | .closed _ => True
  | .stop | .snapshot | .taskStarts _ | .taskEnds _ | .tasksEnded | .handlersEnded => True
  | _ => False

/-- A sequence of such events -/
inductive Spec.Runs (X : Type) (clients : Bool) : Server → List (Event X) → Server → Prop where
  | nil (s : Server) : Runs X clients s [] s
  | cons {s s' s'' : Server} {e : Event X} {es : List (Event X)} (hi : Spec.Internal clients s e)
      (h : step s e = some s') (t : Runs X clients s' es s'') : Runs X clients s (e :: es) s''

/-- Nothing more happens. -/
def Spec.Stuck (X : Type) (clients : Bool) (s : Server) : Prop :=
  ∀ e : Event X, Spec.Internal clients s e → step s e = none

/-- Connection `i` is in the opening handshake. -/
def Spec.Handshaking (s : Server) (i : Nat) : Prop := ∃ c, s.conns[i]? = some c ∧ c.phase = .handshake

/-- The client `i` sends its request, or breaks the connection, or the application cancels the handler. -/
def Spec.About (i : Nat) : Event X → Prop
  | .handshake j _ _ | .handshakeError j | .cancel j => j = i
  | _ => False

/-! ## Lemmas -/

/-- The connections that the task of the server refers to exist, once. -/
private def Valid (s : Server) : Prop :=
  (∀ tasks, s.closer = .closing tasks → (tasks.map (·.1)).Nodup ∧ ∀ t ∈ tasks, t.1 < s.conns.length)
    ∧ (∀ ids, s.closer = .waiting ids → ∀ i ∈ ids, i < s.conns.length)

private def phaseWeight : Phase → Nat
  | .handshake => 3
  | .running => 2
  | .waitClosed => 1
  | .closing => 1
  | .done => 0

private def connWeight (c : Conn) : Nat :=
  phaseWeight c.phase + (if c.lost then 0 else 1) + (if c.closeEnded then 0 else 1)

private def taskWeight : Task → Nat
  | .scheduled => 2
  | .running => 1
  | .ended => 0

private def closerWeight (n : Nat) : Closer → Nat
  | .none => 0
  | .created => 2 * n + 4
  | .stopped => 2 * n + 3
  | .closing tasks => (tasks.map fun t => taskWeight t.2).sum + 2
  | .waiting _ => 1
  | .done => 0

private def weight (s : Server) : Nat :=
  (s.conns.map connWeight).sum + closerWeight s.websockets.length s.closer

private theorem sum_set {α : Type} (f : α → Nat) (l : List α) (i : Nat) (a b : α) (h : l[i]? = some a) :
    ((l.set i b).map f).sum + f a = (l.map f).sum + f b := by
  induction l generalizing i with
  | nil => simp at h
  | cons x l ih =>
    cases i with
    | zero => simp at h; subst h; simp; omega
    | succ i =>
      simp only [List.getElem?_cons_succ] at h
      have := ih i h
      simp only [List.set_cons_succ, List.map_cons, List.sum_cons]
      omega

private theorem sum_le_mul {α : Type} (f : α → Nat) (k : Nat) (l : List α) (h : ∀ a ∈ l, f a ≤ k) :
    (l.map f).sum ≤ k * l.length := by
  induction l with
  | nil => simp
  | cons a l ih =>
    have := ih fun b hb => h b (by simp [hb])
    have := h a (by simp)
    simp only [List.map_cons, List.sum_cons, List.length_cons, Nat.mul_add, Nat.mul_one]
    omega

private theorem tasks_same {tasks : List (Nat × Task)} {i : Nat} (b : Task) (h : i ∉ tasks.map (·.1)) :
    (tasks.map fun t => if t.1 = i then (i, b) else t) = tasks := by
  induction tasks with
  | nil => rfl
  | cons t tasks ih =>
    simp only [List.map_cons, List.mem_cons, not_or] at h
    simp only [List.map_cons, ih h.2]
    rw [if_neg fun hi => h.1 hi.symm]

private theorem tasks_weight {tasks : List (Nat × Task)} {i : Nat} (a b : Task) (hn : (tasks.map (·.1)).Nodup)
    (h : (i, a) ∈ tasks) :
    ((tasks.map fun t => if t.1 = i then (i, b) else t).map fun t => taskWeight t.2).sum + taskWeight a
      = (tasks.map fun t => taskWeight t.2).sum + taskWeight b := by
  induction tasks with
  | nil => cases h
  | cons t tasks ih =>
    simp only [List.map_cons, List.nodup_cons] at hn
    rcases List.mem_cons.1 h with rfl | h
    · rw [List.map_cons, tasks_same b hn.1]
      simp only [if_true, List.map_cons, List.sum_cons]
      omega
    · have hne : t.1 ≠ i := fun hi => hn.1 (List.mem_map.2 ⟨_, h, hi.symm⟩)
      have := ih hn.2 h
      rw [List.map_cons, if_neg hne]
      simp only [List.map_cons, List.sum_cons]
      omega

private theorem tasks_ids (tasks : List (Nat × Task)) (i : Nat) (b : Task) :
    (tasks.map fun t => if t.1 = i then (i, b) else t).map (·.1) = tasks.map (·.1) := by
  rw [List.map_map]
  refine List.map_congr_left fun t _ => ?_
  simp only [Function.comp]
  split
  · rename_i h; exact h.symm
  · rfl

private theorem tasks_all {P : Nat → Prop} {tasks : List (Nat × Task)} (i : Nat) (b : Task)
    (h : ∀ t ∈ tasks, P t.1) : ∀ t ∈ (tasks.map fun t => if t.1 = i then (i, b) else t), P t.1 := by
  intro t ht
  obtain ⟨u, hu, rfl⟩ := List.mem_map.1 ht
  split
  · rename_i hi; subst hi; exact h u hu
  · exact h u hu

private theorem sendClose_weight (c : Conn) (k : Nat) :
    (c.sendClose k).phase = c.phase ∧ (c.sendClose k).lost = c.lost ∧ (c.sendClose k).closeEnded = c.closeEnded := by
  unfold Conn.sendClose
  split <;> simp

private theorem websockets_lt {es : List (Event X)} {s : Server} (h : run {} es = some s) :
    ∀ i ∈ s.websockets, i < s.conns.length := by
  intro i hi
  obtain ⟨c, hc, _⟩ := (C63_registry es s h).2.2 i |>.1 hi
  exact (List.getElem?_eq_some_iff.1 hc).1

private theorem run_snoc {s s' s'' : Server} {es : List (Event X)} {e : Event X} (h : run s es = some s')
    (h' : step s' e = some s'') : run s (es ++ [e]) = some s'' := by
  induction es generalizing s with
  | nil => cases h; simp [run, h']
  | cons a es ih =>
    simp only [run, List.cons_append] at h ⊢
    split at h
    · cases h
    · exact ih h

/-- The connections stay; `wait_closed()` of the server doesn't return before the handlers. -/
private theorem step_valid {s s' : Server} {e : Event X} (hw : ∀ i ∈ s.websockets, i < s.conns.length)
    (hn : s.websockets.Nodup) (hv : Valid s) (h : step s e = some s') : Valid s' := by
  have put : ∀ (i : Nat) (c : Conn), Valid (s.put i c) := fun i c => by
    refine ⟨fun tasks ht => ?_, fun ids hi => ?_⟩
    · have := hv.1 tasks ht
      simpa [Server.put] using this
    · have := hv.2 ids hi
      simpa [Server.put] using this
  have ended : ∀ (i : Nat) (c : Conn), Valid (s.endHandler i c) := fun i c => by
    refine ⟨fun tasks ht => ?_, fun ids hi => ?_⟩
    · have := hv.1 tasks ht
      simpa [Server.endHandler, Server.unregister] using this
    · have := hv.2 ids hi
      simpa [Server.endHandler, Server.unregister] using this
  cases e with
  | accept =>
    cases h
    refine ⟨fun tasks ht => ⟨(hv.1 tasks ht).1, fun t hm => ?_⟩, fun ids hi i hm => ?_⟩
    · have := (hv.1 tasks ht).2 t hm
      simp only [List.length_append, List.length_singleton]; omega
    · have := hv.2 ids hi i hm
      simp only [List.length_append, List.length_singleton]; omega
  | serverClose =>
    simp only [step] at h
    split at h
    · cases h; exact ⟨fun tasks ht => by simp at ht, fun ids hi => by simp at hi⟩
    · cases h; exact hv
  | stop =>
    simp only [step] at h
    split at h
    · cases h; exact ⟨fun tasks ht => by simp at ht, fun ids hi => by simp at hi⟩
    · cases h
  | snapshot =>
    simp only [step] at h
    split at h
    · cases h
      refine ⟨fun tasks ht => ?_, fun ids hi => by simp at hi⟩
      simp only [Closer.closing.injEq] at ht
      subst ht
      refine ⟨?_, fun t hm => ?_⟩
      · rw [List.map_map]
        have : ((fun x : Nat × Task => x.1) ∘ fun x => (x, Task.scheduled)) = id := rfl
        rw [this, List.map_id]
        exact hn
      · obtain ⟨i, hi, rfl⟩ := List.mem_map.1 hm
        exact hw i hi
    · cases h
  | taskStarts i =>
    simp only [step] at h
    split at h
    · rename_i tasks c ht hc
      split at h
      · have hvt := hv.1 tasks ht
        split at h
        all_goals
          cases h
          refine ⟨fun tasks' ht' => ?_, fun ids hi => by simp at hi⟩
          simp only [Closer.closing.injEq] at ht'
          subst ht'
          rw [tasks_ids]
          refine ⟨hvt.1, tasks_all (P := fun i => i < _) i _ ?_⟩
          simpa [Server.put] using hvt.2
      · cases h
    · cases h
  | taskEnds i =>
    simp only [step] at h
    split at h
    · rename_i tasks c ht hc
      split at h
      · have hvt := hv.1 tasks ht
        cases h
        refine ⟨fun tasks' ht' => ?_, fun ids hi => by simp at hi⟩
        simp only [Closer.closing.injEq] at ht'
        subst ht'
        rw [tasks_ids]
        exact ⟨hvt.1, tasks_all (P := fun i => i < _) i _ hvt.2⟩
      · cases h
    · cases h
  | tasksEnded =>
    simp only [step] at h
    split at h
    · split at h
      · cases h
        refine ⟨fun tasks ht => by simp at ht, fun ids hi => ?_⟩
        simp only [Closer.waiting.injEq] at hi
        subst hi
        exact hw
      · cases h
    · cases h
  | handlersEnded =>
    simp only [step] at h
    split at h
    · split at h
      · cases h; exact ⟨fun tasks ht => by simp at ht, fun ids hi => by simp at hi⟩
      · cases h
    · cases h
  | _ =>
    simp only [step] at h
    repeat' split at h
    all_goals first
      | cases h; done
      | (cases h; exact put _ _)
      | (cases h; exact ended _ _)

private theorem run_valid {es : List (Event X)} {s : Server} (h : run {} es = some s) : Valid s := by
  have key : ∀ (l : List (Event X)) (pre : List (Event X)) (a : Server), run {} pre = some a → Valid a →
      run a l = some s → Valid s := by
    intro l
    induction l with
    | nil => intro pre a _ hv h; cases h; exact hv
    | cons e l ih =>
      intro pre a hp hv h
      simp only [run] at h
      split at h
      · cases h
      · rename_i a1 h1
        exact ih (pre ++ [e]) a1 (run_snoc hp h1)
          (step_valid (websockets_lt hp) (C63_registry pre a hp).2.1 hv h1) h
  exact key es [] {} rfl ⟨fun _ h => by simp at h, fun _ h => by simp at h⟩ h

private theorem put_weight {s : Server} {i : Nat} {c c' : Conn} (hc : s.conns[i]? = some c)
    (h : connWeight c' < connWeight c) : weight (s.put i c') < weight s := by
  have := sum_set connWeight s.conns i c c' hc
  simp only [weight, Server.put]
  omega

private theorem erase_weight (l : List Nat) (i : Nat) (c : Closer) :
    closerWeight (l.erase i).length c ≤ closerWeight l.length c := by
  have : (l.erase i).length ≤ l.length := List.length_erase_le
  cases c <;> simp only [closerWeight] <;> omega

private theorem ended_weight {s : Server} {i : Nat} {c c' : Conn} (hc : s.conns[i]? = some c)
    (h : connWeight { c' with phase := .done } < connWeight c) : weight (s.endHandler i c') < weight s := by
  have := sum_set connWeight s.conns i c { c' with phase := .done } hc
  have := erase_weight s.websockets i s.closer
  simp only [weight, Server.endHandler, Server.unregister]
  omega

/-- Every internal event makes progress. -/
private theorem step_weight {s s' : Server} {e : Event X} {b : Bool} (hv : Valid s) (hi : Spec.Internal b s e)
    (h : step s e = some s') : weight s' < weight s := by
  cases e with
  | handshake i setup request =>
    simp only [step] at h
    split at h
    · cases h
    · rename_i c hc
      split at h
      · rename_i hp
        split at h
        · split at h
          all_goals
            cases h
            refine put_weight hc ?_
            simp only [connWeight, hp, phaseWeight]
            omega
        · cases h
          refine put_weight hc ?_
          simp only [connWeight, hp, phaseWeight]
          omega
        · cases h
          refine ended_weight hc ?_
          simp only [connWeight, hp, phaseWeight]
          omega
      · cases h
  | handshakeError i =>
    simp only [step] at h
    split at h
    · cases h
    · rename_i c hc
      split at h
      · rename_i hp
        cases h
        refine ended_weight hc ?_
        simp only [connWeight, hp, phaseWeight]
        omega
      · cases h
  | lose i =>
    obtain ⟨c, hc, hl⟩ := hi
    simp only [step, hc] at h
    cases h
    refine put_weight hc ?_
    simp [connWeight, hl]
  | closeEnds i =>
    obtain ⟨c, hc, hl⟩ := hi
    simp only [step, hc] at h
    split at h
    · cases h
      refine put_weight hc ?_
      simp [connWeight, hl]
    · cases h
  | waited i =>
    simp only [step] at h
    split at h
    · cases h
    · rename_i c hc
      split at h
      · rename_i hp
        cases h
        refine ended_weight hc ?_
        simp only [connWeight, hp.1, phaseWeight]
        omega
      · cases h
  | closed i =>
    simp only [step] at h
    split at h
    · cases h
    · rename_i c hc
      split at h
      · rename_i hp
        cases h
        refine ended_weight hc ?_
        simp only [connWeight, hp.1, phaseWeight]
        omega
      · cases h
  | returned i =>
    simp only [step] at h
    split at h
    · cases h
    · rename_i c hc
      split at h
      · rename_i hp
        cases h
        refine put_weight hc ?_
        simp only [connWeight, hp, phaseWeight, sendClose_weight]
        omega
      · cases h
  | raised i =>
    simp only [step] at h
    split at h
    · cases h
    · rename_i c hc
      split at h
      · rename_i hp
        cases h
        refine ended_weight hc ?_
        simp only [connWeight, hp, phaseWeight, sendClose_weight]
        omega
      · cases h
  | stop =>
    simp only [step] at h
    split at h
    · rename_i hc
      cases h
      simp only [weight, hc, closerWeight]
      omega
    · cases h
  | snapshot =>
    simp only [step] at h
    split at h
    · rename_i hc
      cases h
      have := sum_le_mul (fun t : Nat × Task => taskWeight t.2) 2 (s.websockets.map (·, Task.scheduled)) (by
        intro t ht
        obtain ⟨i, _, rfl⟩ := List.mem_map.1 ht
        exact Nat.le_refl 2)
      rw [List.length_map] at this
      simp only [weight, hc, closerWeight]
      omega
    · cases h
  | taskStarts i =>
    simp only [step] at h
    split at h
    · rename_i tasks c ht hc
      split at h
      · rename_i hm
        have hvt := hv.1 tasks ht
        split at h
        · cases h
          have h1 := tasks_weight .scheduled .running hvt.1 hm
          have h2 := sum_set connWeight s.conns i c (c.sendClose 1001) hc
          have h3 : connWeight (c.sendClose 1001) = connWeight c := by simp only [connWeight, sendClose_weight]
          simp only [weight, Server.put, ht, closerWeight]
          simp only [taskWeight] at h1 ⊢
          omega
        · cases h
          have h1 := tasks_weight .scheduled .ended hvt.1 hm
          simp only [weight, ht, closerWeight]
          simp only [taskWeight] at h1 ⊢
          omega
      · cases h
    · cases h
  | taskEnds i =>
    simp only [step] at h
    split at h
    · rename_i tasks c ht hc
      split at h
      · rename_i hm
        have hvt := hv.1 tasks ht
        cases h
        have h1 := tasks_weight .running .ended hvt.1 hm.1
        simp only [weight, ht, closerWeight]
        simp only [taskWeight] at h1 ⊢
        omega
      · cases h
    · cases h
  | tasksEnded =>
    simp only [step] at h
    split at h
    · rename_i hc
      split at h
      · cases h
        simp only [weight, hc, closerWeight]
        omega
      · cases h
    · cases h
  | handlersEnded =>
    simp only [step] at h
    split at h
    · rename_i hc
      split at h
      · cases h
        simp only [weight, hc, closerWeight]
        omega
      · cases h
    · cases h
  | _ => exact absurd hi (by simp [Spec.Internal])

private theorem runs_run {s s' : Server} {es pre : List (Event X)} {b : Bool} (h : Spec.Runs X b s es s')
    (hp : run {} pre = some s) : run {} (pre ++ es) = some s' := by
  induction h generalizing pre with
  | nil s => simpa using hp
  | cons hi h t ih =>
    have := ih (run_snoc hp h)
    simpa using this

private theorem runs_weight {s s' : Server} {es pre : List (Event X)} {b : Bool} (h : Spec.Runs X b s es s')
    (hp : run {} pre = some s) : es.length + weight s' ≤ weight s := by
  induction h generalizing pre with
  | nil s => simp
  | cons hi h t ih =>
    have := ih (run_snoc hp h)
    have := step_weight (run_valid hp) hi h
    simp only [List.length_cons]
    omega

private theorem length_le_of_lt (n : Nat) (l : List Nat) (hn : l.Nodup) (h : ∀ i ∈ l, i < n) : l.length ≤ n := by
  induction n generalizing l with
  | zero =>
    cases l with
    | nil => simp
    | cons a l => exact absurd (h a (by simp)) (by omega)
  | succ n ih =>
    have := ih (l.erase n) (hn.erase n) fun i hi => by
      have h1 := h i (List.mem_of_mem_erase hi)
      have h2 : i ≠ n := fun he => by
        subst he
        exact (hn.not_mem_erase) hi
      omega
    have : l.length ≤ (l.erase n).length + 1 := by rw [List.length_erase]; split <;> omega
    omega

private theorem weight_le {es : List (Event X)} {s : Server} (h : run {} es = some s) :
    weight s ≤ 7 * s.conns.length + 4 := by
  have h1 := sum_le_mul connWeight 5 s.conns fun c _ => by
    unfold connWeight
    have : phaseWeight c.phase ≤ 3 := by cases c.phase <;> simp [phaseWeight]
    split <;> split <;> omega
  have h2 := length_le_of_lt _ _ (C63_registry es s h).2.1 (websockets_lt h)
  unfold weight
  cases hcl : s.closer with
  | closing t =>
    have hv := (run_valid h).1 t hcl
    have h3 := length_le_of_lt s.conns.length (t.map (·.1)) hv.1 fun i hi => by
      obtain ⟨u, hu, rfl⟩ := List.mem_map.1 hi
      exact hv.2 u hu
    have h4 := sum_le_mul (fun t : Nat × Task => taskWeight t.2) 2 t fun u _ => by
      cases u.2 <;> simp [taskWeight]
    rw [List.length_map] at h3
    simp only [closerWeight]
    omega
  | _ => simp only [closerWeight]; omega

/-- A connection in the opening handshake stays there in steps that aren't about it. -/
private theorem step_handshaking {s s' : Server} {e : Event X} {i : Nat} (hi : Spec.Handshaking s i)
    (he : ¬ Spec.About i e) (h : step s e = some s') : Spec.Handshaking s' i := by
  obtain ⟨c, hc, hp⟩ := hi
  have put : ∀ (j : Nat) (d c' : Conn) (t : Server), s.conns[j]? = some d → (j = i → d = c → c'.phase = .handshake) →
      t.conns = s.conns.set j c' → Spec.Handshaking t i := fun j d c' t hd hj ht => by
    by_cases hji : j = i
    · subst hji
      rw [hc] at hd
      refine ⟨c', ?_, hj rfl (Option.some.inj hd).symm⟩
      rw [ht, List.getElem?_set_self (List.getElem?_eq_some_iff.1 hc).1]
    · exact ⟨c, by rw [ht, List.getElem?_set_ne hji]; exact hc, hp⟩
  have same : ∀ t : Server, t.conns = s.conns → Spec.Handshaking t i := fun t ht => ⟨c, by rw [ht]; exact hc, hp⟩
  cases e with
  | accept =>
    cases h
    refine ⟨c, ?_, hp⟩
    simp only
    rw [List.getElem?_append_left (List.getElem?_eq_some_iff.1 hc).1]
    exact hc
  | handshake j setup request =>
    simp only [step] at h
    split at h
    · cases h
    · rename_i d hd
      repeat' split at h
      all_goals first
        | cases h; done
        | (cases h; exact put j d _ _ hd (fun hj => absurd hj he) rfl)
  | handshakeError j =>
    simp only [step] at h
    split at h
    · cases h
    · rename_i d hd
      repeat' split at h
      all_goals first
        | cases h; done
        | (cases h; exact put j d _ _ hd (fun hj => absurd hj he) rfl)
  | cancel j =>
    simp only [step] at h
    split at h
    · cases h
    · rename_i d hd
      repeat' split at h
      all_goals first
        | cases h; done
        | (cases h; exact put j d _ _ hd (fun hj => absurd hj he) rfl)
  | waited j =>
    simp only [step] at h
    split at h
    · cases h
    · rename_i d hd
      split at h
      · rename_i hj
        cases h
        exact put j d _ _ hd (fun _ hdc => by rw [hdc, hp] at hj; cases hj.1) rfl
      · cases h
  | closed j =>
    simp only [step] at h
    split at h
    · cases h
    · rename_i d hd
      split at h
      · rename_i hj
        cases h
        exact put j d _ _ hd (fun _ hdc => by rw [hdc, hp] at hj; cases hj.1) rfl
      · cases h
  | returned j =>
    simp only [step] at h
    split at h
    · cases h
    · rename_i d hd
      split at h
      · rename_i hj
        cases h
        exact put j d _ _ hd (fun _ hdc => by rw [hdc, hp] at hj; cases hj) rfl
      · cases h
  | raised j =>
    simp only [step] at h
    split at h
    · cases h
    · rename_i d hd
      split at h
      · rename_i hj
        cases h
        exact put j d _ _ hd (fun _ hdc => by rw [hdc, hp] at hj; cases hj) rfl
      · cases h
  | startClosing j code =>
    simp only [step] at h
    split at h
    · cases h
    · rename_i d hd
      split at h
      · cases h
        exact put j d _ _ hd (fun _ hdc => by rw [(sendClose_weight d code).1, hdc, hp]) rfl
      · cases h
  | closeEnds j =>
    simp only [step] at h
    split at h
    · cases h
    · rename_i d hd
      split at h
      · cases h
        exact put j d _ _ hd (fun _ hdc => by rw [hdc]; exact hp) rfl
      · cases h
  | lose j =>
    simp only [step] at h
    split at h
    · cases h
    · rename_i d hd
      cases h
      exact put j d _ _ hd (fun _ hdc => by rw [hdc]; exact hp) rfl
  | taskStarts j =>
    simp only [step] at h
    split at h
    · rename_i tasks d ht hd
      split at h
      · split at h
        · cases h
          exact put j d _ _ hd (fun _ hdc => by rw [(sendClose_weight d 1001).1, hdc, hp]) rfl
        · cases h; exact same _ rfl
      · cases h
    · cases h
  | _ =>
    simp only [step] at h
    repeat' split at h
    all_goals first
      | cases h; done
      | (cases h; exact same _ rfl)

/-- Connections don't go back to the opening handshake. -/
private theorem internal_handshaking {s s' : Server} {e : Event X} {b : Bool} (hi : Spec.Internal b s e)
    (h : step s e = some s') (hn : ∀ i, ¬ Spec.Handshaking s i) : ∀ i, ¬ Spec.Handshaking s' i := by
  have put : ∀ (j : Nat) (d c' : Conn) (t : Server), s.conns[j]? = some d →
      (d.phase ≠ .handshake → c'.phase ≠ .handshake) →
      t.conns = s.conns.set j c' → ∀ i, ¬ Spec.Handshaking t i := by
    rintro j d c' t hd hj ht i ⟨c, hc, hp⟩
    rw [ht] at hc
    by_cases hji : j = i
    · subst hji
      rw [List.getElem?_set_self (List.getElem?_eq_some_iff.1 hd).1] at hc
      cases hc
      exact hj (fun h => hn j ⟨d, hd, h⟩) hp
    · rw [List.getElem?_set_ne hji] at hc
      exact hn i ⟨c, hc, hp⟩
  have same : ∀ t : Server, t.conns = s.conns → ∀ i, ¬ Spec.Handshaking t i := by
    rintro t ht i ⟨c, hc, hp⟩
    exact hn i ⟨c, by rw [← ht]; exact hc, hp⟩
  cases e with
  | accept => exact absurd hi (by simp [Spec.Internal])
  | startClosing j code => exact absurd hi (by simp [Spec.Internal])
  | taskStarts j =>
    simp only [step] at h
    split at h
    · rename_i tasks d ht hd
      split at h
      · split at h
        · cases h
          exact put j d _ _ hd (fun h => by rw [(sendClose_weight d 1001).1]; exact h) rfl
        · cases h; exact same _ rfl
      · cases h
    · cases h
  | closeEnds j =>
    simp only [step] at h
    split at h
    · cases h
    · rename_i d hd
      split at h
      · cases h
        exact put j d _ _ hd (fun h => by exact h) rfl
      · cases h
  | lose j =>
    simp only [step] at h
    split at h
    · cases h
    · rename_i d hd
      cases h
      exact put j d _ _ hd (fun h => by exact h) rfl
  | _ =>
    simp only [step] at h
    repeat' split at h
    all_goals first
      | cases h; done
      | (cases h; exact same _ rfl)
      | (cases h; exact put _ _ _ _ (by assumption) (fun _ => by simp) rfl)

private theorem runs_handshaking {s s' : Server} {es : List (Event X)} {b : Bool} (h : Spec.Runs X b s es s')
    (hn : ∀ i, ¬ Spec.Handshaking s i) : ∀ i, ¬ Spec.Handshaking s' i := by
  induction h with
  | nil s => exact hn
  | cons hi h t ih => exact ih (internal_handshaking hi h hn)

private theorem step_started {s s' : Server} {e : Event X} (h : step s e = some s') (hn : s.closer ≠ .none) :
    s'.closer ≠ .none := by
  have put : ∀ (j : Nat) (c : Conn), (s.put j c).closer ≠ .none := fun _ _ => hn
  have ended : ∀ (j : Nat) (c : Conn), (s.endHandler j c).closer ≠ .none := fun _ _ => hn
  cases e with
  | accept => cases h; exact hn
  | _ =>
    simp only [step] at h
    repeat' split at h
    all_goals first
      | cases h; done
      | (cases h; exact put _ _)
      | (cases h; exact ended _ _)
      | (cases h; exact hn)
      | (cases h; simp; done)

private theorem runs_started {s s' : Server} {es : List (Event X)} {b : Bool} (h : Spec.Runs X b s es s')
    (hn : s.closer ≠ .none) : s'.closer ≠ .none := by
  induction h with
  | nil s => exact hn
  | cons hi h t ih => exact ih (step_started h hn)

/-- When nothing more happens, the server is closed. -/
private theorem stuck_done {s : Server} {b : Bool} (hv : Valid s) (hs : Spec.Stuck X b s) (hn : s.closer ≠ .none)
    (hb : b = true ∨ ∀ i, ¬ Spec.Handshaking s i) : s.closer = .done := by
  -- if a connection exists, it's lost
  have lost : ∀ (i : Nat) (c : Conn), s.conns[i]? = some c → c.lost = true := fun i c hc => by
    cases hl : c.lost with
    | true => rfl
    | false =>
      have := hs (.lose i) ⟨c, hc, hl⟩
      simp [step, hc] at this
  have phase : ∀ (i : Nat) (c : Conn), s.conns[i]? = some c → c.phase = .done := fun i c hc => by
    have hl := lost i c hc
    cases hp : c.phase with
    | done => rfl
    | handshake =>
      rcases hb with hb | hb
      · have := hs (.handshakeError i) hb
        simp [step, hc, hp] at this
      · exact absurd ⟨c, hc, hp⟩ (hb i)
    | waitClosed =>
      have := hs (.waited i) trivial
      simp [step, hc, hp, hl] at this
    | running =>
      have := hs (.returned i) trivial
      simp [step, hc, hp] at this
    | closing =>
      have := hs (.closed i) trivial
      simp [step, hc, hp, hl] at this
  cases hc : s.closer with
  | none => exact absurd hc hn
  | created =>
    have := hs .stop trivial
    simp [step, hc] at this
  | stopped =>
    have := hs .snapshot trivial
    simp [step, hc] at this
  | closing tasks =>
    exfalso
    have hvt := hv.1 tasks hc
    have hall : ∀ t ∈ tasks, t.2 = Task.ended := by
      rintro ⟨i, t⟩ ht
      have hci := List.getElem?_eq_getElem (hvt.2 _ ht)
      have hl := lost i _ hci
      cases t with
      | ended => rfl
      | scheduled =>
        have := hs (.taskStarts i) trivial
        simp only [step, hc, hci, if_pos ht] at this
        split at this <;> cases this
      | running =>
        have := hs (.taskEnds i) trivial
        simp only [step, hc, hci, hl] at this
        rw [if_pos ⟨ht, .inr trivial⟩] at this
        cases this
    have := hs .tasksEnded trivial
    simp only [step, hc] at this
    rw [if_pos hall] at this
    cases this
  | waiting ids =>
    exfalso
    have hvi := hv.2 ids hc
    have := hs .handlersEnded trivial
    simp only [step, hc] at this
    rw [if_pos] at this
    · cases this
    · intro i hi
      have hci := List.getElem?_eq_getElem (hvi i hi)
      rw [hci]
      simp [phase i _ hci]
  | done => rfl

/-! ## Theorems -/

/-- C100: whatever happened before, at most `7 n + 4` such events occur one after the other, `n` being the number of
connections: the server doesn't loop. -/
theorem C100_bounded (clients : Bool) (pre es : List (Event X)) (s s' : Server) (hp : run {} pre = some s)
    (h : Spec.Runs X clients s es s') : es.length ≤ 7 * s.conns.length + 4 := by
  have := runs_weight h hp
  have := weight_le hp
  omega

/-- C100: once `close()` was called, when nothing more happens, `wait_closed()` returned, provided that clients take
part or that no connection is in the opening handshake.  Connection handlers are assumed to end, connections to be
lost after they're closed.

Missing: clients that don't send a request; see `C100_silent_false`. -/
theorem C100_ends_partial (clients : Bool) (pre es : List (Event X)) (s s' : Server) (hp : run {} pre = some s)
    (hclose : s.closer ≠ .none) (hb : clients = true ∨ ∀ i, ¬ Spec.Handshaking s i)
    (h : Spec.Runs X clients s es s') (hs : Spec.Stuck X clients s') : s'.closer = .done :=
  stuck_done (run_valid (runs_run h hp)) hs (runs_started h hclose) (hb.imp id (runs_handshaking h))

/-- C100: under the same conditions, whatever happens, the server can always go on until `wait_closed()` returns. -/
theorem C100_reaches_partial (clients : Bool) (pre : List (Event X)) (s : Server) (hp : run {} pre = some s)
    (hclose : s.closer ≠ .none) (hb : clients = true ∨ ∀ i, ¬ Spec.Handshaking s i) :
    ∃ es s', Spec.Runs X clients s es s' ∧ s'.closer = .done := by
  have key : ∀ (n : Nat) (pre : List (Event X)) (s : Server), weight s ≤ n → run {} pre = some s →
      s.closer ≠ .none → (clients = true ∨ ∀ i, ¬ Spec.Handshaking s i) →
      ∃ es s', Spec.Runs X clients s es s' ∧ s'.closer = .done := by
    intro n
    induction n with
    | zero =>
      intro pre s hw hp hclose hb
      refine ⟨[], s, .nil s, stuck_done (X := X) (run_valid hp) (fun e hi => ?_) hclose hb⟩
      cases hst : step s e with
      | none => rfl
      | some s1 => exact absurd (step_weight (run_valid hp) hi hst) (by omega)
    | succ n ih =>
      intro pre s hw hp hclose hb
      by_cases hs : Spec.Stuck X clients s
      · exact ⟨[], s, .nil s, stuck_done (run_valid hp) hs hclose hb⟩
      · simp only [Spec.Stuck, Classical.not_forall] at hs
        obtain ⟨e, hi, hst⟩ := hs
        obtain ⟨s1, hs1⟩ := Option.ne_none_iff_exists'.1 hst
        have := step_weight (run_valid hp) hi hs1
        obtain ⟨es, s', hr, hd⟩ := ih (pre ++ [e]) s1 (by omega) (run_snoc hp hs1) (step_started hs1 hclose)
          (hb.imp id (internal_handshaking hi hs1))
        exact ⟨e :: es, s', .cons hi hs1 hr, hd⟩
  exact key _ pre s (Nat.le_refl _) hp hclose hb

/-- C100: as long as a client that connected before the server waits for handlers doesn't send its request,
`wait_closed()` doesn't return, whatever else happens: there's no timeout. -/
theorem C100_waits (pre es : List (Event X)) (s s' : Server) (hp : run {} pre = some s) (i : Nat)
    (hi : Spec.Handshaking s i) (hc : s.closer ≠ .done) (hw : ∀ ids, s.closer = .waiting ids → i ∈ ids)
    (hes : ∀ e ∈ es, ¬ Spec.About i e) (h : run s es = some s') : s'.closer ≠ .done := by
  induction es generalizing pre s with
  | nil => cases h; exact hc
  | cons e es ih =>
    simp only [run] at h
    split at h
    · cases h
    · rename_i s1 h1
      have hi1 := step_handshaking hi (hes e (by simp)) h1
      have hcl : s1.closer ≠ .done ∧ ∀ ids, s1.closer = .waiting ids → i ∈ ids := by
        have put : ∀ (j : Nat) (c : Conn), (s.put j c).closer ≠ .done
            ∧ ∀ ids, (s.put j c).closer = .waiting ids → i ∈ ids := fun _ _ => ⟨hc, hw⟩
        have ended : ∀ (j : Nat) (c : Conn), (s.endHandler j c).closer ≠ .done
            ∧ ∀ ids, (s.endHandler j c).closer = .waiting ids → i ∈ ids := fun _ _ => ⟨hc, hw⟩
        cases e with
        | accept => cases h1; exact ⟨hc, hw⟩
        | tasksEnded =>
          simp only [step] at h1
          split at h1
          · split at h1
            · cases h1
              refine ⟨by simp, fun ids hids => ?_⟩
              simp only [Closer.waiting.injEq] at hids
              subst hids
              obtain ⟨c, hcc, hcp⟩ := hi
              exact ((C63_registry pre s hp).2.2 i).2 ⟨c, hcc, by rw [hcp]; simp⟩
            · cases h1
          · cases h1
        | handlersEnded =>
          simp only [step] at h1
          split at h1
          · rename_i ids hids
            split at h1
            · rename_i hall
              have := hall i (hw ids hids)
              obtain ⟨c, hcc, hcp⟩ := hi
              rw [hcc] at this
              simp [hcp] at this
            · cases h1
          · cases h1
        | _ =>
          simp only [step] at h1
          repeat' split at h1
          all_goals first
            | cases h1; done
            | (cases h1; exact put _ _)
            | (cases h1; exact ended _ _)
            | (cases h1; exact ⟨hc, hw⟩)
            | (cases h1; simp; done)
      exact ih (pre ++ [e]) s1 (run_snoc hp h1) hi1 hcl.1 hcl.2 (fun a ha => hes a (by simp [ha])) h

/-! ## Where the claim is false -/

/-- Once `close()` was called, `wait_closed()` can return without the help of clients. -/
def ShutdownEnds : Prop := ∀ (pre : List (Event Unit)) (s : Server), run {} pre = some s → s.closer ≠ .none →
  ∃ es s', Spec.Runs Unit false s es s' ∧ s'.closer = .done

/-- A client that connects and doesn't send anything prevents the server from shutting down. -/
theorem C100_silent_false : ¬ ShutdownEnds := by
  intro h
  obtain ⟨es, s', hr, hd⟩ := h [.accept, .serverClose] _ rfl (by simp)
  have hrun : ∀ {s s' : Server} {es : List (Event Unit)}, Spec.Runs Unit false s es s' →
      run s es = some s' ∧ ∀ e ∈ es, ¬ Spec.About 0 e := by
    intro s s' es hr
    induction hr with
    | nil s => exact ⟨rfl, by simp⟩
    | cons hi h t ih =>
      refine ⟨by simp only [run, h]; exact ih.1, ?_⟩
      rintro e he
      rcases List.mem_cons.1 he with rfl | he
      · cases e <;> simp [Spec.About, Spec.Internal] at hi ⊢
      · exact ih.2 e he
  exact C100_waits [.accept, .serverClose] es _ s' rfl 0 ⟨_, rfl, rfl⟩ (by simp) (by simp) (hrun hr).2 (hrun hr).1 hd

/-! ## Concrete cases -/

private def internal (clients : Bool) (s : Server) : Event X → Bool
  | .handshake _ _ _ | .handshakeError _ => clients
  | .lose i => s.conns[i]?.map (·.lost) == some false
  | .closeEnds i => s.conns[i]?.map (·.closeEnded) == some false
  | .waited _ | .returned _ | .raised _ | .closed _ => true
  | .stop | .snapshot | .taskStarts _ | .taskEnds _ | .tasksEnded | .handlersEnded => true
  | _ => false

private theorem internal_spec {clients : Bool} {s : Server} {e : Event X} (h : internal clients s e = true) :
    Spec.Internal clients s e := by
  cases e <;> simp_all [internal, Spec.Internal]

private def runs (clients : Bool) (s : Server) : List (Event X) → Option Server
  | [] => some s
  | e :: es => if internal clients s e then (step s e).bind fun s' => runs clients s' es else none

private theorem runs_spec {clients : Bool} {s s' : Server} {es : List (Event X)} (h : runs clients s es = some s') :
    Spec.Runs X clients s es s' := by
  induction es generalizing s with
  | nil => cases h; exact .nil _
  | cons e es ih =>
    simp only [runs] at h
    split at h
    · rename_i hi
      obtain ⟨s1, h1, h2⟩ := Option.bind_eq_some_iff.1 h
      exact .cons (internal_spec hi) h1 (ih h2)
    · cases h

/-- A server with an open connection and another one in the opening handshake, whose client sends its request after
`close()`; `wait_closed()` returns. -/
example : ∃ s s', run {} ([.accept, .accept, .handshake 0 (LegacyServer.exampleSetup {}) (some goodRequest),
      .serverClose] : List (Event Unit)) = some s
    ∧ s.closer ≠ .none
    ∧ Spec.Runs Unit true s [.stop, .snapshot, .taskStarts 0, .taskStarts 1,
        .handshake 1 (LegacyServer.exampleSetup {}) (some goodRequest), .closeEnds 0, .lose 0, .taskEnds 0,
        .tasksEnded, .returned 0, .closed 0, .closeEnds 1, .lose 1, .waited 1, .handlersEnded] s'
    ∧ s'.closer = .done := by
  refine ⟨⟨[{ state := .open, phase := .running, opened := true, status := some 101 }, {}], [0, 1], true, .created,
      false⟩,
    ⟨[{ state := .closed, phase := .done, opened := true, status := some 101, code := some 1001,
        transportClosed := true, closeEnded := true, lost := true },
      { state := .closed, phase := .done, status := some 503, transportClosed := true, closeEnded := true,
        lost := true }], [], false, .done, false⟩, by decide +kernel, by simp, runs_spec ?_, rfl⟩
  decide +kernel

/-- A client that doesn't send its request while another client connects, breaks the connection, and is refused. -/
example : ∃ s s', run {} ([.accept, .serverClose] : List (Event Unit)) = some s ∧ Spec.Handshaking s 0
    ∧ s.closer ≠ .done ∧ (∀ ids, s.closer = .waiting ids → 0 ∈ ids)
    ∧ run s ([.stop, .accept, .snapshot, .taskStarts 0, .taskStarts 1, .tasksEnded, .handshakeError 1, .lose 1]
        : List (Event Unit)) = some s'
    ∧ s'.closer = .waiting [0, 1] := by
  refine ⟨_, ⟨[{}, { state := .closed, phase := .done, transportClosed := true, lost := true }], [0], false,
    .waiting [0, 1], false⟩, rfl, ⟨{}, rfl, rfl⟩, by simp, by simp, ?_, rfl⟩
  decide +kernel

end WS.LegacyRegistry
