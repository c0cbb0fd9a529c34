import Verif.Model.LegacyIter
import Verif.Props.LegacyQueue

/-!
# C90: iterating on a legacy connection

`async for message in websocket` gets every message that is received, in order, and ends without an
exception exactly when the connection is closed with code 1000 or 1001.
-/

namespace WS.LegacyIter

open Legacy

variable {M : Type}

/-! ## Specification -/

/-- The messages that were received from the network. -/
def Spec.arrived (es : List (Ev M)) : List M :=
  es.filterMap fun
    | .queue (.message m) _ => some m
    | _ => none

/-- No other task calls `recv`. -/
def Spec.Alone (es : List (Ev M)) : Prop := ∀ t code, .queue (.recv t) code ∉ es

/-- Nothing cancels the task that reads messages. -/
def Spec.Uncancelled (es : List (Ev M)) : Prop := ∀ code, .queue .cancelTransfer code ∉ es

/-! ## The execution of the queue -/

/-- What an event does with the queue. -/
def act : Ev M → List (Act M)
  | .start => []
  | .next => [.recv 0]
  | .queue a _ => [a]

theorem received_acts (es : List (Ev M)) :
    Legacy.Spec.received (es.flatMap act) = Spec.arrived es := by
  induction es with
  | nil => rfl
  | cons e es ih =>
    rw [List.flatMap_cons, Legacy.Spec.received_append, ih]
    cases e with
    | start => rfl
    | next => rfl
    | queue a c => cases a <;> rfl

/-- What `observe` adds. -/
theorem observe_eq (code : Int) : ∀ (os : List (Obs M)) (it : Iter M),
    (∀ o t, o ∈ os → (∀ m, o = .returned t m → t = 0)) →
    (os.foldl (Iter.observe code) it).yielded = it.yielded ++ (Legacy.Spec.returned os).map some ∧
      (os.foldl (Iter.observe code) it).queue = it.queue ∧
      (os.foldl (Iter.observe code) it).legacyRecv = it.legacyRecv
  | [], it, _ => by simp [Legacy.Spec.returned]
  | o :: os, it, h => by
    have ih := observe_eq code os (it.observe code o) (fun o' t ho' => h o' t (List.mem_cons_of_mem _ ho'))
    rw [List.foldl_cons, ih.1, ih.2.1, ih.2.2]
    cases o with
    | returned t m =>
      have : t = 0 := h _ t List.mem_cons_self m rfl
      subst this
      simp [Iter.observe, Legacy.Spec.returned]
    | closed t =>
      cases t with
      | zero => simp only [Iter.observe]; split <;> simp [Legacy.Spec.returned]
      | succ t => simp [Iter.observe, Legacy.Spec.returned]
    | refused t => cases t <;> simp [Iter.observe, Legacy.Spec.returned]
    | cancelled t => cases t <;> simp [Iter.observe, Legacy.Spec.returned]
    | invalidState => simp [Iter.observe, Legacy.Spec.returned]

theorem recvLoop_cases {q : Queue M} (h : ∀ f, q.putWaiter = some f → f ∉ q.done) :
    (q.messages = [] ∧ (q.recvLoop 0).2 = [] ∧
      ∃ f, (q.recvLoop 0).1.recvs = (0, .waiting f) :: q.recvs) ∨
    ∃ m ms, q.messages = m :: ms ∧ (q.recvLoop 0).2 = [.returned 0 m] ∧
      (q.recvLoop 0).1.recvs = q.recvs := by
  unfold Queue.recvLoop
  split
  · rename_i hm
    exact .inl ⟨hm, rfl, _, rfl⟩
  · rename_i m ms hm
    rw [Queue.notifyPut_eq (q := { q with messages := ms }) h]
    exact .inr ⟨m, ms, hm, rfl, rfl⟩

theorem putLoop_quiet {q : Queue M} (h : ∀ f, q.popWaiter = some f → f ∉ q.done) (m : M) :
    (q.putLoop m).2 = [] ∧ (q.putLoop m).1.recvs = q.recvs := by
  unfold Queue.putLoop
  split
  · exact ⟨rfl, rfl⟩
  · rw [Queue.notifyPop_eq (q := { q with messages := q.messages ++ [m], transfer := .reading }) h]
    exact ⟨rfl, rfl⟩

/-- The tasks that are suspended in `recv`. -/
def Waiting : Gen → List (Nat × Recv) → Prop
  | .receiving, rs => ∃ r, rs = [(0, r)]
  | _, rs => rs = []

/-- The generator ended because the connection is closed. -/
def Gen.isEnded : Gen → Bool
  | .returned | .raised (.closedError _) => true
  | _ => false

/-- Invariant, when there's a single task. -/
structure Inv (it : Iter M) : Prop where
  ok : it.queue.Ok
  tidy : it.queue.Tidy
  waiting : Waiting it.gen it.queue.recvs
  ended : it.gen.isEnded = true → it.queue.messages = [] ∧ it.queue.transfer = .exited
  alone : it.gen ≠ .raised .runtimeError

/-- What a step of the queue does to the generator, when there's a single task. -/
theorem queue_step {q q' : Queue M} {os : List (Obs M)} {g : Gen} (hok : q.Ok) (htidy : q.Tidy)
    (hw : Waiting g q.recvs) {a : Act M} (ha : ∀ t, a = .recv t → t = 0 ∧ q.recvs = [])
    (hs : q.step a = some (q', os)) :
    (os = [] ∧ q'.recvs = q.recvs ∧ ∀ t, a ≠ .recv t) ∨
    ((q.recvs = [] → a = .recv 0) ∧
      ((os = [] ∧ ∃ r, q'.recvs = [(0, r)]) ∨
      (∃ m, os = [.returned 0 m] ∧ q'.recvs = []) ∨
      (os = [.cancelled 0] ∧ a = .cancel 0 ∧ q'.recvs = []) ∨
      (os = [.closed 0] ∧ a = .wake 0 ∧ q'.recvs = [] ∧ q'.messages = [] ∧
        q'.transfer = .exited))) := by
  have hput : ∀ f, q.putWaiter = some f → f ∉ q.done := fun f hf => (hok.putFresh f hf).2.1
  have hpop : ∀ f, q.popWaiter = some f → f ∉ q.done := fun f hf => (hok.popFresh f hf).2
  have hrs : q.recvs = [] ∨ ∃ r, q.recvs = [(0, r)] := by
    unfold Waiting at hw
    split at hw
    · exact .inr hw
    · exact .inl hw
  have hfind : ∀ t r, q.find t = some r → t = 0 ∧ q.recvs = [(0, r)] := by
    intro t r h
    rcases hrs with e | ⟨r', e⟩
    · simp [Queue.find, e] at h
    · simp only [Queue.find, e, List.find?_cons, List.find?_nil] at h
      split at h
      · rename_i h0
        simp only [decide_eq_true_eq] at h0
        simp only [Option.map_some, Option.some.injEq] at h
        exact ⟨h0.symm, by rw [e, h]⟩
      · cases h
  have hdrop : ∀ r, q.recvs = [(0, r)] → (q.drop 0).recvs = [] := by
    intro r e
    simp [Queue.drop, e]
  cases a with
  | recv t =>
    obtain ⟨rfl, hr⟩ := ha t rfl
    simp only [Queue.step] at hs
    split at hs
    · cases hs
    · split at hs
      · rename_i hp
        exfalso
        obtain ⟨f, hf⟩ := Option.ne_none_iff_exists'.1 hp
        obtain ⟨_, t, ht⟩ := hok.popTask f hf
        rw [hr] at ht
        cases ht
      · have hs := Option.some.inj hs
        rcases recvLoop_cases hput with ⟨_, h2, f, h3⟩ | ⟨m, ms, _, h2, h3⟩
        · rw [hs] at h2 h3
          exact .inr ⟨fun _ => rfl, .inl ⟨h2, _, by rw [h3, hr]⟩⟩
        · rw [hs] at h2 h3
          exact .inr ⟨fun _ => rfl, .inr (.inl ⟨m, h2, h3.trans hr⟩)⟩
  | wake t =>
    simp only [Queue.step] at hs
    split at hs
    · cases hs
    · rename_i f hf
      obtain ⟨rfl, e⟩ := hfind _ _ hf
      split at hs
      · split at hs
        · have hs := Option.some.inj hs
          rcases recvLoop_cases (q := { q.drop 0 with popWaiter := none }) hput with
            ⟨_, h2, f, h3⟩ | ⟨m, ms, _, h2, h3⟩
          · rw [hs] at h2 h3
            exact .inr ⟨by simp [e], .inl ⟨h2, _, by rw [h3]; exact congrArg _ (hdrop _ e)⟩⟩
          · rw [hs] at h2 h3
            exact .inr ⟨by simp [e], .inr (.inl ⟨m, h2, h3.trans (hdrop _ e)⟩)⟩
        · cases hs
          exact .inr ⟨by simp [e], .inl ⟨rfl, _, congrArg _ (hdrop _ e)⟩⟩
      · cases hs
    · rename_i hf
      obtain ⟨rfl, e⟩ := hfind _ _ hf
      have hens : (0, Recv.ensuring) ∈ q.recvs := by rw [e]; exact List.mem_cons_self
      have hx := hok.ensured 0 hens
      rw [if_pos (by rw [hx]; rfl)] at hs
      cases hs
      exact .inr ⟨by simp [e], .inr (.inr (.inr ⟨rfl, rfl, hdrop _ e, htidy.empty 0 hens, hx⟩))⟩
  | cancel t =>
    simp only [Queue.step] at hs
    split at hs
    · cases hs
    · rename_i f hf
      obtain ⟨rfl, e⟩ := hfind _ _ hf
      cases hs
      exact .inr ⟨by simp [e], .inr (.inr (.inl ⟨rfl, rfl, hdrop _ e⟩))⟩
    · rename_i hf
      obtain ⟨rfl, e⟩ := hfind _ _ hf
      cases hs
      exact .inr ⟨by simp [e], .inr (.inr (.inl ⟨rfl, rfl, hdrop _ e⟩))⟩
  | message m =>
    simp only [Queue.step] at hs
    split at hs
    · have hs := Option.some.inj hs
      have := putLoop_quiet hpop m
      rw [hs] at this
      exact .inl ⟨this.1, this.2, nofun⟩
    · cases hs
  | wakeTransfer =>
    simp only [Queue.step] at hs
    split at hs
    · rename_i m f _
      split at hs
      · have hs := Option.some.inj hs
        have := putLoop_quiet (q := { q with putWaiter := none }) hpop m
        rw [hs] at this
        exact .inl ⟨this.1, this.2, nofun⟩
      · cases hs
    · cases hs
  | exit =>
    simp only [Queue.step] at hs
    split at hs
    · cases hs; exact .inl ⟨rfl, rfl, nofun⟩
    · cases hs
  | cancelTransfer =>
    simp only [Queue.step] at hs
    split at hs <;> cases hs <;> exact .inl ⟨rfl, rfl, nofun⟩

/-- How the generator ends when `recv` raises `ConnectionClosed`. -/
def Spec.ending (code : Int) : Gen :=
  if code = 1000 ∨ code = 1001 then .returned else .raised (.closedError code)

theorem Inv.after {it : Iter M} (h : Inv it) {q : Queue M} {os : List (Obs M)} {a : Act M} {g : Gen}
    (hg : (a = .recv 0 ∧ it.queue.recvs = [] ∧ g = .receiving) ∨
      ((∀ t, a ≠ .recv t) ∧ g = it.gen)) (code : Int)
    (hs : it.queue.step a = some (q, os)) {it' : Iter M}
    (e : os.foldl (Iter.observe code) { it with queue := q, gen := g } = it') :
    it'.queue = q ∧ it'.yielded = it.yielded ++ (Legacy.Spec.returned os).map some ∧
      it'.legacyRecv = it.legacyRecv ∧ Inv it' ∧
      (it'.gen.isEnded = true → it'.gen = it.gen ∨
        (a = .wake 0 ∧ it.gen = .receiving ∧ it'.gen = Spec.ending code)) := by
  have ha : ∀ t, a = .recv t → t = 0 ∧ it.queue.recvs = [] := by
    intro t ht
    rcases hg with ⟨h1, h2, -⟩ | ⟨h1, -⟩
    · rw [h1] at ht; cases ht; exact ⟨rfl, h2⟩
    · exact absurd ht (h1 t)
  have hx : it.queue.exec [a] = some (q, os ++ []) := by simp [Queue.exec, hs]
  have hok := (h.ok.exec hx).1
  have htidy : q.Tidy := h.tidy.step h.ok (by
    intro t ht t' f hf
    rw [(ha t ht).2] at hf
    cases hf) hs
  have hnr : ¬ (a = .recv 0) → g = it.gen := fun hn => by
    rcases hg with ⟨h1, -⟩ | ⟨-, h1⟩
    · exact absurd h1 hn
    · exact h1
  rcases queue_step h.ok h.tidy h.waiting ha hs with
    ⟨rfl, hr, hn⟩ | ⟨hr, hc⟩
  · have hgg := hnr (hn 0)
    subst hgg
    cases e
    refine ⟨rfl, by simp [Legacy.Spec.returned], rfl, ⟨hok, htidy, by simpa [hr] using h.waiting, ?_,
      h.alone⟩, fun _ => .inl rfl⟩
    intro hend
    obtain ⟨h1, h2⟩ := h.ended hend
    obtain ⟨-, h3, -, -, -, h4⟩ := h.ok.exec_exited hx h2
    exact ⟨by simpa [h1, Legacy.Spec.returned] using h4, h3⟩
  · have hrec : g = .receiving := by
      rcases hg with ⟨-, -, h1⟩ | ⟨h1, h2⟩
      · exact h1
      · have hw := h.waiting
        have : it.queue.recvs ≠ [] := fun e => h1 0 (hr e)
        rw [h2]
        unfold Waiting at hw
        split at hw
        · rename_i hg; exact hg
        · exact absurd hw this
    subst hrec
    rcases hc with ⟨rfl, r, hq⟩ | ⟨m, rfl, hq⟩ | ⟨rfl, rfl, hq⟩ | ⟨rfl, rfl, hq, hm, ht⟩
    · cases e
      exact ⟨rfl, by simp [Legacy.Spec.returned], rfl, ⟨hok, htidy, ⟨r, hq⟩, nofun, nofun⟩, nofun⟩
    · cases e
      exact ⟨rfl, rfl, rfl, ⟨hok, htidy, hq, nofun, nofun⟩, nofun⟩
    · cases e
      exact ⟨rfl, by simp [Legacy.Spec.returned, Iter.observe], rfl, ⟨hok, htidy, hq, nofun, nofun⟩, nofun⟩
    · have hgen := hnr nofun
      simp only [List.foldl_cons, List.foldl_nil, Iter.observe] at e
      split at e
      · rename_i hcode
        cases e
        exact ⟨rfl, by simp [Legacy.Spec.returned], rfl, ⟨hok, htidy, hq, fun _ => ⟨hm, ht⟩, nofun⟩,
          fun _ => .inr ⟨rfl, hgen.symm, by simp [Spec.ending, hcode]⟩⟩
      · rename_i hcode
        cases e
        exact ⟨rfl, by simp [Legacy.Spec.returned], rfl, ⟨hok, htidy, hq, fun _ => ⟨hm, ht⟩, nofun⟩,
          fun _ => .inr ⟨rfl, hgen.symm, by simp [Spec.ending, hcode]⟩⟩

theorem Inv.step' {it it' : Iter M} (h : Inv it) {e : Ev M}
    (hnone : ∀ code, e = .queue (.wake 0) code → it.returnsNone = false)
    (he : ∀ t code, e ≠ .queue (.recv t) code) (hs : it.step e = some it') :
    (∃ os, it.queue.exec (act e) = some (it'.queue, os) ∧
      it'.yielded = it.yielded ++ (Legacy.Spec.returned os).map some) ∧
      it'.legacyRecv = it.legacyRecv ∧ Inv it' ∧
      (it'.gen.isEnded = true → it'.gen = it.gen ∨
        ∃ code, e = .queue (.wake 0) code ∧ it.gen = .receiving ∧ it'.gen = Spec.ending code) := by
  cases e with
  | start =>
    simp only [Iter.step] at hs
    split at hs
    · cases hs
    · rename_i hg
      cases hs
      refine ⟨⟨[], rfl, by simp [Legacy.Spec.returned]⟩, rfl, ⟨h.ok, h.tidy, ?_, nofun, nofun⟩, nofun⟩
      have := h.waiting
      unfold Waiting at this
      split at this
      · rename_i e; exact absurd e hg
      · exact this
  | next =>
    simp only [Iter.step] at hs
    split at hs
    · rename_i hg
      obtain ⟨⟨q, os⟩, hq, e⟩ := Option.map_eq_some_iff.1 hs
      have hr : it.queue.recvs = [] := by have := h.waiting; rw [hg] at this; exact this
      obtain ⟨h1, h2, h3, h4, h5⟩ := h.after (.inl ⟨rfl, hr, rfl⟩) 1006 hq e
      refine ⟨⟨os, ?_, h2⟩, h3, h4, fun hend => ?_⟩
      · simp only [act, Queue.exec, hq, h1, List.append_nil]
      · rcases h5 hend with h5 | ⟨h5, -⟩
        · rw [hg] at h5; rw [h5] at hend; cases hend
        · cases h5
    · cases hs
  | queue a code =>
    have hn : ∀ t, a ≠ .recv t := fun t e => he t code (by rw [e])
    have hs' : (it.queue.step a).map (fun (q, os) =>
        os.foldl (Iter.observe code) { it with queue := q }) = some it' := by
      rw [← hs]
      cases a with
      | recv t => exact absurd rfl (hn t)
      | wake t =>
        cases t with
        | zero => simp [Iter.step, hnone code rfl]
        | succ t => rfl
      | _ => rfl
    obtain ⟨⟨q, os⟩, hq, e⟩ := Option.map_eq_some_iff.1 hs'
    obtain ⟨h1, h2, h3, h4, h5⟩ := h.after (.inr ⟨hn, rfl⟩) code hq e
    refine ⟨⟨os, ?_, h2⟩, h3, h4, fun hend => ?_⟩
    · simp only [act, Queue.exec, hq, h1, List.append_nil]
    · rcases h5 hend with h5 | ⟨rfl, h5, h6⟩
      · exact .inl h5
      · exact .inr ⟨code, rfl, h5, h6⟩

theorem Inv.step {it it' : Iter M} (h : Inv it) (hl : it.legacyRecv = false) {e : Ev M}
    (he : ∀ t code, e ≠ .queue (.recv t) code) (hs : it.step e = some it') :
    (∃ os, it.queue.exec (act e) = some (it'.queue, os) ∧
      it'.yielded = it.yielded ++ (Legacy.Spec.returned os).map some) ∧
      it'.legacyRecv = false ∧ Inv it' ∧
      (it'.gen.isEnded = true → it'.gen = it.gen ∨
        ∃ code, e = .queue (.wake 0) code ∧ it.gen = .receiving ∧ it'.gen = Spec.ending code) := by
  obtain ⟨h1, h2, h3⟩ := h.step' (fun _ _ => by simp [Iter.returnsNone, hl]) he hs
  exact ⟨h1, h2.trans hl, h3⟩

theorem Inv.init (n : Option Nat) (lr : Bool := false) : Inv (Iter.init n lr : Iter M) :=
  ⟨Queue.Ok.init n, Queue.Tidy.init n, rfl, nofun, nofun⟩

theorem exec_append {q q' : Queue M} {as bs : List (Act M)} {os : List (Obs M)}
    (h : q.exec as = some (q', os)) : q.exec (as ++ bs) = (q'.exec bs).map fun (p, o) => (p, os ++ o) := by
  induction as generalizing q os with
  | nil => cases h; simp
  | cons a as ih =>
    obtain ⟨p, o, os', h1, h2, rfl⟩ := Queue.exec_cons h
    simp only [List.cons_append, Queue.exec, h1, ih h2]
    cases q'.exec bs <;> simp

theorem Inv.exec : ∀ {es : List (Ev M)} {it it' : Iter M}, Inv it → it.legacyRecv = false →
    Spec.Alone es → it.exec es = some it' →
    (∃ os, it.queue.exec (es.flatMap act) = some (it'.queue, os) ∧
      it'.yielded = it.yielded ++ (Legacy.Spec.returned os).map some) ∧ it'.legacyRecv = false ∧ Inv it'
  | [], it, it', h, hl, _, hs => by
    cases hs
    exact ⟨⟨[], rfl, by simp [Legacy.Spec.returned]⟩, hl, h⟩
  | e :: es, it, it', h, hl, ha, hs => by
    obtain ⟨p, h1, h2⟩ := Option.bind_eq_some_iff.1 hs
    obtain ⟨⟨o1, h3, h4⟩, h5, h6, -⟩ := h.step hl
      (fun t c e' => ha t c (by rw [e']; exact List.mem_cons_self)) h1
    obtain ⟨⟨o2, h7, h8⟩, h9, h10⟩ := Inv.exec h6 h5
      (fun t c hm => ha t c (List.mem_cons_of_mem _ hm)) h2
    refine ⟨⟨o1 ++ o2, ?_, ?_⟩, h9, h10⟩
    · rw [List.flatMap_cons, exec_append h3, h7]; rfl
    · rw [h8, h4, Legacy.Spec.returned_append, List.map_append, List.append_assoc]

/-! ## C90 -/

theorem cancel_acts {es : List (Ev M)} (h : Spec.Uncancelled es) : .cancelTransfer ∉ es.flatMap act := by
  intro hm
  obtain ⟨e, he, ha⟩ := List.mem_flatMap.1 hm
  cases e with
  | start => cases ha
  | next => simp [act] at ha
  | queue a c =>
    simp only [act, List.mem_singleton] at ha
    subst ha
    exact h c he

/-- Loops on the same connection, which may be left early or cancelled, get the messages in the
order in which they were received.  Those that they didn't get are in the queue, or held by the task
that reads messages, except at most one, if this task was cancelled. -/
theorem C90_order {n : Option Nat} {es : List (Ev M)} {it : Iter M}
    (h : (Iter.init n).exec es = some it) (ha : Spec.Alone es) :
    ∃ got lost, it.yielded = got.map some ∧
      got ++ it.queue.messages ++ it.queue.transfer.inHand ++ lost = Spec.arrived es ∧
      lost.length ≤ 1 ∧ (Spec.Uncancelled es → lost = []) := by
  obtain ⟨⟨os, h1, h2⟩, -, -⟩ := (Inv.init n).exec rfl ha h
  obtain ⟨lost, h3, h4, h5⟩ := C51_order_partial h1
  rw [received_acts] at h3
  exact ⟨_, lost, by simpa [Iter.init] using h2, h3, h4, fun hu => h5 (cancel_acts hu)⟩

/-- When the loop ends because the connection is closed, with an exception or without, it got every
message. -/
theorem C90_complete {n : Option Nat} {es : List (Ev M)} {it : Iter M}
    (h : (Iter.init n).exec es = some it) (ha : Spec.Alone es) (hu : Spec.Uncancelled es)
    (hg : it.gen = .returned ∨ ∃ code, it.gen = .raised (.closedError code)) :
    it.yielded = (Spec.arrived es).map some := by
  obtain ⟨got, lost, h1, h2, -, h3⟩ := C90_order h ha
  obtain ⟨-, -, hi⟩ := (Inv.init n).exec rfl ha h
  obtain ⟨h4, h5⟩ := hi.ended (by rcases hg with e | ⟨c, e⟩ <;> rw [e] <;> rfl)
  rw [h3 hu, h4, h5] at h2
  rw [h1, ← h2]
  simp [Transfer.inHand]

/-- The loop ends without an exception exactly when the close code is 1000 or 1001; otherwise, it
raises `ConnectionClosedError`.  It never raises `RuntimeError`. -/
theorem C90_ends {n : Option Nat} {es : List (Ev M)} {it it' : Iter M} {e : Ev M}
    (h : (Iter.init n).exec es = some it) (ha : Spec.Alone (es ++ [e])) (hs : it.step e = some it')
    (hr : it.gen = .receiving) :
    it'.gen ≠ .raised .runtimeError ∧
    (it'.gen = .returned → ∃ code, e = .queue (.wake 0) code ∧ (code = 1000 ∨ code = 1001)) ∧
    ∀ code, it'.gen = .raised (.closedError code) →
      e = .queue (.wake 0) code ∧ ¬ (code = 1000 ∨ code = 1001) := by
  obtain ⟨-, hl, hi⟩ := (Inv.init n).exec rfl (fun t c hm => ha t c (List.mem_append_left _ hm)) h
  obtain ⟨-, -, hi', he⟩ := hi.step hl
    (fun t c e' => ha t c (by rw [e']; simp)) hs
  refine ⟨hi'.alone, fun hg => ?_, fun code hg => ?_⟩
  · rcases he (by rw [hg]; rfl) with e1 | ⟨code, e1, -, e2⟩
    · rw [hg, hr] at e1; cases e1
    · refine ⟨code, e1, ?_⟩
      rw [hg, Spec.ending] at e2
      split at e2
      · rename_i hc; exact hc
      · cases e2
  · rcases he (by rw [hg]; rfl) with e1 | ⟨code', e1, -, e2⟩
    · rw [hg, hr] at e1; cases e1
    · rw [hg, Spec.ending] at e2
      split at e2
      · cases e2
      · rename_i hc
        cases e2
        exact ⟨e1, hc⟩

theorem wake_ensuring {it : Iter M} (hl : it.legacyRecv = false) (hx : it.queue.transfer = .exited)
    (hr : it.queue.recvs = [(0, .ensuring)]) (code : Int) :
    ∃ it', it.step (.queue (.wake 0) code) = some it' ∧ it'.gen = Spec.ending code := by
  simp only [Iter.step, Iter.returnsNone, hl, Bool.false_and, Bool.false_eq_true, if_false, Queue.step,
    Queue.find, hr, List.find?_cons, decide_true, Option.map_some, hx, Transfer.isExited, if_true,
    List.foldl_cons, List.foldl_nil, Iter.observe, Spec.ending]
  split <;> exact ⟨_, rfl, rfl⟩

theorem wake_waiting {it : Iter M} (hl : it.legacyRecv = false) (hx : it.queue.transfer = .exited)
    {f : Nat} (hr : it.queue.recvs = [(0, .waiting f)]) (hf : f ∉ it.queue.done) (code : Int) :
    ∃ it', it.step (.queue (.wake 0) code) = some it' ∧ it'.legacyRecv = false ∧
      it'.queue.transfer = .exited ∧ it'.queue.recvs = [(0, .ensuring)] := by
  simp [Iter.step, Iter.returnsNone, hl, Queue.step, Queue.find, hr, hx, Transfer.isExited, Queue.drop, hf]

theorem wake_notified {it : Iter M} (hl : it.legacyRecv = false) (hx : it.queue.transfer = .exited)
    (hm : it.queue.messages = []) (hok : it.queue.Ok)
    {f : Nat} (hr : it.queue.recvs = [(0, .waiting f)]) (hf : f ∈ it.queue.done) (code : Int) :
    ∃ it' f', it.step (.queue (.wake 0) code) = some it' ∧ it'.legacyRecv = false ∧
      it'.queue.transfer = .exited ∧ it'.queue.recvs = [(0, .waiting f')] ∧ f' ∉ it'.queue.done := by
  have hn : it.queue.next ∉ it.queue.done := fun h => absurd (hok.doneOld _ h) (by omega)
  simp [Iter.step, Iter.returnsNone, hl, Queue.step, Queue.find, hr, hx, Transfer.isExited, Queue.drop, hf,
    Queue.recvLoop, hm, hn]

theorem next_waiting {it : Iter M} (hl : it.legacyRecv = false) (hx : it.queue.transfer = .exited)
    (hm : it.queue.messages = []) (hok : it.queue.Ok)
    (hr : it.queue.recvs = []) (hg : it.gen = .suspended) :
    ∃ it' f', it.step .next = some it' ∧ it'.legacyRecv = false ∧
      it'.queue.transfer = .exited ∧ it'.queue.recvs = [(0, .waiting f')] ∧ f' ∉ it'.queue.done := by
  have hn : it.queue.next ∉ it.queue.done := fun h => absurd (hok.doneOld _ h) (by omega)
  have hp : it.queue.popWaiter = none := by
    cases hp : it.queue.popWaiter with
    | none => rfl
    | some f =>
      obtain ⟨-, t, ht⟩ := hok.popTask f hp
      rw [hr] at ht
      cases ht
  simp [Iter.step, hg, hl, Queue.step, Queue.find, hr, hx, hp, Queue.recvLoop, hm, hn]

/-- Once the task that reads messages is done, and every message was yielded, the loop ends when
task 0 runs (at most three times). -/
theorem C90_terminates {n : Option Nat} {es : List (Ev M)} {it : Iter M}
    (h : (Iter.init n).exec es = some it) (ha : Spec.Alone es) (hx : it.queue.transfer = .exited)
    (hm : it.queue.messages = []) (hg : it.gen = .suspended ∨ it.gen = .receiving) (code : Int) :
    ∃ k ≤ 3, ∃ it', it.exec ((if it.gen = .suspended then [.next] else []) ++
      List.replicate k (.queue (.wake 0) code)) = some it' ∧ it'.gen = Spec.ending code := by
  obtain ⟨-, hl, hi⟩ := (Inv.init n).exec rfl ha h
  have hw := hi.waiting
  rcases hg with hg | hg
  · rw [hg] at hw
    obtain ⟨i1, f, a1, a2, a3, a4, a5⟩ := next_waiting hl hx hm hi.ok hw hg
    obtain ⟨i2, b1, b2, b3, b4⟩ := wake_waiting a2 a3 a4 a5 code
    obtain ⟨i3, c1, c2⟩ := wake_ensuring b2 b3 b4 code
    exact ⟨2, by omega, i3, by simp [hg, Iter.exec, a1, b1, c1, List.replicate], c2⟩
  · rw [hg] at hw
    obtain ⟨r, hw⟩ := hw
    cases r with
    | ensuring =>
      obtain ⟨i3, c1, c2⟩ := wake_ensuring hl hx hw code
      exact ⟨1, by omega, i3, by simp [hg, Iter.exec, c1, List.replicate], c2⟩
    | waiting f =>
      by_cases hf : f ∈ it.queue.done
      · obtain ⟨i1, f, a1, a2, a3, a4, a5⟩ := wake_notified hl hx hm hi.ok hw hf code
        obtain ⟨i2, b1, b2, b3, b4⟩ := wake_waiting a2 a3 a4 a5 code
        obtain ⟨i3, c1, c2⟩ := wake_ensuring b2 b3 b4 code
        exact ⟨3, by omega, i3, by simp [hg, Iter.exec, a1, b1, c1, List.replicate], c2⟩
      · obtain ⟨i2, b1, b2, b3, b4⟩ := wake_waiting hl hx hw hf code
        obtain ⟨i3, c1, c2⟩ := wake_ensuring b2 b3 b4 code
        exact ⟨2, by omega, i3, by simp [hg, Iter.exec, b1, c1, List.replicate], c2⟩

/-- A loop that gets a message and is cancelled, and another one that gets the other two messages and
ends. -/
def Spec.sample : List (Ev Nat) :=
  [.next, .queue (.message 1) 0, .queue (.wake 0) 0, .next, .queue (.cancel 0) 0,
   .queue (.message 2) 0, .queue (.message 3) 0, .start, .next, .queue .exit 0, .next, .next,
   .queue (.wake 0) 1001, .queue (.wake 0) 1001]

example : ((Iter.init (some 2)).exec Spec.sample).map (fun it => (it.gen, it.yielded)) =
    some (.returned, [some 1, some 2, some 3]) := by decide +kernel

/-- The same one, if the connection is closed with code 1006. -/
example : ((Iter.init (some 2)).exec (Spec.sample.take 12 ++
    [.queue (.wake 0) 1006, .queue (.wake 0) 1006])).map (fun it => (it.gen, it.yielded)) =
    some (.raised (.closedError 1006), [some 1, some 2, some 3]) := by decide +kernel

/-- Another task that calls `recv` makes the loop raise `RuntimeError`, or takes messages. -/
example : ((Iter.init none).exec [.queue (.recv 1) 0, .next] : Option (Iter Nat)).map (·.gen) =
    some (.raised .runtimeError) := by decide +kernel

/-! ## When other tasks call `recv` -/

theorem observe_sublist (code : Int) : ∀ (os : List (Obs M)) (it : Iter M),
    ∃ l, (os.foldl (Iter.observe code) it).yielded = it.yielded ++ l ∧
      l.Sublist ((Legacy.Spec.returned os).map some) ∧
      (os.foldl (Iter.observe code) it).queue = it.queue ∧
      (os.foldl (Iter.observe code) it).legacyRecv = it.legacyRecv
  | [], it => ⟨[], by simp, by simp [Legacy.Spec.returned], rfl, rfl⟩
  | o :: os, it => by
    obtain ⟨l, h1, h2, h3, h4⟩ := observe_sublist code os (it.observe code o)
    rw [List.foldl_cons, h1, h3, h4]
    cases o with
    | returned t m =>
      cases t with
      | zero => exact ⟨some m :: l, by simp [Iter.observe], h2.cons_cons _, rfl, rfl⟩
      | succ t => exact ⟨l, rfl, h2.cons _, rfl, rfl⟩
    | closed t =>
      cases t with
      | zero => simp only [Iter.observe]; split <;> exact ⟨l, rfl, h2, rfl, rfl⟩
      | succ t => exact ⟨l, rfl, h2, rfl, rfl⟩
    | refused t => cases t <;> exact ⟨l, rfl, h2, rfl, rfl⟩
    | cancelled t => cases t <;> exact ⟨l, rfl, h2, rfl, rfl⟩
    | invalidState => exact ⟨l, rfl, h2, rfl, rfl⟩

theorem step_shared {it it' : Iter M} (hl : it.legacyRecv = false) {e : Ev M} (hs : it.step e = some it') :
    it'.legacyRecv = false ∧ ∃ os l, it.queue.exec (act e) = some (it'.queue, os) ∧
      it'.yielded = it.yielded ++ l ∧ l.Sublist ((Legacy.Spec.returned os).map some) := by
  have hnone : it.returnsNone = false := by simp [Iter.returnsNone, hl]
  cases e with
  | start =>
    simp only [Iter.step] at hs
    split at hs
    · cases hs
    · cases hs
      exact ⟨hl, [], [], rfl, by simp, by simp⟩
  | next =>
    simp only [Iter.step] at hs
    split at hs
    · obtain ⟨⟨q, os⟩, hq, rfl⟩ := Option.map_eq_some_iff.1 hs
      obtain ⟨l, h1, h2, h3, h4⟩ := observe_sublist 1006 os { it with queue := q, gen := .receiving }
      exact ⟨h4.trans hl, os, l, by simp only [act, Queue.exec, hq, h3, List.append_nil], h1, h2⟩
    · cases hs
  | queue a code =>
    have hs' : (it.queue.step a).map (fun (q, os) =>
        os.foldl (Iter.observe code) { it with queue := q }) = some it' := by
      rw [← hs]
      cases a with
      | recv t =>
        cases t with
        | zero => cases hs
        | succ t => rfl
      | wake t =>
        cases t with
        | zero => simp [Iter.step, hnone]
        | succ t => rfl
      | _ => rfl
    obtain ⟨⟨q, os⟩, hq, rfl⟩ := Option.map_eq_some_iff.1 hs'
    obtain ⟨l, h1, h2, h3, h4⟩ := observe_sublist code os { it with queue := q }
    exact ⟨h4.trans hl, os, l, by simp only [act, Queue.exec, hq, h3, List.append_nil], h1, h2⟩

theorem exec_shared : ∀ {es : List (Ev M)} {it it' : Iter M}, it.legacyRecv = false →
    it.exec es = some it' → ∃ os l, it.queue.exec (es.flatMap act) = some (it'.queue, os) ∧
      it'.yielded = it.yielded ++ l ∧ l.Sublist ((Legacy.Spec.returned os).map some)
  | [], it, it', _, hs => by
    cases hs
    exact ⟨[], [], rfl, by simp, by simp⟩
  | e :: es, it, it', hl, hs => by
    obtain ⟨p, h1, h2⟩ := Option.bind_eq_some_iff.1 hs
    obtain ⟨h3, o1, l1, h4, h5, h6⟩ := step_shared hl h1
    obtain ⟨o2, l2, h7, h8, h9⟩ := exec_shared h3 h2
    refine ⟨o1 ++ o2, l1 ++ l2, ?_, ?_, ?_⟩
    · rw [List.flatMap_cons, exec_append h4, h7]; rfl
    · rw [h8, h5, List.append_assoc]
    · rw [Legacy.Spec.returned_append, List.map_append]; exact h6.append h9

/-- When other tasks call `recv`, loops may not get all messages, and may raise `RuntimeError`, but
they get messages at most once, in the order in which they were received. -/
theorem C90_shared {n : Option Nat} {es : List (Ev M)} {it : Iter M}
    (h : (Iter.init n).exec es = some it) : it.yielded.Sublist ((Spec.arrived es).map some) := by
  obtain ⟨os, l, h1, h2, h3⟩ := exec_shared rfl h
  obtain ⟨lost, h4, -⟩ := C51_order_partial h1
  rw [received_acts] at h4
  have : it.yielded = l := by simpa [Iter.init] using h2
  rw [this, ← h4]
  refine h3.trans (List.Sublist.map _ ?_)
  rw [List.append_assoc, List.append_assoc]
  exact List.sublist_append_left _ _

/-- Task 1 takes the first message, and the loop gets the second one. -/
example : ((Iter.init none).exec [.queue (.message 1) 0, .queue (.message 2) 0, .queue (.recv 1) 0, .next]).map
    (fun it => (it.gen, it.yielded)) = some (.suspended, [some 2]) := by decide +kernel

/-! ## With `legacy_recv` -/

theorem legacy_round {it : Iter M} (hl : it.legacyRecv = true) (hg : it.gen = .suspended)
    (hx : it.queue.transfer = .exited) (hm : it.queue.messages = []) (hr : it.queue.recvs = [])
    (hp : it.queue.popWaiter = none) (hd : it.queue.done = []) :
    ∃ it', it.exec [.next, .queue (.wake 0) 1000] = some it' ∧ it'.legacyRecv = true ∧
      it'.gen = .suspended ∧ it'.queue.transfer = .exited ∧ it'.queue.messages = [] ∧
      it'.queue.recvs = [] ∧ it'.queue.popWaiter = none ∧ it'.queue.done = [] ∧
      it'.yielded = it.yielded ++ [none] := by
  simp [Iter.exec, Iter.step, hl, hg, hx, hm, hr, hp, hd, Queue.step, Queue.find, Queue.recvLoop,
    Iter.returnsNone, Transfer.isExited, Queue.drop]

theorem iter_exec_append (as bs : List (Ev M)) (it : Iter M) :
    it.exec (as ++ bs) = (it.exec as).bind (·.exec bs) := by
  induction as generalizing it with
  | nil => rfl
  | cons a as ih =>
    simp only [List.cons_append, Iter.exec]
    cases it.step a with
    | none => rfl
    | some p => simpa using ih p

/-- With `legacy_recv`, `async for` doesn't end when the connection is closed: `recv` returns `None`,
and the loop gets `None`, as many times as it asks for a message. -/
theorem C90_legacy_recv (k : Nat) : ∃ it it' : Iter M,
    (Iter.init none true).exec [.queue .exit 1000] = some it ∧ it.queue.transfer = .exited ∧
    it.exec (List.replicate k [.next, .queue (.wake 0) 1000]).flatten = some it' ∧
    it'.gen = .suspended ∧ it'.yielded = List.replicate k none := by
  have hk : ∀ (k : Nat) (it : Iter M), it.legacyRecv = true → it.gen = .suspended →
      it.queue.transfer = .exited → it.queue.messages = [] → it.queue.recvs = [] →
      it.queue.popWaiter = none → it.queue.done = [] →
      ∃ it', it.exec (List.replicate k [.next, .queue (.wake 0) 1000]).flatten = some it' ∧
        it'.gen = .suspended ∧ it'.yielded = it.yielded ++ List.replicate k none := by
    intro k
    induction k with
    | zero => intro it _ hg _ _ _ _ _; exact ⟨it, rfl, hg, by simp⟩
    | succ k ih =>
      intro it hl hg hx hm hr hp hd
      obtain ⟨i1, a0, a1, a2, a3, a4, a5, a6, a7, a8⟩ := legacy_round hl hg hx hm hr hp hd
      obtain ⟨i2, b1, b2, b3⟩ := ih i1 a1 a2 a3 a4 a5 a6 a7
      refine ⟨i2, ?_, b2, ?_⟩
      · rw [List.replicate_succ, List.flatten_cons, iter_exec_append, a0]
        exact b1
      · rw [b3, a8, List.replicate_succ, List.append_assoc]; rfl
  obtain ⟨it', h1, h2, h3⟩ := hk k
    ⟨{ (Queue.init none : Queue M) with transfer := .exited }, true, .suspended, []⟩ rfl rfl rfl rfl rfl rfl rfl
  exact ⟨_, it', rfl, rfl, h1, h2, by simpa using h3⟩

/-- When the loop gets `None`, the queue does what it does when `recv` raises `ConnectionClosed`. -/
theorem Inv.step_none {it it' : Iter M} (h : Inv it) {code : Int} (hr : it.returnsNone = true)
    (hs : it.step (.queue (.wake 0) code) = some it') :
    it.queue.exec [.wake 0, .wake 0] = some (it'.queue, [.closed 0]) ∧ it.legacyRecv = true ∧
      it'.legacyRecv = it.legacyRecv ∧ it'.yielded = it.yielded ++ [none] ∧ Inv it' ∧
      it.queue.transfer = .exited ∧ it'.queue.messages = [] := by
  simp only [Iter.step, hr, if_true, Option.some.injEq] at hs
  subst hs
  unfold Iter.returnsNone at hr
  simp only [Bool.and_eq_true] at hr
  obtain ⟨⟨hl, hx⟩, hf⟩ := hr
  have hx' : it.queue.transfer = .exited := by
    cases ht : it.queue.transfer <;> rw [ht] at hx <;> simp_all [Transfer.isExited]
  split at hf
  · rename_i f hf'
    simp only [Bool.not_eq_true', List.contains_eq_mem, decide_eq_false_iff_not] at hf
    have hgen : ∃ r, it.queue.recvs = [(0, r)] := by
      have hw := h.waiting
      unfold Waiting at hw
      split at hw
      · exact hw
      · simp [Queue.find, hw] at hf'
    obtain ⟨r, hrs⟩ := hgen
    have e1 : it.queue.step (.wake 0) = some ({ { it.queue.drop 0 with popWaiter := none } with
        recvs := [(0, .ensuring)] }, []) := by
      simp [Queue.step, hf', hx, hf, Queue.drop, hrs]
    have e2 : ({ { it.queue.drop 0 with popWaiter := none } with
        recvs := [(0, .ensuring)] } : Queue M).step (.wake 0) =
        some ({ it.queue.drop 0 with popWaiter := none }, [.closed 0]) := by
      simp [Queue.step, Queue.find, Queue.drop, hrs, hx]
    have hex : it.queue.exec [.wake 0, .wake 0] =
        some ({ it.queue.drop 0 with popWaiter := none }, [.closed 0]) := by
      simp [Queue.exec, e1, e2]
    have hx1 : it.queue.exec [.wake 0] = some ({ { it.queue.drop 0 with popWaiter := none } with
        recvs := [(0, .ensuring)] }, [] ++ []) := by simp only [Queue.exec, e1]
    have hok1 := (h.ok.exec hx1).1
    have ht1 := h.tidy.step (a := .wake 0) h.ok nofun e1
    have hok2 := (h.ok.exec hex).1
    have ht2 := ht1.step (a := .wake 0) hok1 nofun e2
    have hm : it.queue.messages = [] := ht1.empty 0 List.mem_cons_self
    have hr0 : (it.queue.drop 0).recvs = [] := by simp [Queue.drop, hrs]
    exact ⟨hex, hl, rfl, rfl, ⟨hok2, ht2, hr0, nofun, nofun⟩, hx', hm⟩
  · cases hf

/-- What the loop got: messages, then any number of `None`. -/
def Spec.Then (it : Iter M) (k : Nat) (got : List M) : Prop :=
  it.yielded = got.map some ++ List.replicate k none ∧
    (k ≠ 0 → it.legacyRecv = true ∧ it.queue.transfer = .exited ∧ it.queue.messages = [])

theorem Inv.step_any {it it' : Iter M} (h : Inv it) {e : Ev M}
    (he : ∀ t code, e ≠ .queue (.recv t) code) (hs : it.step e = some it')
    {k : Nat} {got : List M} (hy : Spec.Then it k got) :
    ∃ as os k' new, it.queue.exec as = some (it'.queue, os) ∧
      Legacy.Spec.received as = Spec.arrived [e] ∧ Legacy.Spec.returned os = new ∧
      (.cancelTransfer ∈ as → ∃ code, e = .queue .cancelTransfer code) ∧
      it'.legacyRecv = it.legacyRecv ∧ Inv it' ∧ Spec.Then it' k' (got ++ new) := by
  by_cases hn : ∃ code, e = .queue (.wake 0) code ∧ it.returnsNone = true
  · obtain ⟨code, rfl, hr⟩ := hn
    obtain ⟨h1, h2, h3, h4, h5, h6, h7⟩ := h.step_none hr hs
    obtain ⟨-, z1, -⟩ := h.ok.exec_exited h1 h6
    refine ⟨_, _, k + 1, _, h1, rfl, rfl, by simp, h3, h5, ?_, fun _ => ⟨h3.trans h2, z1, h7⟩⟩
    rw [h4, hy.1, List.replicate_succ']
    simp [Legacy.Spec.returned]
  · obtain ⟨⟨os, h1, h2⟩, h3, h4, -⟩ := h.step' (fun code e' => by
      cases hr : it.returnsNone with
      | false => rfl
      | true => exact absurd ⟨code, e', hr⟩ hn) he hs
    refine ⟨_, os, k, _, h1, ?_, rfl, ?_, h3, h4, ?_⟩
    · simpa using received_acts [e]
    · cases e with
      | start => intro hm; cases hm
      | next => intro hm; simp [act] at hm
      | queue a c =>
        intro hm
        simp only [act, List.mem_singleton] at hm
        exact ⟨c, by rw [hm]⟩
    · cases k with
      | zero => exact ⟨by rw [h2, hy.1]; simp, by simp⟩
      | succ k =>
        obtain ⟨y1, y2, y3⟩ := hy.2 (by simp)
        obtain ⟨-, z1, -, -, -, z2⟩ := h.ok.exec_exited h1 y2
        rw [y3, List.append_eq_nil_iff] at z2
        exact ⟨by rw [h2, hy.1, z2.1]; simp, fun _ => ⟨h3.trans y1, z1, z2.2⟩⟩

theorem Inv.exec_any : ∀ {es : List (Ev M)} {it it' : Iter M} {k : Nat} {got : List M}, Inv it →
    Spec.Alone es → it.exec es = some it' → Spec.Then it k got →
    ∃ as os k', it.queue.exec as = some (it'.queue, os) ∧
      Legacy.Spec.received as = Spec.arrived es ∧
      (.cancelTransfer ∈ as → ∃ code, .queue .cancelTransfer code ∈ es) ∧
      it'.legacyRecv = it.legacyRecv ∧ Spec.Then it' k' (got ++ Legacy.Spec.returned os)
  | [], it, it', k, got, h, _, hs, hy => by
    cases hs
    exact ⟨[], [], k, rfl, rfl, by simp, rfl, by simpa [Legacy.Spec.returned] using hy⟩
  | e :: es, it, it', k, got, h, ha, hs, hy => by
    obtain ⟨p, h1, h2⟩ := Option.bind_eq_some_iff.1 hs
    obtain ⟨as, os, k1, new, a1, a2, rfl, a4, a5, a6, a7⟩ := h.step_any
      (fun t c e' => ha t c (by rw [e']; exact List.mem_cons_self)) h1 hy
    obtain ⟨bs, os', k2, b1, b2, b3, b4, b5⟩ := Inv.exec_any a6
      (fun t c hm => ha t c (List.mem_cons_of_mem _ hm)) h2 a7
    refine ⟨as ++ bs, os ++ os', k2, by rw [exec_append a1, b1]; rfl, ?_, ?_, b4.trans a5, ?_⟩
    · rw [Legacy.Spec.received_append, a2, b2]
      simp [Spec.arrived, ← List.filterMap_append]
    · intro hm
      rcases List.mem_append.1 hm with hm | hm
      · obtain ⟨c, e'⟩ := a4 hm
        exact ⟨c, by rw [e']; exact List.mem_cons_self⟩
      · obtain ⟨c, hc⟩ := b3 hm
        exact ⟨c, List.mem_cons_of_mem _ hc⟩
    · rw [Legacy.Spec.returned_append, ← List.append_assoc]
      exact b5

/-- With `legacy_recv` or without, the loop gets the messages in the order in which they were
received.  It gets `None` only with `legacy_recv`, after the connection is closed, and after every
message. -/
theorem C90_legacy_order {n : Option Nat} {lr : Bool} {es : List (Ev M)} {it : Iter M}
    (h : (Iter.init n lr).exec es = some it) (ha : Spec.Alone es) :
    ∃ got k lost, it.yielded = got.map some ++ List.replicate k none ∧
      got ++ it.queue.messages ++ it.queue.transfer.inHand ++ lost = Spec.arrived es ∧
      lost.length ≤ 1 ∧ (Spec.Uncancelled es → lost = []) ∧
      (k ≠ 0 → lr = true ∧ it.queue.transfer = .exited ∧ it.queue.messages = []) := by
  obtain ⟨as, os, k, h1, h2, h3, h4, h5⟩ :=
    (Inv.init n lr).exec_any (k := 0) (got := []) ha h ⟨rfl, by simp⟩
  obtain ⟨lost, h6, h7, h8⟩ := C51_order_partial h1
  rw [h2] at h6
  refine ⟨_, k, lost, h5.1, by simpa using h6, h7, fun hu => h8 fun hm => ?_, fun hk => ?_⟩
  · obtain ⟨c, hc⟩ := h3 hm
    exact hu c hc
  · obtain ⟨y1, y2⟩ := h5.2 hk
    exact ⟨h4.symm.trans y1, y2⟩

/-- The loop gets a message, then `None` because the connection is closed. -/
example : ((Iter.init none true).exec [.queue (.message 1) 0, .next, .next, .queue .exit 0,
    .queue (.wake 0) 1000]).map (·.yielded) = some [some 1, none] := by decide +kernel

end WS.LegacyIter
