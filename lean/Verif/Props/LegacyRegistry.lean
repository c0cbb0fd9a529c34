import Verif.Model.LegacyRegistry
import Verif.Props.LegacyServer

/-!
# C63: shutting down a legacy server

The model is in `Verif.Model.LegacyRegistry`.
-/

namespace WS.LegacyRegistry

open WS.Spec (Encodable)

variable {X : Type}

/-! ## Specification -/

/-- The connection is closed, or asyncio was told to close it. -/
def Spec.Closed (c : Conn) : Prop := c.transportClosed = true ∨ c.lost = true

/-! ## Lemmas -/

private theorem not_opened (s : LegacyServer.Setup X) (request : Option Request) (o : LegacyServer.Opened X) :
    LegacyServer.openingHandshake s false request ≠ .opened o := by
  unfold LegacyServer.openingHandshake LegacyServer.handshake
  cases request with
  | none => simp only; split <;> (try split) <;> (try split) <;> simp
  | some req =>
    simp only [LegacyServer.earlyResponse]
    cases s.processRequest req.path req.headers with
    | error e => simp only; split <;> (try split) <;> (try split) <;> simp
    | ok r => simp only [Bool.false_eq_true, if_false]; split <;> (try split) <;> (try split) <;> simp

/-- How a connection changes; `serving`: the server is serving. -/
private structure Evolves (serving : Bool) (c c' : Conn) : Prop where
  done : c.phase = .done → c'.phase = .done
  closed : Spec.Closed c → Spec.Closed c'
  ended : c.closeEnded = true → c'.closeEnded = true
  cancelled : c.cancelled = true → c'.cancelled = true
  opened : serving = false → c'.opened = c.opened
  notOpen : c.state ≠ .open → serving = false → c'.state ≠ .open
  code : c.opened = true → c.state ≠ .open → c'.state ≠ .open ∧ c'.code = c.code
  mono : c.opened = true → c'.opened = true

private theorem Evolves.refl (b : Bool) (c : Conn) : Evolves b c c :=
  ⟨id, id, id, id, fun _ => rfl, fun h _ => h, fun _ h => ⟨h, rfl⟩, by simp⟩

/-- What holds of every connection. -/
private structure ConnOk (c : Conn) : Prop where
  done : c.phase = .done → Spec.Closed c ∨ c.cancelled = true
  ended : c.closeEnded = true → Spec.Closed c
  running : c.phase = .running ∨ c.phase = .closing → c.opened = true
  unopened : c.opened = false → c.state ≠ .open
  fresh : c.phase = .handshake → c.opened = false

/-- The shapes of steps -/
private inductive Shape (s s' : Server) : Prop where
  | accept (h : s' = { s with conns := s.conns ++ [{}], websockets := s.websockets ++ [s.conns.length] })
  | put (i : Nat) (c c' : Conn) (hc : s.conns[i]? = some c) (hp : c'.phase = .done ↔ c.phase = .done)
      (hok : ConnOk c → ConnOk c') (hev : ConnOk c → Evolves s.serving c c')
      (h : s' = { s.put i c' with closer := s'.closer })
  | ended (i : Nat) (c c' : Conn) (hc : s.conns[i]? = some c) (hp : c.phase ≠ .done)
      (hok : ConnOk c → ConnOk { c' with phase := .done })
      (hev : ConnOk c → Evolves s.serving c { c' with phase := .done }) (h : s' = s.endHandler i c')
  | same (h : s' = { s with closer := s'.closer, serving := s'.serving }) (hs : s.serving = false → s'.serving = false)

private theorem sendClose_ok {c : Conn} (code : Nat) (h : ConnOk c) : ConnOk (c.sendClose code) := by
  unfold Conn.sendClose
  split
  · exact ⟨h.done, h.ended, h.running, by simp, h.fresh⟩
  · exact h

private theorem sendClose_evolves {c : Conn} (b : Bool) (code : Nat) : Evolves b c (c.sendClose code) := by
  unfold Conn.sendClose
  split
  · rename_i h
    exact ⟨id, id, id, id, fun _ => rfl, by simp, fun _ hn => absurd h hn, by simp⟩
  · exact .refl _ _

private theorem step_shape {s s' : Server} {e : Event X} (h : step s e = some s') : Shape s s' := by
  cases e with
  | accept => cases h; exact .accept rfl
  | handshake i setup request =>
    simp only [step] at h
    split at h
    · cases h
    · rename_i c hc
      split at h
      · rename_i hp
        split at h
        · rename_i o ho
          have hserv : s.serving = true := by
            cases hs : s.serving with
            | true => rfl
            | false =>
              exfalso
              rw [hs] at ho
              exact not_opened _ _ _ ho
          split at h
          · cases h
            refine .put i c _ hc (by simp [hp]) (fun hok => ?_) (fun hok => ?_) rfl
            · exact ⟨by simp, fun hE => hok.ended hE, by simp, by simp, by simp⟩
            · exact ⟨by simp [hp], fun hC => hC, fun h => h, fun h => h, by simp [hserv], by simp [hserv],
                fun h1 => (by rw [hok.fresh hp] at h1; cases h1), by simp⟩
          · cases h
            refine .put i c _ hc (by simp [hp]) (fun hok => ?_) (fun hok => ?_) rfl
            · exact ⟨by simp, fun hE => hok.ended hE, by simp, hok.unopened, by simp⟩
            · exact ⟨by simp [hp], fun hC => hC, fun h => h, fun h => h, by simp, fun h _ => h,
                fun h1 => (by rw [hok.fresh hp] at h1; cases h1), by simp⟩
        · cases h
          refine .put i c _ hc (by simp [hp]) (fun hok => ?_) (fun hok => ?_) rfl
          · exact ⟨by simp, fun hE => hok.ended hE, by simp, hok.unopened, by simp⟩
          · exact ⟨by simp [hp], fun hC => hC, fun h => h, fun h => h, by simp, fun h _ => h,
              fun h1 => (by rw [hok.fresh hp] at h1; cases h1), by simp⟩
        · cases h
          refine .ended i c _ hc (by simp [hp]) (fun hok => ?_) (fun hok => ?_) rfl
          · exact ⟨fun _ => .inl (.inl rfl), fun _ => .inl rfl, by simp, hok.unopened, by simp⟩
          · exact ⟨by simp, fun hC => .inl rfl, fun h => h, fun h => h, by simp, fun h _ => h,
              fun h1 => (by rw [hok.fresh hp] at h1; cases h1), by simp⟩
      · cases h
  | handshakeError i =>
    simp only [step] at h
    split at h
    · cases h
    · rename_i c hc
      split at h
      · rename_i hp
        cases h
        refine .ended i c _ hc (by simp [hp]) (fun hok => ?_) (fun hok => ?_) rfl
        · exact ⟨fun _ => .inl (.inl rfl), fun _ => .inl rfl, by simp, hok.unopened, by simp⟩
        · exact ⟨by simp, fun hC => .inl rfl, fun h => h, fun h => h, by simp, fun h _ => h,
            fun h1 => (by rw [hok.fresh hp] at h1; cases h1), by simp⟩
      · cases h
  | waited i =>
    simp only [step] at h
    split at h
    · cases h
    · rename_i c hc
      split at h
      · rename_i hp
        cases h
        refine .ended i c _ hc (by simp [hp]) (fun hok => ?_) (fun hok => ?_) rfl
        · exact ⟨fun _ => .inl (.inr hp.2), fun _ => .inr hp.2, by simp, hok.unopened, by simp⟩
        · exact ⟨by simp, fun hC => .inr hp.2, fun h => h, fun h => h, by simp, fun h _ => h,
            fun _ h => ⟨h, rfl⟩, by simp⟩
      · cases h
  | returned i =>
    simp only [step] at h
    split at h
    · cases h
    · rename_i c hc
      split at h
      · rename_i hp
        cases h
        refine .put i c _ hc (by simp [hp]) (fun hok => ?_) (fun hok => ?_) rfl
        · have h := sendClose_ok 1000 hok
          exact ⟨by simp, h.ended, fun _ => by
            have : (c.sendClose 1000).opened = c.opened := by unfold Conn.sendClose; split <;> rfl
            simp only [this]; exact hok.running (.inl hp), h.unopened, by simp⟩
        · have h := sendClose_evolves (c := c) s.serving 1000
          exact ⟨by simp [hp], h.closed, h.ended, h.cancelled, h.opened, h.notOpen, h.code, h.mono⟩
      · cases h
  | raised i =>
    simp only [step] at h
    split at h
    · cases h
    · rename_i c hc
      split at h
      · rename_i hp
        cases h
        refine .ended i c _ hc (by simp [hp]) (fun hok => ?_) (fun hok => ?_) rfl
        · have h := sendClose_ok 1011 hok
          exact ⟨fun _ => .inl (.inl rfl), fun _ => .inl rfl, by simp, h.unopened, by simp⟩
        · have h := sendClose_evolves (c := c) s.serving 1011
          exact ⟨by simp, fun _ => .inl rfl, h.ended, h.cancelled, h.opened, h.notOpen, h.code, h.mono⟩
      · cases h
  | closed i =>
    simp only [step] at h
    split at h
    · cases h
    · rename_i c hc
      split at h
      · rename_i hp
        cases h
        refine .ended i c _ hc (by simp [hp]) (fun hok => ?_) (fun hok => ?_) rfl
        · have : Spec.Closed c := by
            rcases hp.2 with h | h
            · exact hok.ended h
            · exact .inr h
          exact ⟨fun _ => .inl this, fun _ => this, by simp, hok.unopened, by simp⟩
        · exact ⟨by simp, fun h => h, fun h => h, fun h => h, by simp, fun h _ => h, fun _ h => ⟨h, rfl⟩, by simp⟩
      · cases h
  | cancel i =>
    simp only [step] at h
    split at h
    · cases h
    · rename_i c hc
      split at h
      · cases h
      · rename_i hp
        cases h
        refine .ended i c _ hc (by simp [hp]) (fun hok => ?_) (fun hok => ?_) rfl
        · exact ⟨fun _ => .inr rfl, hok.ended, by simp, hok.unopened, by simp⟩
        · exact ⟨by simp, fun h => h, fun h => h, fun h => rfl, by simp, fun h _ => h, fun _ h => ⟨h, rfl⟩, by simp⟩
  | startClosing i code =>
    simp only [step] at h
    split at h
    · cases h
    · rename_i c hc
      split at h
      · cases h
        refine .put i c _ hc ?_ (fun hok => sendClose_ok code hok) (fun hok => sendClose_evolves _ code) rfl
        unfold Conn.sendClose
        split <;> simp
      · cases h
  | closeEnds i =>
    simp only [step] at h
    split at h
    · cases h
    · rename_i c hc
      split at h
      · cases h
        have hcl : Spec.Closed { c with closeEnded := true, transportClosed := c.transportClosed || !c.lost } := by
          unfold Spec.Closed
          cases c.transportClosed <;> cases c.lost <;> simp
        refine .put i c _ hc (by simp) (fun hok => ?_) (fun hok => ?_) rfl
        · exact ⟨fun _ => .inl hcl, fun _ => hcl, hok.running, hok.unopened, hok.fresh⟩
        · exact ⟨fun h => h, fun _ => hcl, fun h => rfl, fun h => h, by simp, fun h _ => h, fun _ h => ⟨h, rfl⟩, by simp⟩
      · cases h
  | lose i =>
    simp only [step] at h
    split at h
    · cases h
    · rename_i c hc
      cases h
      refine .put i c _ hc (by simp) (fun hok => ?_) (fun hok => ?_) rfl
      · exact ⟨fun _ => .inl (.inr rfl), fun _ => .inr rfl, hok.running, by simp, hok.fresh⟩
      · exact ⟨fun h => h, fun _ => .inr rfl, fun h => h, fun h => h, by simp, by simp, by simp, by simp⟩
  | serverClose =>
    simp only [step] at h
    split at h <;> cases h <;> exact .same rfl (fun h => h)
  | stop =>
    simp only [step] at h
    split at h <;> cases h
    exact .same rfl (fun h => rfl)
  | snapshot =>
    simp only [step] at h
    split at h <;> cases h
    exact .same rfl (fun h => h)
  | taskStarts i =>
    simp only [step] at h
    split at h
    · rename_i tasks c ht hc
      split at h
      · split at h
        · cases h
          refine .put i c _ hc ?_ (fun hok => sendClose_ok 1001 hok) (fun hok => sendClose_evolves _ 1001) rfl
          unfold Conn.sendClose
          split <;> simp
        · cases h
          exact .same rfl (fun h => h)
      · cases h
    · cases h
  | taskEnds i =>
    simp only [step] at h
    split at h
    · split at h
      · cases h
        exact .same rfl (fun h => h)
      · cases h
    · cases h
  | tasksEnded =>
    simp only [step] at h
    split at h
    · split at h
      · cases h
        exact .same rfl (fun h => h)
      · cases h
    · cases h
  | handlersEnded =>
    simp only [step] at h
    split at h
    · split at h
      · cases h
        exact .same rfl (fun h => h)
      · cases h
    · cases h

/-- The registry contains the connections whose handler hasn't ended. -/
private structure Ok (s : Server) : Prop where
  keyError : s.keyError = false
  nodup : s.websockets.Nodup
  mem : ∀ i : Nat, i ∈ s.websockets ↔ ∃ c, s.conns[i]? = some c ∧ c.phase ≠ .done
  conn : ∀ (i : Nat) (c : Conn), s.conns[i]? = some c → ConnOk c

private theorem step_ok {s s' : Server} {e : Event X} (hs : Ok s) (h : step s e = some s') : Ok s' := by
  cases step_shape h with
  | accept h =>
    subst h
    refine ⟨hs.keyError, ?_, fun i => ?_, fun i c hc => ?_⟩
    · simp only [List.nodup_append, hs.nodup, true_and]
      refine ⟨by simp, fun a ha b hb => ?_⟩
      simp only [List.mem_singleton] at hb
      obtain ⟨c, hc, _⟩ := (hs.mem a).1 ha
      have := (List.getElem?_eq_some_iff.1 hc).1
      omega
    · simp only [List.mem_append, List.mem_singleton, hs.mem, List.getElem?_append]
      split
      · rename_i hi
        exact ⟨fun h => h.elim id (fun h => by omega), .inl⟩
      · rename_i hi
        constructor
        · rintro (⟨c, hc, _⟩ | h)
          · have := (List.getElem?_eq_some_iff.1 hc).1
            omega
          · subst h
            exact ⟨{}, by simp, by simp⟩
        · rintro ⟨c, hc, hp⟩
          right
          have := (List.getElem?_eq_some_iff.1 hc).1
          simp at this
          omega
    · simp only [List.getElem?_append] at hc
      split at hc
      · exact hs.conn i c hc
      · have : c = {} := by
          have := List.mem_of_getElem? hc
          simpa using this
        subst this
        exact ⟨by simp, by simp, by simp, by simp, by simp⟩
  | put i c c' hc hp hok hev h =>
    have h1 : s'.conns = s.conns.set i c' := by rw [h]; rfl
    have h2 : s'.websockets = s.websockets := by rw [h]; rfl
    have h3 : s'.keyError = s.keyError := by rw [h]; rfl
    have hi := (List.getElem?_eq_some_iff.1 hc).1
    refine ⟨by rw [h3, hs.keyError], by rw [h2]; exact hs.nodup, fun j => ?_, fun j d hd => ?_⟩
    · rw [h2, hs.mem, h1]
      by_cases hj : i = j
      · subst hj
        have hget := (List.getElem?_eq_some_iff.1 hc).2
        simp [hget, hi, hp]
      · simp [List.getElem?_set, hj]
    · rw [h1] at hd
      by_cases hj : i = j
      · subst hj
        simp [hi] at hd
        subst hd
        exact hok (hs.conn i c hc)
      · simp [List.getElem?_set, hj] at hd
        exact hs.conn j d hd
  | ended i c c' hc hp hok hev h =>
    subst h
    have hi := (List.getElem?_eq_some_iff.1 hc).1
    have hmem : i ∈ s.websockets := (hs.mem i).2 ⟨c, hc, hp⟩
    refine ⟨?_, hs.nodup.erase i, fun j => ?_, fun j d hd => ?_⟩
    · simp [Server.endHandler, Server.unregister, hs.keyError, hmem]
    · simp only [Server.endHandler, Server.unregister]
      rw [hs.nodup.mem_erase_iff, hs.mem]
      by_cases hj : i = j
      · subst hj
        simp [hi]
      · have : j ≠ i := fun h => hj h.symm
        simp [List.getElem?_set, hj, this]
    · simp only [Server.endHandler, Server.unregister] at hd
      by_cases hj : i = j
      · subst hj
        simp [hi] at hd
        subst hd
        exact hok (hs.conn i c hc)
      · simp [List.getElem?_set, hj] at hd
        exact hs.conn j d hd
  | same h _ =>
    have h1 : s'.conns = s.conns := by rw [h]
    have h2 : s'.websockets = s.websockets := by rw [h]
    have h3 : s'.keyError = s.keyError := by rw [h]
    exact ⟨by rw [h3, hs.keyError], by rw [h2]; exact hs.nodup, by rw [h1, h2]; exact hs.mem, by rw [h1]; exact hs.conn⟩

private theorem step_conn {s s' : Server} {e : Event X} (hs : Ok s) (h : step s e = some s') {i : Nat} {c : Conn}
    (hc : s.conns[i]? = some c) : ∃ c', s'.conns[i]? = some c' ∧ Evolves s.serving c c' := by
  have hi := (List.getElem?_eq_some_iff.1 hc).1
  cases step_shape h with
  | accept h =>
    subst h
    exact ⟨c, by simp only [List.getElem?_append, hi, if_true]; exact hc, .refl _ _⟩
  | put j d d' hd hp hok hev h =>
    have h1 : s'.conns = s.conns.set j d' := by rw [h]; rfl
    rw [h1]
    by_cases hj : j = i
    · subst hj
      rw [hd] at hc
      cases hc
      exact ⟨d', by simp [hi], hev (hs.conn _ _ hd)⟩
    · exact ⟨c, by simp [List.getElem?_set, hj, hc], .refl _ _⟩
  | ended j d d' hd hp hok hev h =>
    subst h
    simp only [Server.endHandler, Server.unregister]
    by_cases hj : j = i
    · subst hj
      rw [hd] at hc
      cases hc
      exact ⟨{ d' with phase := .done }, by simp [hi], hev (hs.conn _ _ hd)⟩
    · exact ⟨c, by simp [List.getElem?_set, hj, hc], .refl _ _⟩
  | same h _ =>
    have h1 : s'.conns = s.conns := by rw [h]
    exact ⟨c, by rw [h1]; exact hc, .refl _ _⟩

private theorem step_serving {s s' : Server} {e : Event X} (h : step s e = some s') (hs : s.serving = false) :
    s'.serving = false := by
  cases step_shape h with
  | accept h => subst h; exact hs
  | put i c c' hc hp hok hev h => rw [h]; exact hs
  | ended i c c' hc hp hok hev h => subst h; exact hs
  | same h h' => exact h' hs

private theorem step_closer {s s' : Server} {e : Event X} (h : step s e = some s') :
    s'.closer = s.closer
      ∨ (s.closer = .none ∧ s'.closer = .created)
      ∨ (s.closer = .created ∧ s'.closer = .stopped ∧ s'.serving = false)
      ∨ (s.closer = .stopped ∧ s'.closer = .closing (s.websockets.map (·, .scheduled)))
      ∨ (∃ tasks i, s.closer = .closing tasks ∧ (i, Task.scheduled) ∈ tasks
          ∧ s'.closer = .closing (tasks.map fun t => if t.1 = i then (i, .running) else t))
      ∨ (∃ tasks i c, s.closer = .closing tasks ∧ s.conns[i]? = some c ∧ s'.conns = s.conns
          ∧ (c.opened = false ∨ c.closeEnded = true ∨ c.lost = true)
          ∧ s'.closer = .closing (tasks.map fun t => if t.1 = i then (i, .ended) else t))
      ∨ (∃ tasks, s.closer = .closing tasks ∧ (∀ t ∈ tasks, t.2 = Task.ended) ∧ s'.conns = s.conns
          ∧ s'.closer = .waiting s.websockets)
      ∨ (∃ ids, s.closer = .waiting ids ∧ (∀ i ∈ ids, s.conns[i]?.map (·.phase) = some .done) ∧ s'.conns = s.conns
          ∧ s'.closer = .done) := by
  cases e with
  | serverClose =>
    simp only [step] at h
    split at h
    · rename_i hn
      cases h
      exact .inr (.inl ⟨hn, rfl⟩)
    · cases h
      exact .inl rfl
  | stop =>
    simp only [step] at h
    split at h
    · rename_i hn
      cases h
      exact .inr (.inr (.inl ⟨hn, rfl, rfl⟩))
    · cases h
  | snapshot =>
    simp only [step] at h
    split at h
    · rename_i hn
      cases h
      exact .inr (.inr (.inr (.inl ⟨hn, rfl⟩)))
    · cases h
  | taskStarts i =>
    simp only [step] at h
    split at h
    · rename_i tasks c ht hc
      split at h
      · rename_i hm
        split at h
        · cases h
          exact .inr (.inr (.inr (.inr (.inl ⟨tasks, i, ht, hm, rfl⟩))))
        · rename_i ho
          cases h
          exact .inr (.inr (.inr (.inr (.inr (.inl ⟨tasks, i, c, ht, hc, rfl, .inl (by simpa using ho), rfl⟩)))))
      · cases h
    · cases h
  | taskEnds i =>
    simp only [step] at h
    split at h
    · rename_i tasks c ht hc
      split at h
      · rename_i hm
        cases h
        exact .inr (.inr (.inr (.inr (.inr (.inl ⟨tasks, i, c, ht, hc, rfl, .inr hm.2, rfl⟩)))))
      · cases h
    · cases h
  | tasksEnded =>
    simp only [step] at h
    split at h
    · rename_i tasks ht
      split at h
      · rename_i hm
        cases h
        exact .inr (.inr (.inr (.inr (.inr (.inr (.inl ⟨tasks, ht, hm, rfl, rfl⟩))))))
      · cases h
    · cases h
  | handlersEnded =>
    simp only [step] at h
    split at h
    · rename_i ids ht
      split at h
      · rename_i hm
        cases h
        exact .inr (.inr (.inr (.inr (.inr (.inr (.inr ⟨ids, ht, hm, rfl, rfl⟩))))))
      · cases h
    · cases h
  | accept => cases h; exact .inl rfl
  | _ =>
    left
    simp only [step] at h
    split at h
    · cases h
    · repeat' split at h
      all_goals first | (cases h; rfl) | cases h

/-- The server isn't serving once its underlying server is closed; tasks that ended closed their connection,
if it was open. -/
private def CloserOk (s : Server) : Prop :=
  match s.closer with
  | .none | .created => True
  | .stopped | .waiting _ | .done => s.serving = false
  | .closing tasks =>
    s.serving = false ∧ ∀ t ∈ tasks, t.2 = Task.ended →
      ∃ c, s.conns[t.1]? = some c ∧ (c.opened = true → Spec.Closed c)

private theorem step_closerOk {s s' : Server} {e : Event X} (hs : Ok s) (hcl : CloserOk s) (h : step s e = some s') :
    CloserOk s' := by
  have hserv := step_serving h
  have hconn : ∀ {i : Nat}, s.serving = false → (∃ c, s.conns[i]? = some c ∧ (c.opened = true → Spec.Closed c)) →
      ∃ c, s'.conns[i]? = some c ∧ (c.opened = true → Spec.Closed c) := by
    rintro i hsv ⟨c, hc, h1⟩
    obtain ⟨c', hc', hev⟩ := step_conn hs h hc
    exact ⟨c', hc', fun ho => hev.closed (h1 (by rw [← hev.opened hsv]; exact ho))⟩
  unfold CloserOk at hcl ⊢
  rcases step_closer h with h1 | ⟨h1, h2⟩ | ⟨h1, h2, h3⟩ | ⟨h1, h2⟩ | ⟨tasks, i, h1, h2, h3⟩
    | ⟨tasks, i, c, h1, h2, h3, h4, h5⟩ | ⟨tasks, h1, h2, h3, h4⟩ | ⟨ids, h1, h2, h3, h4⟩
  · rw [h1]
    revert hcl
    cases s.closer with
    | none => exact id
    | created => exact id
    | stopped => exact hserv
    | waiting _ => exact hserv
    | done => exact hserv
    | closing tasks =>
      rintro ⟨h2, h3⟩
      exact ⟨hserv h2, fun t ht he => hconn h2 (h3 t ht he)⟩
  · rw [h2]; trivial
  · rw [h2]; exact h3
  · rw [h2]
    rw [h1] at hcl
    refine ⟨hserv hcl, fun t ht he => ?_⟩
    simp only [List.mem_map] at ht
    obtain ⟨a, _, rfl⟩ := ht
    cases he
  · rw [h3]
    rw [h1] at hcl
    refine ⟨hserv hcl.1, fun t ht he => ?_⟩
    simp only [List.mem_map] at ht
    obtain ⟨a, ha, rfl⟩ := ht
    split at he
    · cases he
    · rename_i hne
      rw [if_neg hne]
      exact hconn hcl.1 (hcl.2 a ha he)
  · rw [h5]
    rw [h1] at hcl
    refine ⟨hserv hcl.1, fun t ht he => ?_⟩
    simp only [List.mem_map] at ht
    obtain ⟨a, ha, rfl⟩ := ht
    split
    · refine hconn hcl.1 ⟨c, h2, fun ho => ?_⟩
      rcases h4 with h4 | h4 | h4
      · rw [h4] at ho; cases ho
      · exact (hs.conn i c h2).ended h4
      · exact .inr h4
    · rename_i hne
      rw [if_neg hne] at he
      exact hconn hcl.1 (hcl.2 a ha he)
  · rw [h4]
    rw [h1] at hcl
    exact hserv hcl.1
  · rw [h4]
    rw [h1] at hcl
    exact hserv hcl

private theorem init_ok : Ok {} := ⟨rfl, by simp, by simp, by simp⟩

private theorem run_ok {s s' : Server} {es : List (Event X)} (hs : Ok s) (hcl : CloserOk s) (h : run s es = some s') :
    Ok s' ∧ CloserOk s' := by
  induction es generalizing s with
  | nil => cases h; exact ⟨hs, hcl⟩
  | cons e es ih =>
    simp only [run] at h
    split at h
    · cases h
    · rename_i s1 h1
      exact ih (step_ok hs h1) (step_closerOk hs hcl h1) h

private theorem Evolves.trans {b b' : Bool} {c1 c2 c3 : Conn} (h1 : Evolves b c1 c2) (h2 : Evolves b' c2 c3)
    (hb : b = false → b' = false) : Evolves b c1 c3 where
  done h := h2.done (h1.done h)
  closed h := h2.closed (h1.closed h)
  ended h := h2.ended (h1.ended h)
  cancelled h := h2.cancelled (h1.cancelled h)
  opened h := by rw [h2.opened (hb h), h1.opened h]
  notOpen hn h := h2.notOpen (h1.notOpen hn h) (hb h)
  code hop hn := by
    obtain ⟨h3, h4⟩ := h1.code hop hn
    obtain ⟨h5, h6⟩ := h2.code (h1.mono hop) h3
    exact ⟨h5, by rw [h6, h4]⟩
  mono h := h2.mono (h1.mono h)

private theorem run_conn {s s' : Server} {es : List (Event X)} (hs : Ok s) (h : run s es = some s') {i : Nat} {c : Conn}
    (hc : s.conns[i]? = some c) : ∃ c', s'.conns[i]? = some c' ∧ Evolves s.serving c c' := by
  induction es generalizing s c with
  | nil => cases h; exact ⟨c, hc, .refl _ _⟩
  | cons e es ih =>
    simp only [run] at h
    split at h
    · cases h
    · rename_i s1 h1
      obtain ⟨c1, hc1, hev1⟩ := step_conn hs h1 hc
      obtain ⟨c2, hc2, hev2⟩ := ih (step_ok hs h1) h hc1
      exact ⟨c2, hc2, hev1.trans hev2 (step_serving h1)⟩

private theorem run_append (s : Server) (es es' : List (Event X)) :
    run s (es ++ es') = (run s es).bind (fun s' => run s' es') := by
  induction es generalizing s with
  | nil => rfl
  | cons e es ih =>
    simp only [List.cons_append, run]
    cases step s e with
    | none => rfl
    | some s1 => exact ih s1

/-- The handlers that the server waits for have ended when it's done. -/
private theorem run_done {s s' : Server} {es : List (Event X)} (hs : Ok s) (h : run s es = some s') {ids : List Nat}
    (hw : s.closer = .waiting ids) (hd : s'.closer = .done) :
    ∀ i ∈ ids, ∃ c, s'.conns[i]? = some c ∧ c.phase = .done := by
  induction es generalizing s with
  | nil =>
    cases h
    rw [hw] at hd
    cases hd
  | cons e es ih =>
    simp only [run] at h
    split at h
    · cases h
    · rename_i s1 h1
      rcases step_closer h1 with g | ⟨g, _⟩ | ⟨g, _⟩ | ⟨g, _⟩ | ⟨tasks, i, g, _⟩ | ⟨tasks, i, c, g, _⟩ | ⟨tasks, g, _⟩
        | ⟨ids', g, g2, g3, g4⟩
      · exact ih (step_ok hs h1) h (by rw [g, hw])
      all_goals rw [hw] at g; cases g
      intro i hi
      have := g2 i hi
      cases hc : s.conns[i]? with
      | none => rw [hc] at this; cases this
      | some c =>
        rw [hc] at this
        have hp : c.phase = .done := by simpa using this
        obtain ⟨c1, hc1, hev1⟩ := step_conn hs h1 hc
        obtain ⟨c2, hc2, hev2⟩ := run_conn (step_ok hs h1) h hc1
        exact ⟨c2, hc2, hev2.done (hev1.done hp)⟩

private theorem tasksEnded_inv {s s' : Server} (h : step (X := X) s .tasksEnded = some s') :
    ∃ tasks, s.closer = .closing tasks ∧ (∀ t ∈ tasks, t.2 = Task.ended)
      ∧ s' = { s with closer := .waiting s.websockets } := by
  simp only [step] at h
  split at h
  · rename_i tasks ht
    split at h
    · rename_i hm
      cases h
      exact ⟨tasks, ht, hm, rfl⟩
    · cases h
  · cases h

private theorem step_new {s s' : Server} {e : Event X} (hs : Ok s) (hserv : s.serving = false)
    (h : step s e = some s') {i : Nat} {c' : Conn} (hc' : s'.conns[i]? = some c') (ho : c'.opened = true) :
    ∃ c, s.conns[i]? = some c ∧ c.opened = true := by
  by_cases hi : i < s.conns.length
  · have hc : s.conns[i]? = some s.conns[i] := List.getElem?_eq_getElem hi
    obtain ⟨c1, hc1, hev⟩ := step_conn hs h hc
    rw [hc'] at hc1
    cases hc1
    exact ⟨_, hc, by rw [← hev.opened hserv]; exact ho⟩
  · exfalso
    have hi' := (List.getElem?_eq_some_iff.1 hc').1
    cases step_shape h with
    | accept h =>
      subst h
      simp only [List.getElem?_append, hi, if_false] at hc'
      have := List.mem_of_getElem? hc'
      simp only [List.mem_singleton] at this
      subst this
      cases ho
    | put j d d' hd hp hok hev h =>
      have h1 : s'.conns = s.conns.set j d' := by rw [h]; rfl
      rw [h1, List.length_set] at hi'
      exact hi hi'
    | ended j d d' hd hp hok hev h =>
      subst h
      simp [Server.endHandler, Server.unregister] at hi'
      exact hi hi'
    | same h _ =>
      have h1 : s'.conns = s.conns := by rw [h]
      rw [h1] at hi'
      exact hi hi'

/-- The events that close a connection before the server does -/
private theorem step_open {s s' : Server} {e : Event X} (h : step s e = some s') {i : Nat} {c : Conn} (hs : Ok s)
    (hc : s.conns[i]? = some c) (ho : c.state = .open) (hserv : s.serving = false)
    (hne : e ≠ .returned i ∧ e ≠ .raised i ∧ e ≠ .lose i ∧ (∀ code, e ≠ .startClosing i code) ∧ e ≠ .taskStarts i) :
    ∃ c', s'.conns[i]? = some c' ∧ c'.state = .open ∧ c'.opened = c.opened := by
  obtain ⟨c1, hc1, hev⟩ := step_conn hs h hc
  refine ⟨c1, hc1, ?_, hev.opened hserv⟩
  have hi := (List.getElem?_eq_some_iff.1 hc).1
  have hop : c.opened = true := by
    cases ho' : c.opened with
    | true => rfl
    | false => exact absurd ho ((hs.conn i c hc).unopened ho')
  obtain ⟨n1, n2, n3, n4, n5⟩ := hne
  have put : ∀ (k : Nat) (d d' : Conn) (cl : Closer), s.conns[k]? = some d → (k = i → d'.state = d.state) →
      s' = { s.put k d' with closer := cl } → c1.state = .open := by
    intro k d d' cl hd hst he
    subst he
    simp only [Server.put] at hc1
    by_cases hk : k = i
    · subst hk
      rw [hc] at hd
      cases hd
      simp [hi] at hc1
      rw [← hc1, hst rfl, ho]
    · simp [List.getElem?_set, hk] at hc1
      rw [hc] at hc1
      cases hc1
      exact ho
  have fin : ∀ (k : Nat) (d d' : Conn), s.conns[k]? = some d → (k = i → d'.state = d.state) →
      s' = s.endHandler k d' → c1.state = .open := by
    intro k d d' hd hst he
    subst he
    simp only [Server.endHandler, Server.unregister] at hc1
    by_cases hk : k = i
    · subst hk
      rw [hc] at hd
      cases hd
      simp [hi] at hc1
      rw [← hc1]
      exact (hst rfl).trans ho
    · simp [List.getElem?_set, hk] at hc1
      rw [hc] at hc1
      cases hc1
      exact ho
  have same : s'.conns = s.conns → c1.state = .open := by
    intro he
    rw [he, hc] at hc1
    cases hc1
    exact ho
  cases e with
  | accept =>
    cases h
    simp only [List.getElem?_append, hi, if_true] at hc1
    rw [hc] at hc1
    cases hc1
    exact ho
  | handshake k setup request =>
    simp only [step] at h
    split at h
    · cases h
    · rename_i d hd
      split at h
      · rename_i hp
        have hki : k ≠ i := by
          rintro rfl
          rw [hc] at hd
          cases hd
          rw [(hs.conn _ _ hc).fresh hp] at hop
          cases hop
        split at h
        · split at h
          · cases h; exact put k d _ s.closer hd (fun h => absurd h hki) rfl
          · cases h; exact put k d _ s.closer hd (fun h => absurd h hki) rfl
        · cases h; exact put k d _ s.closer hd (fun h => absurd h hki) rfl
        · cases h; exact fin k d _ hd (fun h => absurd h hki) rfl
      · cases h
  | handshakeError k =>
    simp only [step] at h
    split at h
    · cases h
    · rename_i d hd
      split at h
      · cases h; exact fin k d _ hd (by intro; rfl) rfl
      · cases h
  | waited k =>
    simp only [step] at h
    split at h
    · cases h
    · rename_i d hd
      split at h
      · cases h; exact fin k d _ hd (by intro; rfl) rfl
      · cases h
  | returned k =>
    simp only [step] at h
    split at h
    · cases h
    · rename_i d hd
      split at h
      · cases h; exact put k d _ s.closer hd (fun hk => by subst hk; exact absurd rfl n1) rfl
      · cases h
  | raised k =>
    simp only [step] at h
    split at h
    · cases h
    · rename_i d hd
      split at h
      · cases h; exact fin k d _ hd (fun hk => by subst hk; exact absurd rfl n2) rfl
      · cases h
  | closed k =>
    simp only [step] at h
    split at h
    · cases h
    · rename_i d hd
      split at h
      · cases h; exact fin k d _ hd (by intro; rfl) rfl
      · cases h
  | cancel k =>
    simp only [step] at h
    split at h
    · cases h
    · rename_i d hd
      split at h
      · cases h
      · cases h; exact fin k d _ hd (by intro; rfl) rfl
  | startClosing k code =>
    simp only [step] at h
    split at h
    · cases h
    · rename_i d hd
      split at h
      · cases h; exact put k d _ s.closer hd (fun hk => by subst hk; exact absurd rfl (n4 code)) rfl
      · cases h
  | closeEnds k =>
    simp only [step] at h
    split at h
    · cases h
    · rename_i d hd
      split at h
      · cases h; exact put k d _ s.closer hd (by intro; rfl) rfl
      · cases h
  | lose k =>
    simp only [step] at h
    split at h
    · cases h
    · rename_i d hd
      cases h; exact put k d _ s.closer hd (fun hk => by subst hk; exact absurd rfl n3) rfl
  | taskStarts k =>
    simp only [step] at h
    split at h
    · rename_i tasks d ht hd
      split at h
      · split at h
        · cases h; exact put k d _ _ hd (fun hk => by subst hk; exact absurd rfl n5) rfl
        · cases h; exact same rfl
      · cases h
    · cases h
  | _ =>
    simp only [step] at h
    repeat' split at h
    all_goals first | (cases h; exact same rfl) | cases h

/-! ## Theorems -/

/-- C63: at any time, whatever happened, the registry contains the connections whose handler hasn't ended; each
of them once; `unregister` never raises `KeyError`. -/
theorem C63_registry (es : List (Event X)) (s : Server) (h : run {} es = some s) :
    s.keyError = false ∧ s.websockets.Nodup
      ∧ ∀ i, i ∈ s.websockets ↔ ∃ c, s.conns[i]? = some c ∧ c.phase ≠ .done := by
  obtain ⟨hs, _⟩ := run_ok init_ok trivial h
  exact ⟨hs.keyError, hs.nodup, hs.mem⟩

/-- C63: when `wait_closed()` returns, the handlers of all connections made before the server waited for handlers have
ended, and these connections are closed, unless the task of their handler was cancelled, which the library never
does.

Missing: connections made later; see `C63_late_false`. -/
theorem C63_shutdown_partial (es es' : List (Event X)) (s1 s2 s3 : Server) (h1 : run {} es = some s1)
    (h2 : step (X := X) s1 .tasksEnded = some s2) (h3 : run s2 es' = some s3) (hdone : s3.closer = .done)
    (i : Nat) (hi : i < s1.conns.length) :
    ∃ c, s3.conns[i]? = some c ∧ c.phase = .done ∧ (Spec.Closed c ∨ c.cancelled = true) := by
  obtain ⟨hs1, _⟩ := run_ok init_ok trivial h1
  have hs2 := step_ok hs1 h2
  obtain ⟨hs3, _⟩ := run_ok hs2 (step_closerOk hs1 (run_ok init_ok trivial h1).2 h2) h3
  obtain ⟨tasks, ht, hall, rfl⟩ := tasksEnded_inv h2
  have hc : s1.conns[i]? = some s1.conns[i] := List.getElem?_eq_getElem hi
  by_cases hp : s1.conns[i].phase = .done
  · obtain ⟨c', hc', hev⟩ := run_conn hs2 h3 hc
    exact ⟨c', hc', hev.done hp, (hs3.conn i c' hc').done (hev.done hp)⟩
  · have hmem : i ∈ s1.websockets := (hs1.mem i).2 ⟨_, hc, hp⟩
    obtain ⟨c', hc', hd⟩ := run_done hs2 h3 rfl hdone i hmem
    exact ⟨c', hc', hd, (hs3.conn i c' hc').done hd⟩

/-- C63: a connection that was open and registered when the server closed connections is closed when `wait_closed()`
returns — already when the server waits for handlers — even if the task of its handler was cancelled. -/
theorem C63_open_closed (es es' es'' : List (Event X)) (s0 s1 s2 s3 : Server) (h0 : run {} es = some s0)
    (hsnap : s0.closer = .stopped) (h1 : run s0 (.snapshot :: es') = some s1)
    (h2 : step (X := X) s1 .tasksEnded = some s2) (h3 : run s2 es'' = some s3)
    (i : Nat) (c : Conn) (hc : s0.conns[i]? = some c) (hreg : i ∈ s0.websockets) (ho : c.opened = true) :
    ∃ c', s3.conns[i]? = some c' ∧ Spec.Closed c' := by
  obtain ⟨hs0, hk0⟩ := run_ok init_ok trivial h0
  obtain ⟨hs1, hk1⟩ := run_ok hs0 hk0 h1
  have hs2 := step_ok hs1 h2
  -- the tasks are those of the snapshot
  have htasks : ∃ tasks, s1.closer = .closing tasks ∧ ∀ j ∈ s0.websockets, ∃ t ∈ tasks, t.1 = j := by
    have key : ∀ (es : List (Event X)) (a b : Server), run a es = some b →
        (∃ tasks, a.closer = .closing tasks ∧ ∀ j ∈ s0.websockets, ∃ t ∈ tasks, t.1 = j) →
        (∃ tasks, b.closer = .closing tasks) →
        (∃ tasks, b.closer = .closing tasks ∧ ∀ j ∈ s0.websockets, ∃ t ∈ tasks, t.1 = j) := by
      intro es
      induction es with
      | nil => intro a b h ha _; cases h; exact ha
      | cons e es ih =>
        intro a b h ha hb
        simp only [run] at h
        split at h
        · cases h
        · rename_i a1 h1
          obtain ⟨tasks, ht, hj⟩ := ha
          have hmap : ∀ (k : Nat) (x : Task), ∀ j ∈ s0.websockets,
              ∃ t ∈ tasks.map (fun t => if t.1 = k then (k, x) else t), t.1 = j := by
            intro k x j hjm
            obtain ⟨t, htm, rfl⟩ := hj j hjm
            refine ⟨_, List.mem_map.2 ⟨t, htm, rfl⟩, ?_⟩
            split <;> simp_all
          rcases step_closer h1 with g | ⟨g, _⟩ | ⟨g, _⟩ | ⟨g, _⟩ | ⟨tasks', k, g, g2, g3⟩
            | ⟨tasks', k, c, g, _, _, _, g3⟩ | ⟨tasks', g, _, _, g4⟩ | ⟨ids', g, _⟩
          · exact ih a1 b h ⟨tasks, by rw [g, ht], hj⟩ hb
          all_goals rw [ht] at g; cases g
          · exact ih a1 b h ⟨_, g3, hmap k .running⟩ hb
          · exact ih a1 b h ⟨_, g3, hmap k .ended⟩ hb
          · -- the server never goes back
            exfalso
            have back : ∀ (es : List (Event X)) (a b : Server), run a es = some b →
                ((∃ ids, a.closer = .waiting ids) ∨ a.closer = .done) →
                ((∃ ids, b.closer = .waiting ids) ∨ b.closer = .done) := by
              intro es
              induction es with
              | nil => intro a b h ha; cases h; exact ha
              | cons e es ih =>
                intro a b h ha
                simp only [run] at h
                split at h
                · cases h
                · rename_i a1 h1
                  refine ih a1 b h ?_
                  rcases step_closer h1 with g | ⟨g, _⟩ | ⟨g, _⟩ | ⟨g, _⟩ | ⟨tasks', k, g, g2, g3⟩
                    | ⟨tasks', k, c, g, _, _, _, g3⟩ | ⟨tasks', g, _, _, g4⟩ | ⟨ids', g, _, _, g4⟩
                  · rw [g]; exact ha
                  all_goals rw [g] at ha; simp at ha
                  exact .inr g4
            obtain ⟨tasks'', hb⟩ := hb
            rcases back es a1 b h (.inl ⟨_, g4⟩) with ⟨ids, h⟩ | h <;> rw [hb] at h <;> cases h
    simp only [run, step, hsnap] at h1
    obtain ⟨tasks, ht, _⟩ := tasksEnded_inv h2
    refine key es' _ s1 h1 ⟨_, rfl, fun j hj => ⟨(j, .scheduled), by simp [hj], rfl⟩⟩ ⟨tasks, ht⟩
  obtain ⟨tasks, ht, hj⟩ := htasks
  obtain ⟨tasks', ht', hall, rfl⟩ := tasksEnded_inv h2
  rw [ht] at ht'
  cases ht'
  obtain ⟨t, htm, rfl⟩ := hj i hreg
  unfold CloserOk at hk1
  rw [ht] at hk1
  obtain ⟨c1, hc1, hcl1⟩ := hk1.2 t htm (hall t htm)
  obtain ⟨c1', hc1', hev⟩ := run_conn hs0 h1 hc
  rw [hc1] at hc1'
  cases hc1'
  obtain ⟨c3, hc3, hev3⟩ := run_conn hs2 h3 hc1
  exact ⟨c3, hc3, hev3.closed (hcl1 (hev.mono ho))⟩

/-- C63: once the underlying server is closed, no connection opens: neither those already made nor those made
later… -/
theorem C63_no_new (es es' : List (Event X)) (s s' : Server) (h : run {} es = some s) (hserv : s.serving = false)
    (h' : run s es' = some s') (i : Nat) (c' : Conn) (hc' : s'.conns[i]? = some c') (ho : c'.opened = true) :
    ∃ c, s.conns[i]? = some c ∧ c.opened = true := by
  have hs := (run_ok init_ok trivial h).1
  clear h
  induction es' generalizing s with
  | nil => cases h'; exact ⟨c', hc', ho⟩
  | cons e es' ih =>
    simp only [run] at h'
    split at h'
    · cases h'
    · rename_i s1 h1
      obtain ⟨c1, hc1, ho1⟩ := ih s1 (step_serving h1 hserv) h' (step_ok hs h1)
      exact step_new hs hserv h1 hc1 ho1

/-- …and an opening handshake that completes then, on a connection that isn't lost or not, is refused with the
status 503, unless the hook `process_request` raises an exception. -/
theorem C63_refused (s s' : Server) (hserv : s.serving = false) (i : Nat) (c : Conn) (hc : s.conns[i]? = some c)
    (setup : LegacyServer.Setup X) (req : Request) (r : Option LegacyServer.HttpResponse)
    (hp : setup.processRequest req.path req.headers = .ok r) (hdate : Encodable setup.date)
    (hagent : Encodable setup.py.agent) (h : step s (.handshake i setup (some req)) = some s') :
    s'.conns[i]? = some { c with phase := .waitClosed, status := some 503 } := by
  obtain ⟨hd, body, w, ho⟩ := LegacyServer.C66_shutdown setup req r hp hdate hagent
  have hi := (List.getElem?_eq_some_iff.1 hc).1
  simp only [step, hc, hserv, ho] at h
  split at h
  · cases h
    simp [Server.put, hi]
  · cases h

/-- C63: a connection that was open when the server closed connections gets a close frame with code 1001, unless it was
closed by something else before. -/
theorem C63_going_away (es es' es'' : List (Event X)) (s0 s1 : Server) (h0 : run {} es = some s0)
    (hsnap : s0.closer = .stopped) (i : Nat) (c : Conn) (hc : s0.conns[i]? = some c) (hopen : c.state = .open)
    (hne : ∀ e ∈ es', e ≠ .returned i ∧ e ≠ .raised i ∧ e ≠ .lose i ∧ (∀ code, e ≠ .startClosing i code)
      ∧ e ≠ .taskStarts i)
    (h1 : run s0 (.snapshot :: es' ++ .taskStarts i :: es'') = some s1) :
    ∃ c', s1.conns[i]? = some c' ∧ c'.code = some 1001 := by
  obtain ⟨hs0, hk0⟩ := run_ok init_ok trivial h0
  have hserv : s0.serving = false := by
    unfold CloserOk at hk0
    rw [hsnap] at hk0
    exact hk0
  have hne' : ∀ e ∈ Event.snapshot :: es', e ≠ .returned i ∧ e ≠ .raised i ∧ e ≠ .lose i
      ∧ (∀ code, e ≠ .startClosing i code) ∧ e ≠ .taskStarts i := by
    intro e he
    rcases List.mem_cons.1 he with rfl | he
    · exact ⟨nofun, nofun, nofun, nofun, nofun⟩
    · exact hne e he
  rw [run_append] at h1
  cases hr : run s0 (.snapshot :: es') with
  | none => rw [hr] at h1; cases h1
  | some s =>
    rw [hr] at h1
    simp only [Option.bind_some] at h1
    have key : ∀ (l : List (Event X)) (a : Server) (d : Conn), Ok a → a.serving = false → a.conns[i]? = some d →
        d.state = .open → (∀ e ∈ l, e ≠ .returned i ∧ e ≠ .raised i ∧ e ≠ .lose i
          ∧ (∀ code, e ≠ .startClosing i code) ∧ e ≠ .taskStarts i) → run a l = some s →
        Ok s ∧ ∃ d', s.conns[i]? = some d' ∧ d'.state = .open := by
      intro l
      induction l with
      | nil => intro a d ha _ hd ho _ hr; cases hr; exact ⟨ha, d, hd, ho⟩
      | cons e l ih =>
        intro a d ha hsv hd ho hl hr
        simp only [run] at hr
        split at hr
        · cases hr
        · rename_i a1 ha1
          obtain ⟨d1, hd1, ho1, _⟩ := step_open ha1 ha hd ho hsv (hl e (by simp))
          exact ih a1 d1 (step_ok ha ha1) (step_serving ha1 hsv) hd1 ho1 (fun e he => hl e (by simp [he])) hr
    obtain ⟨hs, d, hd, ho⟩ := key _ s0 c hs0 hserv hc hopen hne' hr
    have hop : d.opened = true := by
      cases ho' : d.opened with
      | true => rfl
      | false => exact absurd ho ((hs.conn i d hd).unopened ho')
    have hi := (List.getElem?_eq_some_iff.1 hd).1
    simp only [run] at h1
    split at h1
    · cases h1
    · rename_i s2 h2
      have hs2 := step_ok hs h2
      simp only [step, hd] at h2
      split at h2
      · rename_i tasks c' ht heq
        cases heq
        split at h2
        · cases h2
          have hd2 : (s.conns.set i (d.sendClose 1001))[i]? = some (d.sendClose 1001) := by simp [hi]
          obtain ⟨d', hd', hev⟩ := run_conn hs2 h1 hd2
          have : (d.sendClose 1001).state ≠ .open ∧ (d.sendClose 1001).code = some 1001
              ∧ (d.sendClose 1001).opened = true := by
            simp [Conn.sendClose, ho, hop]
          exact ⟨d', hd', by rw [(hev.code this.2.2 this.1).2, this.2.1]⟩
        · cases h2
      · cases h2

/-- C63: calling `close()` again has no effect. -/
theorem C63_twice (es es' : List (Event X)) (hmem : .serverClose ∈ es) :
    run {} (es ++ .serverClose :: es') = run {} (es ++ es') := by
  rw [run_append, run_append]
  cases hr : run ({} : Server) es with
  | none => rfl
  | some s =>
    have key : ∀ (l : List (Event X)) (a : Server), run a l = some s →
        (a.closer ≠ .none ∨ .serverClose ∈ l) → s.closer ≠ .none := by
      intro l
      induction l with
      | nil =>
        intro a h ha
        cases h
        exact ha.elim id (fun h => by cases h)
      | cons e l ih =>
        intro a h ha
        simp only [run] at h
        split at h
        · cases h
        · rename_i a1 h1
          refine ih a1 h ?_
          rcases ha with ha | ha
          · left
            rcases step_closer h1 with g | ⟨g, _⟩ | ⟨g, g1, _⟩ | ⟨g, g1⟩ | ⟨tasks', k, g, g2, g1⟩
              | ⟨tasks', k, c, g, _, _, _, g1⟩ | ⟨tasks', g, _, _, g1⟩ | ⟨ids', g, _, _, g1⟩
            · rw [g]; exact ha
            · exact absurd g ha
            all_goals rw [g1]; simp
          · rcases List.mem_cons.1 ha with rfl | ha
            · left
              simp only [step] at h1
              split at h1
              · cases h1; simp
              · rename_i hn
                cases h1
                exact hn
            · exact .inr ha
    have hn := key es {} hr (.inr hmem)
    simp only [Option.bind_some, run]
    have : step (X := X) s .serverClose = some s := by
      simp only [step]
    simp only [this]

/-! ## Where the claim is false -/

/-- When `wait_closed()` returns, all handlers have ended. -/
def HandlersEnded : Prop := ∀ (es : List (Event Unit)) (s : Server), run {} es = some s → s.closer = .done →
  ∀ c ∈ s.conns, c.phase = .done

/-- A connection made late — asyncio accepted it before the server was closed but calls `connection_made` later —
isn't waited for. -/
theorem C63_late_false : ¬ HandlersEnded := by
  intro h
  have := h [.serverClose, .stop, .snapshot, .tasksEnded, .handlersEnded, .accept]
    { conns := [{}], websockets := [0], serving := false, closer := .done } (by decide) rfl {} (by simp)
  cases this

/-- When `wait_closed()` returns, connections registered when the server was closed are closed. -/
def ConnectionsClosed : Prop := ∀ (es es' : List (Event Unit)) (s s' : Server), run {} es = some s →
  run s (.serverClose :: es') = some s' → s'.closer = .done → ∀ i ∈ s.websockets, ∃ c, s'.conns[i]? = some c ∧
    Spec.Closed c

/-- If the application cancels the task of a handler during the opening handshake, the connection is forgotten without
being closed. -/
theorem C63_cancel_false : ¬ ConnectionsClosed := by
  intro h
  obtain ⟨c, hc, hcl⟩ := h [.accept]
    [.stop, .snapshot, .taskStarts 0, .cancel 0, .tasksEnded, .handlersEnded]
    { conns := [{}], websockets := [0] }
    { conns := [{ phase := .done, cancelled := true }], serving := false, closer := .done } (by decide) (by decide) rfl
    0 (by simp)
  simp at hc
  subst hc
  simp [Spec.Closed] at hcl

/-! ## Concrete cases -/

/-- A server with a connection whose opening handshake succeeds, another one that's reading the request, and a third
one made while the server shuts down: the first is closed with code 1001, the other ones are refused with the status
503, and all handlers ended when `wait_closed()` returns.  So the hypotheses of the theorems can be met together. -/
def exampleShutdown : List (Event Unit) :=
  [.accept, .accept, .handshake 0 (LegacyServer.exampleSetup {}) (some goodRequest), .serverClose, .serverClose,
   .stop, .snapshot, .taskStarts 1, .accept, .taskStarts 0,
   .handshake 1 (LegacyServer.exampleSetup {}) (some goodRequest), .closeEnds 0, .lose 0, .taskEnds 0,
   .tasksEnded, .returned 0, .closed 0, .handshake 2 (LegacyServer.exampleSetup {}) (some goodRequest),
   .lose 1, .waited 1, .lose 2, .waited 2, .handlersEnded]

example : run {} exampleShutdown
    = some { conns := [{ state := .closed, phase := .done, opened := true, status := some 101, code := some 1001,
                         transportClosed := true, closeEnded := true, lost := true },
                       { state := .closed, phase := .done, status := some 503, lost := true },
                       { state := .closed, phase := .done, status := some 503, lost := true }],
             websockets := [], serving := false, closer := .done } := by
  decide +kernel

end WS.LegacyRegistry
