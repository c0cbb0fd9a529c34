import Verif.Model.LegacyClose

/-!
# C58: `close()` ends within 4 (server) or 5 (client) times `close_timeout`

The model is in `Verif.Model.LegacyClose`.  The peer and the network decide when the close frame can be written,
when the transfer of data ends and when the connection is lost, if ever; so does the application, by consuming
messages or not.
-/

namespace WS.LegacyClose

/-! ## Specification -/

/-- Once the transport is aborted, the connection is lost within a time `δ`.  asyncio's transports call
`connection_lost` in the next iteration of the event loop, so `δ` is the time needed for this. -/
def Spec.AbortLoses (δ : Nat) (w : World) (calls : List (Method × Nat)) : Prop :=
  ∀ t, (Method.abort, t) ∈ calls → ∃ l, w.lost = some l ∧ l ≤ t + δ

/-- The number of timeouts that may elapse one after the other. -/
def Spec.phases (client : Bool) : Nat := if client then 5 else 4

/-! ## Lemmas -/

private theorem waitFor_le (e : Option Nat) (T t : Nat) : (waitFor e T t).2 ≤ t + T := by
  unfold waitFor; split <;> (try split) <;> simp <;> omega

private theorem le_waitFor (e : Option Nat) (T t : Nat) : t ≤ (waitFor e T t).2 := by
  unfold waitFor; split <;> (try split) <;> simp <;> omega

private theorem waitFor_lost {e : Option Nat} {l T t δ b : Nat} (h : e = some l) (hl : l ≤ t + δ) (hb : t ≤ b)
    (hδ : δ ≤ T) :
    (waitFor e T t).2 ≤ b + δ ∧ ∃ l, e = some l ∧ l ≤ (waitFor e T t).2 := by
  subst h
  simp only [waitFor]
  split
  · exact ⟨by simp; omega, _, rfl, by simp; omega⟩
  · omega

private theorem waitFor_true {e : Option Nat} {T t t' : Nat} (h : waitFor e T t = (true, t')) :
    ∃ l, e = some l ∧ l ≤ t' := by
  unfold waitFor at h
  split at h
  · cases h
  · split at h
    · cases h
      exact ⟨_, rfl, by omega⟩
    · cases h

/-- The phases of closing the transport -/
private theorem closeTransport_spec {δ : Nat} (w : World) {T : Nat} (hδ : δ ≤ T) (t : Nat) :
    t ≤ (closeTransport w T t).1 ∧ (closeTransport w T t).1 ≤ t + 2 * T
      ∧ (Spec.AbortLoses δ w (closeTransport w T t).2 →
          (closeTransport w T t).1 ≤ t + T + δ ∧ ∃ l, w.lost = some l ∧ l ≤ (closeTransport w T t).1) := by
  unfold closeTransport
  split
  · rename_i h
    simp only [Bool.and_eq_true] at h
    refine ⟨by omega, by omega, fun _ => ⟨by simp; omega, ?_⟩⟩
    have := h.1
    unfold occurred at this
    split at this
    · cases this
    · exact ⟨_, by assumption, by simpa using this⟩
  · have h1 := waitFor_le w.lost T t
    have h2 := le_waitFor w.lost T t
    split
    · rename_i t' heq
      rw [heq] at h1 h2
      simp only at h1 h2
      exact ⟨by simpa using h2, by simp; omega, fun _ => ⟨by simp; omega, waitFor_true heq⟩⟩
    · rename_i t' heq
      rw [heq] at h1 h2
      simp only at h1 h2
      have h3 := waitFor_le w.lost T t'
      have h4 := le_waitFor w.lost T t'
      refine ⟨by simp; omega, by simp; omega, fun ha => ?_⟩
      obtain ⟨l, hl, hle⟩ := ha t' (by simp)
      exact waitFor_lost hl hle h1 hδ

private theorem halfClose_spec {δ : Nat} (w : World) {T : Nat} (hδ : δ ≤ T) (t : Nat) :
    t ≤ (halfClose w T t).1 ∧ (halfClose w T t).1 ≤ t + 3 * T
      ∧ (Spec.AbortLoses δ w (halfClose w T t).2 →
          (halfClose w T t).1 ≤ t + 2 * T + δ ∧ ∃ l, w.lost = some l ∧ l ≤ (halfClose w T t).1) := by
  unfold halfClose
  split
  · obtain ⟨h1, h2, h3⟩ := closeTransport_spec w hδ (waitFor w.lost T t).2
    have h4 := waitFor_le w.lost T t
    have h5 := le_waitFor w.lost T t
    refine ⟨by simp; omega, by simp; omega, fun ha => ?_⟩
    obtain ⟨h6, h7⟩ := h3 (fun t' ht' => ha t' (by simp [ht']))
    exact ⟨by simp; omega, h7⟩
  · obtain ⟨h1, h2, h3⟩ := closeTransport_spec w hδ t
    refine ⟨h1, by omega, fun ha => ?_⟩
    obtain ⟨h6, h7⟩ := h3 ha
    exact ⟨by omega, h7⟩

private theorem closeConnection_spec {δ : Nat} (w : World) {T : Nat} (hδ : δ ≤ T) (client opened : Bool) (t : Nat) :
    t ≤ (closeConnection w T client opened t).1
      ∧ (closeConnection w T client opened t).1 ≤ t + (if client && opened then 4 else 3) * T
      ∧ (Spec.AbortLoses δ w (closeConnection w T client opened t).2 →
          (closeConnection w T client opened t).1 ≤ t + (if client && opened then 3 else 2) * T + δ
            ∧ ∃ l, w.lost = some l ∧ l ≤ (closeConnection w T client opened t).1) := by
  unfold closeConnection
  split
  · have h1 := waitFor_le w.lost T t
    have h2 := le_waitFor w.lost T t
    split
    · rename_i t' heq
      rw [heq] at h1 h2
      simp only at h1 h2
      obtain ⟨h3, h4, h5⟩ := closeTransport_spec w hδ t'
      refine ⟨by omega, by omega, fun ha => ?_⟩
      obtain ⟨h6, h7⟩ := h5 ha
      exact ⟨by omega, h7⟩
    · rename_i t' heq
      rw [heq] at h1 h2
      simp only at h1 h2
      obtain ⟨h3, h4, h5⟩ := halfClose_spec w hδ t'
      refine ⟨by omega, by omega, fun ha => ?_⟩
      obtain ⟨h6, h7⟩ := h5 ha
      exact ⟨by omega, h7⟩
  · obtain ⟨h3, h4, h5⟩ := halfClose_spec w hδ t
    exact ⟨h3, h4, h5⟩

private theorem cancelTransfer_le (w : World) (t : Nat) : cancelTransfer w t ≤ t := by
  unfold cancelTransfer; split <;> omega

private theorem closeRest_spec {δ : Nat} (w : World) {T : Nat} (hδ : δ ≤ T) (client cancelled : Bool) (t : Nat) :
    (closeRest w T client cancelled t).2.1
        ≤ t + (if cancelled then 0 else T) + (if client then 4 else 3) * T
      ∧ (Spec.AbortLoses δ w (closeRest w T client cancelled t).2.2 →
          (closeRest w T client cancelled t).2.1
              ≤ t + (if cancelled then 0 else T) + (if client then 3 else 2) * T + δ
            ∧ ∃ l, w.lost = some l ∧ l ≤ (closeRest w T client cancelled t).2.1) := by
  unfold closeRest
  simp only
  generalize he : (if cancelled = true then cancelTransfer w t else cancelTransfer w (t + T)) = e
  have hle : e ≤ t + (if cancelled then 0 else T) := by
    subst he
    split
    · exact cancelTransfer_le w t
    · exact cancelTransfer_le w (t + T)
  obtain ⟨h3, h4, h5⟩ := closeConnection_spec w hδ client true e
  simp only [Bool.and_true] at h3 h4 h5
  generalize (if cancelled = true then 0 else T) = c at *
  refine ⟨?_, fun ha => ?_⟩
  · cases client <;> simp at * <;> omega
  · obtain ⟨h6, l, h7, h8⟩ := h5 ha
    refine ⟨?_, l, h7, by omega⟩
    cases client <;> simp at * <;> omega

private theorem close_spec {δ : Nat} (w : World) {T : Nat} (hδ : δ ≤ T) (client isOpen : Bool) (t0 : Nat) :
    (close w T client isOpen t0).2.1 ≤ t0 + (Spec.phases client + 1) * T
      ∧ (Spec.AbortLoses δ w (close w T client isOpen t0).2.2 →
          (close w T client isOpen t0).2.1 ≤ t0 + Spec.phases client * T + δ
            ∧ ((close w T client isOpen t0).1 = .returned →
                ∃ l, w.lost = some l ∧ l ≤ (close w T client isOpen t0).2.1)) := by
  have hrest : ∀ (cancelled : Bool) (t : Nat), t + (if cancelled then 0 else T) ≤ t0 + 2 * T →
      (closeRest w T client cancelled t).2.1 ≤ t0 + (Spec.phases client + 1) * T
        ∧ (Spec.AbortLoses δ w (closeRest w T client cancelled t).2.2 →
            (closeRest w T client cancelled t).2.1 ≤ t0 + Spec.phases client * T + δ
              ∧ ((closeRest w T client cancelled t).1 = .returned →
                  ∃ l, w.lost = some l ∧ l ≤ (closeRest w T client cancelled t).2.1)) := by
    intro cancelled t ht
    obtain ⟨h1, h2⟩ := closeRest_spec w hδ client cancelled t
    refine ⟨?_, fun ha => ?_⟩
    · cases client <;> simp [Spec.phases] at * <;> omega
    · obtain ⟨h3, h4⟩ := h2 ha
      refine ⟨?_, fun _ => h4⟩
      cases client <;> simp [Spec.phases] at * <;> omega
  have hphases : 4 * T ≤ Spec.phases client * T := by
    cases client <;> simp [Spec.phases] <;> omega
  have hphases' : (Spec.phases client + 1) * T = Spec.phases client * T + T := by
    rw [Nat.add_mul, Nat.one_mul]
  unfold close
  split
  · split
    · exact hrest true _ (by simp; omega)
    · rename_i d r hd
      split
      · rename_i hle
        cases r with
        | ok => exact hrest false _ (by simp; omega)
        | otherError =>
          simp only
          exact ⟨by omega, fun _ => ⟨by omega, fun h => by cases h⟩⟩
        | connectionError =>
          simp only
          obtain ⟨h3, h4, h5⟩ := closeConnection_spec w hδ client true (cancelTransfer w (max d t0))
          have hc := cancelTransfer_le w (max d t0)
          simp only [Bool.and_true] at h4 h5
          split
          · simp only
            exact ⟨by omega, fun _ => ⟨by omega, fun h => by cases h⟩⟩
          · simp only
            refine ⟨?_, fun ha => ?_⟩
            · cases client <;> simp [Spec.phases] at * <;> omega
            · obtain ⟨h6, l, h7, h8⟩ := h5 ha
              refine ⟨?_, fun _ => ⟨l, h7, by omega⟩⟩
              cases client <;> simp [Spec.phases] at * <;> omega
      · exact hrest true _ (by simp; omega)
  · exact hrest false _ (by simp; omega)

/-! ## Theorems -/

/-- C58: whatever the peer, the network and the application do, `close()` ends within 4 times `close_timeout` on the
server side and 5 times on the client side, and the connection is lost if `close()` returned.  Aborting the
transport takes a time `δ` at most, after which the connection is lost; it's counted separately. -/
theorem C58_close (w : World) (T δ : Nat) (client isOpen : Bool) (t0 : Nat) (hδ : δ ≤ T)
    (habort : Spec.AbortLoses δ w (close w T client isOpen t0).2.2) :
    (close w T client isOpen t0).2.1 ≤ t0 + Spec.phases client * T + δ
      ∧ ((close w T client isOpen t0).1 = .returned →
          ∃ l, w.lost = some l ∧ l ≤ (close w T client isOpen t0).2.1) :=
  (close_spec w hδ client isOpen t0).2 habort

/-- Even if aborting the transport had no effect, only one more `close_timeout` could elapse. -/
theorem C58_unconditional (w : World) (T : Nat) (client isOpen : Bool) (t0 : Nat) :
    (close w T client isOpen t0).2.1 ≤ t0 + (Spec.phases client + 1) * T :=
  (close_spec (δ := 0) w (Nat.zero_le T) client isOpen t0).1

/-- When `close_connection` ends, the connection was lost or the transport was closed; and unless the
connection was lost within `close_timeout` after that, the transport was aborted. -/
theorem C58_transport (w : World) (T : Nat) (client opened : Bool) (t : Nat) :
    (∃ l, w.lost = some l ∧ l ≤ (closeConnection w T client opened t).1)
      ∨ ∃ c, (Method.close, c) ∈ (closeConnection w T client opened t).2
          ∧ (Method.abort, c + T) ∈ (closeConnection w T client opened t).2 := by
  have ht : ∀ t, (∃ l, w.lost = some l ∧ l ≤ (closeTransport w T t).1)
      ∨ ∃ c, (Method.close, c) ∈ (closeTransport w T t).2 ∧ (Method.abort, c + T) ∈ (closeTransport w T t).2 := by
    intro t
    unfold closeTransport
    split
    · rename_i h
      simp only [Bool.and_eq_true] at h
      have := h.1
      unfold occurred at this
      split at this
      · cases this
      · exact .inl ⟨_, by assumption, by simpa using this⟩
    · split
      · exact .inl (waitFor_true (by assumption))
      · rename_i t' heq
        have : t' = t + T := by
          unfold waitFor at heq
          split at heq
          · cases heq; rfl
          · split at heq <;> cases heq
            rfl
        subst this
        exact .inr ⟨t, by simp, by simp⟩
  have hh : ∀ t, (∃ l, w.lost = some l ∧ l ≤ (halfClose w T t).1)
      ∨ ∃ c, (Method.close, c) ∈ (halfClose w T t).2 ∧ (Method.abort, c + T) ∈ (halfClose w T t).2 := by
    intro t
    unfold halfClose
    split
    · rcases ht (waitFor w.lost T t).2 with h | ⟨c, h1, h2⟩
      · exact .inl h
      · exact .inr ⟨c, by simp [h1], by simp [h2]⟩
    · exact ht t
  unfold closeConnection
  split
  · split
    · exact ht _
    · exact hh _
  · exact hh _

/-! ## Concrete cases: the bounds are attained -/

/-- A peer that doesn't read, doesn't answer and doesn't close the connection: only aborting the transport helps. -/
def silentPeer (lost : Nat) : World where
  drain := none
  transfer := none
  lost := some lost
  canWriteEof := true
  closing := true

/-- The hypotheses of `C58_close` hold and a server needs 3 times the timeout then… -/
example : Spec.AbortLoses 1 (silentPeer 31) (close (silentPeer 31) 10 false true 0).2.2
    ∧ close (silentPeer 31) 10 false true 0 = (.returned, 31, [(.writeEof, 10), (.close, 20), (.abort, 30)]) := by
  have : close (silentPeer 31) 10 false true 0 = (.returned, 31, [(.writeEof, 10), (.close, 20), (.abort, 30)]) := by
    decide
  refine ⟨fun t h => ⟨31, rfl, ?_⟩, this⟩
  rw [this] at h
  simp at h
  omega

/-- …but 4 times, when the peer lets the server write the close frame at the last moment and never
answers: the bound is attained. -/
example :
    close { silentPeer 41 with drain := some (10, .ok) } 10 false true 0
      = (.returned, 41, [(.writeEof, 20), (.close, 30), (.abort, 40)]) := by
  decide

/-- The same for a client: 5 times the timeout. -/
example :
    close { silentPeer 51 with drain := some (10, .ok) } 10 true true 0
      = (.returned, 51, [(.writeEof, 30), (.close, 40), (.abort, 50)]) := by
  decide

/-- A regular closing handshake, on the side of the client: the peer answers the close frame at time 3 and closes the
connection at time 4. -/
example :
    close { drain := some (0, .ok), transfer := some 3, lost := some 4, canWriteEof := true, closing := true }
      10 true true 0 = (.returned, 4, []) := by
  decide

/-- When writing the close frame fails with a `ConnectionError`, `close()` raises `ConnectionClosed` if the connection
is closed before the timeout elapses. -/
example :
    close { drain := some (1, .connectionError), transfer := none, lost := some 2, canWriteEof := true, closing := true }
      10 true true 0 = (.raised, 2, []) := by
  decide

/-- `close()` raises an exception exactly when it writes a close frame and, before `close_timeout` elapses, writing fails:
either with an exception that isn't a `ConnectionError`, or with a `ConnectionError`, provided that `close_connection`
ends before `close_timeout` elapses too. -/
theorem C58_raises (w : World) (T : Nat) (client isOpen : Bool) (t0 : Nat) :
    (close w T client isOpen t0).1 = .raised ↔ isOpen = true ∧ ∃ d, d ≤ t0 + T ∧
      (w.drain = some (d, .otherError) ∨ w.drain = some (d, .connectionError) ∧
        (closeConnection w T client true (cancelTransfer w (max d t0))).1 ≤ t0 + T) := by
  unfold close closeRest
  grind

/-- Example: a server resets the connection while a client calls `close()`. -/
example : (close ⟨some (1, .connectionError), none, some 1, true, true⟩ 10 true true 0).1 = .raised := by decide

end WS.LegacyClose
