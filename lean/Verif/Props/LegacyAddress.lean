import Verif.Model.LegacyAddress
import Verif.Props.LegacyAttrs

/-!
# C106: addresses of legacy connections
-/

namespace WS.LegacyAddress

open LegacyLife (St Ev Config)

variable {Addr : Type}

/-- The events of the connection -/
def Spec.lives : List (Event Addr) → List Ev
  | [] => []
  | .life e :: es => e :: Spec.lives es
  | _ :: es => Spec.lives es

theorem step_made {cfg : Config} {c c' : Conn Addr} {t : Transport Addr} {s : St} {e : Event Addr} (ht : c.transport = some t)
    (hl : c.life = some s) (h : c.step cfg e = some c') :
    c'.transport = some t ∧ (∃ s', c'.life = some s' ∧ LegacyLife.run cfg s (Spec.lives [e]) = some s') ∧
      (c'.down = true ↔ c.down = true ∨ e matches .drop) ∧
      (∀ exc, e = .life (.lost exc) → t.tls = true → c.down = true) ∧ (t.tls = false → c'.down = c.down) := by
  unfold Conn.step at h
  split at h
  · simp [ht] at h
  · simp only [ht] at h
    split at h
    · cases h
      rename_i h1
      exact ⟨rfl, ⟨s, hl, rfl⟩, by simp, nofun, fun h2 => by (rw [h1] at h2; cases h2)⟩
    · cases h
  · rename_i e
    simp only [ht, hl] at h
    split at h
    · rename_i exc
      split at h
      · cases h
      · rename_i hd
        simp only [Option.map_eq_some_iff] at h
        obtain ⟨s', h1, rfl⟩ := h
        refine ⟨rfl, ⟨s', rfl, by simp [Spec.lives, LegacyLife.run, h1]⟩, by simp, fun _ _ h2 => ?_, fun _ => rfl⟩
        simpa [h2] using hd
    · rename_i hne
      simp only [Option.map_eq_some_iff] at h
      obtain ⟨s', h1, rfl⟩ := h
      refine ⟨rfl, ⟨s', rfl, by simp [Spec.lives, LegacyLife.run, h1]⟩, by simp, fun exc h2 => ?_, fun _ => rfl⟩
      cases h2
      exact absurd rfl (hne exc)

theorem run_made {cfg : Config} {t : Transport Addr} : ∀ {es : List (Event Addr)} {c c' : Conn Addr} {s : St},
    c.transport = some t → c.life = some s → c.run cfg es = some c' →
    c'.transport = some t ∧ (∃ s', c'.life = some s' ∧ LegacyLife.run cfg s (Spec.lives es) = some s') ∧
      (c'.down = true ↔ c.down = true ∨ .drop ∈ es) ∧
      (t.tls = true → (∃ exc, .life (.lost exc) ∈ es) → c'.down = true) ∧ (t.tls = false → c'.down = c.down)
  | [], c, c', s, ht, hl, h => by
    cases h
    exact ⟨ht, ⟨s, hl, rfl⟩, by simp, fun _ ⟨_, h⟩ => by (cases h), fun _ => rfl⟩
  | e :: es, c, c', s, ht, hl, h => by
    simp only [Conn.run, Option.bind_eq_some_iff] at h
    obtain ⟨c1, h1, h2⟩ := h
    obtain ⟨a1, ⟨s1, a2, a3⟩, a4, a5, a6⟩ := step_made ht hl h1
    obtain ⟨b1, ⟨s2, b2, b3⟩, b4, b5, b6⟩ := run_made a1 a2 h2
    refine ⟨b1, ⟨s2, b2, ?_⟩, ?_, ?_, fun h => (b6 h).trans (a6 h)⟩
    · cases e with
      | life e =>
        simp only [Spec.lives, LegacyLife.run, Option.bind_eq_some_iff] at a3 ⊢
        obtain ⟨x, a3, a7⟩ := a3
        cases a7
        exact ⟨_, a3, b3⟩
      | made _ => cases a3; exact b3
      | drop => cases a3; exact b3
    · rw [b4, a4]
      cases e <;> simp
    · intro h3 ⟨exc, h4⟩
      rcases List.mem_cons.1 h4 with h4 | h4
      · exact b4.2 (.inl (a4.2 (.inl (a5 exc h4.symm h3))))
      · exact b5 h3 ⟨exc, h4⟩

/-! ## C106 -/

/-- Before `connection_made`, there's no address. -/
theorem C106_before {cfg : Config} {es : List (Event Addr)} {c : Conn Addr} (h : ({} : Conn Addr).run cfg es = some c)
    (hm : ∀ t, .made t ∉ es) : c.localAddress = none ∧ c.remoteAddress = none := by
  cases es with
  | nil => cases h; exact ⟨rfl, rfl⟩
  | cons e es =>
    cases e with
    | made t => exact absurd (.head _) (hm t)
    | drop => cases h
    | life e => cases h

/-- `connection_made` comes first. -/
theorem made_first {cfg : Config} {es : List (Event Addr)} {c : Conn Addr} (h : ({} : Conn Addr).run cfg es = some c) :
    es = [] ∨ ∃ t es', es = .made t :: es' := by
  cases es with
  | nil => exact .inl rfl
  | cons e es =>
    cases e with
    | made t => exact .inr ⟨t, es, rfl⟩
    | drop => cases h
    | life e => cases h

/-- After `connection_made`, the addresses are those of the transport, and never change, during and after the opening handshake,
while the connection closes, and after it's closed, unless the connection uses TLS and the transport below is lost. -/
theorem C106_known {cfg : Config} {es : List (Event Addr)} {c : Conn Addr} {t : Transport Addr}
    (h : ({} : Conn Addr).run cfg (.made t :: es) = some c) (hd : t.tls = false ∨ .drop ∉ es) :
    c.localAddress = t.sockname ∧ c.remoteAddress = t.peername := by
  obtain ⟨h1, -, h3, -, h5⟩ := run_made (c := { transport := some t, life := some {} }) (s := {}) rfl rfl
    (by simpa [Conn.run, Conn.step] using h)
  simp only [Conn.localAddress, Conn.remoteAddress, h1, Transport.extra]
  rcases hd with hd | hd
  · simp [hd]
  · have : c.down = false := by
      by_cases hc : c.down = true
      · rcases h3.1 hc with h | h
        · cases h
        · exact absurd h hd
      · simpa using hc
    simp [this]

/-- With TLS, when `closed` is true, there's no address. -/
theorem C106_tls {cfg : Config} {es : List (Event Addr)} {c : Conn Addr} {t : Transport Addr} {s : St}
    (h : ({} : Conn Addr).run cfg (.made t :: es) = some c) (ht : t.tls = true) (hl : c.life = some s) (hc : s.closedAttr = true) :
    c.localAddress = none ∧ c.remoteAddress = none := by
  obtain ⟨h1, ⟨s', h2, h3⟩, -, h5, -⟩ := run_made (c := { transport := some t, life := some {} }) (s := {}) rfl rfl
    (by simpa [Conn.run, Conn.step] using h)
  rw [hl] at h2
  cases h2
  obtain ⟨exc, he⟩ := (LegacyLife.C92_closed h3 (es' := []) rfl).1.1 hc
  have hm : ∀ {es : List (Event Addr)} {e : Ev}, e ∈ Spec.lives es → .life e ∈ es := by
    intro es e he
    induction es with
    | nil => cases he
    | cons e' es ih =>
      cases e' with
      | life e' =>
        rcases List.mem_cons.1 he with he | he
        · exact he ▸ .head _
        · exact .tail _ (ih he)
      | made _ => exact .tail _ (ih he)
      | drop => exact .tail _ (ih he)
  have hd := h5 ht ⟨exc, hm he⟩
  simp [Conn.localAddress, Conn.remoteAddress, h1, Transport.extra, ht, hd]

/-- The addresses aren't `None` when the connection isn't open: without TLS, after it's closed. -/
theorem C106_closed_false : ∃ (es : List (Event Nat)) (c : Conn Nat) (s : St), ({} : Conn Nat).run ⟨true, true⟩ es = some c ∧
    c.life = some s ∧ s.openAttr = some false ∧ s.closedAttr = true ∧ c.localAddress = some 1 ∧ c.remoteAddress = some 2 :=
  ⟨[.made ⟨some 1, some 2, false⟩, .life .opened, .life .closerRun, .life (.receive (.close 1000)), .life (.transferDrained true),
    .life .closerRun, .life (.lost false)], _, _, rfl, rfl, by decide +kernel, by decide +kernel, rfl, rfl⟩

/-- The addresses aren't `None` when the connection isn't open: with or without TLS, during the opening handshake. -/
theorem C106_connecting_false (tls : Bool) : ∃ (es : List (Event Nat)) (c : Conn Nat) (s : St),
    ({} : Conn Nat).run ⟨true, true⟩ es = some c ∧ c.life = some s ∧ s.openAttr = some false ∧ c.localAddress = some 1 ∧
      c.remoteAddress = some 2 :=
  ⟨[.made ⟨some 1, some 2, tls⟩], _, _, rfl, rfl, by decide +kernel, by cases tls <;> rfl, by cases tls <;> rfl⟩

/-- The addresses may be `None` when the connection is open: with TLS, after the transport below is lost, before
`connection_lost` is called. -/
theorem C106_open_false : ∃ (es : List (Event Nat)) (c : Conn Nat) (s : St), ({} : Conn Nat).run ⟨true, true⟩ es = some c ∧
    c.transport = some ⟨some 1, some 2, true⟩ ∧ c.life = some s ∧ s.openAttr = some true ∧ c.localAddress = none ∧
      c.remoteAddress = none :=
  ⟨[.made ⟨some 1, some 2, true⟩, .life .opened, .life .closerRun, .drop], _, _, rfl, rfl, rfl, by decide +kernel, rfl, rfl⟩

/-- Example: a connection with TLS, closed by the peer: addresses while it's open, then none. -/
example : ∃ c s, ({} : Conn Nat).run ⟨true, true⟩ [.made ⟨some 1, some 2, true⟩, .life .opened, .life .closerRun] = some c ∧
    c.life = some s ∧ s.openAttr = some true ∧ c.localAddress = some 1 ∧ ∃ c' s', c.run ⟨true, true⟩ [.life (.receive (.close 1000)),
      .life (.transferDrained true), .life .closerRun, .drop, .life (.lost false)] = some c' ∧ c'.life = some s' ∧
      s'.closedAttr = true ∧ c'.localAddress = none :=
  ⟨_, _, rfl, rfl, by decide +kernel, rfl, _, _, rfl, rfl, by decide +kernel, rfl⟩

end WS.LegacyAddress
