import Verif.Lemmas.Pmd
import Verif.Lemmas.StoredZlib
import Verif.Props.Receive

/-!
# permessage-deflate: C47, C48, C49, C50
-/

namespace WS

open Spec

variable {Z : Zlib} {X : Type}

/-! ## C48 -/

/-- **C48.**  Parameters are accepted exactly when they are valid, for requests and for responses. -/
theorem C48_extract (request : Bool) (params : List ExtParam) :
    (∀ p, PmdParams.extract request {} params = .ok p ↔
      ValidParams request params ∧ Means params p) ∧
    (¬ ValidParams request params →
      ∃ m, PmdParams.extract request {} params = .error (.negotiationError m)) := by
  rcases extract_iff request params with ⟨q, h1, h2, h3⟩ | ⟨m, h1, h2⟩
  · refine ⟨fun p => ⟨fun h => ?_, fun h => ?_⟩, fun h => absurd h2 h⟩
    · rw [h1] at h; cases h; exact ⟨h2, h3⟩
    · rw [h1, h.2.unique h3]
  · refine ⟨fun p => ⟨fun h => ?_, fun h => absurd h.1 h2⟩, fun _ => ⟨m, h1⟩⟩
    rw [h1] at h; cases h

/-- **C48**: a server refuses invalid parameters. -/
theorem C48_server (c : PmdServerConfig Z) (params : List ExtParam) (others : List PyStr)
    (h : ¬ ValidParams true params) :
    ∃ m, c.processRequestParams params others = .error (.negotiationError m) := by
  unfold PmdServerConfig.processRequestParams
  split
  · exact ⟨_, rfl⟩
  · obtain ⟨m, hm⟩ := (C48_extract true params).2 h
    rw [hm]
    exact ⟨m, rfl⟩

/-- **C48**: a client refuses invalid parameters. -/
theorem C48_client (c : PmdClientConfig Z) (params : List ExtParam) (others : List PyStr)
    (h : ¬ ValidParams false params) :
    ∃ m, c.processResponseParams params others = .error (.negotiationError m) := by
  unfold PmdClientConfig.processResponseParams
  split
  · exact ⟨_, rfl⟩
  · obtain ⟨m, hm⟩ := (C48_extract false params).2 h
    rw [hm]
    exact ⟨m, rfl⟩

-- Invalid parameters: out of range, duplicate, unknown, without a value in a response.
example : ¬ ValidParams true [(p!"server_max_window_bits", some p!"16")] := by
  intro h
  cases h.1 _ (List.mem_singleton.2 rfl) with
  | serverBits h => revert h; decide

example : ¬ ValidParams true
    [(p!"client_no_context_takeover", none), (p!"client_no_context_takeover", none)] := by
  intro h
  have := h.2
  revert this
  decide

example : ¬ ValidParams false [(p!"client_max_window_bits", none)] := by
  intro h
  cases h.1 _ (List.mem_singleton.2 rfl) with
  | clientAny h => cases h

example : ValidParams true [(p!"client_max_window_bits", none)] :=
  ⟨by intro p hp; rw [List.mem_singleton.1 hp]; exact .clientAny rfl, by decide⟩

/-! ## C47 -/

/-- Two ends that agree. -/
structure Spec.Mirrored (cx sx : Pmd Z) : Prop where
  serverNct : cx.remoteNct = sx.localNct
  clientNct : cx.localNct = sx.remoteNct
  serverBits : cx.remoteBits = sx.localBits
  clientBits : cx.localBits = sx.remoteBits

/-- What each side asked for is respected. -/
structure Spec.Respects (cc : PmdClientConfig Z) (sc : PmdServerConfig Z)
    (serverNct clientNct : Bool) (serverBits clientBits : Nat) : Prop where
  serverNct : cc.params.serverNct = true ∨ sc.serverNct = true ↔ serverNct = true
  clientNct : cc.params.clientNct = true ∨ sc.clientNct = true ↔ clientNct = true
  serverBits : 8 ≤ serverBits ∧ serverBits ≤ 15 ∧
    (∀ n, cc.params.serverBits = some n → serverBits ≤ n) ∧
    (∀ n, sc.serverBits = some n → serverBits ≤ n)
  clientBits : 8 ≤ clientBits ∧ clientBits ≤ 15 ∧
    (∀ n, cc.params.clientBits = some (.val n) → clientBits ≤ n) ∧
    (∀ n, sc.clientBits = some n → clientBits ≤ n) ∧
    (cc.params.clientBits = none → clientBits = 15)

theorem PmdClientConfig.valid_iff (c : PmdClientConfig Z) : c.valid = true ↔ c.params.Valid := by
  unfold PmdClientConfig.valid
  constructor
  · intro h
    simp only [Bool.and_eq_true] at h
    constructor
    · intro n hn
      have := h.1
      rw [hn] at this
      simpa using this
    · intro n hn
      have := h.2
      rw [hn] at this
      simpa using this
  · rintro ⟨h1, h2⟩
    simp only [Bool.and_eq_true]
    constructor
    · split
      · rfl
      · rename_i n hn; simpa using h1 n hn
    · split
      · rfl
      · rfl
      · rename_i n hn; simpa using h2 n hn

theorem PmdServerConfig.valid_iff (c : PmdServerConfig Z) : c.valid = true ↔
    (∀ n, c.serverBits = some n → 8 ≤ n ∧ n ≤ 15) ∧ ∀ n, c.clientBits = some n → 8 ≤ n ∧ n ≤ 15 := by
  unfold PmdServerConfig.valid
  cases c.serverBits <;> cases c.clientBits <;> simp

/-- Creating the extension fails only because `zlib` does. -/
theorem Pmd.new_ok {rn ln : Bool} {rb lb : Nat} {s : Z.Settings} (hr : 8 ≤ rb ∧ rb ≤ 15)
    (hl : 8 ≤ lb ∧ lb ≤ 15) : Pmd.new rn ln rb lb s =
      if ln then .ok ⟨rn, ln, rb, lb, s, if rn then none else some (Z.decompressobj rb), none, false⟩
      else match Z.compressobj lb s with
        | .error e => .error e
        | .ok enc =>
          .ok ⟨rn, ln, rb, lb, s, if rn then none else some (Z.decompressobj rb), some enc, false⟩ := by
  unfold Pmd.new
  rw [if_neg (by simpa using hr), if_neg (by simpa using hl)]
  cases rn <;> cases ln <;> cases Z.compressobj lb s <;> simp

theorem Pmd.new_inv {rn ln : Bool} {rb lb : Nat} {s : Z.Settings} {x : Pmd Z}
    (h : Pmd.new rn ln rb lb s = .ok x) : (8 ≤ rb ∧ rb ≤ 15) ∧ (8 ≤ lb ∧ lb ≤ 15) ∧
      x.remoteNct = rn ∧ x.localNct = ln ∧ x.remoteBits = rb ∧ x.localBits = lb ∧ x.settings = s := by
  unfold Pmd.new at h
  split at h
  · cases h
  · rename_i h1
    split at h
    · cases h
    · rename_i h2
      simp only at h
      refine ⟨by simpa using h1, by simpa using h2, ?_⟩
      split at h
      · split at h
        · cases h
        · cases h; simp
      · cases h; simp

/-- The smaller of two optional bounds. -/
def minBits : Option Nat → Option Nat → Option Nat
  | none, m => m
  | some n, none => some n
  | some n, some m => some (min n m)

/-- The window of the client: what the server is configured with, and what the client offers. -/
def clientWindow : Option Nat → Option WBits → Except Exc (Option WBits)
  | none, some .any => .ok none
  | none, x => .ok x
  | some _, none => .error (.negotiationError p!"required client_max_window_bits")
  | some n, some .any => .ok (some (.val n))
  | some n, some (.val m) => .ok (some (.val (min n m)))

theorem serverNegotiate_eq (sc : PmdServerConfig Z) (p : PmdParams) :
    sc.negotiate p = (clientWindow sc.clientBits p.clientBits).map fun b =>
        ⟨sc.serverNct || p.serverNct, sc.clientNct || p.clientNct,
          minBits sc.serverBits p.serverBits, b⟩ := by
  obtain ⟨a, b, c, d⟩ := p
  obtain ⟨a', b', c', d', st'⟩ := sc
  have hm : ∀ n m : Nat, n < m → min n m = n := fun n m h => Nat.min_eq_left (by omega)
  have hm' : ∀ n m : Nat, ¬ n < m → min n m = m := fun n m h => Nat.min_eq_right (by omega)
  unfold PmdServerConfig.negotiate
  cases a' <;> cases b' <;> rcases c' with _ | c' <;> rcases c with _ | c <;>
    rcases d' with _ | d' <;> rcases d with _ | _ | d <;>
    simp only [minBits, clientWindow, Except.map, Bool.true_or, Bool.false_or, if_true,
      Bool.false_eq_true, if_false, reduceCtorEq, Option.some.injEq] <;>
    first
      | rfl
      | grind

/-- The server's answer to the parameters of a client, and the client's reading of it. -/
theorem negotiate_agree (cc : PmdClientConfig Z) (sc : PmdServerConfig Z) (hc : cc.params.Valid)
    (hs : (∀ n, sc.serverBits = some n → 8 ≤ n ∧ n ≤ 15) ∧
      ∀ n, sc.clientBits = some n → 8 ≤ n ∧ n ≤ 15) {r : PmdParams}
    (h : sc.negotiate cc.params = .ok r) : r.Valid ∧ r.clientBits ≠ some .any ∧
      ∃ r', cc.negotiate r = .ok r' ∧ r'.serverNct = r.serverNct ∧ r'.clientNct = r.clientNct ∧
        r'.serverBits = r.serverBits ∧
        orDefault (r'.clientBits.map WBits.toNat) = orDefault (r.clientBits.map WBits.toNat) ∧
        Respects cc sc r.serverNct r.clientNct (orDefault r.serverBits)
          (orDefault (r.clientBits.map WBits.toNat)) := by
  rw [serverNegotiate_eq] at h
  obtain ⟨⟨a, b, c, d⟩, st⟩ := cc
  obtain ⟨a', b', c', d', st'⟩ := sc
  obtain ⟨hc1, hc2⟩ := hc
  obtain ⟨hs1, hs2⟩ := hs
  simp only at hc1 hc2 hs1 hs2 h
  cases hw : clientWindow d' d with
  | error e => rw [hw] at h; cases h
  | ok w =>
    rw [hw] at h
    cases h
    have hsb : ∀ n, minBits c' c = some n → 8 ≤ n ∧ n ≤ 15 ∧ (∀ m, c = some m → n ≤ m) ∧
        ∀ m, c' = some m → n ≤ m := by
      intro n hn
      rcases c' with _ | c' <;> rcases c with _ | c <;> grind [minBits]
    have hsn : minBits c' c = none → c = none ∧ c' = none := by
      rcases c' with _ | c' <;> rcases c with _ | c <;> simp [minBits]
    have hwb : (w = none ∧ d' = none ∧ (d = none ∨ d = some .any)) ∨ ∃ n, w = some (.val n) ∧
        8 ≤ n ∧ n ≤ 15 ∧ (∀ m, d = some (.val m) → n ≤ m) ∧ (∀ m, d' = some m → n ≤ m) ∧ d ≠ none := by
      rcases d' with _ | d' <;> rcases d with _ | _ | d <;> cases hw <;> simp_all
      omega
    have hsd : 8 ≤ orDefault (minBits c' c) ∧ orDefault (minBits c' c) ≤ 15 ∧
        (∀ n, c = some n → orDefault (minBits c' c) ≤ n) ∧
        (∀ n, c' = some n → orDefault (minBits c' c) ≤ n) := by
      cases hx : minBits c' c with
      | none =>
        obtain ⟨rfl, rfl⟩ := hsn hx
        simp [orDefault]
      | some n =>
        have := hsb n hx
        simp only [orDefault]
        rw [if_neg (by omega)]
        exact this
    have hwd : 8 ≤ orDefault (w.map WBits.toNat) ∧ orDefault (w.map WBits.toNat) ≤ 15 ∧
        (∀ n, d = some (.val n) → orDefault (w.map WBits.toNat) ≤ n) ∧
        (∀ n, d' = some n → orDefault (w.map WBits.toNat) ≤ n) ∧
        (d = none → orDefault (w.map WBits.toNat) = 15) := by
      rcases hwb with ⟨rfl, rfl, h | h⟩ | ⟨n, rfl, h1, h2, h3, h4, h5⟩
      · subst h; simp [orDefault]
      · subst h; simp [orDefault]
      · simp only [Option.map, WBits.toNat, orDefault]
        rw [if_neg (by omega)]
        exact ⟨h1, h2, h3, h4, fun h => absurd h h5⟩
    refine ⟨⟨fun n hn => ?_, fun n hn => ?_⟩, ?_, ⟨a' || a, b' || b, minBits c' c, w⟩, ?_, rfl, rfl, rfl, rfl,
      ⟨?_, ?_, hsd, hwd⟩⟩
    · have := hsb n hn; omega
    · rcases hwb with ⟨h, _⟩ | ⟨m, h, h1, h2, _⟩
      · rw [h] at hn; cases hn
      · rw [h] at hn; cases hn; omega
    · rcases hwb with ⟨h, _⟩ | ⟨m, h, _⟩ <;> simp [h]
    · unfold PmdClientConfig.negotiate
      simp only
      have h1 : (a && !(a' || a)) = false := by cases a <;> cases a' <;> rfl
      have h2 : (if b then (⟨a' || a, true, minBits c' c, w⟩ : PmdParams)
          else ⟨a' || a, b' || b, minBits c' c, w⟩) = ⟨a' || a, b' || b, minBits c' c, w⟩ := by
        cases b <;> simp
      rw [h1, h2]
      have h3 : serverBitsError c (minBits c' c) = none := by
        unfold serverBitsError
        cases c with
        | none => rfl
        | some n =>
          simp only
          cases hx : minBits c' (some n) with
          | none => exact absurd (hsn hx).1 (by simp)
          | some m =>
            simp only
            rw [if_neg]
            have := (hsb m hx).2.2.1 n rfl
            omega
      simp only [Bool.false_eq_true, if_false, h3]
      rcases hwb with ⟨rfl, rfl, h | h⟩ | ⟨n, rfl, g1, g2, g3, g4, g5⟩
      · subst h; simp
      · subst h; simp
      · rcases d with _ | _ | m
        · exact absurd rfl g5
        · rfl
        · have := g3 m rfl
          simp only [WBits.toNat]
          exact if_neg (by omega)
    · simp [or_comm]
    · simp [or_comm]

/-- **C47**, for every `zlib` that doesn't refuse to create the encoder of the client.  Whenever a
server accepts the offer of a client, the client accepts the answer; both ends agree, within what
each side asked for.

What is missing is shown by `C47_agree_false`. -/
theorem C47_agree_partial (cc : PmdClientConfig Z) (sc : PmdServerConfig Z)
    (hc : cc.valid = true) (hs : sc.valid = true) (sothers cothers : List PyStr)
    (hco : pmdName ∉ cothers) {answer : List ExtParam} {sx : Pmd Z}
    (h : sc.processRequestParams cc.params.build sothers = .ok (answer, sx))
    (hz : sx.remoteNct = true ∨ ∃ e, Z.compressobj sx.remoteBits cc.settings = .ok e) :
    ∃ cx, cc.processResponseParams answer cothers = .ok cx ∧ Mirrored cx sx ∧
      Respects cc sc sx.localNct sx.remoteNct sx.localBits sx.remoteBits := by
  rw [PmdClientConfig.valid_iff] at hc
  rw [PmdServerConfig.valid_iff] at hs
  unfold PmdServerConfig.processRequestParams at h
  split at h
  · cases h
  · rw [extract_build hc true (fun _ => rfl)] at h
    simp only at h
    split at h
    · cases h
    · rename_i r hr
      obtain ⟨g1, g2, r', g3, g4, g5, g6, g7, g8⟩ := negotiate_agree cc sc hc hs hr
      split at h
      · cases h
      · rename_i x hx
        cases h
        obtain ⟨k1, k2, k3, k4, k5, k6, _⟩ := Pmd.new_inv hx
        unfold PmdClientConfig.processResponseParams
        rw [if_neg hco, extract_build g1 false (fun h => absurd h g2)]
        simp only
        rw [g3]
        simp only
        rw [g4, g5, g6, g7, Pmd.new_ok k2 k1]
        rw [k3, k5] at hz
        have hresp : Respects cc sc sx.localNct sx.remoteNct sx.localBits sx.remoteBits := by
          rw [k3, k4, k5, k6]; exact g8
        cases hn : r.clientNct with
        | true => exact ⟨_, rfl, ⟨k4.symm, by rw [k3, hn], k6.symm, k5.symm⟩, hresp⟩
        | false =>
          rw [hn] at hz
          obtain ⟨e, he⟩ := hz.resolve_left (by simp)
          rw [he]
          exact ⟨_, rfl, ⟨k4.symm, by rw [k3, hn], k6.symm, k5.symm⟩, hresp⟩

/-- C47 doesn't hold in general.  A server accepts the parameter `client_max_window_bits=8`; then the
client, whose `zlib` refuses to create an encoder with a window of 8 bits, raises `ValueError`. -/
theorem C47_agree_false :
    ∃ (cc : PmdClientConfig storedZlib) (sc : PmdServerConfig storedZlib) (answer : List ExtParam)
      (sx : Pmd storedZlib), cc.valid = true ∧ sc.valid = true ∧
      sc.processRequestParams cc.params.build [] = .ok (answer, sx) ∧
      ∃ m, cc.processResponseParams answer [] = .error (.valueError m) := by
  let cc : PmdClientConfig storedZlib := ⟨{ clientBits := some (.val 8) }, ()⟩
  let sc : PmdServerConfig storedZlib := { settings := () }
  have h1 : PmdParams.extract true {} cc.params.build = .ok cc.params :=
    extract_build ⟨by simp [cc], by simp [cc]⟩ true (fun _ => rfl)
  have h2 : PmdParams.extract false {} cc.params.build = .ok cc.params :=
    extract_build ⟨by simp [cc], by simp [cc]⟩ false (by simp [cc])
  refine ⟨cc, sc, cc.params.build, ⟨false, false, 8, 15, (), some {}, some (), false⟩, rfl, rfl, ?_,
    p!"Invalid initialization option", ?_⟩
  · unfold PmdServerConfig.processRequestParams
    rw [if_neg (by simp), h1]
    rfl
  · unfold PmdClientConfig.processResponseParams
    rw [if_neg (by simp), h2]
    rfl

/-- Which offers are accepted: a server refuses the offer of a client only if it requires
`client_max_window_bits`, which the client doesn't support. -/
theorem C47_accepts (cc : PmdClientConfig Z) (sc : PmdServerConfig Z)
    (hc : cc.valid = true) (hs : sc.valid = true) (others : List PyStr) (hco : pmdName ∉ others)
    (hz : ∀ w, 8 ≤ w → w ≤ 15 → ∃ e, Z.compressobj w sc.settings = .ok e) :
    (∃ answer sx, sc.processRequestParams cc.params.build others = .ok (answer, sx)) ↔
      (sc.clientBits ≠ none → cc.params.clientBits ≠ none) := by
  rw [PmdClientConfig.valid_iff] at hc
  rw [PmdServerConfig.valid_iff] at hs
  unfold PmdServerConfig.processRequestParams
  rw [if_neg hco, extract_build hc true (fun _ => rfl)]
  simp only
  have hn := serverNegotiate_eq sc cc.params
  cases hr : sc.negotiate cc.params with
  | error e =>
    simp only [reduceCtorEq, exists_false, false_iff]
    intro h
    rw [hr] at hn
    have : ∃ w, clientWindow sc.clientBits cc.params.clientBits = .ok w := by
      rcases h1 : sc.clientBits with _ | n <;> rcases h2 : cc.params.clientBits with _ | _ | m <;>
        first
          | exact ⟨_, rfl⟩
          | exact absurd h2 (h (by simp [h1]))
    obtain ⟨w, hw⟩ := this
    rw [hw] at hn
    cases hn
  | ok r =>
    obtain ⟨g1, g2, r', g3, g4, g5, g6, g7, g8⟩ := negotiate_agree cc sc hc hs hr
    simp only
    obtain ⟨e, he⟩ := hz (orDefault r.serverBits) g8.serverBits.1 g8.serverBits.2.1
    rw [Pmd.new_ok ⟨g8.clientBits.1, g8.clientBits.2.1⟩ ⟨g8.serverBits.1, g8.serverBits.2.1⟩, he]
    constructor
    · intro _ h1 h2
      rw [hn] at hr
      rcases hx : sc.clientBits with _ | n
      · exact h1 hx
      · rw [hx, h2] at hr; cases hr
    · intro _
      cases r.serverNct <;> exact ⟨_, _, rfl⟩

-- A typical negotiation, which meets the hypotheses of C47.
example :
    let cc : PmdClientConfig storedZlib := ⟨{ clientBits := some .any }, ()⟩
    let sc : PmdServerConfig storedZlib := { serverBits := some 12, clientBits := some 11, settings := () }
    cc.valid = true ∧ sc.valid = true ∧ (∃ answer sx,
      sc.processRequestParams cc.params.build [] = .ok (answer, sx) ∧ sx.remoteBits = 11) ∧
    ∃ e, storedZlib.compressobj 11 cc.settings = .ok e := by
  intro cc sc
  refine ⟨rfl, rfl, ⟨PmdParams.build { serverBits := some 12, clientBits := some (.val 11) },
    ⟨false, false, 11, 12, (), some {}, some (), false⟩, ?_, rfl⟩, (), rfl⟩
  unfold PmdServerConfig.processRequestParams
  rw [if_neg (by simp), extract_build ⟨by simp [cc], by simp [cc]⟩ true (fun _ => rfl)]
  rfl

/-! ## C49 -/

/-- An encoder `p` and a decoder `q` that can be used together: between messages (`u = false`), or
in the middle of a message (`u = true`). -/
structure Paired (K : Contract Z) (u : Bool) (p q : Pmd Z) : Prop where
  nct : q.remoteNct = p.localNct
  bits : p.localBits ≤ q.remoteBits
  cont : q.decodeCont = u
  sync : p.localNct = false ∨ u = true →
    ∃ e d, p.encoder = some e ∧ q.decoder = some d ∧ K.Sync e d

/-- New extensions with matching parameters. -/
theorem Paired.new (K : Contract Z) {n rn' ln' : Bool} {b b' rb lb : Nat} {s s' : Z.Settings}
    (hb : b ≤ b') {p q : Pmd Z} (hp : Pmd.new rn' n rb b s = .ok p)
    (hq : Pmd.new n ln' b' lb s' = .ok q) : Paired K false p q := by
  obtain ⟨a1, a2, a3, a4, a5, a6, a7⟩ := Pmd.new_inv hp
  obtain ⟨c1, c2, c3, c4, c5, c6, c7⟩ := Pmd.new_inv hq
  rw [Pmd.new_ok a1 a2] at hp
  rw [Pmd.new_ok c1 c2] at hq
  have hqd : q.decoder = (if n then none else some (Z.decompressobj b')) ∧ q.decodeCont = false := by
    split at hq
    · cases hq; exact ⟨rfl, rfl⟩
    · split at hq
      · cases hq
      · cases hq; exact ⟨rfl, rfl⟩
  refine ⟨by rw [c3, a4], by rw [a6, c5]; exact hb, hqd.2, ?_⟩
  rintro (h | h)
  · rw [a4] at h
    subst h
    simp only [Bool.false_eq_true, if_false] at hp hqd
    split at hp
    · cases hp
    · rename_i e he
      cases hp
      exact ⟨e, _, rfl, hqd.1, K.init hb he⟩
  · cases h

/-- Whether the limit given to `decode` leaves room for these many bytes. A limit of zero isn't a
limit. -/
def Spec.Fits (limit : Option Int) (n : Nat) : Prop := ∀ m, limit = some m → m = 0 ∨ (n : Int) ≤ m

/-- Compressing and decompressing the data of a frame in the middle of a message. -/
theorem Paired.transfer {K : Contract Z} {p q : Pmd Z} {e : Z.Enc} {d : Z.Dec}
    (nct : q.remoteNct = p.localNct) (he : p.encoder = some e) (hd : q.decoder = some d)
    (hs : K.Sync e d) (f : Frame) (limit : Option Int) (hl : Fits limit f.data.length) :
    ∃ data p' q', p.deflate f = (.ok { f with data }, p') ∧
      (∀ g : Frame, g.fin = f.fin → q.inflate { g with data } limit =
        (.ok { g with data := f.data }, q')) ∧
      p'.localNct = p.localNct ∧ p'.localBits = p.localBits ∧ p'.settings = p.settings ∧
      q'.remoteNct = q.remoteNct ∧
      q'.remoteBits = q.remoteBits ∧ q'.decodeCont = q.decodeCont ∧
      (p.localNct = false ∨ f.fin = false → ∃ e d, p'.encoder = some e ∧ q'.decoder = some d ∧
        K.Sync e d) := by
  obtain ⟨hsuf, hdec⟩ := K.step f.data hs
  have hmax : limit.getD 0 = 0 ∨ (f.data.length : Int) ≤ limit.getD 0 := by
    cases limit with
    | none => exact .inl rfl
    | some m => exact hl m rfl
  obtain ⟨d', h1, h2, h3⟩ := hdec _ hmax
  simp only [Pmd.deflate, he]
  generalize (Z.compress e f.data).1 ++ (Z.flush (Z.compress e f.data).2).1 = c at *
  generalize (Z.flush (Z.compress e f.data).2).2 = e2 at *
  have hsb : emptyBlock.isSuffixOf c = true := by
    rw [List.isSuffixOf_iff_suffix]; exact hsuf
  rw [hsb, Bool.and_true]
  refine ⟨_, _, { q with decoder := if f.fin && q.remoteNct then none else some d' },
    rfl, ?_, rfl, rfl, rfl, rfl, rfl, rfl, ?_⟩
  · intro g hg
    have hdata : (if f.fin = true then
        (if f.fin = true then c.take (c.length - 4) else c) ++ emptyBlock
        else if f.fin = true then c.take (c.length - 4) else c) = c := by
      cases f.fin with
      | false => rfl
      | true =>
        obtain ⟨t, ht⟩ := hsuf
        simp only [if_true]
        rw [← ht]
        simp [emptyBlock]
    unfold Pmd.inflate
    rw [hd]
    simp only [hg, hdata, h1, h2, ne_eq, not_true, if_false]
  · intro hcond
    refine ⟨e2, d', ?_, ?_, h3⟩
    · rcases hcond with h | h <;> simp [h]
    · rw [nct]
      rcases hcond with h | h <;> simp [h]

/-- `encode` then `decode` of one frame. -/
theorem Paired.frame {K : Contract Z} {u u' : Bool} {p q : Pmd Z} (h : Paired K u p q)
    (hz : p.localNct = true → ∃ e, Z.compressobj p.localBits p.settings = .ok e)
    {f : Frame} (hf : (f.opcode.isCtrl = true ∧ u' = u) ∨
      ((f.opcode = .text ∨ f.opcode = .binary) ∧ f.rsv1 = false ∧ u = false ∧ u' = !f.fin) ∨
      (f.opcode = .cont ∧ u = true ∧ u' = !f.fin))
    (limit : Option Int) (hl : f.opcode.isCtrl = true ∨ Fits limit f.data.length) :
    ∃ g p' q', p.encode f = (.ok g, p') ∧ q.decode g limit = (.ok f, q') ∧ Paired K u' p' q' ∧
      p'.localNct = p.localNct ∧ p'.localBits = p.localBits ∧ p'.settings = p.settings := by
  rcases hf with ⟨hc, rfl⟩ | ⟨ho, hr, rfl, rfl⟩ | ⟨ho, rfl, rfl⟩
  · exact ⟨f, p, q, by simp [Pmd.encode, hc], by simp [Pmd.decode, hc], h, rfl, rfl, rfl⟩
  · have hnc : f.opcode.isCtrl = false := by rcases ho with ho | ho <;> rw [ho] <;> rfl
    have hnt : f.opcode ≠ .cont := by rcases ho with ho | ho <;> rw [ho] <;> simp
    have hl' : Fits limit f.data.length := hl.resolve_left (by simp [hnc])
    have henc : ∀ p1 : Pmd Z, ∀ e d, p1.localNct = p.localNct → p1.localBits = p.localBits →
        p1.settings = p.settings → p1.encoder = some e →
        (if q.remoteNct then some (Z.decompressobj q.remoteBits) else q.decoder) = some d →
        K.Sync e d → p.encode f = p1.deflate { f with rsv1 := true } →
        ∃ g p' q', p.encode f = (.ok g, p') ∧ q.decode g limit = (.ok f, q') ∧
          Paired K (!f.fin) p' q' ∧
          p'.localNct = p.localNct ∧ p'.localBits = p.localBits ∧ p'.settings = p.settings := by
      intro p1 e d hn hb hs he hd hsy hp
      let q1 : Pmd Z := { q with
        decodeCont := !f.fin
        decoder := if q.remoteNct then some (Z.decompressobj q.remoteBits) else q.decoder }
      obtain ⟨data, p', q', t1, t2, t3, t4, t5, t6, t7, t8, t9⟩ :=
        Paired.transfer (K := K) (p := p1) (q := q1) (h.nct.trans hn.symm) he hd hsy
          { f with rsv1 := true } limit hl'
      refine ⟨_, p', q', hp.trans t1, ?_, ⟨?_, ?_, t8, ?_⟩, t3.trans hn, t4.trans hb, t5.trans hs⟩
      · have hdec : q.decode { f with rsv1 := true, data } limit =
            q1.inflate { f with rsv1 := false, data } limit := by
          unfold Pmd.decode
          simp only [hnc, Bool.false_eq_true, if_false, hnt, Bool.not_true]
          congr 1
          have := h.cont
          cases q
          simp only at this
          subst this
          cases hfin : f.fin <;> simp only [q1, hfin, Bool.not_false, Bool.not_true, if_true,
            Bool.false_eq_true, if_false] <;> split <;> rfl
        have := t2 { f with rsv1 := false } rfl
        simp only at this
        rw [hdec, this]
        cases f
        simp only at hr
        subst hr
        rfl
      · exact t6.trans (h.nct.trans (hn.symm.trans t3.symm))
      · rw [t4, t7, hb]; exact h.bits
      · intro hc
        apply t9
        rcases hc with hc | hc
        · exact .inl (t3.symm.trans hc)
        · exact .inr (by simpa using hc)
    cases hn : p.localNct with
    | true =>
      obtain ⟨e, he⟩ := hz hn
      obtain ⟨g, p', q', r⟩ := henc { p with encoder := some e } e (Z.decompressobj q.remoteBits)
        rfl rfl rfl rfl (by rw [h.nct, hn]; rfl) (K.init h.bits he) (by
          unfold Pmd.encode
          simp only [hnc, Bool.false_eq_true, if_false, hnt, ne_eq, not_false_eq_true, if_true, hn, he])
      rw [hn] at r
      exact ⟨g, p', q', r⟩
    | false =>
      obtain ⟨e, d, h1, h2, h3⟩ := h.sync (.inl hn)
      obtain ⟨g, p', q', r⟩ := henc p e d rfl rfl rfl h1 (by rw [h.nct, hn]; exact h2) h3 (by
          unfold Pmd.encode
          simp only [hnc, Bool.false_eq_true, if_false, hnt, ne_eq, not_false_eq_true, if_true, hn])
      rw [hn] at r
      exact ⟨g, p', q', r⟩
  · have hl' : Fits limit f.data.length := hl.resolve_left (by simp [ho, Opcode.isCtrl])
    obtain ⟨e, d, h1, h2, h3⟩ := h.sync (.inr rfl)
    let q1 : Pmd Z := { q with decodeCont := !f.fin }
    obtain ⟨data, p', q', t1, t2, t3, t4, t5, t6, t7, t8, t9⟩ :=
      Paired.transfer (K := K) (p := p) (q := q1) h.nct h1 h2 h3 f limit hl'
    refine ⟨{ f with data }, p', q', ?_, ?_, ⟨?_, ?_, t8, ?_⟩, t3, t4, t5⟩
    · unfold Pmd.encode
      simp only [ho, Opcode.isCtrl, Bool.false_eq_true, if_false, ne_eq, not_true]
      rw [t1, ho]
    · have hdec : q.decode { f with data } limit = q1.inflate { f with data } limit := by
        unfold Pmd.decode
        simp only [ho, Opcode.isCtrl, Bool.false_eq_true, if_false, if_true, h.cont, Bool.not_true]
        congr 1
        have := h.cont
        cases q
        simp only at this
        subst this
        cases hfin : f.fin <;> simp [q1, hfin]
      rw [hdec]
      exact t2 f rfl
    · exact t6.trans (h.nct.trans t3.symm)
    · rw [t4, t7]; exact h.bits
    · intro hc
      apply t9
      rcases hc with hc | hc
      · exact .inl (t3.symm.trans hc)
      · exact .inr (by simpa using hc)

/-- Encode a list of frames with one extension. -/
def Spec.encodeAll (ops : ExtOps X) : X → List Frame → Option (List Frame × X)
  | x, [] => some ([], x)
  | x, f :: fs =>
    match ops.encode x f with
    | (.error _, _) => none
    | (.ok g, x) =>
      match encodeAll ops x fs with
      | none => none
      | some (gs, x) => some (g :: gs, x)

/-- Decode a list of frames, each with its own limit. -/
def Spec.decodeAll (ops : ExtOps X) : X → List (Frame × Option Int) → Option (List Frame × X)
  | x, [] => some ([], x)
  | x, (f, m) :: fs =>
    match ops.decode x f m with
    | (.error _, _) => none
    | (.ok g, x) =>
      match decodeAll ops x fs with
      | none => none
      | some (gs, x) => some (g :: gs, x)

theorem Paired.frames {K : Contract Z} {u : Bool} {p q : Pmd Z} (h : Paired K u p q)
    (hz : p.localNct = true → ∃ e, Z.compressobj p.localBits p.settings = .ok e)
    {fs : List Frame} (hf : Fragments u fs) (limits : List (Option Int))
    (hlen : limits.length = fs.length)
    (hl : ∀ a ∈ fs.zip limits, a.1.opcode.isCtrl = true ∨ Fits a.2 a.1.data.length) :
    ∃ gs p' q', encodeAll (pmdOps Z) p fs = some (gs, p') ∧
      decodeAll (pmdOps Z) q (gs.zip limits) = some (fs, q') := by
  induction hf generalizing p q limits with
  | nil => exact ⟨[], p, q, rfl, rfl⟩
  | @ctrl u f fs hc _ ih =>
    cases limits with
    | nil => cases hlen
    | cons m limits =>
      obtain ⟨g, p1, q1, e1, e2, e3, e4, e5, e6⟩ :=
        h.frame hz (f := f) (.inl ⟨hc, rfl⟩) m (hl (f, m) (by simp))
      obtain ⟨gs, p', q', g1, g2⟩ := ih e3 (by rw [e4, e5, e6]; exact hz) limits
        (by simpa using hlen) fun a ha => hl a (by simp [ha])
      refine ⟨g :: gs, p', q', ?_, ?_⟩
      · simp only [encodeAll, pmdOps, e1]
        simp only [pmdOps] at g1
        rw [g1]
      · simp only [List.zip_cons_cons, decodeAll, pmdOps, e2]
        simp only [pmdOps] at g2
        rw [g2]
  | @start f fs ho hr _ ih =>
    cases limits with
    | nil => cases hlen
    | cons m limits =>
      obtain ⟨g, p1, q1, e1, e2, e3, e4, e5, e6⟩ :=
        h.frame hz (f := f) (.inr (.inl ⟨ho, hr, rfl, rfl⟩)) m (hl (f, m) (by simp))
      obtain ⟨gs, p', q', g1, g2⟩ := ih e3 (by rw [e4, e5, e6]; exact hz) limits
        (by simpa using hlen) fun a ha => hl a (by simp [ha])
      refine ⟨g :: gs, p', q', ?_, ?_⟩
      · simp only [encodeAll, pmdOps, e1]
        simp only [pmdOps] at g1
        rw [g1]
      · simp only [List.zip_cons_cons, decodeAll, pmdOps, e2]
        simp only [pmdOps] at g2
        rw [g2]
  | @cont f fs ho _ ih =>
    cases limits with
    | nil => cases hlen
    | cons m limits =>
      obtain ⟨g, p1, q1, e1, e2, e3, e4, e5, e6⟩ :=
        h.frame hz (f := f) (.inr (.inr ⟨ho, rfl, rfl⟩)) m (hl (f, m) (by simp))
      obtain ⟨gs, p', q', g1, g2⟩ := ih e3 (by rw [e4, e5, e6]; exact hz) limits
        (by simpa using hlen) fun a ha => hl a (by simp [ha])
      refine ⟨g :: gs, p', q', ?_, ?_⟩
      · simp only [encodeAll, pmdOps, e1]
        simp only [pmdOps] at g1
        rw [g1]
      · simp only [List.zip_cons_cons, decodeAll, pmdOps, e2]
        simp only [pmdOps] at g2
        rw [g2]

/-- **C49.**  Two ends with matching parameters: what one end encodes, the other end decodes to
the original frames, for every sequence of messages, however they are fragmented, with control
frames anywhere.  Each frame is decoded with its own limit, in which the original data fits.

What is missing is shown by `C49_round_trip_false`: without context takeover, an encoder is created
for each message, which is assumed to succeed. -/
theorem C49_round_trip_partial (K : Contract Z) {rn ln rn' ln' : Bool} {rb lb rb' lb' : Nat}
    {s s' : Z.Settings} {cx sx : Pmd Z} (hcx : Pmd.new rn ln rb lb s = .ok cx)
    (hsx : Pmd.new rn' ln' rb' lb' s' = .ok sx) (hm : Mirrored cx sx)
    {fs : List Frame} (hf : Fragments false fs) (limits : List (Option Int))
    (hlen : limits.length = fs.length)
    (hl : ∀ a ∈ fs.zip limits, a.1.opcode.isCtrl = true ∨ Fits a.2 a.1.data.length) :
    ((ln = true → ∃ e, Z.compressobj lb s = .ok e) →
      ∃ gs cx' sx', encodeAll (pmdOps Z) cx fs = some (gs, cx') ∧
        decodeAll (pmdOps Z) sx (gs.zip limits) = some (fs, sx')) ∧
    ((ln' = true → ∃ e, Z.compressobj lb' s' = .ok e) →
      ∃ gs sx' cx', encodeAll (pmdOps Z) sx fs = some (gs, sx') ∧
        decodeAll (pmdOps Z) cx (gs.zip limits) = some (fs, cx')) := by
  obtain ⟨a1, a2, a3, a4, a5, a6, a7⟩ := Pmd.new_inv hcx
  obtain ⟨c1, c2, c3, c4, c5, c6, c7⟩ := Pmd.new_inv hsx
  obtain ⟨m1, m2, m3, m4⟩ := hm
  rw [a3, c4] at m1
  rw [a4, c3] at m2
  rw [a5, c6] at m3
  rw [a6, c5] at m4
  subst m1 m2 m3 m4
  have hset : ∀ {r l : Bool} {x y : Nat} {s : Z.Settings} {p : Pmd Z},
      Pmd.new r l x y s = .ok p → p.settings = s := by
    intro r l x y s p h
    unfold Pmd.new at h
    split at h
    · cases h
    · split at h
      · cases h
      · simp only at h
        split at h
        · split at h
          · cases h
          · cases h; rfl
        · cases h; rfl
  constructor
  · intro hz
    exact (Paired.new K (Nat.le_refl _) hcx hsx).frames (by rw [a4, a6, hset hcx]; exact hz) hf limits
      hlen hl
  · intro hz
    exact (Paired.new K (Nat.le_refl _) hsx hcx).frames (by rw [c4, c6, hset hsx]; exact hz) hf limits
      hlen hl

/-- C49 doesn't hold in general: with a window of 8 bits and no context takeover, the extension is
created, and sending a message raises `ValueError`. -/
theorem C49_round_trip_false :
    ∃ (cx sx : Pmd storedZlib) (f : Frame), Nonempty (Contract storedZlib) ∧
      Pmd.new false true 15 8 () = .ok cx ∧ Pmd.new true false 8 15 () = .ok sx ∧
      Mirrored cx sx ∧ Fragments false [f] ∧ encodeAll (pmdOps storedZlib) cx [f] = none := by
  refine ⟨⟨false, true, 15, 8, (), some {}, none, false⟩,
    ⟨true, false, 8, 15, (), none, some (), false⟩,
    { fin := true, opcode := .text, data := [] }, ⟨storedZlib_contract⟩, rfl, rfl,
    ⟨rfl, rfl, rfl, rfl⟩, .start (.inl rfl) rfl .nil, rfl⟩

-- A fragmented message with a ping, then another message; the second end resets its context.
example :
    let fs : List Frame := [{ fin := false, opcode := .text, data := [0x61, 0x62] },
      { fin := true, opcode := .ping, data := [0x63] }, { fin := true, opcode := .cont, data := [] },
      { fin := true, opcode := .binary, data := [0x64] }]
    let limits := [some 2, none, some 0, none]
    Fragments false fs ∧
    (∀ a ∈ fs.zip limits, a.1.opcode.isCtrl = true ∨ Fits a.2 a.1.data.length) ∧
    (∃ cx sx : Pmd storedZlib, Pmd.new false true 15 9 () = .ok cx ∧
      Pmd.new true false 9 15 () = .ok sx ∧ Mirrored cx sx ∧ ∃ cx',
      encodeAll (pmdOps storedZlib) cx fs = some ([
        { fin := false, opcode := .text, rsv1 := true,
          data := [0, 2, 0, 0xFD, 0xFF, 0x61, 0x62, 0, 0, 0, 0xFF, 0xFF] },
        { fin := true, opcode := .ping, data := [0x63] },
        { fin := true, opcode := .cont, data := [0] },
        { fin := true, opcode := .binary, rsv1 := true,
          data := [0, 1, 0, 0xFE, 0xFF, 0x64, 0] }], cx')) := by
  refine ⟨.start (.inl rfl) rfl (.ctrl rfl (.cont rfl (.start (.inr rfl) rfl .nil))), ?_,
    ⟨false, true, 15, 9, (), some {}, none, false⟩, ⟨true, false, 9, 15, (), none, some (), false⟩,
    rfl, rfl, ⟨rfl, rfl, rfl, rfl⟩, ⟨false, true, 15, 9, (), some {}, none, false⟩, rfl⟩
  intro a ha
  simp only [List.zip_cons_cons, List.zip_nil_right, List.mem_cons, List.not_mem_nil, or_false] at ha
  rcases ha with rfl | rfl | rfl | rfl
  · exact .inr fun m hm => by cases hm; decide
  · exact .inl rfl
  · exact .inr fun m hm => by cases hm; decide
  · exact .inr fun m hm => by cases hm

/-- Two lists of the same length, the elements of which are related. -/
inductive Spec.AllPairs (R : X → X → Prop) : List X → List X → Prop where
  | nil : AllPairs R [] []
  | cons {x y xs ys} : R x y → AllPairs R xs ys → AllPairs R (x :: xs) (y :: ys)

/-- Decoding undoes encoding, for one pair of extensions, and then for the next ones. -/
def Spec.RoundTrips (ops : ExtOps X) (R : X → X → Prop) : Prop :=
  ∀ x y f, R x y → ∃ g x' y', ops.encode x f = (.ok g, x') ∧ ops.decode y g none = (.ok f, y') ∧
    R x' y'

theorem applyExts_append (f : X → Frame → Except Exc Frame × X) (xs ys : List X) (fr : Frame) :
    applyExts f (xs ++ ys) fr =
      match applyExts f xs fr with
      | (.error e, xs') => (.error e, xs' ++ ys)
      | (.ok fr', xs') =>
        ((applyExts f ys fr').1, xs' ++ (applyExts f ys fr').2) := by
  induction xs generalizing fr with
  | nil => rfl
  | cons x xs ih =>
    simp only [List.cons_append, applyExts]
    cases f x fr with
    | mk r x' =>
      cases r with
      | error e => rfl
      | ok fr' =>
        simp only
        rw [ih]
        cases applyExts f xs fr' with
        | mk r2 xs' => cases r2 <;> rfl

/-- **C49**, when several extensions are in use: each frame goes through the extensions in order
when it's sent, and in reverse order when it's received, and comes back unchanged.  (This holds
whether or not these extensions commute.) -/
theorem C49_stack {ops : ExtOps X} {R : X → X → Prop} (hR : RoundTrips ops R) {xs ys : List X}
    (h : AllPairs R xs ys) (f : Frame) (hc : ValidFrame f) (key : Option Bytes) :
    ∃ (g : Frame) (xs' ys' : List X), f.serializeExt ops xs key = (g.wire key, xs') ∧
      g.finish ops ys none = (.ok f, ys') ∧ AllPairs R xs' ys' := by
  have hcheck : f.check = .ok () := (Frame.check_ok_iff f).2 hc
  have key : ∀ f : Frame, ∃ g xs' ys', applyExts ops.encode xs f = (.ok g, xs') ∧
      applyExts (fun x fr => ops.decode x fr none) ys.reverse g = (.ok f, ys'.reverse) ∧
      AllPairs R xs' ys' := by
    induction h with
    | nil => exact fun f => ⟨f, [], [], rfl, rfl, .nil⟩
    | @cons x y xs ys hxy _ ih =>
      intro f
      obtain ⟨g1, x', y', e1, e2, e3⟩ := hR x y f hxy
      obtain ⟨g, xs', ys', i1, i2, i3⟩ := ih g1
      refine ⟨g, x' :: xs', y' :: ys', ?_, ?_, .cons e3 i3⟩
      · simp only [applyExts, e1, i1]
      · rw [List.reverse_cons, applyExts_append, i2]
        simp only [applyExts, e2, List.reverse_cons]
  obtain ⟨g, xs', ys', k1, k2, k3⟩ := key f
  refine ⟨g, xs', ys', ?_, ?_, k3⟩
  · unfold Frame.serializeExt
    rw [hcheck]
    simp only [k1]
  · unfold Frame.finish
    rw [k2]
    simp only [hcheck, List.reverse_reverse]

-- Two extensions that don't commute: one appends a byte, the other doubles the data.
example : ∃ (ops : ExtOps Bool) (R : Bool → Bool → Prop), RoundTrips ops R ∧
    AllPairs R [true, false] [true, false] ∧
    ((applyExts ops.encode [true, false] { fin := true, opcode := .text, data := [1] }).1 = 
      .ok { fin := true, opcode := .text, data := [1, 7, 1, 7] }) := by
  refine ⟨{ name := fun _ => [], encode := fun x f => (.ok { f with data :=
              if x then f.data ++ [7] else f.data ++ f.data }, x),
            decode := fun x f _ => (.ok { f with data :=
              if x then f.data.dropLast else f.data.take (f.data.length / 2) }, x) },
    Eq, ?_, .cons rfl (.cons rfl .nil), rfl⟩
  rintro x _ f rfl
  refine ⟨_, x, x, rfl, ?_, rfl⟩
  cases x
  · have : (f.data.length + f.data.length) / 2 = f.data.length := by omega
    simp [this]
  · simp

/-! ## C50 -/

theorem Pmd.inflate_bounded (hb : Bounded Z) {p p' : Pmd Z} {f f' : Frame} {m : Int} (hm : m ≠ 0)
    (h : p.inflate f (some m) = (.ok f', p')) : (f'.data.length : Int) ≤ m := by
  unfold Pmd.inflate at h
  cases hd : p.decoder with
  | none => rw [hd] at h; cases h
  | some d =>
    rw [hd] at h
    simp only [Option.getD_some] at h
    generalize (if f.fin = true then f.data ++ emptyBlock else f.data) = data at h
    cases hz : Z.decompress d data m with
    | mk r d' =>
      rw [hz] at h
      cases r with
      | error e => cases h
      | ok out =>
        simp only at h
        split at h
        · cases h
        · cases h
          rcases Int.lt_or_lt_of_ne hm with hneg | hpos
          · obtain ⟨e, d2, he⟩ := hb.negative d data m hneg
            rw [he] at hz
            cases hz
          · exact hb.le hpos hz

/-- **C50.**  The data of a decoded frame is no longer than the limit, whatever the frame contains
and whatever the state of the decoder.

What is missing is shown by `C50_limit_false`: a limit of zero.  (Frames that aren't compressed are
returned as they are; their length was checked before.) -/
theorem C50_limit_partial (hb : Bounded Z) {p p' : Pmd Z} {f f' : Frame} {m : Int} (hm : m ≠ 0)
    (h : p.decode f (some m) = (.ok f', p')) :
    (f'.data.length : Int) ≤ m ∨ (f' = f ∧ p' = p) := by
  unfold Pmd.decode at h
  split at h
  · cases h; exact .inr ⟨rfl, rfl⟩
  · split at h
    · split at h
      · cases h; exact .inr ⟨rfl, rfl⟩
      · exact .inl (Pmd.inflate_bounded hb hm h)
    · split at h
      · cases h; exact .inr ⟨rfl, rfl⟩
      · exact .inl (Pmd.inflate_bounded hb hm h)

-- A frame is accepted with a limit of 2 bytes, and refused with a limit of 1 byte.
example : ∃ p : Pmd storedZlib, Pmd.new false false 15 15 () = .ok p ∧
    let f : Frame :=
      { fin := true, opcode := .text, rsv1 := true, data := [0, 2, 0, 0xFD, 0xFF, 0x61, 0x62, 0] }
    (p.decode f (some 2)).1 = .ok { fin := true, opcode := .text, data := [0x61, 0x62] } ∧
    ∃ m, (p.decode f (some 1)).1 = .error (.payloadTooBig m) := by
  refine ⟨⟨false, false, 15, 15, (), some {}, some (), false⟩, rfl, rfl, _, rfl⟩

/-- permessage-deflate keeps the kind of frames, and doesn't change control frames: theorems about
connections apply when it's in use. -/
theorem pmdOps_lawful (Z : Zlib) : (pmdOps Z).Lawful where
  encode_head {x f f' x'} h := by
    have hd : ∀ {p p' : Pmd Z} {g g' : Frame}, p.deflate g = (.ok g', p') →
        g'.fin = g.fin ∧ g'.opcode = g.opcode := by
      intro p p' g g' h
      unfold Pmd.deflate at h
      split at h
      · cases h
      · cases h; exact ⟨rfl, rfl⟩
    simp only [pmdOps, Pmd.encode] at h
    split at h
    · cases h; exact ⟨rfl, rfl, fun _ => rfl⟩
    · rename_i hc
      have hc' : f.opcode.isCtrl = true → f' = f := fun h => absurd h hc
      split at h
      · split at h
        · split at h
          · cases h
          · obtain ⟨h1, h2⟩ := hd h; exact ⟨h1, h2, hc'⟩
        · obtain ⟨h1, h2⟩ := hd h; exact ⟨h1, h2, hc'⟩
      · obtain ⟨h1, h2⟩ := hd h; exact ⟨h1, h2, hc'⟩
  decode_head {x f m f' x'} h := by
    have hd : ∀ {p p' : Pmd Z} {g g' : Frame}, p.inflate g m = (.ok g', p') →
        g'.fin = g.fin ∧ g'.opcode = g.opcode := by
      intro p p' g g' h
      unfold Pmd.inflate at h
      split at h
      · cases h
      · simp only at h
        split at h
        · cases h
        · split at h
          · cases h
          · cases h; exact ⟨rfl, rfl⟩
    simp only [pmdOps, Pmd.decode] at h
    split at h
    · cases h; exact ⟨rfl, rfl, fun _ => rfl⟩
    · rename_i hc
      have hc' : f.opcode.isCtrl = true → f' = f := fun h => absurd h hc
      split at h
      · split at h
        · cases h; exact ⟨rfl, rfl, hc'⟩
        · obtain ⟨h1, h2⟩ := hd h; exact ⟨h1, h2, hc'⟩
      · split at h
        · cases h; exact ⟨rfl, rfl, hc'⟩
        · obtain ⟨h1, h2⟩ := hd h; exact ⟨h1, h2, hc'⟩

/-- The environment of a connection that uses permessage-deflate, once the handshake is over. -/
def Env.deflate (Z : Zlib) (rand : Nat → Bytes) (h : ∀ i, (rand i).length = 4) :
    Env (Pmd Z) Empty Empty where
  ops := pmdOps Z
  rand := rand
  rand_len := h
  onHs := nofun
  hsOp := nofun

theorem Env.deflate_lawful (Z : Zlib) (rand : Nat → Bytes) (h : ∀ i, (rand i).length = 4) :
    (Env.deflate Z rand h).Lawful where
  ops := pmdOps_lawful Z
  onHs_connecting {e} := nomatch e
  onHs_other {e} := nomatch e
  hsOp {e} := nomatch e

/-- Frames that make a decoder produce more than what is allowed.  The first message announces a
block of 13 bytes; the 4 bytes that the extension appends to it are the first 4 bytes of this block.
The next frame contains 5 more bytes, which is the limit.  The last one is empty, and gives 4 more
bytes. -/
def overflowBytes : Bytes :=
  [0xC2, 5, 0x00, 0x0D, 0x00, 0xF2, 0xFF] ++ [0x42, 5, 1, 2, 3, 4, 5] ++ [0x80, 0]

/-- The client that receives them. -/
def overflowConn : Conn (Pmd storedZlib) Empty :=
  { Conn.init .client .opened (some 5) with
    core := { (Conn.init .client .opened (some 5) : Conn (Pmd storedZlib) Empty).core with
      exts := [⟨false, false, 15, 15, (), some {}, some (), false⟩] } }

/-- C50 doesn't hold in general: a limit of zero isn't enforced. -/
theorem C50_limit_false :
    ∃ (p p' : Pmd storedZlib) (f f' : Frame), Bounded storedZlib ∧
      Pmd.new false false 15 15 () = .ok p ∧ p.decode f (some 0) = (.ok f', p') ∧
      f'.data.length = 2 := by
  refine ⟨⟨false, false, 15, 15, (), some {}, some (), false⟩,
    ⟨false, false, 15, 15, (), some {}, some (), false⟩,
    { fin := true, opcode := .text, rsv1 := true, data := [0, 2, 0, 0xFD, 0xFF, 0x61, 0x62, 0] },
    { fin := true, opcode := .text, data := [0x61, 0x62] },
    storedZlib_bounded, rfl, rfl, rfl⟩

/-- C16 doesn't hold with permessage-deflate: with a limit of 5 bytes, this client delivers a
message of 9 bytes.  (Such streams of stored blocks are DEFLATE streams, so that zlib does
the same.) -/
theorem C16_max_size_false :
    let env := Env.deflate storedZlib (fun _ => [0, 0, 0, 0]) (fun _ => rfl)
    env.Lawful ∧ overflowConn.core.maxSize = some 5 ∧
    eventFrames (overflowConn.delivered env [.receiveData overflowBytes]) =
      [{ fin := true, opcode := .binary, data := [0x00, 0x00, 0xFF, 0xFF] },
       { fin := false, opcode := .binary, data := [1, 2, 3, 4, 5] },
       { fin := true, opcode := .cont, data := [0x00, 0x00, 0xFF, 0xFF] }] ∧
    messageSize (eventFrames (overflowConn.delivered env [.receiveData overflowBytes])) = 9 := by
  refine ⟨Env.deflate_lawful _ _ _, rfl, ?_, ?_⟩ <;> decide +kernel

/-! ## C16 with permessage-deflate -/

/-- Decoding a frame within a limit gives a frame within this limit, unless the limit is zero. -/
def ExtOps.DecodeWithinNonzero (ops : ExtOps X) : Prop :=
  ∀ {x f m f' x'}, m ≠ 0 → ops.decode x f (some m) = (.ok f', x') → (f.data.length : Int) ≤ m →
    (f'.data.length : Int) ≤ m

theorem pmdOps_within (hb : Bounded Z) : (pmdOps Z).DecodeWithinNonzero := by
  intro x f m f' x' hm h hf
  rcases C50_limit_partial hb hm h with h | ⟨rfl, _⟩
  · exact h
  · exact hf

theorem applyExts_within_nonzero {ops : ExtOps X} (hd : ops.DecodeWithinNonzero) {m : Int}
    (hm : m ≠ 0) {xs xs' : List X} {f f' : Frame}
    (h : applyExts (fun x fr => ops.decode x fr (some m)) xs f = (.ok f', xs'))
    (hf : (f.data.length : Int) ≤ m) : (f'.data.length : Int) ≤ m := by
  induction xs generalizing f f' xs' with
  | nil => simp only [applyExts, Prod.mk.injEq, Except.ok.injEq] at h; rw [← h.1]; exact hf
  | cons x xs ih =>
    simp only [applyExts] at h
    cases hx : ops.decode x f (some m) with
    | mk r x1 =>
      cases r with
      | error e => rw [hx] at h; simp at h
      | ok f1 =>
        rw [hx] at h
        simp only [Prod.mk.injEq] at h
        exact ih (f := f1) (f' := f')
          (xs' := (applyExts (fun x fr => ops.decode x fr (some m)) xs f1).2)
          (by rw [← h.1]) (hd hm hx hf)

variable {E H : Type}

theorem Core.Accept.within_nonzero {env : Env X E H} (hd : env.ops.DecodeWithinNonzero)
    {c c' : Core X E} {f : Frame} (h : c.Accept env f c') :
    Within f.data.length c.frameLimit ∨ c.frameLimit = some 0 := by
  obtain ⟨stale, raw, xs, c1, hw, _, hf, _, _⟩ := h
  unfold Frame.finish at hf
  cases hlim : c.frameLimit with
  | none => left; intro m hm; cases hm
  | some m =>
    by_cases hm : m = 0
    · right; rw [hm]
    left
    rw [hlim] at hf hw
    cases ha : applyExts (fun x fr => env.ops.decode x fr (some m)) (stale.getD c.exts).reverse
      raw with
    | mk r ys =>
      rw [ha] at hf
      cases r with
      | error e => simp at hf
      | ok f' =>
        have := applyExts_within_nonzero hd hm ha (hw m rfl)
        simp only at hf
        cases hc : f'.check with
        | error e => rw [hc] at hf; simp at hf
        | ok u =>
          rw [hc] at hf
          simp only [Prod.mk.injEq, Except.ok.injEq] at hf
          rw [← hf.1]
          intro m' hm; cases hm; exact this

/-- Invariant of the sizes of messages, when a limit of zero isn't enforced. -/
structure SizesNonzero (m : Int) (c : Core X E) (hist : List Frame) : Prop where
  maxSize : c.maxSize = some m
  cur : ∀ n, c.curSize = some n → messageSize hist = n
  small : ∀ p f rest, hist = p ++ f :: rest → isDataFrame f = true →
    (messageSize (p ++ [f]) : Int) ≤ m ∨ m = 0 ∨ (f.opcode = .cont ∧ (messageSize p : Int) = m)

theorem SizesNonzero.accept {env : Env X E H} (hl : env.ops.Lawful)
    (hd : env.ops.DecodeWithinNonzero) {m : Int} {c c' : Core X E} {hist : List Frame} {f : Frame}
    (h : SizesNonzero m c hist) (ha : c.Accept env f c') : SizesNonzero m c' (hist ++ [f]) := by
  have hw := ha.within_nonzero hd
  have ha := ha.accepted hl
  have hstep : messageSize (hist ++ [f]) = (match f.opcode with
      | .text | .binary => f.data.length
      | .cont => messageSize hist + f.data.length
      | _ => messageSize hist) := by
    unfold messageSize
    rw [List.foldl_append]
    rfl
  have hlast : isDataFrame f = true → (messageSize (hist ++ [f]) : Int) ≤ m ∨ m = 0 ∨
      (f.opcode = .cont ∧ (messageSize hist : Int) = m) := by
    intro hdata
    rw [hstep]
    unfold Core.frameLimit at hw
    rw [h.maxSize] at hw
    have hw1 : c.curSize = none → (f.data.length : Int) ≤ m ∨ m = 0 := by
      intro hc
      rw [hc] at hw
      rcases hw with hw | hw
      · exact .inl (hw m rfl)
      · right; simpa using hw
    have hw2 : ∀ n, c.curSize = some n → (f.data.length : Int) ≤ m - n ∨ m - n = 0 := by
      intro n hc
      rw [hc] at hw
      rcases hw with hw | hw
      · exact .inl (hw _ rfl)
      · right; simpa using hw
    cases hop : f.opcode with
    | text =>
      rcases hw1 (ha.ok.first (.inl hop)) with h | h
      · exact .inl h
      · exact .inr (.inl h)
    | binary =>
      rcases hw1 (ha.ok.first (.inr hop)) with h | h
      · exact .inl h
      · exact .inr (.inl h)
    | cont =>
      cases hc : c.curSize with
      | none => exact absurd hc (ha.ok.cont hop)
      | some n =>
        have := h.cur n hc
        simp only [true_and]
        rcases hw2 n hc with h | h
        · left; omega
        · right; right; omega
    | ping => simp [isDataFrame, hop] at hdata
    | pong => simp [isDataFrame, hop] at hdata
    | close => simp [isDataFrame, hop] at hdata
  refine ⟨by rw [ha.maxSize]; exact h.maxSize, ?_, ?_⟩
  · intro n hn
    rw [ha.curSize] at hn
    rw [hstep]
    unfold nextCur at hn
    cases hop : f.opcode with
    | text =>
      rw [hop] at hn
      simp only at hn ⊢
      split at hn
      · cases hn
      · simpa using hn
    | binary =>
      rw [hop] at hn
      simp only at hn ⊢
      split at hn
      · cases hn
      · simpa using hn
    | cont =>
      rw [hop] at hn
      simp only at hn ⊢
      split at hn
      · cases hn
      · cases hc : c.curSize with
        | none => exact absurd hc (ha.ok.cont hop)
        | some n0 =>
          rw [hc] at hn
          have := h.cur n0 hc
          simp only [Option.getD_some, Option.some.injEq] at hn
          omega
    | ping => rw [hop] at hn; exact h.cur n hn
    | pong => rw [hop] at hn; exact h.cur n hn
    | close => rw [hop] at hn; exact h.cur n hn
  · intro p g rest he
    rcases append_singleton_eq he with ⟨rfl, rfl, rfl⟩ | ⟨rest', rfl, he'⟩
    · exact hlast
    · exact h.small p g rest' he'

theorem RecvPath.sizes_nonzero {env : Env X E H} (hl : env.ops.Lawful)
    (hd : env.ops.DecodeWithinNonzero) {m : Int} {c c' : Core X E} {evs : List (Event E)}
    (h : RecvPath env c evs c') {hist : List Frame} (hh : SizesNonzero m c hist) :
    SizesNonzero m c' (hist ++ eventFrames evs) := by
  induction h generalizing hist with
  | nil => simpa [eventFrames] using hh
  | frame ha _ ih =>
    have := ih (hh.accept hl hd ha)
    rw [List.append_assoc] at this
    exact this
  | hs hs _ ih =>
    exact ih ⟨by rw [hs.maxSize]; exact hh.maxSize, by rw [hs.curSize]; exact hh.cur, hh.small⟩
  | same hs _ ih =>
    exact ih ⟨by rw [hs.maxSize]; exact hh.maxSize, by rw [hs.curSize]; exact hh.cur, hh.small⟩

/-- **C16** with permessage-deflate.  After each data frame, the total payload of the message is at
most `max_size`, unless the limit had already been reached, exactly, before this frame. -/
theorem C16_deflate_partial (hb : Bounded Z) {env : Env (Pmd Z) E H} (hops : env.ops = pmdOps Z)
    (hl : env.Lawful) (k : Conn (Pmd Z) E) (hk : k.Sound) (hev : k.core.events = [])
    (hcur : k.core.curSize = none)
    (m : Int) (hm : k.core.maxSize = some m) (ops : List (Op H)) (ho : k.HsOk env ops)
    (pre : List Frame) (f : Frame) (post : List Frame)
    (hsplit : eventFrames (k.delivered env ops) = pre ++ f :: post) (hdata : isDataFrame f = true) :
    (messageSize (pre ++ [f]) : Int) ≤ m ∨ m = 0 ∨
      (f.opcode = .cont ∧ (messageSize pre : Int) = m) := by
  obtain ⟨⟨evs, he, hp⟩, _⟩ := Conn.exec_receives hl k hk ops ho
  rw [he, hev, List.nil_append] at hsplit
  have h0 : SizesNonzero m k.core [] := by
    refine ⟨hm, fun n hn => (by rw [hcur] at hn; cases hn), ?_⟩
    intro p f rest he; cases p <;> cases he
  have := hp.sizes_nonzero hl.ops (by rw [hops]; exact pmdOps_within hb) h0
  rw [List.nil_append] at this
  exact this.small pre f post hsplit hdata

-- The hypotheses are met by the connection of `C16_max_size_false`.
example :
    let env := Env.deflate storedZlib (fun _ => [0, 0, 0, 0]) (fun _ => rfl)
    env.ops = pmdOps storedZlib ∧ overflowConn.Sound ∧
    overflowConn.HsOk env [.receiveData overflowBytes] :=
  ⟨rfl, trivial, trivial, trivial⟩

end WS
