import Verif.Lemmas.Uri
import Verif.Props.Server

/-!
# C62: the `Host` header; C64, C65: URIs
-/

namespace WS.Uri

/-! ## C62 -/

/-- The port of an authority (RFC 3986, section 3.2.3), after the host -/
def Spec.port (secure : Bool) : PyStr → Option Nat
  | [] => some (if secure then 443 else 80)
  | c :: ds =>
    if c = 58 ∧ ds ≠ [] ∧ ∀ d ∈ ds, 48 ≤ d ∧ d ≤ 57 then some (ds.foldl (fun n d => 10 * n + (d - 48)) 0)
    else none

/-- How a server understands the `Host` header (RFC 3986, section 3.2.2): a host in brackets, or a host
without colons, and maybe a port. -/
def Spec.parseHost (secure : Bool) (value : PyStr) : Option (PyStr × Nat) :=
  match value with
  | 91 :: s =>
    match s.dropWhile (· ≠ 93) with
    | 93 :: rest => (port secure rest).map fun p => (s.takeWhile (· ≠ 93), p)
    | _ => none
  | s => (port secure (s.dropWhile (· ≠ 58))).map fun p => (s.takeWhile (· ≠ 58), p)

theorem decStr_spec (n : Nat) : decStr n ≠ [] ∧ (∀ d ∈ decStr n, 48 ≤ d ∧ d ≤ 57) ∧
    (decStr n).foldl (fun n d => 10 * n + (d - 48)) 0 = n := by
  induction n using Nat.strongRecOn with
  | ind n ih =>
    unfold decStr
    split
    · refine ⟨by simp, ?_, by simp⟩
      intro d hd
      simp only [List.mem_singleton] at hd
      omega
    · obtain ⟨h1, h2, h3⟩ := ih (n / 10) (by omega)
      refine ⟨by simp, ?_, ?_⟩
      · intro d hd
        rcases List.mem_append.1 hd with hd | hd
        · exact h2 d hd
        · simp only [List.mem_singleton] at hd
          omega
      · rw [List.foldl_append, h3]
        simp only [List.foldl_cons, List.foldl_nil]
        omega

theorem port_decStr (secure : Bool) (n : Nat) :
    Spec.port secure (if n ≠ (if secure then 443 else 80) then 58 :: decStr n else []) = some n := by
  obtain ⟨h1, h2, h3⟩ := decStr_spec n
  by_cases h : n = (if secure then 443 else 80)
  · rw [if_neg (fun hn => hn h), Spec.port, ← h]
  · rw [if_pos h]
    simp only [Spec.port]
    rw [if_pos ⟨trivial, h1, h2⟩, h3]

theorem takeWhile_stop {p : Nat → Bool} {a b : PyStr} (ha : ∀ c ∈ a, p c = true)
    (hb : ∀ c, b.head? = some c → p c = false) :
    (a ++ b).takeWhile p = a ∧ (a ++ b).dropWhile p = b := by
  induction a with
  | nil =>
    rcases b with _ | ⟨c, b⟩
    · simp
    · simp [hb c rfl]
  | cons x a ih =>
    have := ih fun c hc => ha c (by simp [hc])
    simp [ha x (by simp), this]

theorem buildHost_eq (py : PyEnv) (host : PyStr) (port : Nat) (secure : Bool) :
    buildHost py host port secure = (if py.isV6 host then 91 :: (host ++ [93]) else host) ++
      if port ≠ (if secure then 443 else 80) then 58 :: decStr port else [] := by
  unfold buildHost
  simp only
  split <;> split <;> simp_all

/-- **C62.** The host and the port can be recovered from the `Host` header, if the host is an IPv6 address
(without `]` in its zone), or if it doesn't contain colons and doesn't start with `[`. -/
theorem C62_recovers (py : PyEnv) (host : PyStr) (port : Nat) (secure : Bool)
    (h6 : py.isV6 host = true → 93 ∉ host)
    (hn : py.isV6 host = false → 58 ∉ host ∧ host.head? ≠ some 91) :
    Spec.parseHost secure (buildHost py host port secure) = some (host, port) := by
  rw [buildHost_eq]
  have hport := port_decStr secure port
  generalize (if port ≠ (if secure then 443 else 80) then 58 :: decStr port else []) = suffix at *
  cases hv : py.isV6 host with
  | true =>
    simp only [if_true, Spec.parseHost, List.cons_append, List.append_assoc, List.singleton_append]
    obtain ⟨e1, e2⟩ := takeWhile_stop (p := fun c => decide (c ≠ 93)) (a := host) (b := 93 :: suffix)
      (fun c hc => by simp only [decide_eq_true_eq]; rintro rfl; exact h6 hv hc) (by simp)
    simp only [List.nil_append, e1, e2, hport, Option.map_some]
  | false =>
    obtain ⟨h1, h2⟩ := hn hv
    simp only [Bool.false_eq_true, if_false]
    have hs : ∀ c, suffix.head? = some c → c = 58 := by
      intro c hc
      rcases suffix with _ | ⟨x, xs⟩
      · cases hc
      · cases hc
        simp only [Spec.port] at hport
        split at hport
        · rename_i h; exact h.1
        · cases hport
    obtain ⟨e1, e2⟩ := takeWhile_stop (p := fun c => decide (c ≠ 58)) (a := host) (b := suffix)
      (fun c hc => by simp only [decide_eq_true_eq]; rintro rfl; exact h1 hc)
      (fun c hc => by rw [hs c hc]; rfl)
    unfold Spec.parseHost
    split
    · rename_i s he
      exfalso
      rcases host with _ | ⟨x, xs⟩
      · have := hs 91 (by rw [List.nil_append] at he; rw [he]; rfl)
        omega
      · simp only [List.cons_append, List.cons.injEq] at he
        exact h2 (by rw [he.1]; rfl)
    · rw [e1, e2, hport]
      rfl

/-- **C62.** IPv6 addresses are in brackets, and default ports are omitted. -/
theorem C62_form (py : PyEnv) (host : PyStr) (secure : Bool) :
    (py.isV6 host = true → ∀ port, ∃ rest, buildHost py host port secure = p!"[" ++ host ++ p!"]" ++ rest) ∧
      (py.isV6 host = false → ∀ port, ∃ rest, buildHost py host port secure = host ++ rest) ∧
      (buildHost py host (if secure then 443 else 80) secure).length = host.length +
        (if py.isV6 host then 2 else 0) := by
  simp only [buildHost_eq]
  refine ⟨fun h port => ⟨_, by rw [h]; simp; rfl⟩, fun h port => ⟨_, by rw [h]; simp; rfl⟩, ?_⟩
  cases py.isV6 host <;> simp

/-- The model of `ipaddress`, instead of the parameter -/
def withIpaddress (py : PyEnv) : PyEnv := { py with isV6 := isV6 }

theorem isAscii_iff {s : PyStr} : isAscii s = true ↔ ∀ c ∈ s, c < 128 := by
  simp [isAscii]

theorem mem_pyLower {c : Nat} (h : c < 65 ∨ (90 < c ∧ c < 97) ∨ 122 < c) {s : PyStr} :
    c ∈ pyLower s ↔ c ∈ s := by
  have := contains_map_lower h s
  rw [Bool.eq_iff_iff, List.contains_iff_mem, List.contains_iff_mem] at this
  exact this

theorem head_pyLower {s : PyStr} {c : Nat} (h : (pyLower s).head? = some c)
    (hc : c < 65 ∨ (90 < c ∧ c < 97) ∨ 122 < c) : s.head? = some c := by
  cases s with
  | nil => cases h
  | cons x xs =>
    simp only [pyLower_map, List.map_cons, List.head?_cons, Option.some.injEq] at h ⊢
    exact (lowerChar_iff hc x).1 h

theorem hostname_ascii {env : Env} {p : Split} {host : PyStr} (h : p.hostname env = some host)
    (ha : isAscii p.hostinfo.1 = true) :
    (∀ c, c < 65 ∨ (90 < c ∧ c < 97) ∨ 122 < c → (c ∈ host ↔ c ∈ p.hostinfo.1)) ∧
      (isV6 p.hostinfo.1 = true → isV6 host = true) ∧
      (p.hostinfo.1.head? = some 118 → host.head? = some 118) := by
  unfold Split.hostname at h
  simp only at h
  generalize p.hostinfo.1 = raw at *
  split at h
  · cases h
  · split at h
    · rename_i hp
      cases h
      rw [lowerStr, if_pos ha]
      refine ⟨fun c hc => mem_pyLower hc, isV6_lower' hp, fun hh => ?_⟩
      cases raw with
      | nil => cases hh
      | cons x xs => cases hh; rfl
    · rename_i a z hp
      cases h
      obtain ⟨hs, hn⟩ := partition_some.1 hp
      have ha' : isAscii a = true := by
        rw [isAscii_iff] at ha ⊢
        intro c hc
        exact ha c (by rw [hs]; exact List.mem_append_left _ hc)
      rw [lowerStr, if_pos ha']
      refine ⟨fun c hc => ?_, fun hv => ?_, fun hh => ?_⟩
      rotate_left 2
      · rw [hs] at hh
        cases a with
        | nil => cases hh
        | cons x xs => cases hh; rfl
      · rw [hs]
        simp only [List.append_assoc, List.mem_append, List.mem_cons, mem_pyLower hc, List.not_mem_nil,
          or_false]
      · rw [List.append_assoc]
        exact isV6_lower hp hv

theorem splitScheme_mem {url : PyStr} {c : Nat} (h : c ∈ (splitScheme url).2) : c ∈ url := by
  unfold splitScheme at h
  split at h
  · exact h
  · rename_i s rest hp
    split at h
    · exact h
    · split at h
      · rw [(partition_some.1 hp).1]
        exact List.mem_append_right _ (List.mem_cons_of_mem _ h)
      · exact h

theorem cleanUrl_mem {url : PyStr} {c : Nat} (h : c ∈ cleanUrl url) :
    c ∈ url ∧ c ≠ 9 ∧ c ≠ 13 ∧ c ≠ 10 := by
  unfold cleanUrl at h
  rw [List.mem_filter] at h
  exact ⟨(List.dropWhile_suffix _).subset h.1, by simpa using h.2⟩

/-- What `urlsplit` guarantees. -/
theorem urlsplit_some {env : Env} {url : PyStr} {p : Split} (h : urlsplit env url = some p) :
    (∀ c, c ∈ p.netloc ∨ c ∈ p.path ∨ c ∈ p.query → c ∈ url ∧ c ≠ 9 ∧ c ≠ 13 ∧ c ≠ 10) ∧
      netlocOk env p.netloc = true ∧
      (∀ c ∈ p.netloc, c ≠ 47 ∧ c ≠ 63 ∧ c ≠ 35) ∧
      (p.netloc ≠ [] → p.path = [] ∨ p.path.head? = some 47) ∧
      35 ∉ p.path ∧ 63 ∉ p.path ∧ 35 ∉ p.query := by
  unfold urlsplit at h
  simp only at h
  have hsub : ∀ c ∈ (splitScheme (cleanUrl url)).2, c ∈ url ∧ c ≠ 9 ∧ c ≠ 13 ∧ c ≠ 10 :=
    fun c hc => cleanUrl_mem (splitScheme_mem hc)
  generalize (splitScheme (cleanUrl url)).1 = scheme at h
  generalize hu : (splitScheme (cleanUrl url)).2 = u at h hsub
  -- the network location
  have hnet : ∀ r : PyStr × PyStr, r = splitAuthority u →
      (∀ c, c ∈ r.1 ∨ c ∈ r.2 → c ∈ url ∧ c ≠ 9 ∧ c ≠ 13 ∧ c ≠ 10) ∧
        (∀ c ∈ r.1, c ≠ 47 ∧ c ≠ 63 ∧ c ≠ 35) ∧
        (r.1 ≠ [] → ∀ c, r.2.head? = some c → c = 47 ∨ c = 63 ∨ c = 35) := by
    rintro r rfl
    unfold splitAuthority
    split
    · rename_i rest
      unfold splitNetloc
      refine ⟨fun c hc => hsub c ?_, fun c hc => ?_, fun _ c hc => ?_⟩
      · have : c ∈ rest := by
          rcases hc with hc | hc
          · exact (List.takeWhile_prefix _).subset hc
          · exact (List.dropWhile_suffix _).subset hc
        simp [this]
      · have := List.all_takeWhile (l := rest) (p := fun c => decide (c ≠ 47 ∧ c ≠ 63 ∧ c ≠ 35))
        rw [List.all_eq_true] at this
        simpa using this c hc
      · have := List.head?_dropWhile_not (p := fun c => decide (c ≠ 47 ∧ c ≠ 63 ∧ c ≠ 35)) (l := rest)
        rw [hc] at this
        simp only [Bool.not_eq_true', decide_eq_false_iff_not] at this
        omega
    · exact ⟨fun c hc => hsub c (by simpa using hc), by simp, by simp⟩
  generalize splitAuthority u = r at h hnet
  obtain ⟨n1, n2, n3⟩ := hnet r rfl
  split at h
  · rename_i hok
    -- fragment
    have hfrag : ∀ q : PyStr × PyStr, q = (partition 35 r.2).getD (r.2, []) →
        (∀ c ∈ q.1, c ∈ r.2) ∧ 35 ∉ q.1 ∧ (∀ c, q.1.head? = some c → r.2.head? = some c) := by
      rintro q rfl
      cases hp : partition 35 r.2 with
      | none => exact ⟨fun c hc => hc, partition_none.1 hp, fun c hc => hc⟩
      | some q =>
        obtain ⟨e1, e2⟩ := (partition_some (a := q.1) (b := q.2)).1 hp
        refine ⟨fun c hc => by rw [e1]; exact List.mem_append_left _ hc, e2, fun c hc => ?_⟩
        simp only [Option.getD_some] at hc
        rw [e1]
        cases hq : q.1 with
        | nil => rw [hq] at hc; cases hc
        | cons x xs => rw [hq] at hc; exact hc
    generalize (partition 35 r.2).getD (r.2, []) = q at h hfrag
    obtain ⟨f1, f2, f3⟩ := hfrag q rfl
    have hquery : ∀ t : PyStr × PyStr, t = (partition 63 q.1).getD (q.1, []) →
        (∀ c, c ∈ t.1 ∨ c ∈ t.2 → c ∈ q.1) ∧ 63 ∉ t.1 ∧ (∀ c, t.1.head? = some c → q.1.head? = some c) := by
      rintro t rfl
      cases hp : partition 63 q.1 with
      | none => exact ⟨fun c hc => by simpa using hc, partition_none.1 hp, fun c hc => hc⟩
      | some t =>
        obtain ⟨e1, e2⟩ := (partition_some (a := t.1) (b := t.2)).1 hp
        refine ⟨fun c hc => ?_, e2, fun c hc => ?_⟩
        · rw [e1]
          rcases hc with hc | hc
          · exact List.mem_append_left _ hc
          · exact List.mem_append_right _ (List.mem_cons_of_mem _ hc)
        · simp only [Option.getD_some] at hc
          rw [e1]
          cases hq : t.1 with
          | nil => rw [hq] at hc; cases hc
          | cons x xs => rw [hq] at hc; exact hc
    generalize (partition 63 q.1).getD (q.1, []) = t at h hquery
    obtain ⟨q1, q2, q3⟩ := hquery t rfl
    cases h
    refine ⟨?_, hok, n2, ?_, ?_, q2, ?_⟩
    · rintro c (hc | hc | hc)
      · exact n1 c (.inl hc)
      · exact n1 c (.inr (f1 c (q1 c (.inl hc))))
      · exact n1 c (.inr (f1 c (q1 c (.inr hc))))
    · intro hne
      simp only at hne ⊢
      cases ht : t.1 with
      | nil => exact .inl rfl
      | cons x xs =>
        have hx : t.1.head? = some x := by rw [ht]; rfl
        have := n3 hne x (f3 x (q3 x hx))
        have hx1 : x ∈ t.1 := by rw [ht]; simp
        rcases this with rfl | rfl | rfl
        · exact .inr rfl
        · exact absurd hx1 q2
        · exact absurd (q1 _ (.inl hx1)) f2
    · exact fun hm => f2 (q1 _ (.inl hm))
    · exact fun hm => f2 (q1 _ (.inr hm))
  · cases h

/-- What `parse_uri` guarantees. -/
theorem parseUri_ok {env : Env} {uri : PyStr} {w : WsUri} (h : parseUri env uri = .ok w) :
    ∃ p host port w0, urlsplit env uri = some p ∧ p.fragment = [] ∧ p.hostname env = some host ∧
      p.port = some port ∧ w0.secure = decide (p.scheme = p!"wss") ∧ (p.scheme = p!"ws" ∨ p.scheme = p!"wss") ∧
      w0.host = host ∧
      w0.port = (match port with
        | none | some 0 => if p.scheme = p!"wss" then 443 else 80
        | some n => n) ∧
      w0.resourceName = (if p.path = [] then p!"/" else p.path) ++
        (if p.query ≠ [] then p!"?" ++ p.query else []) ∧
      p.userinfo = w0.userInfo.map (fun u => (u.1, some u.2)) ∧
      (if isAscii uri then .ok w0 else toUri env w0) = .ok w := by
  unfold parseUri at h
  split at h
  · cases h
  · rename_i p hp
    split at h
    · cases h
    · rename_i hs
      split at h
      · cases h
      · rename_i hf
        simp only [ne_eq, Classical.not_not] at hf
        split at h
        · cases h
        · rename_i host hh
          simp only at h
          split at h
          · cases h
          · rename_i port hport
            have hs' : p.scheme = p!"ws" ∨ p.scheme = p!"wss" := by
              by_cases h1 : p.scheme = p!"ws"
              · exact .inl h1
              · by_cases h2 : p.scheme = p!"wss"
                · exact .inr h2
                · exact absurd ⟨h1, h2⟩ hs
            split at h
            · cases h
            · rename_i user password hu
              refine ⟨p, host, port, _, hp, hf, hh, hport, ?_, hs', ?_, ?_, ?_, ?_, h⟩
              · rfl
              · rfl
              · rcases port with _ | _ | n <;> simp
              · simp only; split <;> simp
              · exact hu
            · rename_i hu
              refine ⟨p, host, port, _, hp, hf, hh, hport, ?_, hs', ?_, ?_, ?_, ?_, h⟩
              · rfl
              · rfl
              · rcases port with _ | _ | n <;> simp
              · simp only; split <;> simp
              · exact hu

theorem hostinfo_cases {env : Env} {p : Split} (hu : p.userinfo = none) (hok : netlocOk env p.netloc = true) :
    (93 ∉ p.hostinfo.1 ∧ bracketedOk p.hostinfo.1 = true) ∨ (58 ∉ p.hostinfo.1 ∧ 91 ∉ p.hostinfo.1) := by
  have hr : rpartition 64 p.netloc = none := by
    unfold Split.userinfo at hu
    split at hu
    · assumption
    · split at hu <;> cases hu
  unfold Split.hostinfo
  rw [hr]
  simp only [Option.getD_none]
  unfold netlocOk at hok
  rw [Bool.and_eq_true] at hok
  have hok := hok.1
  cases hp : partition 91 p.netloc with
  | none =>
    right
    have h91 := partition_none.1 hp
    simp only
    cases hq : partition 58 p.netloc with
    | none => exact ⟨partition_none.1 hq, h91⟩
    | some q =>
      obtain ⟨e1, e2⟩ := (partition_some (a := q.1) (b := q.2)).1 hq
      exact ⟨e2, fun hm => h91 (by rw [e1]; exact List.mem_append_left _ hm)⟩
  | some q =>
    left
    obtain ⟨e1, e2⟩ := (partition_some (a := q.1) (b := q.2)).1 hp
    have h91 : p.netloc.contains 91 = true := by rw [List.contains_iff_mem, e1]; simp
    simp only [h91, Bool.true_and, hp, Bool.not_true, Bool.false_and] at hok
    split at hok
    · cases hq : partition 93 q.2 with
      | none =>
        rw [hq] at hok
        simp only [hq, Option.getD_none]
        exact ⟨partition_none.1 hq, hok⟩
      | some t =>
        rw [hq] at hok
        obtain ⟨e3, e4⟩ := (partition_some (a := t.1) (b := t.2)).1 hq
        simp only [hq, Option.getD_some]
        exact ⟨e4, hok⟩
    · cases hok

theorem hostinfo_mem {p : Split} {c : Nat} (h : c ∈ p.hostinfo.1) : c ∈ p.netloc := by
  unfold Split.hostinfo at h
  simp only at h
  have hsub : ∀ c ∈ ((rpartition 64 p.netloc).getD ([], p.netloc)).2, c ∈ p.netloc := by
    intro c hc
    cases hr : rpartition 64 p.netloc with
    | none => rw [hr] at hc; exact hc
    | some q =>
      rw [hr] at hc
      rw [(rpartition_some (a := q.1) (b := q.2) hr).1]
      exact List.mem_append_right _ (List.mem_cons_of_mem _ hc)
  generalize ((rpartition 64 p.netloc).getD ([], p.netloc)).2 = info at h hsub
  apply hsub
  split at h
  · rename_i b hp
    have hb : ∀ c ∈ b, c ∈ info := by
      intro c hc
      rw [(partition_some.1 hp).1]
      exact List.mem_append_right _ (List.mem_cons_of_mem _ hc)
    apply hb
    cases hq : partition 93 b with
    | none => rw [hq] at h; exact h
    | some t =>
      rw [hq] at h
      rw [((partition_some (a := t.1) (b := t.2)).1 hq).1]
      exact List.mem_append_left _ h
  · cases hq : partition 58 info with
    | none => rw [hq] at h; exact h
    | some t =>
      rw [hq] at h
      rw [((partition_some (a := t.1) (b := t.2)).1 hq).1]
      exact List.mem_append_left _ h

/-- **C62, partial.** For every URI (ASCII, without user information) that `parse_uri` accepts, the host and
the port can be recovered from the `Host` header, unless the host is an IPvFuture address with a colon.
What is missing: IPvFuture addresses (false, `C62_future_false`), user information that contains brackets
(false, `C62_userinfo_false`), and IRIs, which depend on the `idna` codec. -/
theorem C62_uri_partial {env : Env} {uri : PyStr} {w : WsUri} (py : PyEnv)
    (h : parseUri env uri = .ok w) (ha : ∀ c ∈ uri, c < 128) (hu : w.userInfo = none)
    (hf : ¬(w.host.head? = some 118 ∧ 58 ∈ w.host)) :
    Spec.parseHost w.secure (buildHost (withIpaddress py) w.host w.port w.secure) =
      some (w.host, w.port) := by
  obtain ⟨p, host, port, w0, h1, -, h3, -, -, -, h7, -, -, h10, h11⟩ := parseUri_ok h
  rw [if_pos (isAscii_iff.2 ha)] at h11
  cases h11
  rw [hu] at h10
  obtain ⟨s1, s2, -⟩ := urlsplit_some h1
  have hasc : isAscii p.hostinfo.1 = true :=
    isAscii_iff.2 fun c hc => ha c (s1 c (.inl (hostinfo_mem hc))).1
  obtain ⟨g1, g2, g3⟩ := hostname_ascii h3 hasc
  rw [← h7] at g1 g2 g3
  refine C62_recovers _ _ _ _ ?_ ?_
  · intro hv
    rcases hostinfo_cases h10 s2 with ⟨c1, -⟩ | ⟨c1, -⟩
    · exact fun hm => c1 ((g1 93 (by omega)).1 hm)
    · exact absurd ((g1 58 (by omega)).1 (isV6_colon hv)) c1
  · intro hv
    rcases hostinfo_cases h10 s2 with ⟨-, c2⟩ | ⟨c1, c2⟩
    · have h118 : p.hostinfo.1.head? = some 118 := by
        unfold bracketedOk at c2
        split at c2
        · rename_i he; rw [he]; rfl
        · have := g2 c2
          rw [show (withIpaddress py).isV6 w.host = isV6 w.host from rfl] at hv
          rw [hv] at this
          cases this
      have h118 := g3 h118
      refine ⟨fun hm => hf ⟨h118, hm⟩, ?_⟩
      rw [h118]
      decide
    · refine ⟨fun hm => c1 ((g1 58 (by omega)).1 hm), fun hm => c2 ((g1 91 (by omega)).1 ?_)⟩
      cases hw : w.host with
      | nil => rw [hw] at hm; cases hm
      | cons x xs => rw [hw] at hm; cases hm; simp

/-- An environment for examples -/
def exampleEnv : Env := { lower := id, nfkcOk := fun _ => true, idna := some }

example : parseUri exampleEnv p!"wss://[FE80::1%eth0]:8080/chat?room=1" =
    .ok { secure := true, host := p!"fe80::1%eth0", port := 8080, resourceName := p!"/chat?room=1" } := by
  decide +kernel

example : buildHost (withIpaddress PyEnv.simple) p!"fe80::1%eth0" 8080 true = p!"[fe80::1%eth0]:8080" := by
  decide +kernel

example : buildHost (withIpaddress PyEnv.simple) p!"127.0.0.1" 80 false = p!"127.0.0.1" := by decide +kernel

/-- **C62 is false** for IPvFuture addresses: `build_host` doesn't put them in brackets, and two URIs with
different hosts and ports have the same `Host` header. -/
theorem C62_future_false (py : PyEnv) :
    ∃ w w', parseUri exampleEnv p!"ws://[v1.a:81]/" = .ok w ∧ parseUri exampleEnv p!"ws://v1.a:81/" = .ok w' ∧
      w.host ≠ w'.host ∧ w.port ≠ w'.port ∧
      buildHost (withIpaddress py) w.host w.port w.secure = buildHost (withIpaddress py) w'.host w'.port w'.secure := by
  refine ⟨{ secure := false, host := p!"v1.a:81", port := 80, resourceName := p!"/" },
    { secure := false, host := p!"v1.a", port := 81, resourceName := p!"/" }, by decide +kernel, by decide +kernel,
    by decide, by decide, ?_⟩
  have h1 : isV6 p!"v1.a:81" = false := by decide +kernel
  have h2 : isV6 p!"v1.a" = false := by decide +kernel
  simp [buildHost, withIpaddress, h1, h2, decStr]

/-- **C62 is false** when the user information contains brackets: `urllib.parse` checks them instead of
the host. -/
theorem C62_userinfo_false (py : PyEnv) :
    ∃ w w', parseUri exampleEnv p!"ws://u:[::1]@[a:81]/" = .ok w ∧
      parseUri exampleEnv p!"ws://u:p@a:81/" = .ok w' ∧ w.host ≠ w'.host ∧ w.port ≠ w'.port ∧
      buildHost (withIpaddress py) w.host w.port w.secure = buildHost (withIpaddress py) w'.host w'.port w'.secure := by
  refine ⟨{ secure := false, host := p!"a:81", port := 80, resourceName := p!"/",
            userInfo := some (p!"u", p!"[::1]") },
    { secure := false, host := p!"a", port := 81, resourceName := p!"/", userInfo := some (p!"u", p!"p") },
    by decide +kernel, by decide +kernel, by decide, by decide, ?_⟩
  have h1 : isV6 p!"a:81" = false := by decide +kernel
  have h2 : isV6 p!"a" = false := by decide +kernel
  simp [buildHost, withIpaddress, h1, h2, decStr]

end WS.Uri
