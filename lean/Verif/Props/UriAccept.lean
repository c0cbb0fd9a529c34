import Verif.Props.UriParse

/-!
# C78: the strings that `parse_uri` accepts
-/

namespace WS.Uri

/-! ## Specification -/

/-- A decimal number and its value; leading zeros are allowed. -/
inductive Spec.Decimal : PyStr → Nat → Prop
  | digit {c} : Digit c → Decimal [c] (c - 48)
  | snoc {s n c} : Decimal s n → Digit c → Decimal (s ++ [c]) (10 * n + (c - 48))

/-- RFC 6455, 3: the port after the host.  No port, an empty port and the port 0 stand for the default. -/
def Spec.PortText (secure : Bool) (s : PyStr) (port : Nat) : Prop :=
  ((s = [] ∨ s = p!":") ∧ port = if secure then 443 else 80) ∨
    ∃ d n, s = p!":" ++ d ∧ Decimal d n ∧ n ≤ 65535 ∧ port = if n = 0 then (if secure then 443 else 80) else n

/-- The host in lower case, except for the zone identifier of an IPv6 address -/
def Spec.HostName (s host : PyStr) : Prop :=
  s ≠ [] ∧ ∃ a b, s = a ++ b ∧ 37 ∉ a ∧ (b = [] ∨ b.head? = some 37) ∧ host = pyLower a ++ b

/-- The host: a name without colons and brackets; or an IPv6 address or an IPvFuture address in brackets.
Text before and after the brackets is ignored; the right bracket may even be before the left bracket. -/
def Spec.HostText (s host : PyStr) : Prop :=
  (58 ∉ s ∧ 91 ∉ s ∧ 93 ∉ s ∧ HostName s host) ∨
    ∃ before name after, s = before ++ p!"[" ++ name ++ after ∧ 91 ∉ before ∧ 93 ∉ name ∧
      ((after.head? = some 93 ∧ 58 ∉ after) ∨ (after = [] ∧ 93 ∈ before)) ∧
      (IPv6 name ∨ IPvFuture name) ∧ HostName name host

/-- RFC 6455, 3: the resource name, from the path and the query; an empty query and an empty fragment are ignored. -/
def Spec.TargetText (s resourceName : PyStr) : Prop :=
  ∃ path query fragment, s = path ++ query ++ fragment ∧
    (path = [] ∨ path.head? = some 47) ∧ 63 ∉ path ∧ 35 ∉ path ∧
    (query = [] ∨ query.head? = some 63) ∧ 35 ∉ query ∧ (fragment = [] ∨ fragment = p!"#") ∧
    resourceName = (if path = [] then p!"/" else path) ++ (if query = p!"?" then [] else query)

/-- The user name and the password -/
def Spec.UserText (s : PyStr) (userInfo : Option (PyStr × PyStr)) : Prop :=
  (s = [] ∧ userInfo = none) ∨ ∃ a b, s = a ++ p!":" ++ b ++ p!"@" ∧ 58 ∉ a ∧ userInfo = some (a, b)

/-- A WebSocket URI, without the characters that `urllib.parse` removes -/
def Spec.UriText (s : PyStr) (w : WsUri) : Prop :=
  ∃ scheme user host port target, s = scheme ++ p!"://" ++ user ++ host ++ port ++ target ∧
    pyLower scheme = (if w.secure then p!"wss" else p!"ws") ∧
    UserText user w.userInfo ∧ 64 ∉ host ++ port ∧ HostText host w.host ∧ PortText w.secure port w.port ∧
    TargetText target w.resourceName

/-! ## Lemmas -/

theorem decimal_digits {s : PyStr} (h : isDigits s = true) : Spec.Decimal s (digitsValue s) := by
  simp only [isDigits, Bool.and_eq_true, Bool.not_eq_true', List.isEmpty_eq_false_iff, List.all_eq_true] at h
  obtain ⟨h1, h2⟩ := h
  have key : ∀ n (s : PyStr), s.length = n + 1 → (∀ c ∈ s, isDigit c = true) → Spec.Decimal s (digitsValue s) := by
    intro n
    induction n with
    | zero =>
      intro s hs hd
      match s, hs with
      | [c], _ =>
        have := Spec.Decimal.digit (isDigit_iff.1 (hd c (by simp)))
        simpa [digitsValue] using this
    | succ n ih =>
      intro s hs hd
      have hne : s ≠ [] := by rintro rfl; simp at hs
      obtain ⟨t, c, rfl⟩ : ∃ t c, s = t ++ [c] := ⟨_, _, (List.dropLast_concat_getLast hne).symm⟩
      have ht := ih t (by simpa using hs) fun x hx => hd x (List.mem_append_left _ hx)
      have := Spec.Decimal.snoc ht (isDigit_iff.1 (hd c (by simp)))
      have e : digitsValue (t ++ [c]) = 10 * digitsValue t + (c - 48) := by
        unfold digitsValue
        rw [List.foldl_append]
        simp only [List.foldl_cons, List.foldl_nil]
        omega
      rw [e]
      exact this
  cases s with
  | nil => exact absurd rfl h1
  | cons x xs => exact key xs.length _ rfl h2

/-- What `urlsplit` accepts -/
theorem urlsplit_form {env : Env} {url : PyStr} {p : Split} (h : urlsplit env url = some p)
    (hs : p.scheme ≠ []) (hn : p.netloc ≠ []) :
    ∃ s q f, cleanUrl url = s ++ p!"://" ++ p.netloc ++ p.path ++ q ++ f ∧ p.scheme = pyLower s ∧
      (p.fragment = [] → f = [] ∨ f = p!"#") ∧ (q = [] ∧ p.query = [] ∨ q = p!"?" ++ p.query) := by
  unfold urlsplit at h
  simp only at h
  generalize cleanUrl url = u at h ⊢
  have hsch : (splitScheme u).1 = [] ∨ ∃ s, u = s ++ 58 :: (splitScheme u).2 ∧ (splitScheme u).1 = pyLower s := by
    unfold splitScheme
    split
    · exact .inl rfl
    · rename_i s rest hp
      split
      · exact .inl rfl
      · split
        · exact .inr ⟨_, (partition_some.1 hp).1, rfl⟩
        · exact .inl rfl
  generalize (splitScheme u).1 = scheme at h hsch
  generalize (splitScheme u).2 = u1 at h hsch
  have hauth : (splitAuthority u1).1 = [] ∨ u1 = 47 :: 47 :: ((splitAuthority u1).1 ++ (splitAuthority u1).2) := by
    unfold splitAuthority
    split
    · right
      simp only [splitNetloc]
      rw [List.takeWhile_append_dropWhile]
    · exact .inl rfl
  generalize (splitAuthority u1).1 = netloc at h hauth
  generalize (splitAuthority u1).2 = u2 at h hauth
  split at h
  · have hfrag : ∃ f, u2 = ((partition 35 u2).getD (u2, [])).1 ++ f ∧
        (((partition 35 u2).getD (u2, [])).2 = [] → f = [] ∨ f = p!"#") := by
      cases hp : partition 35 u2 with
      | none => exact ⟨[], by simp, fun _ => .inl rfl⟩
      | some r =>
        refine ⟨35 :: r.2, ((partition_some (a := r.1) (b := r.2)).1 hp).1, fun hr => .inr ?_⟩
        simp only [Option.getD_some] at hr
        rw [hr]
    generalize (partition 35 u2).getD (u2, []) = r at h hfrag
    have hquery : ∃ q, r.1 = ((partition 63 r.1).getD (r.1, [])).1 ++ q ∧
        (q = [] ∧ ((partition 63 r.1).getD (r.1, [])).2 = [] ∨
          q = p!"?" ++ ((partition 63 r.1).getD (r.1, [])).2) := by
      cases hp : partition 63 r.1 with
      | none => exact ⟨[], by simp, .inl ⟨rfl, rfl⟩⟩
      | some t => exact ⟨63 :: t.2, ((partition_some (a := t.1) (b := t.2)).1 hp).1, .inr rfl⟩
    generalize (partition 63 r.1).getD (r.1, []) = t at h hquery
    cases h
    obtain ⟨f, f1, f2⟩ := hfrag
    obtain ⟨q, q1, q2⟩ := hquery
    rcases hsch with hsch | ⟨s, s1, s2⟩
    · exact absurd hsch hs
    rcases hauth with hauth | hauth
    · exact absurd hauth hn
    refine ⟨s, q, f, ?_, s2, f2, q2⟩
    rw [s1, hauth, f1, q1]
    simp [show (p!"://") = [58, 47, 47] from rfl]
  · cases h

theorem bracketedOk_form {s : PyStr} (h : bracketedOk s = true) : Spec.IPv6 s ∨ Spec.IPvFuture s := by
  unfold bracketedOk at h
  split at h
  · rename_i rest
    right
    simp only at h
    split at h
    · rename_i tail hd
      simp only [Bool.and_eq_true, Bool.not_eq_true', List.isEmpty_eq_false_iff] at h
      refine ⟨rest.takeWhile isHexDigit, tail, ?_, h.1.1, ?_, h.1.2⟩
      · have := List.takeWhile_append_dropWhile (p := isHexDigit) (l := rest)
        rw [hd] at this
        simpa using this.symm
      · intro c hc
        have := List.all_takeWhile (l := rest) (p := isHexDigit)
        rw [List.all_eq_true] at this
        exact isHexDigit_iff.1 (this c hc)
    · cases h
  · exact .inl (isV6_iff.1 h)

theorem hostName_form {env : Env} {p : Split} {host : PyStr} (h : p.hostname env = some host)
    (ha : ∀ c ∈ p.hostinfo.1, c < 128) : Spec.HostName p.hostinfo.1 host := by
  unfold Split.hostname at h
  simp only at h
  generalize p.hostinfo.1 = raw at *
  split at h
  · cases h
  · rename_i hne
    refine ⟨hne, ?_⟩
    split at h
    · rename_i hp
      cases h
      rw [lowerStr, if_pos (isAscii_iff.2 ha)]
      exact ⟨raw, [], by simp, partition_none.1 hp, .inl rfl, by simp⟩
    · rename_i a z hp
      cases h
      obtain ⟨hs, hn⟩ := partition_some.1 hp
      rw [lowerStr, if_pos (isAscii_iff.2 fun c hc => ha c (by rw [hs]; exact List.mem_append_left _ hc))]
      exact ⟨a, 37 :: z, hs, hn, .inr rfl, by simp⟩

theorem port_form {p : Split} {secure : Bool} {text : PyStr} {port : Option Nat} (h : p.port = some port)
    (ht : text = [] ∧ p.hostinfo.2 = none ∨
      ∃ d, text = p!":" ++ d ∧ p.hostinfo.2 = if d = [] then none else some d) :
    Spec.PortText secure text (if port.getD 0 = 0 then (if secure then 443 else 80) else port.getD 0) := by
  unfold Split.port at h
  rcases ht with ⟨rfl, ht⟩ | ⟨d, rfl, ht⟩
  · rw [ht] at h
    cases h
    exact .inl ⟨.inl rfl, rfl⟩
  · rw [ht] at h
    by_cases hd : d = []
    · subst hd
      cases h
      exact .inl ⟨.inr rfl, rfl⟩
    · rw [if_neg hd] at h
      simp only at h
      split at h
      · rename_i hv
        rw [Bool.and_eq_true, decide_eq_true_eq] at hv
        cases h
        refine .inr ⟨d, digitsValue d, rfl, decimal_digits hv.1, hv.2, ?_⟩
        rfl
      · cases h

/-- The network location -/
theorem netloc_form {env : Env} {p : Split} {host : PyStr} {port : Option Nat} {secure : Bool}
    {userInfo : Option (PyStr × PyStr)}
    (hh : p.hostname env = some host) (hp : p.port = some port) (hok : netlocOk env p.netloc = true)
    (ha : ∀ c ∈ p.netloc, c < 128) (hu : p.userinfo = userInfo.map fun u => (u.1, some u.2))
    (hb : ∀ u, userInfo = some u → 91 ∉ u.1 ++ u.2 ∧ 93 ∉ u.1 ++ u.2) :
    ∃ user h d, p.netloc = user ++ h ++ d ∧ Spec.UserText user userInfo ∧ 64 ∉ h ++ d ∧ Spec.HostText h host ∧
      Spec.PortText secure d (if port.getD 0 = 0 then (if secure then 443 else 80) else port.getD 0) := by
  -- user information
  have huser : ∃ user, p.netloc = user ++ ((rpartition 64 p.netloc).getD ([], p.netloc)).2 ∧
      64 ∉ ((rpartition 64 p.netloc).getD ([], p.netloc)).2 ∧ Spec.UserText user userInfo ∧
      91 ∉ user ∧ 93 ∉ user := by
    unfold Split.userinfo at hu
    cases hr : rpartition 64 p.netloc with
    | none =>
      rw [hr] at hu
      simp only at hu
      cases userInfo with
      | some u => cases hu
      | none => exact ⟨[], by simp, rpartition_none.1 hr, .inl ⟨rfl, rfl⟩, by simp, by simp⟩
    | some r =>
      rw [hr] at hu
      obtain ⟨r1, r2⟩ := rpartition_some (a := r.1) (b := r.2) hr
      simp only at hu
      cases hq : partition 58 r.1 with
      | none =>
        rw [hq] at hu
        cases userInfo with
        | none => cases hu
        | some u =>
          simp only [Option.map_some, Option.some.injEq, Prod.mk.injEq, reduceCtorEq, and_false] at hu
      | some q =>
        rw [hq] at hu
        obtain ⟨q1, q2⟩ := (partition_some (a := q.1) (b := q.2)).1 hq
        cases userInfo with
        | none => cases hu
        | some u =>
          simp only [Option.map_some, Option.some.injEq, Prod.mk.injEq] at hu
          obtain ⟨hb1, hb2⟩ := hb u rfl
          rw [List.mem_append, not_or] at hb1 hb2
          refine ⟨q.1 ++ p!":" ++ q.2 ++ p!"@", ?_, r2, .inr ⟨q.1, q.2, rfl, q2, ?_⟩, ?_, ?_⟩
          · simp only [Option.getD_some]
            rw [r1, q1]
            simp [show (p!":") = [58] from rfl, show (p!"@") = [64] from rfl]
          · rw [hu.1, hu.2]
          · rw [hu.1, hu.2]
            simp [hb1.1, hb1.2]
          · rw [hu.1, hu.2]
            simp [hb2.1, hb2.2]
  obtain ⟨user, u1, u2, u3, u4, u5⟩ := huser
  have hname := hostName_form hh fun c hc => ha c (hostinfo_mem hc)
  unfold netlocOk at hok
  rw [Bool.and_eq_true] at hok
  have hok := hok.1
  have hform := @port_form p secure
  have hinfo : p.hostinfo = (match partition 91 ((rpartition 64 p.netloc).getD ([], p.netloc)).2 with
    | some (_, bracketed) =>
      let (hostname, port) := (partition 93 bracketed).getD (bracketed, [])
      (hostname, if ((partition 58 port).getD (port, [])).2 = [] then none
        else some ((partition 58 port).getD (port, [])).2)
    | none =>
      (((partition 58 ((rpartition 64 p.netloc).getD ([], p.netloc)).2).getD
          (((rpartition 64 p.netloc).getD ([], p.netloc)).2, [])).1,
        if ((partition 58 ((rpartition 64 p.netloc).getD ([], p.netloc)).2).getD
          (((rpartition 64 p.netloc).getD ([], p.netloc)).2, [])).2 = [] then none
        else some ((partition 58 ((rpartition 64 p.netloc).getD ([], p.netloc)).2).getD
          (((rpartition 64 p.netloc).getD ([], p.netloc)).2, [])).2)) := by
    unfold Split.hostinfo
    simp only
    cases partition 91 ((rpartition 64 p.netloc).getD ([], p.netloc)).2 <;> rfl
  generalize ((rpartition 64 p.netloc).getD ([], p.netloc)).2 = info at u1 u2 hinfo
  rw [u1] at hok
  cases h91 : partition 91 info with
  | none =>
    have n91 := partition_none.1 h91
    rw [h91] at hinfo
    have c91 : (user ++ info).contains 91 = false := by
      rw [← Bool.not_eq_true, List.contains_iff_mem]
      simp [u4, n91]
    rw [c91] at hok
    simp only [Bool.false_and, Bool.not_false, Bool.true_and, Bool.not_eq_true', Bool.false_eq_true, if_false] at hok
    have n93 : 93 ∉ info := by
      rw [← Bool.not_eq_true, List.contains_iff_mem] at hok
      exact fun hm => hok (List.mem_append_right _ hm)
    cases h58 : partition 58 info with
    | none =>
      have n58 := partition_none.1 h58
      rw [h58] at hinfo
      simp only [Option.getD_none, if_pos] at hinfo
      rw [hinfo] at hname
      refine ⟨user, info, [], by simpa using u1, u3, by simpa using u2, .inl ⟨n58, n91, n93, hname⟩, hform hp ?_⟩
      exact .inl ⟨rfl, by rw [hinfo]⟩
    | some q =>
      obtain ⟨q1, q2⟩ := (partition_some (a := q.1) (b := q.2)).1 h58
      rw [h58] at hinfo
      simp only [Option.getD_some] at hinfo
      rw [hinfo] at hname
      refine ⟨user, q.1, p!":" ++ q.2, ?_, u3, ?_, .inl ⟨q2, ?_, ?_, hname⟩, hform hp ?_⟩
      · rw [u1, q1]; simp
      · rw [q1] at u2; simpa using u2
      · exact fun hm => n91 (by rw [q1]; exact List.mem_append_left _ hm)
      · exact fun hm => n93 (by rw [q1]; exact List.mem_append_left _ hm)
      · exact .inr ⟨q.2, rfl, by rw [hinfo]⟩
  | some q =>
    obtain ⟨q1, q2⟩ := (partition_some (a := q.1) (b := q.2)).1 h91
    rw [h91] at hinfo
    simp only at hinfo
    have hpart : partition 91 (user ++ info) = some (user ++ q.1, q.2) :=
      partition_some.2 ⟨by rw [q1]; simp, by simp [u4, q2]⟩
    have c91 : (user ++ info).contains 91 = true := by
      rw [List.contains_iff_mem, q1]
      simp
    rw [c91, hpart] at hok
    simp only [Bool.true_and, Bool.not_true, Bool.false_and] at hok
    split at hok
    · rename_i h93
      have h93 : 93 ∈ info := by
        rw [List.contains_iff_mem, List.mem_append] at h93
        exact h93.resolve_left u5
      cases hq : partition 93 q.2 with
      | none =>
        have n93 := partition_none.1 hq
        rw [hq] at hok hinfo
        simp only [Option.getD_none, partition, if_pos] at hok hinfo
        rw [hinfo] at hname
        refine ⟨user, info, [], by simpa using u1, u3, by simpa using u2,
          .inr ⟨q.1, q.2, [], by rw [q1]; simp [show (p!"[") = [91] from rfl], q2, n93, .inr ⟨rfl, ?_⟩,
            bracketedOk_form hok, hname⟩, hform hp (.inl ⟨rfl, by rw [hinfo]⟩)⟩
        rw [q1, List.mem_append, List.mem_cons] at h93
        rcases h93 with h93 | h93 | h93
        · exact h93
        · cases h93
        · exact absurd h93 n93
      | some t =>
        obtain ⟨t1, t2⟩ := (partition_some (a := t.1) (b := t.2)).1 hq
        rw [hq] at hok hinfo
        simp only [Option.getD_some] at hok hinfo
        rw [hinfo] at hname
        cases h58 : partition 58 t.2 with
        | none =>
          have n58 := partition_none.1 h58
          rw [h58] at hinfo
          simp only [Option.getD_none, if_pos] at hinfo
          refine ⟨user, info, [], by simpa using u1, u3, by simpa using u2,
            .inr ⟨q.1, t.1, 93 :: t.2, by rw [q1, t1]; simp [show (p!"[") = [91] from rfl], q2, t2,
              .inl ⟨rfl, by simp [n58]⟩, bracketedOk_form hok, hname⟩, hform hp (.inl ⟨rfl, by rw [hinfo]⟩)⟩
        | some d =>
          obtain ⟨d1, d2⟩ := (partition_some (a := d.1) (b := d.2)).1 h58
          rw [h58] at hinfo
          simp only [Option.getD_some] at hinfo
          refine ⟨user, q.1 ++ 91 :: (t.1 ++ 93 :: d.1), p!":" ++ d.2, ?_, u3, ?_,
            .inr ⟨q.1, t.1, 93 :: d.1, by simp [show (p!"[") = [91] from rfl], q2, t2,
              .inl ⟨rfl, by simp [d2]⟩, bracketedOk_form hok, hname⟩, hform hp (.inr ⟨d.2, rfl, by rw [hinfo]⟩)⟩
          · rw [u1, q1, t1, d1]; simp
          · rw [q1, t1, d1] at u2; simpa using u2
    · cases hok

/-! ## C78 -/

/-- The full claim: `parse_uri` only accepts well-formed WebSocket URIs. -/
def OnlyWellFormed : Prop :=
  ∀ (env : Env) (uri : PyStr) (w : WsUri), parseUri env uri = .ok w → (∀ c ∈ uri, c < 128) →
    -- the characters of a URI
    (∀ c ∈ w.resourceName, 32 < c ∧ c < 127) ∧
    -- nothing but the host and the port after the user information
    ((∀ c ∈ uri, c ≠ 64) → ∃ scheme host port target, uri = scheme ++ p!"://" ++ host ++ port ++ target ∧
      pyLower scheme = (if w.secure then p!"wss" else p!"ws") ∧
      (Spec.HostName host w.host ∨ ∃ name, host = p!"[" ++ name ++ p!"]" ∧ Spec.HostName name w.host) ∧
      Spec.PortText w.secure port w.port ∧ Spec.TargetText target w.resourceName)

/-- **C78, partial.** Every ASCII string that `parse_uri` accepts, without the control characters and spaces at the
beginning, the tabs and the line terminators, is made of a scheme, user information, a host, a port between 0
and 65535, a path and a query, and these are the components that `parse_uri` returns; an address in brackets
is an IPv6 address or an IPvFuture address, by the grammar of RFC 3986.  What is missing: spaces and control characters
in the resource name (false, `C78_space_false`); text outside the brackets (false, `C78_junk_false`); brackets
in the user information (false, `C62_userinfo_false`); and IRIs. -/
theorem C78_form_partial {env : Env} {uri : PyStr} {w : WsUri} (h : parseUri env uri = .ok w)
    (ha : ∀ c ∈ uri, c < 128) (hb : ∀ u, w.userInfo = some u → 91 ∉ u.1 ++ u.2 ∧ 93 ∉ u.1 ++ u.2) :
    ∃ lead rest, uri = lead ++ rest ∧ (∀ c ∈ lead, c ≤ 32) ∧
      Spec.UriText (rest.filter fun c => c ≠ 9 ∧ c ≠ 10 ∧ c ≠ 13) w := by
  obtain ⟨p, host, port, w0, h1, hf, h3, h4, h5, h6, h7, h8, h9, h10, h11⟩ := parseUri_ok h
  rw [if_pos (isAscii_iff.2 ha)] at h11
  cases h11
  obtain ⟨s1, s2, -, s4, s5, s6, s7⟩ := urlsplit_some h1
  have hnet : p.netloc ≠ [] := by
    intro he
    cases hh : p.hostinfo.1 with
    | nil => simp [Split.hostname, hh] at h3
    | cons x xs =>
      have := hostinfo_mem (p := p) (c := x) (by rw [hh]; simp)
      rw [he] at this
      cases this
  have hsch : p.scheme ≠ [] := by
    rcases h6 with e | e <;> rw [e] <;> decide
  obtain ⟨s, q, f, c1, c2, c3, c4⟩ := urlsplit_form h1 hsch hnet
  have c3 := c3 hf
  obtain ⟨user, hst, d, n1, n2, n3, n4, n5⟩ := netloc_form (secure := w.secure) h3 h4 s2
    (fun c hc => ha c (s1 c (.inl hc)).1) h10 hb
  refine ⟨uri.takeWhile (· ≤ 32), uri.dropWhile (· ≤ 32), List.takeWhile_append_dropWhile.symm, ?_, ?_⟩
  · intro c hc
    have := List.all_takeWhile (l := uri) (p := fun c => decide (c ≤ 32))
    rw [List.all_eq_true] at this
    simpa using this c hc
  · have hclean : (uri.dropWhile (· ≤ 32)).filter (fun c => c ≠ 9 ∧ c ≠ 10 ∧ c ≠ 13) = cleanUrl uri := by
      unfold cleanUrl
      congr 1
      funext c
      rw [decide_eq_decide]
      constructor
      · rintro ⟨a, b, c⟩
        exact ⟨a, c, b⟩
      · rintro ⟨a, b, c⟩
        exact ⟨a, c, b⟩
    rw [hclean, c1]
    refine ⟨s, user, hst, d, p.path ++ q ++ f, by rw [n1]; simp, ?_, n2, n3, ?_, ?_, ?_⟩
    · rw [← c2, h5]
      rcases h6 with e | e
      · rw [e]; decide
      · rw [e]; decide
    · rw [h7]; exact n4
    · rw [h8]
      have e : (if w.secure = true then 443 else 80) = if p.scheme = p!"wss" then 443 else 80 := by
        rw [h5]
        simp
      rw [e] at n5
      rcases port with _ | _ | n
      · exact n5
      · exact n5
      · simpa using n5
    · refine ⟨p.path, q, f, rfl, s4 hnet, s6, s5, ?_, ?_, c3, ?_⟩
      · rcases c4 with ⟨c4, -⟩ | c4
        · exact .inl c4
        · rw [c4]; exact .inr rfl
      · rcases c4 with ⟨c4, -⟩ | c4
        · rw [c4]; simp
        · rw [c4]; simp [s7]
      · rw [h9]
        congr 1
        rcases c4 with ⟨c4, c5⟩ | c4
        · rw [c4, c5]; rfl
        · rw [c4]
          by_cases hq : p.query = []
          · rw [hq]; rfl
          · rw [if_pos hq, if_neg (by simpa using hq)]

/-- The port is between 1 and 65535. -/
theorem C78_port {env : Env} {uri : PyStr} {w : WsUri} (h : parseUri env uri = .ok w) :
    1 ≤ w.port ∧ w.port ≤ 65535 := by
  obtain ⟨p, host, port, w0, h1, hf, h3, h4, h5, h6, h7, h8, h9, h10, h11⟩ := parseUri_ok h
  have hw : w.port = w0.port := by
    split at h11
    · cases h11; rfl
    · unfold toUri at h11
      split at h11
      · cases h11
      · split at h11
        · cases h11
        · split at h11
          · cases h11; rfl
          · split at h11
            · cases h11
            · split at h11
              · cases h11
              · cases h11; rfl
  have hp : ∀ n, port = some n → n ≤ 65535 := by
    rintro n rfl
    unfold Split.port at h4
    split at h4
    · cases h4
    · split at h4
      · rename_i hv
        rw [Bool.and_eq_true, decide_eq_true_eq] at hv
        cases h4
        exact hv.2
      · cases h4
  rw [hw, h8]
  rcases port with _ | _ | n
  · simp only; split <;> omega
  · simp only; split <;> omega
  · have := hp _ rfl
    simp only
    omega

/-- `ipaddress.ip_address` returns an IPv4 address for the IPv4 addresses of RFC 3986. -/
theorem C78_ipv4 {s : PyStr} : isIPv4 s = true ↔ Spec.IPv4 s := isIPv4_iff

/-- `ipaddress.ip_address` returns an IPv6 address for the IPv6 addresses of RFC 3986, with or without
a zone identifier. -/
theorem C78_ipv6 {s : PyStr} : isV6 s = true ↔ Spec.IPv6 s := isV6_iff

/-- **C78 is false**: a space in the resource name is kept, and the request line has four fields. -/
theorem C78_space_false : ¬OnlyWellFormed := by
  intro h
  have := (h exampleEnv p!"ws://h/a b" _ (by decide +kernel :
    parseUri exampleEnv p!"ws://h/a b" =
      .ok { secure := false, host := p!"h", port := 80, resourceName := p!"/a b" }) (by decide)).1 32 (by decide)
  omega

/-- **C78 is false**: text before and after the brackets is ignored. -/
theorem C78_junk_false : ¬OnlyWellFormed := by
  intro h
  obtain ⟨scheme, host, port, target, e1, e2, e3, -⟩ := (h exampleEnv p!"ws://good.example[::1]:81/" _
    (by decide +kernel : parseUri exampleEnv p!"ws://good.example[::1]:81/" =
      .ok { secure := false, host := p!"::1", port := 81, resourceName := p!"/" }) (by decide)).2 (by decide)
  have hlen : scheme.length = 2 := by
    have := congrArg List.length e2
    rw [pyLower_map, List.length_map] at this
    exact this
  match scheme, hlen with
  | [x, y], _ =>
    have hhead : ∀ c, host.head? = some c → c = 103 := by
      intro c hc
      cases host with
      | nil => cases hc
      | cons z zs =>
        cases hc
        simp only [show (p!"://") = [58, 47, 47] from rfl, List.cons_append, List.nil_append, List.cons.injEq] at e1
        exact e1.2.2.2.2.2.1.symm
    rcases e3 with ⟨h1, a, b, rfl, -, -, h2⟩ | ⟨name, rfl, -⟩
    · cases a with
      | nil =>
        simp only [pyLower_map, List.map_nil, List.nil_append] at h2
        rw [← h2] at hhead
        exact absurd (hhead 58 rfl) (by decide)
      | cons z zs =>
        have hz := hhead z rfl
        subst hz
        simp only [pyLower_map, List.map_cons, List.cons_append, List.cons.injEq] at h2
        exact absurd h2.1 (by decide)
    · exact absurd (hhead 91 rfl) (by decide)

-- Examples
example : parseUri exampleEnv p!" ws://a:b@h\t:0081/?#" =
    .ok { secure := false, host := p!"h", port := 81, resourceName := p!"/", userInfo := some (p!"a", p!"b") } := by
  decide +kernel

example : parseUri exampleEnv p!"ws://][::1/" =
    .ok { secure := false, host := p!"::1", port := 80, resourceName := p!"/" } := by
  decide +kernel

example : parseUri exampleEnv p!"ws://h:65536/" = .error .valueError := by decide +kernel

example : Spec.IPv6 p!"2001:db8::192.0.2.33%eth0" ∧ Spec.IPv6 p!"::" ∧ ¬Spec.IPv6 p!"1:2:3:4:5:6:7" ∧
    ¬Spec.IPv6 p!"1::2::3" ∧ ¬Spec.IPv6 p!"::12345" ∧ ¬Spec.IPv6 p!"1:2:3:4::5:6:7:8" ∧ ¬Spec.IPv6 p!"::1.2.3.256" := by
  simp only [← C78_ipv6]
  decide +kernel

end WS.Uri
