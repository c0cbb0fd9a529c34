import Verif.Model.LegacyClient
import Verif.Lemmas.Client
import Verif.Props.Server

/-!
# Legacy clients: redirects (C61), the opening handshake (C67), TLS and the target of connections (C68)
-/

namespace WS.LegacyClient

open Spec

variable {X : Type}

/-- What an attempt and the answer of the servers lead to. -/
theorem attempts_zero (w : World) (cfg : ClientConfig X) (c : Connect) (log : List Attempt) :
    attempts w cfg 0 c log = (.error (.security p!"too many redirects"), log) := rfl

/-- The configuration of the next attempt. -/
def nextCfg (w : World) (cfg : ClientConfig X) (c : Connect) (log : List Attempt) : ClientConfig X :=
  { cfg with uri := c.wsuri, raw := w.random log.length }

/-- The next attempt. -/
def nextAttempt (w : World) (cfg : ClientConfig X) (c : Connect) (log : List Attempt) : Attempt :=
  { wsuri := c.wsuri, endpoint := c.endpoint, tls := c.tls, request := request w.py (nextCfg w cfg c log) }

/-- Induction on the attempts: either the last attempt decides, or it is redirected. -/
theorem attempts_cases (w : World) (cfg : ClientConfig X) (n : Nat) (c : Connect) (log : List Attempt) :
    let a := nextAttempt w cfg c log
    let r := handshake (nextCfg w cfg c log) a (w.reply (log ++ [a]))
    (∃ uri c', r = .error (.redirect uri) ∧ c.handleRedirect w.uriEnv uri = .ok c' ∧
      attempts w cfg (n + 1) c log = attempts w cfg n c' (log ++ [a])) ∨
    (∃ uri e, r = .error (.redirect uri) ∧ c.handleRedirect w.uriEnv uri = .error e ∧
      attempts w cfg (n + 1) c log = (.error e, log ++ [a])) ∨
    ((∀ uri, r ≠ .error (.redirect uri)) ∧ attempts w cfg (n + 1) c log = (r, log ++ [a])) := by
  intro a r
  have hdef : attempts w cfg (n + 1) c log = (match r with
      | .error (.redirect uri) =>
        match c.handleRedirect w.uriEnv uri with
        | .error e => (.error e, log ++ [a])
        | .ok c => attempts w cfg n c (log ++ [a])
      | r => (r, log ++ [a])) := rfl
  rw [hdef]
  clear hdef
  cases hx : r with
  | ok o => exact .inr (.inr ⟨by simp, rfl⟩)
  | error e =>
    cases e with
    | redirect uri =>
      cases hh : c.handleRedirect w.uriEnv uri with
      | error e => exact .inr (.inl ⟨uri, e, rfl, hh, by simp only [hh]⟩)
      | ok c' => exact .inl ⟨uri, c', rfl, hh, by simp only [hh]⟩
    | exc _ => exact .inr (.inr ⟨by simp, rfl⟩)
    | uri _ => exact .inr (.inr ⟨by simp, rfl⟩)
    | security _ => exact .inr (.inr ⟨by simp, rfl⟩)
    | network => exact .inr (.inr ⟨by simp, rfl⟩)

/-- The attempts are appended to the log. -/
theorem attempts_log (w : World) (cfg : ClientConfig X) (n : Nat) (c : Connect) (log : List Attempt) :
    ∃ more, (attempts w cfg n c log).2 = log ++ more ∧ more.length ≤ n ∧
      (n ≠ 0 → ∃ rest, more = nextAttempt w cfg c log :: rest) := by
  induction n generalizing c log with
  | zero => exact ⟨[], by rw [attempts_zero]; simp, by simp, by simp⟩
  | succ n ih =>
    rcases attempts_cases w cfg n c log with ⟨uri, c', _, _, h⟩ | ⟨_, _, _, _, h⟩ | ⟨_, h⟩
    · obtain ⟨more, h1, h2, _⟩ := ih c' (log ++ [nextAttempt w cfg c log])
      rw [h, h1]
      exact ⟨nextAttempt w cfg c log :: more, by simp, by simpa using h2, fun _ => ⟨_, rfl⟩⟩
    · rw [h]; exact ⟨[nextAttempt w cfg c log], rfl, by simp, fun _ => ⟨_, rfl⟩⟩
    · rw [h]; exact ⟨[nextAttempt w cfg c log], rfl, by simp, fun _ => ⟨_, rfl⟩⟩

/-! ## C61: redirects -/

/-- **C61.** `connect()` makes at most 10 connections, so it follows at most 9 redirects. -/
theorem C61_bounded (w : World) (cfg : ClientConfig X) (uri : PyStr) (kw : Kwargs) :
    (connect w cfg uri kw).2.length ≤ 10 := by
  unfold connect
  split
  · simp
  · obtain ⟨more, h1, h2, _⟩ := attempts_log w cfg 10 _ []
    rw [h1]
    simpa using h2

theorem handleRedirect_ok {env : Uri.Env} {c c' : Connect} {uri : PyStr} (h : c.handleRedirect env uri = .ok c') :
    Uri.parseUri env uri = .ok c'.wsuri ∧ (c.wsuri.secure = true → c'.wsuri.secure = true) ∧ c'.tls = c.tls ∧
      ((c'.wsuri.host = c.wsuri.host ∧ c'.wsuri.port = c.wsuri.port ∧ c'.endpoint = c.endpoint) ∨
       (∀ h p, c.endpoint = .tcp h p → c'.endpoint = .tcp (some c'.wsuri.host) (some c'.wsuri.port))) := by
  unfold Connect.handleRedirect at h
  split at h
  · cases h
  · rename_i new hp
    split at h
    · cases h
    · rename_i hs
      have hs : c.wsuri.secure = true → new.secure = true := by
        intro h1
        rw [h1] at hs
        simpa using hs
      split at h
      · rename_i ho
        cases h
        exact ⟨hp, hs, rfl, .inl ⟨ho.1.symm, ho.2.symm, rfl⟩⟩
      · cases h
        refine ⟨hp, hs, rfl, .inr ?_⟩
        intro h p he
        simp only [he]

/-- **C61.** No connection is made for a ws URI after one for a wss URI. -/
theorem C61_no_downgrade (w : World) (cfg : ClientConfig X) (uri : PyStr) (kw : Kwargs) :
    (connect w cfg uri kw).2.Pairwise fun a b => a.wsuri.secure = true → b.wsuri.secure = true := by
  have key : ∀ n (c : Connect) (log : List Attempt),
      log.Pairwise (fun a b => a.wsuri.secure = true → b.wsuri.secure = true) →
      (∀ a ∈ log, a.wsuri.secure = true → c.wsuri.secure = true) →
      (attempts w cfg n c log).2.Pairwise fun a b => a.wsuri.secure = true → b.wsuri.secure = true := by
    intro n
    induction n with
    | zero => intro c log h _; exact h
    | succ n ih =>
      intro c log h1 h2
      have h3 : (log ++ [nextAttempt w cfg c log]).Pairwise
          fun a b => a.wsuri.secure = true → b.wsuri.secure = true := by
        rw [List.pairwise_append]
        refine ⟨h1, by simp, ?_⟩
        intro a ha b hb
        simp only [List.mem_singleton] at hb
        subst hb
        exact h2 a ha
      rcases attempts_cases w cfg n c log with ⟨uri, c', _, hr, h⟩ | ⟨_, _, _, _, h⟩ | ⟨_, h⟩
      · rw [h]
        refine ih _ _ h3 ?_
        intro a ha hs
        refine (handleRedirect_ok hr).2.1 ?_
        rcases List.mem_append.1 ha with ha | ha
        · exact h2 a ha hs
        · simp only [List.mem_singleton] at ha
          subst ha
          exact hs
      · rw [h]; exact h3
      · rw [h]; exact h3
  unfold connect
  split
  · exact .nil
  · exact key _ _ _ .nil (by simp)

/-- The servers answered to the attempts of this list, the last one excepted, with redirects to the URI of the
next one. -/
def Spec.Followed (w : World) (log : List Attempt) : Prop :=
  ∀ pre a b post, log = pre ++ a :: b :: post → ∃ status headers location,
    w.reply (pre ++ [a]) = .response status headers ∧
    status ∈ ([301, 302, 303, 307, 308] : List Int) ∧
    headers.get p!"Location" = .ok location ∧ Uri.parseUri w.uriEnv location = .ok b.wsuri

theorem handshake_redirect {cfg : ClientConfig X} {a : Attempt} {reply : Reply} {uri : PyStr}
    (h : handshake cfg a reply = .error (.redirect uri)) : ∃ status headers,
      reply = .response status headers ∧ status ∈ ([301, 302, 303, 307, 308] : List Int) ∧
      headers.get p!"Location" = .ok uri := by
  cases reply with
  | failed =>
    unfold handshake at h
    split at h
    · cases h
    · cases h
    · rename_i hn
      exact absurd rfl hn
  | invalid =>
    unfold handshake at h
    split at h
    · cases h
    · cases h
    · split at h <;> cases h
  | response status headers =>
    refine ⟨status, headers, rfl, ?_⟩
    unfold handshake at h
    split at h
    · cases h
    · cases h
    · split at h
      · cases h
      · simp only [response] at h
        split at h
        · rename_i e he
          cases h
          unfold redirectTo at he
          split at he
          · rename_i hs
            refine ⟨by simpa using hs, ?_⟩
            split at he
            · split at he
              · cases he
              · rename_i location hl
                cases he
                exact hl
            · cases he
          · cases he
        · split at h
          · cases h
          · split at h
            · cases h
            · split at h <;> cases h

/-- **C61.** Every connection after the first one is made for the URI that the server to which the previous
one was made gave in a redirect. -/
theorem C61_follows (w : World) (cfg : ClientConfig X) (uri : PyStr) (kw : Kwargs) :
    Spec.Followed w (connect w cfg uri kw).2 := by
  have key : ∀ n (c : Connect) (log : List Attempt),
      (∀ d : Attempt, d.wsuri = c.wsuri → Spec.Followed w (log ++ [d])) →
      Spec.Followed w log →
      Spec.Followed w (attempts w cfg n c log).2 := by
    intro n
    induction n with
    | zero => intro c log _ h; exact h
    | succ n ih =>
      intro c log h1 _
      have h3 := h1 (nextAttempt w cfg c log) rfl
      rcases attempts_cases w cfg n c log with ⟨uri, c', hx, hr, h⟩ | ⟨_, _, _, _, h⟩ | ⟨_, h⟩
      · rw [h]
        refine ih _ _ ?_ h3
        intro d hd pre a b post he
        rcases List.eq_nil_or_concat post with rfl | ⟨post', z, rfl⟩
        · have he' : log ++ [nextAttempt w cfg c log] ++ [d] = (pre ++ [a]) ++ [b] := by simpa using he
          obtain ⟨e1, e2⟩ := List.append_inj' he' rfl
          cases e2
          obtain ⟨e3, e4⟩ := List.append_inj' e1 rfl
          cases e4
          subst e3
          obtain ⟨status, headers, g1, g2, g3⟩ := handshake_redirect hx
          exact ⟨status, headers, uri, g1, g2, g3, by rw [hd]; exact (handleRedirect_ok hr).1⟩
        · have he' : log ++ [nextAttempt w cfg c log] ++ [d] = (pre ++ a :: b :: post') ++ [z] := by
            simpa using he
          obtain ⟨e1, _⟩ := List.append_inj' he' rfl
          exact h3 pre a b post' e1
      · rw [h]; exact h3
      · rw [h]; exact h3
  unfold connect
  split
  · intro pre a b post h
    cases pre <;> cases h
  · refine key _ _ _ ?_ ?_
    · intro d _ pre a b post h
      cases pre with
      | nil => cases h
      | cons x pre => cases pre <;> cases h
    · intro pre a b post h
      cases pre <;> cases h

/-- A property of the state of `Connect` that redirects preserve holds for every attempt. -/
theorem attempts_inv {w : World} {cfg : ClientConfig X} {I : Connect → Prop}
    (hI : ∀ c c' uri, I c → c.handleRedirect w.uriEnv uri = .ok c' → I c') {n : Nat} {c : Connect}
    {log : List Attempt} (hc : I c) :
    ∀ a ∈ (attempts w cfg n c log).2, a ∈ log ∨
      ∃ c, I c ∧ a.wsuri = c.wsuri ∧ a.endpoint = c.endpoint ∧ a.tls = c.tls := by
  induction n generalizing c log with
  | zero => intro a ha; exact .inl ha
  | succ n ih =>
    intro a ha
    have h3 : ∀ a ∈ log ++ [nextAttempt w cfg c log], a ∈ log ∨
        ∃ c, I c ∧ a.wsuri = c.wsuri ∧ a.endpoint = c.endpoint ∧ a.tls = c.tls := by
      intro a ha
      rcases List.mem_append.1 ha with ha | ha
      · exact .inl ha
      · simp only [List.mem_singleton] at ha
        subst ha
        exact .inr ⟨c, hc, rfl, rfl, rfl⟩
    rcases attempts_cases w cfg n c log with ⟨uri, c', _, hr, h⟩ | ⟨_, _, _, _, h⟩ | ⟨_, h⟩
    · rw [h] at ha
      rcases ih (hI c c' uri hc hr) a ha with ha | ha
      · exact h3 a ha
      · exact .inr ha
    · rw [h] at ha; exact h3 a ha
    · rw [h] at ha; exact h3 a ha

/-- How the attempts end: the last one decides, or its redirect isn't followed. -/
theorem attempts_final {w : World} {cfg : ClientConfig X} {n : Nat} {c : Connect} {log : List Attempt}
    {r : Except Raised (Opened X)} {log' : List Attempt} (h : attempts w cfg (n + 1) c log = (r, log')) :
    ∃ c pre, log' = pre ++ [nextAttempt w cfg c pre] ∧
      (let x := handshake (nextCfg w cfg c pre) (nextAttempt w cfg c pre) (w.reply log')
      (x = r ∧ ∀ uri, x ≠ .error (.redirect uri)) ∨
      ∃ uri, x = .error (.redirect uri) ∧
        ((∃ e, c.handleRedirect w.uriEnv uri = .error e ∧ r = .error e) ∨
          (r = .error (.security p!"too many redirects") ∧ log'.length = log.length + (n + 1) ∧
            ∃ c', c.handleRedirect w.uriEnv uri = .ok c'))) := by
  induction n generalizing c log with
  | zero =>
    rcases attempts_cases w cfg 0 c log with ⟨uri, c', h1, h2, h3⟩ | ⟨uri, e, h1, h2, h3⟩ | ⟨h1, h3⟩
    · rw [h3, attempts_zero] at h
      simp only [Prod.mk.injEq] at h
      obtain ⟨rfl, rfl⟩ := h
      exact ⟨c, log, rfl, .inr ⟨uri, h1, .inr ⟨rfl, by simp, c', h2⟩⟩⟩
    · rw [h3] at h
      simp only [Prod.mk.injEq] at h
      obtain ⟨rfl, rfl⟩ := h
      exact ⟨c, log, rfl, .inr ⟨uri, h1, .inl ⟨e, h2, rfl⟩⟩⟩
    · rw [h3] at h
      simp only [Prod.mk.injEq] at h
      obtain ⟨rfl, rfl⟩ := h
      exact ⟨c, log, rfl, .inl ⟨rfl, h1⟩⟩
  | succ n ih =>
    rcases attempts_cases w cfg (n + 1) c log with ⟨uri, c', h1, h2, h3⟩ | ⟨uri, e, h1, h2, h3⟩ | ⟨h1, h3⟩
    · rw [h3] at h
      obtain ⟨c, pre, g1, g2⟩ := ih h
      refine ⟨c, pre, g1, ?_⟩
      rcases g2 with g2 | ⟨uri, g2, g3 | ⟨g3, g4, g5⟩⟩
      · exact .inl g2
      · exact .inr ⟨uri, g2, .inl g3⟩
      · exact .inr ⟨uri, g2, .inr ⟨g3, by rw [g4]; simp only [List.length_append, List.length_singleton]; omega, g5⟩⟩
    · rw [h3] at h
      simp only [Prod.mk.injEq] at h
      obtain ⟨rfl, rfl⟩ := h
      exact ⟨c, log, rfl, .inr ⟨uri, h1, .inl ⟨e, h2, rfl⟩⟩⟩
    · rw [h3] at h
      simp only [Prod.mk.injEq] at h
      obtain ⟨rfl, rfl⟩ := h
      exact ⟨c, log, rfl, .inl ⟨rfl, h1⟩⟩

/-- **C61.** What `connect()` raises when the last answer is a redirect: there's no `Location`, or there are several
ones; or it isn't a valid URI; or it goes from wss to ws; or this was the 10th connection.  Otherwise the redirect is
followed, so it isn't the last answer. -/
theorem C61_raises (w : World) (hw : ∀ log status headers, w.reply log = .response status headers → headers.Ok pyLower)
    (cfg : ClientConfig X) (uri : PyStr) (kw : Kwargs) (pre : List Attempt) (a : Attempt)
    (hlog : (connect w cfg uri kw).2 = pre ++ [a]) (b : Bytes) (hb : a.request = .ok b)
    (he : ∀ h p, a.endpoint ≠ .unixTcp h p) (status : Int) (headers : Headers)
    (hr : w.reply (pre ++ [a]) = .response status headers)
    (hs : status ∈ ([301, 302, 303, 307, 308] : List Int)) :
    (values headers.list p!"Location" = [] ∧
      (connect w cfg uri kw).1 = .error (.exc (.invalidHeader p!"Location" none))) ∨
    (2 ≤ (values headers.list p!"Location").length ∧
      (connect w cfg uri kw).1 = .error (.exc .multipleValuesError)) ∨
    (∃ location, values headers.list p!"Location" = [location] ∧
      ((∃ e, Uri.parseUri w.uriEnv location = .error e ∧ (connect w cfg uri kw).1 = .error (.uri e)) ∨
        (∃ u, Uri.parseUri w.uriEnv location = .ok u ∧
          ((a.wsuri.secure = true ∧ u.secure = false ∧
            (connect w cfg uri kw).1 = .error (.security p!"redirect from WSS to WS")) ∨
          (pre.length = 9 ∧ (connect w cfg uri kw).1 = .error (.security p!"too many redirects")))))) := by
  cases hx : connect w cfg uri kw with
  | mk r log' =>
  rw [hx] at hlog
  simp only at hlog ⊢
  subst hlog
  have hx' := hx
  unfold connect at hx
  split at hx
  · simp at hx
  rename_i c0 hc0
  obtain ⟨c, pre', g1, g2⟩ := attempts_final hx
  obtain ⟨rfl, g3⟩ := List.append_inj' g1 rfl
  have g3 : a = nextAttempt w cfg c pre := by simpa using g3
  have hresp : handshake (nextCfg w cfg c pre) (nextAttempt w cfg c pre) (w.reply (pre ++ [a])) =
      response (nextCfg w cfg c pre) status headers := by
    rw [hr, ← g3]
    unfold handshake
    rw [hb]
    cases hae : a.endpoint with
    | unixTcp h p => exact absurd hae (he h p)
    | tcp h p => rfl
    | unix p => rfl
  rw [hresp] at g2
  have hk := hw _ _ _ hr
  have hred : response (nextCfg w cfg c pre) status headers =
      match values headers.list p!"Location" with
      | [] => .error (.exc (.invalidHeader p!"Location" none))
      | [location] => .error (.redirect location)
      | _ => .error (.exc .multipleValuesError) := by
    unfold response redirectTo
    rw [if_pos (by simpa using hs)]
    have h1 : headers.contains p!"Location" = true ↔ values headers.list p!"Location" ≠ [] :=
      (hk.lookup p!"Location").2.1
    rw [hk.one p!"Location"]
    match hv : values headers.list p!"Location" with
    | [] => rw [if_neg (by rw [h1, hv]; simp)]
    | [v] => rw [if_pos (by rw [h1, hv]; simp)]
    | _ :: _ :: _ => rw [if_pos (by rw [h1, hv]; simp)]
  rw [hred] at g2
  match hv : values headers.list p!"Location" with
  | [] =>
    rw [hv] at g2
    refine .inl ⟨rfl, ?_⟩
    rcases g2 with ⟨g4, -⟩ | ⟨uri, g4, -⟩
    · exact g4.symm
    · cases g4
  | [location] =>
    rw [hv] at g2
    refine .inr (.inr ⟨location, rfl, ?_⟩)
    rcases g2 with ⟨-, g4⟩ | ⟨uri', g4, g5⟩
    · exact absurd rfl (g4 location)
    · cases g4
      rcases g5 with ⟨e, g5, rfl⟩ | ⟨rfl, g6, c', g7⟩
      · unfold Connect.handleRedirect at g5
        cases hu : Uri.parseUri w.uriEnv location with
        | error e' =>
          rw [hu] at g5
          cases g5
          exact .inl ⟨e', rfl, rfl⟩
        | ok u =>
          rw [hu] at g5
          simp only at g5
          split at g5
          · next hsec =>
            cases g5
            refine .inr ⟨u, rfl, .inl ⟨?_, ?_, rfl⟩⟩
            · rw [g3]; simp only [Bool.and_eq_true] at hsec; exact hsec.1
            · simp only [Bool.and_eq_true, Bool.not_eq_true'] at hsec; exact hsec.2
          · split at g5 <;> cases g5
      · cases hu : Uri.parseUri w.uriEnv location with
        | error e' =>
          unfold Connect.handleRedirect at g7
          rw [hu] at g7
          cases g7
        | ok u =>
          refine .inr ⟨u, rfl, .inr ⟨?_, rfl⟩⟩
          simpa using g6
  | v1 :: v2 :: vs =>
    rw [hv] at g2
    refine .inr (.inl ⟨by simp, ?_⟩)
    rcases g2 with ⟨g4, -⟩ | ⟨uri, g4, -⟩
    · exact g4.symm
    · cases g4

/-! ## C67: the opening handshake -/

theorem attempts_ok {w : World} {cfg : ClientConfig X} {n : Nat} {c : Connect} {log : List Attempt} {o : Opened X}
    {log' : List Attempt} (h : attempts w cfg n c log = (.ok o, log')) :
    ∃ c pre, log' = pre ++ [nextAttempt w cfg c pre] ∧
      handshake (nextCfg w cfg c pre) (nextAttempt w cfg c pre) (w.reply log') = .ok o := by
  induction n generalizing c log with
  | zero => cases h
  | succ n ih =>
    rcases attempts_cases w cfg n c log with ⟨uri, c', _, _, h1⟩ | ⟨_, _, _, _, h1⟩ | ⟨_, h1⟩
    · rw [h1] at h; exact ih h
    · rw [h1] at h; cases h
    · rw [h1] at h
      simp only [Prod.mk.injEq] at h
      obtain ⟨h2, rfl⟩ := h
      exact ⟨c, log, rfl, h2⟩

theorem handshake_ok {cfg : ClientConfig X} {a : Attempt} {reply : Reply} {o : Opened X}
    (h : handshake cfg a reply = .ok o) :
    ∃ b status headers, a.request = .ok b ∧ reply = .response status headers ∧ response cfg status headers = .ok o := by
  cases reply with
  | failed =>
    unfold handshake at h
    split at h
    · cases h
    · cases h
    · rename_i hn
      exact absurd rfl hn
  | invalid =>
    unfold handshake at h
    split at h
    · cases h
    · cases h
    · split at h <;> cases h
  | response status headers =>
    unfold handshake at h
    split at h
    · cases h
    · cases h
    · split at h
      · cases h
      · rename_i b hb
        exact ⟨b, status, headers, hb, rfl, h⟩

theorem response_iff {cfg : ClientConfig X} {status : Int} {headers : Headers} (hk : headers.Ok pyLower)
    {o : Opened X} : response cfg status headers = .ok o ↔
      ValidResponse cfg status headers.list o.exts o.subprotocol ∧ o.wsuri = cfg.uri := by
  constructor
  · intro h
    unfold response at h
    split at h
    · cases h
    · split at h
      · cases h
      · rename_i h1
        obtain ⟨a1, a2, a3, a4⟩ := (checkResponse_iff hk).1 h1
        split at h
        · cases h
        · rename_i exts h2
          split at h
          · cases h
          · rename_i sub h3
            cases h
            exact ⟨⟨a1, a2, a3, a4, (clientExtensions_iff hk).1 h2, (clientSubprotocol_iff hk).1 h3⟩, rfl⟩
  · rintro ⟨h, h2⟩
    have h1 : redirectTo status headers = .ok () := by
      unfold redirectTo
      rw [if_neg]
      rw [h.status]
      decide
    unfold response
    simp only [h1, (checkResponse_iff (r := { statusCode := status, reason := [], headers }) hk).2
      ⟨h.status, h.connection, h.upgrade, h.accept⟩, (clientExtensions_iff hk).2 h.extensions,
      (clientSubprotocol_iff hk).2 h.subprotocol]
    rw [← h2]

/-- The headers of all responses are consistent, as those that `read_response` returns. -/
def Spec.ConsistentReplies (w : World) : Prop :=
  ∀ log status headers, w.reply log = .response status headers → headers.Ok pyLower

/-- **C67.** `connect()` returns a connection only if the server answered to the request of the last attempt
with a valid response, whose accept value matches the key in this request; the extensions and the subprotocol
are those in the response. -/
theorem C67_opened (w : World) (hw : Spec.ConsistentReplies w) (cfg : ClientConfig X) (uri : PyStr) (kw : Kwargs)
    (o : Opened X) (log : List Attempt) (h : connect w cfg uri kw = (.ok o, log)) :
    ∃ pre a b status headers, log = pre ++ [a] ∧ w.reply log = .response status headers ∧ o.wsuri = a.wsuri ∧
      a.request = .ok b ∧
      let cfg' := { cfg with uri := o.wsuri, raw := w.random pre.length }
      a.request = request w.py cfg' ∧ ValidResponse cfg' status headers.list o.exts o.subprotocol := by
  unfold connect at h
  split at h
  · cases h
  · rename_i c _
    obtain ⟨c, pre, rfl, h2⟩ := attempts_ok h
    obtain ⟨b, status, headers, h3, h4, h5⟩ := handshake_ok h2
    obtain ⟨h6, h7⟩ := (response_iff (hw _ _ _ h4)).1 h5
    refine ⟨pre, _, b, status, headers, rfl, h4, h7, h3, ?_⟩
    simp only [h7]
    exact ⟨rfl, h6⟩

/-- **C67.** If the server answers to the first request with a valid response, `connect()` returns a
connection. -/
theorem C67_accepts (w : World) (hw : Spec.ConsistentReplies w) (cfg : ClientConfig X) (uri : PyStr) (kw : Kwargs)
    (c : Connect) (hc : Connect.init w.uriEnv uri kw = .ok c) (b : Bytes)
    (hreq : request w.py { cfg with uri := c.wsuri, raw := w.random 0 } = .ok b) (status : Int) (headers : Headers)
    (hr : ∀ a, a.request = .ok b → w.reply [a] = .response status headers) (exts : List X) (sub : Option PyStr)
    (hv : ValidResponse { cfg with uri := c.wsuri, raw := w.random 0 } status headers.list exts sub) :
    ∃ a, connect w cfg uri kw = (.ok { wsuri := c.wsuri, exts, subprotocol := sub }, [a]) := by
  unfold connect
  rw [hc]
  simp only
  have ha : (nextAttempt w cfg c []).request = .ok b := hreq
  have hr := hr _ ha
  have hx := (response_iff (o := { wsuri := c.wsuri, exts, subprotocol := sub }) (hw _ _ _ hr)).2 ⟨hv, rfl⟩
  have hend : ∀ h p, c.endpoint ≠ .unixTcp h p := by
    unfold Connect.init at hc
    split at hc
    · cases hc
    · split at hc
      · cases hc
      · cases hc
        intro h p
        simp only
        split <;> simp
  have hh : handshake (nextCfg w cfg c []) (nextAttempt w cfg c []) (w.reply [nextAttempt w cfg c []]) =
      .ok { wsuri := c.wsuri, exts, subprotocol := sub } := by
    rw [hr]
    have he : (nextAttempt w cfg c []).endpoint = c.endpoint := rfl
    unfold handshake
    rw [he, ha]
    cases hc : c.endpoint with
    | unixTcp h p => exact absurd hc (hend h p)
    | unix p => exact hx
    | tcp h p => exact hx
  rcases attempts_cases w cfg 9 c [] with ⟨_, _, h1, _⟩ | ⟨_, _, h1, _⟩ | ⟨_, h1⟩
  · simp only [List.nil_append] at h1
    rw [hh] at h1
    cases h1
  · simp only [List.nil_append] at h1
    rw [hh] at h1
    cases h1
  · simp only [List.nil_append] at h1
    rw [hh] at h1
    exact ⟨_, h1⟩

/-! ## C68: TLS and the target of connections -/

/-- **C68, the full statement**: every connection for a wss URI uses TLS. -/
def Spec.SecureUsesTls : Prop :=
  ∀ (w : World) (cfg : ClientConfig Unit) (uri : PyStr) (kw : Kwargs), kw.ssl ≠ .none →
    ∀ a ∈ (connect w cfg uri kw).2, a.wsuri.secure = true → a.tls = true

theorem init_ok {env : Uri.Env} {uri : PyStr} {kw : Kwargs} {c : Connect} (h : Connect.init env uri kw = .ok c) :
    Uri.parseUri env uri = .ok c.wsuri ∧ (c.tls = true ↔ c.wsuri.secure = true ∧ kw.ssl ≠ .none) ∧
      (kw.ssl = .context → c.wsuri.secure = true) ∧
      c.endpoint = (match kw.path with
        | some path => .unix path
        | none => .tcp (kw.host.getD (if kw.sock then none else some c.wsuri.host))
            (kw.port.getD (if kw.sock then none else some c.wsuri.port))) := by
  unfold Connect.init at h
  split at h
  · cases h
  · rename_i u hu
    split at h
    · cases h
    · rename_i hs
      cases h
      refine ⟨hu, by simp, ?_, rfl⟩
      intro hc
      rw [hc] at hs
      simpa using hs

/-- **C68, partial**: if the URI is a wss URI and `ssl=None` isn't passed, all connections use TLS.  Missing:
a redirect from a ws URI to a wss URI, see `C68_tls_false`. -/
theorem C68_tls_partial (w : World) (cfg : ClientConfig X) (uri : PyStr) (kw : Kwargs) (u : WsUri)
    (hu : Uri.parseUri w.uriEnv uri = .ok u) (hs : u.secure = true) (hk : kw.ssl ≠ .none) :
    ∀ a ∈ (connect w cfg uri kw).2, a.wsuri.secure = true ∧ a.tls = true := by
  intro a ha
  unfold connect at ha
  split at ha
  · cases ha
  · rename_i c hc
    obtain ⟨h1, h2, _⟩ := init_ok hc
    rw [hu] at h1
    cases h1
    rcases attempts_inv (I := fun c => c.wsuri.secure = true ∧ c.tls = true)
      (fun c c' uri hi hr => by
        obtain ⟨_, r2, r3, _⟩ := handleRedirect_ok hr
        exact ⟨r2 hi.1, by rw [r3]; exact hi.2⟩) (c := c) ⟨hs, h2.2 ⟨hs, hk⟩⟩ a ha with ha | ⟨c, hi, h4, _, h6⟩
    · cases ha
    · rw [h4, h6]; exact hi

/-- **C68.** TLS is used only for wss URIs. -/
theorem C68_only_secure (w : World) (cfg : ClientConfig X) (uri : PyStr) (kw : Kwargs) :
    ∀ a ∈ (connect w cfg uri kw).2, a.tls = true → a.wsuri.secure = true := by
  intro a ha
  unfold connect at ha
  split at ha
  · cases ha
  · rename_i c hc
    obtain ⟨_, h2, _⟩ := init_ok hc
    rcases attempts_inv (I := fun c => c.tls = true → c.wsuri.secure = true)
      (fun c c' uri hi hr => by
        obtain ⟨_, r2, r3, _⟩ := handleRedirect_ok hr
        intro ht
        rw [r3] at ht
        exact r2 (hi ht)) (c := c) (fun ht => (h2.1 ht).1) a ha with ha | ⟨c, hi, h4, _, h6⟩
    · cases ha
    · rw [h4, h6]; exact hi

/-- **C68.** If no other target is given, connections are made to the host and port of the URI, after
redirects too. -/
theorem C68_target (w : World) (cfg : ClientConfig X) (uri : PyStr) (kw : Kwargs) (hp : kw.path = none)
    (hs : kw.sock = false) (hh : kw.host = none) (ho : kw.port = none) :
    ∀ a ∈ (connect w cfg uri kw).2, a.endpoint = .tcp (some a.wsuri.host) (some a.wsuri.port) := by
  intro a ha
  unfold connect at ha
  split at ha
  · cases ha
  · rename_i c hc
    obtain ⟨_, _, _, h2⟩ := init_ok hc
    rw [hp, hs, hh, ho] at h2
    rcases attempts_inv (I := fun c => c.endpoint = .tcp (some c.wsuri.host) (some c.wsuri.port))
      (fun c c' uri hi hr => by
        obtain ⟨_, _, _, r4 | r4⟩ := handleRedirect_ok hr
        · rw [r4.2.2, r4.1, r4.2.1]; exact hi
        · exact r4 _ _ hi) (c := c) h2 a ha with ha | ⟨c, hi, h4, h5, _⟩
    · cases ha
    · rw [h4, h5]; exact hi

/-- **C68.** A target given with `host`, `port` or `sock` is used only for URIs with the same host and port as
the initial URI; connections for other URIs are made to the host and port of the URI. -/
theorem C68_override (w : World) (cfg : ClientConfig X) (uri : PyStr) (kw : Kwargs) (u : WsUri)
    (hu : Uri.parseUri w.uriEnv uri = .ok u) (hp : kw.path = none) :
    ∀ a ∈ (connect w cfg uri kw).2,
      (a.wsuri.host = u.host ∧ a.wsuri.port = u.port) ∨
      a.endpoint = .tcp (some a.wsuri.host) (some a.wsuri.port) := by
  intro a ha
  unfold connect at ha
  split at ha
  · cases ha
  · rename_i c0 hc
    obtain ⟨h1, _, _, h2⟩ := init_ok hc
    rw [hu] at h1
    have h1 : u = c0.wsuri := by cases h1; rfl
    subst h1
    rw [hp] at h2
    rcases attempts_inv (I := fun c => (∃ h p, c.endpoint = .tcp h p) ∧
        ((c.wsuri.host = c0.wsuri.host ∧ c.wsuri.port = c0.wsuri.port) ∨
          c.endpoint = .tcp (some c.wsuri.host) (some c.wsuri.port)))
      (fun c c' uri hi hr => by
        obtain ⟨_, _, _, r4 | r4⟩ := handleRedirect_ok hr
        · obtain ⟨r5, r6, r7⟩ := r4
          rw [r5, r6, r7]
          exact hi
        · obtain ⟨⟨h, p, he⟩, _⟩ := hi
          exact ⟨⟨_, _, r4 _ _ he⟩, .inr (r4 _ _ he)⟩) (c := c0) ⟨⟨_, _, h2⟩, .inl ⟨rfl, rfl⟩⟩ a ha with
      ha | ⟨c, hi, h4, h5, _⟩
    · cases ha
    · rw [h4, h5]; exact hi.2

/-! ## Examples -/

/-- A library that only knows ASCII. -/
def asciiEnv : Uri.Env := { lower := id, nfkcOk := fun _ => true, idna := fun _ => none }

/-- Servers that redirect once to `location`, and then answer 404. -/
def redirectOnce (location : PyStr) : World :=
  { py := PyEnv.simple, uriEnv := asciiEnv, random := fun _ => List.replicate 16 7,
    reply := fun log => if log.length = 1 then .response 302 (Headers.ofList [(p!"location", location)])
      else .response 404 {} }

/-- Servers that redirect forever. -/
def redirectForever : World :=
  { redirectOnce [] with
    reply := fun log => .response 307 (Headers.ofList [(p!"Location", p!"wss://h/" ++ decStr log.length)]) }

def exampleClient : ClientConfig Unit :=
  { uri := { secure := false, host := [], port := 0, resourceName := [] }, raw := [] }

/-- **C68** is false: when a server redirects from a ws URI to a wss URI, the connection for the wss URI
doesn't use TLS. -/
theorem C68_tls_false : ¬ Spec.SecureUsesTls := by
  intro h
  have h := h (redirectOnce p!"wss://h/") exampleClient p!"ws://h/" {} (by decide)
  have h2 : ((connect (redirectOnce p!"wss://h/") exampleClient p!"ws://h/" {}).2.all
      fun a => !a.wsuri.secure || a.tls) = false := by decide +kernel
  rw [List.all_eq_false] at h2
  obtain ⟨a, ha, h3⟩ := h2
  have := h a ha
  cases hs : a.wsuri.secure <;> cases ht : a.tls <;> simp_all

/-- A server that accepts the key `dGhlIHNhbXBsZSBub25jZQ==`. -/
def accepting : World :=
  { redirectOnce [] with
    random := fun _ => b!"the sample nonce"
    reply := fun _ => .response 101 (Headers.ofList [(p!"Connection", p!"Upgrade"), (p!"Upgrade", p!"websocket"),
      (p!"Sec-WebSocket-Accept", p!"s3pPLMBiTxaQ9kYGzzhZRbK+xOo="), (p!"Sec-WebSocket-Protocol", p!"chat")]) }

-- The hypotheses of `C67_opened` and `C67_accepts` can be met.
example : Spec.ConsistentReplies accepting ∧
    (match connect accepting { exampleClient with subprotocols := some [p!"chat"] } p!"ws://h/" {} with
      | (.ok o, log) => (o.wsuri.host, o.subprotocol, log.length) | _ => ([], none, 0)) =
    (p!"h", some p!"chat", 1) := by
  refine ⟨?_, by decide +kernel⟩
  intro log status headers h
  cases h
  exact (Headers.ofList_ok _).1
-- Without a subprotocol in the configuration, the same response is refused.
example : (match connect accepting exampleClient p!"ws://h/" {} with
      | (.ok _, _) => none | (.error e, _) => some e) =
    some (.exc (.invalidHandshake p!"no subprotocols supported")) := by decide +kernel

-- A redirect from wss to ws isn't followed.
example : (let r := connect (redirectOnce p!"ws://h/") exampleClient p!"wss://h/" {}
    ((match r.1 with | .error e => some e | .ok _ => none), r.2.length)) =
    (some (.security p!"redirect from WSS to WS"), 1) := by decide +kernel
-- A redirect without a `Location` header or with two ones (`C61_raises`).
example : (match (connect { redirectOnce p!"" with reply := fun _ => .response 302 (Headers.ofList []) }
      exampleClient p!"ws://h/" {}).1 with | .error e => some e | .ok _ => none) =
    some (.exc (.invalidHeader p!"Location" none)) ∧
  (match (connect { redirectOnce p!"" with
        reply := fun _ => .response 302 (Headers.ofList [(p!"Location", p!"/a"), (p!"Location", p!"/b")]) }
      exampleClient p!"ws://h/" {}).1 with | .error e => some e | .ok _ => none) =
    some (.exc .multipleValuesError) := by decide +kernel
-- A redirect to another host is followed; the request is sent there.
example : (let r := connect (redirectOnce p!"wss://g:8000/x") exampleClient p!"wss://h/" {}
    ((match r.1 with | .error e => some e | .ok _ => none), r.2.map fun a => (a.endpoint, a.tls))) =
    (some (.exc (.invalidStatusCode 404)),
      [(.tcp (some p!"h") (some 443), true), (.tcp (some p!"g") (some 8000), true)]) := by decide +kernel
-- After 10 redirects, the client gives up.
example : (let r := connect redirectForever exampleClient p!"ws://h/" {}
    ((match r.1 with | .error e => some e | .ok _ => none), r.2.length)) =
    (some (.security p!"too many redirects"), 10) := by decide +kernel

end WS.LegacyClient
