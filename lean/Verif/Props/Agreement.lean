import Verif.Props.Client
import Verif.Props.Server
import Verif.Props.Pmd
import Verif.Props.Chunking

/-!
# The opening handshake between a client and a server: C43
-/

namespace WS

open Spec

variable {X : Type}

/-! ## Headers that come from a list -/

/-- Headers that are the result of adding the pairs of a list. -/
def Headers.Built (h : Headers) : Prop := h = Headers.ofList h.list

theorem Headers.list_ofList (l : List (PyStr × PyStr)) : (Headers.ofList l).list = l :=
  (Headers.ofList_ok l).2

theorem Headers.ofList_snoc (l : List (PyStr × PyStr)) (n v : PyStr) :
    (Headers.ofList l).set n v = Headers.ofList (l ++ [(n, v)]) := by
  simp [Headers.ofList]

theorem Headers.Built.ofList (l : List (PyStr × PyStr)) : (Headers.ofList l).Built := by
  unfold Headers.Built
  rw [Headers.list_ofList]

theorem Headers.Built.set {h : Headers} (hb : h.Built) (n v : PyStr) : (h.set n v).Built := by
  rw [hb, Headers.ofList_snoc]
  exact .ofList _

theorem Headers.Built.foldl {h : Headers} (hb : h.Built) (l : List (PyStr × PyStr)) :
    (l.foldl (fun h p => h.set p.1 p.2) h).Built := by
  induction l generalizing h with
  | nil => exact hb
  | cons p l ih => exact ih (hb.set _ _)

theorem Headers.Built.setdefault {h h' : Headers} (hb : h.Built) {n d : PyStr}
    (hs : h.setdefault n d = .ok h') : h'.Built := by
  unfold Headers.setdefault at hs
  split at hs
  · cases hs; exact hb
  · cases hs; exact hb.set _ _
  · cases hs

theorem Headers.Built.ok {h : Headers} (hb : h.Built) : h.Ok pyLower := by
  rw [hb]
  exact (Headers.ofList_ok _).1

theorem Headers.Built.empty : ({} : Headers).Built := rfl

/-! ## The request -/

/-- The header lines of the request of a client, with the value of `Authorization`. -/
def Spec.requestLines (host agent key : PyStr) (auth origin eh sub : Option PyStr)
    (extra : List (PyStr × PyStr)) : List (PyStr × PyStr) :=
  withDefault ([(p!"Host", host)] ++ optHeader p!"Authorization" auth ++
    optHeader p!"Origin" origin ++ [(p!"Upgrade", p!"websocket"), (p!"Connection", p!"Upgrade"),
      (p!"Sec-WebSocket-Key", key), (p!"Sec-WebSocket-Version", p!"13")] ++
    optHeader p!"Sec-WebSocket-Extensions" eh ++ optHeader p!"Sec-WebSocket-Protocol" sub ++ extra)
    p!"User-Agent" agent

/-- The offers of a client. -/
def ClientConfig.offers (fs : List (ClientFactory X)) : List ExtHeader :=
  fs.map fun f => (f.name, f.requestParams)

theorem Headers.list_set (h : Headers) (n v : PyStr) : (h.set n v).list = h.list ++ [(n, v)] := rfl

theorem connect_lines {py : PyEnv} {cfg : ClientConfig X} {req : Request}
    (h : cfg.connect py = .ok req) : req.path = cfg.uri.resourceName ∧ req.headers.Built ∧
      ∃ auth, req.headers.list = requestLines (buildHost py cfg.uri.host cfg.uri.port cfg.uri.secure)
        py.agent (base64 cfg.raw) auth cfg.origin
        (cfg.extensions.map fun fs => buildExtension (ClientConfig.offers fs))
        (cfg.subprotocols.map buildSubprotocol) cfg.extraHeaders := by
  unfold ClientConfig.connect at h
  simp only at h
  have hkey : cfg.key = base64 cfg.raw := b64encode_eq cfg.raw
  rw [hkey] at h
  split at h
  · cases h
  · rename_i h1 ha
    have auth : h1.Built ∧ ∃ auth, h1.list = [(p!"Host",
        buildHost py cfg.uri.host cfg.uri.port cfg.uri.secure)] ++ optHeader p!"Authorization" auth := by
      unfold ClientConfig.setAuth at ha
      split at ha
      · cases ha
        exact ⟨Headers.Built.empty.set _ _, none, rfl⟩
      · split at ha
        · cases ha
        · rename_i v _
          cases ha
          exact ⟨(Headers.Built.empty.set _ _).set _ _, some v, rfl⟩
    obtain ⟨hb, auth, hl⟩ := auth
    split at h
    · cases h
    · rename_i h2 hd
      cases h
      have opt : ∀ {h : Headers} (_ : h.Built) (n : PyStr) (v : Option PyStr),
          (match v with | none => h | some v => h.set n v).Built := by
        intro h hb n v
        cases v
        · exact hb
        · exact hb.set _ _
      have optl : ∀ (h : Headers) (n : PyStr) (v : Option PyStr),
          (match v with | none => h | some v => h.set n v).list = h.list ++ optHeader n v := by
        intro h n v
        cases v
        · simp [optHeader]
        · rfl
      generalize hh : cfg.extraHeaders.foldl _ _ = h3 at hd
      have e1 : h3 = cfg.extraHeaders.foldl (fun h p => h.set p.1 p.2)
          (match cfg.subprotocols.map buildSubprotocol with
            | none => (match cfg.extensions.map fun fs => buildExtension (ClientConfig.offers fs) with
              | none => ((((match cfg.origin with | none => h1 | some o => h1.set p!"Origin" o).set
                  p!"Upgrade" p!"websocket").set p!"Connection" p!"Upgrade").set
                  p!"Sec-WebSocket-Key" (base64 cfg.raw)).set p!"Sec-WebSocket-Version" p!"13"
              | some v => (((((match cfg.origin with | none => h1 | some o => h1.set p!"Origin" o).set
                  p!"Upgrade" p!"websocket").set p!"Connection" p!"Upgrade").set
                  p!"Sec-WebSocket-Key" (base64 cfg.raw)).set p!"Sec-WebSocket-Version" p!"13").set
                  p!"Sec-WebSocket-Extensions" v)
            | some s => (match cfg.extensions.map fun fs => buildExtension (ClientConfig.offers fs) with
              | none => ((((match cfg.origin with | none => h1 | some o => h1.set p!"Origin" o).set
                  p!"Upgrade" p!"websocket").set p!"Connection" p!"Upgrade").set
                  p!"Sec-WebSocket-Key" (base64 cfg.raw)).set p!"Sec-WebSocket-Version" p!"13"
              | some v => (((((match cfg.origin with | none => h1 | some o => h1.set p!"Origin" o).set
                  p!"Upgrade" p!"websocket").set p!"Connection" p!"Upgrade").set
                  p!"Sec-WebSocket-Key" (base64 cfg.raw)).set p!"Sec-WebSocket-Version" p!"13").set
                  p!"Sec-WebSocket-Extensions" v).set p!"Sec-WebSocket-Protocol" s) := by
        rw [← hh]
        cases cfg.subprotocols <;> cases cfg.extensions <;> rfl
      have hb3 : h3.Built := by
        rw [e1]
        exact (opt (opt (((((opt hb _ _).set _ _).set _ _).set _ _).set _ _) _ _) _ _).foldl _
      obtain ⟨_, l3, _⟩ := hb3.ok.setdefault_ok hd
      refine ⟨rfl, hb3.setdefault hd, auth, ?_⟩
      simp only
      rw [l3, e1]
      have hf := ((opt (opt (((((opt hb p!"Origin" cfg.origin).set p!"Upgrade" p!"websocket").set
        p!"Connection" p!"Upgrade").set p!"Sec-WebSocket-Key" (base64 cfg.raw)).set
        p!"Sec-WebSocket-Version" p!"13") p!"Sec-WebSocket-Extensions"
        (cfg.extensions.map fun fs => buildExtension (ClientConfig.offers fs)))
        p!"Sec-WebSocket-Protocol" (cfg.subprotocols.map buildSubprotocol)).ok.foldl_set
        cfg.extraHeaders).2
      unfold requestLines
      congr 1
      refine hf.trans ?_
      rw [optl, optl]
      simp only [Headers.list_set]
      rw [optl, hl]
      simp only [List.append_assoc, List.cons_append, List.nil_append]

theorem values_optHeader (n m : PyStr) (v : Option PyStr) :
    values (optHeader n v) m = if lower n = lower m then v.toList else [] := by
  cases v with
  | none => simp [optHeader, values, valuesOf]
  | some v =>
    simp only [optHeader, values, valuesOf, List.filter_cons, List.filter_nil]
    split <;> rename_i h
    · rw [if_pos (by simpa using h)]; rfl
    · rw [if_neg (by simpa using h)]; rfl

theorem values_pair (n v m : PyStr) :
    values [(n, v)] m = if lower n = lower m then [v] else [] := by
  simp only [values, valuesOf, List.filter_cons, List.filter_nil]
  split <;> rename_i h
  · rw [if_pos (by simpa using h)]; rfl
  · rw [if_neg (by simpa using h)]; rfl

theorem values_cons (n v m : PyStr) (hs : List (PyStr × PyStr)) :
    values ((n, v) :: hs) m = (if lower n = lower m then [v] else []) ++ values hs m := by
  rw [show (n, v) :: hs = [(n, v)] ++ hs from rfl, values_append, values_pair]

theorem requestLines_key {host agent key : PyStr} {auth origin eh sub : Option PyStr}
    {extra : List (PyStr × PyStr)} {k : PyStr}
    (h : values (requestLines host agent key auth origin eh sub extra) p!"Sec-WebSocket-Key" = [k]) :
    k = key := by
  unfold requestLines at h
  rw [values_withDefault (by decide)] at h
  simp only [values_append] at h
  have hm : key ∈ [k] := by
    rw [← h]
    simp only [List.mem_append]
    refine .inl (.inl (.inl (.inr ?_)))
    rw [values_cons, if_neg (by decide), values_cons, if_neg (by decide), values_cons,
      if_pos (by decide)]
    simp
  exact (List.mem_singleton.1 hm).symm

theorem requestLines_ext {host agent key : PyStr} {auth origin eh sub : Option PyStr}
    {extra : List (PyStr × PyStr)} (hx : values extra p!"Sec-WebSocket-Extensions" = []) :
    values (requestLines host agent key auth origin eh sub extra) p!"Sec-WebSocket-Extensions" =
      eh.toList := by
  unfold requestLines
  rw [values_withDefault (by decide)]
  simp only [values_append]
  rw [hx]
  simp only [values_optHeader]
  simp only [values_cons]
  rw [if_neg (by decide), if_neg (by decide), if_neg (by decide), if_neg (by decide),
    if_neg (by decide), if_neg (by decide), if_neg (by decide), if_pos (by decide),
    if_neg (by decide)]
  simp [values, valuesOf]

theorem requestLines_sub {host agent key : PyStr} {auth origin eh sub : Option PyStr}
    {extra : List (PyStr × PyStr)} (hx : values extra p!"Sec-WebSocket-Protocol" = []) :
    values (requestLines host agent key auth origin eh sub extra) p!"Sec-WebSocket-Protocol" =
      sub.toList := by
  unfold requestLines
  rw [values_withDefault (by decide)]
  simp only [values_append]
  rw [hx]
  simp only [values_optHeader]
  simp only [values_cons]
  rw [if_neg (by decide), if_neg (by decide), if_neg (by decide), if_neg (by decide),
    if_neg (by decide), if_neg (by decide), if_neg (by decide), if_neg (by decide),
    if_pos (by decide)]
  simp [values, valuesOf]

/-! ## Compatible extensions -/

/-- The answer to an offer of the client that the factories of the server select, after they have
enabled the same extensions on both sides, can be sent; the factories of the client accept it, and
the new extensions are related by `R`. -/
def Spec.Compatible (R : X → X → Prop) (cfs : List (ClientFactory X)) (sfs : List (ServerFactory X)) :
    Prop :=
  ∀ f ∈ cfs, ∀ cacc sacc, AllPairs R cacc sacc → ∀ answer y,
    FirstMatch sfs f.name f.requestParams sacc answer y →
    TokenExt (f.name, answer) ∧ ∃ x, FirstAnswer cfs f.name answer cacc x ∧ R x y

theorem Spec.AllPairs.snoc {R : X → X → Prop} {xs ys : List X} (h : AllPairs R xs ys) {x y : X}
    (hxy : R x y) : AllPairs R (xs ++ [x]) (ys ++ [y]) := by
  induction h with
  | nil => exact .cons hxy .nil
  | cons h _ ih => exact .cons h ih

theorem Spec.Compatible.answered {R : X → X → Prop} {cfs : List (ClientFactory X)}
    {sfs : List (ServerFactory X)} (hc : Compatible R cfs sfs) {offers answers : List ExtHeader}
    {sacc ys : List X} (h : Negotiated sfs offers sacc answers ys)
    (ho : ∀ o ∈ offers, ∃ f ∈ cfs, o = (f.name, f.requestParams)) {cacc : List X}
    (hp : AllPairs R cacc sacc) :
    (∀ a ∈ answers, TokenExt a) ∧ ∃ xs, Answered cfs answers cacc xs ∧ AllPairs R xs ys := by
  induction h generalizing cacc with
  | nil => exact ⟨by simp, [], .nil, .nil⟩
  | skip _ _ ih => exact ih (fun o h => ho o (by simp [h])) hp
  | @take name params offers acc answers exts answer y hm _ ih =>
    obtain ⟨f, hf, he⟩ := ho (name, params) (by simp)
    cases he
    obtain ⟨ht, x, hx, hr⟩ := hc f hf cacc acc hp answer y hm
    obtain ⟨ih1, xs, ih2, ih3⟩ := ih (fun o h => ho o (by simp [h])) (hp.snoc hr)
    refine ⟨?_, x :: xs, .cons hx ih2, .cons hr ih3⟩
    intro a ha
    rcases List.mem_cons.1 ha with rfl | ha
    · exact ht
    · exact ih1 a ha

/-! ## Receiving a whole handshake message -/

theorem feed_message {E H : Type} (env : Env X E H) {core core' : Core X E} {co : Coro E} {ev : E}
    (hs : Conn.Settled ⟨core, .init, .hs co⟩) {bytes : Bytes}
    (hrun : co.run ⟨bytes, false⟩ = .done ev ⟨[], false⟩)
    (hon : env.onHs ev core = (none, core')) (chunks : List Bytes) (hc : chunks.flatten = bytes) :
    (Conn.feedAll env ⟨core, .init, .hs co⟩ chunks).2 = ⟨core', .init, .top⟩ := by
  rw [C09_chunking env _ hs, hc, Conn.receiveData_eq]
  rw [if_neg (by simp [Reader.init])]
  have hpush : (Conn.push ⟨core, .init, .hs co⟩ bytes : Conn X E) = ⟨core, ⟨bytes, false⟩, .hs co⟩ := by
    simp [Conn.push, Reader.push, Reader.init]
  rw [hpush, Conn.step_alive _ _ (by simp)]
  unfold Conn.resume
  simp only [hrun, hon]
  rw [Conn.parseTop_eq]
  rfl

/-! ## The handshake -/

/-- A header block that can be sent. -/
def Spec.Sendable (hs : List (PyStr × PyStr)) : Prop := hs.length ≤ 256 ∧ ∀ p ∈ hs, GoodHeader p

theorem listOf_ne_nil_ext : ∀ as, ¬ AllLists ExtItem [buildExtension []] as := by
  intro as h
  cases h with
  | cons h _ =>
    have := (parseList_iff recognizes_ext _ p!"Sec-WebSocket-Extensions" _).2 h
    have e : parseList parseExtensionItem (buildExtension []) p!"Sec-WebSocket-Extensions" =
      .error (.invalidHeaderFormat p!"Sec-WebSocket-Extensions" p!"expected token" p!"" 0) := by
      decide +kernel
    rw [e] at this
    cases this

/-- A common subprotocol is one that the client asked for. -/
theorem agreed_sub {hs : List (PyStr × PyStr)} {ps : Option (List PyStr)}
    (hv : values hs p!"Sec-WebSocket-Protocol" = (ps.map buildSubprotocol).toList)
    (ht : ∀ l, ps = some l → ∀ p ∈ l, Tok p) {offers server : List PyStr} {sub : Option PyStr}
    (ho : AllLists TokItem (values hs p!"Sec-WebSocket-Protocol") offers)
    (hb : BestSubprotocol offers server sub) :
    ∀ p, sub = some p → Tok p ∧ ∃ l, ps = some l ∧ p ∈ l := by
  intro p hp
  subst hp
  have hm : p ∈ offers := hb.1
  rw [hv] at ho
  cases ps with
  | none =>
    cases ho
    cases hm
  | some l =>
    by_cases hl : l = []
    · subst hl
      cases ho with
      | cons h _ =>
        exfalso
        have := (parseList_iff recognizes_token _ p!"Sec-WebSocket-Protocol" _).2 h
        have e : parseList parseToken (buildSubprotocol []) p!"Sec-WebSocket-Protocol" =
          .error (.invalidHeaderFormat p!"Sec-WebSocket-Protocol" p!"expected token" p!"" 0) := by
          decide +kernel
        rw [e] at this
        cases this
    · have h1 := C34_subprotocols l hl (ht l rfl)
      have h2 : AllLists TokItem [buildSubprotocol l] l := by
        have := AllLists.cons ((parseList_iff recognizes_token _ _ _).1 h1) .nil
        simpa using this
      rw [ho.unique C33_subprotocol h2] at hm
      exact ⟨ht l rfl p hm, l, rfl, hm⟩

theorem acceptResponse_built {py : PyEnv} {cfg : ServerConfig X} {date : PyStr} {req : Request}
    {key : PyStr} {eh sub : Option PyStr} {r : Response}
    (h : cfg.acceptResponse py date req key eh sub = .ok r) : r.headers.Built := by
  unfold ServerConfig.acceptResponse at h
  split at h
  · cases h
  · rename_i acc _
    simp only at h
    split at h
    · cases h
    · rename_i extra _
      split at h
      · cases h
      · rename_i h1 e1
        split at h
        · cases h
        · rename_i h2 e2
          cases h
          refine Headers.Built.setdefault (Headers.Built.setdefault (Headers.Built.foldl ?_ extra) e1) e2
          have k3 := ((Headers.Built.empty.set p!"Upgrade" p!"websocket").set p!"Connection"
            p!"Upgrade").set p!"Sec-WebSocket-Accept" acc
          cases eh with
          | none =>
            cases sub with
            | none => exact k3
            | some s => exact k3.set _ _
          | some v =>
            cases sub with
            | none => exact k3.set _ _
            | some s => exact (k3.set _ _).set _ _

/-- The header names that the application of a server must leave to the handshake. -/
def Spec.handshakeNames : List PyStr :=
  [p!"Upgrade", p!"Connection", p!"Sec-WebSocket-Accept", p!"Sec-WebSocket-Extensions",
    p!"Sec-WebSocket-Protocol", p!"Transfer-Encoding"]

/-- The response of a server to the request of a compatible client, if it isn't a rejection,
completes the handshake of the client. -/
theorem response_valid {cpy spy : PyEnv} {cc : ClientConfig X} {sc : ServerConfig X}
    {R : X → X → Prop} {req : Request} (hconn : cc.connect cpy = .ok req)
    (hcx : values cc.extraHeaders p!"Sec-WebSocket-Extensions" = [])
    (hcp : values cc.extraHeaders p!"Sec-WebSocket-Protocol" = [])
    (hce : ∀ fs, cc.extensions = some fs → ∀ f ∈ fs, TokenExt (f.name, f.requestParams))
    (hct : ∀ ps, cc.subprotocols = some ps → ∀ p ∈ ps, Tok p)
    (hcompat : Compatible R (cc.extensions.getD []) (sc.extensions.getD []))
    {date : PyStr} {r : Response} {a : Assigned X}
    (h : sc.accept spy date req = (.ok r, a)) (hr : r.statusCode = 101)
    (hsx : ∀ extra, sc.extraHeaders req.path req.headers = .ok extra →
      ∀ n ∈ handshakeNames, values extra n = []) :
    r.headers.Built ∧ r.reason = p!"Switching Protocols" ∧ r.body = none ∧ r.exception = none ∧
    values r.headers.list p!"Transfer-Encoding" = [] ∧
    ∃ cexts sexts sub, a.exts = some sexts ∧ a.subprotocol = some sub ∧ AllPairs R cexts sexts ∧
      ValidResponse cc r.statusCode r.headers.list cexts sub := by
  obtain ⟨_, hb, auth, hl⟩ := connect_lines hconn
  have hk := hb.ok
  obtain ⟨key, eh, sub, origin, extra, h1, h2, h3, hx, hok, hrl, _⟩ := accept_101 hk h hr
  obtain ⟨exts, he, ha, hs, has⟩ := processRequest_assigned h1
  obtain ⟨offers, answers, ho, hn, heh⟩ := processExtensions_ok hk he
  have hacc : sc.acceptResponse spy date req key eh sub = .ok r := by
    unfold ServerConfig.accept at h
    rw [h1] at h
    simp only [Prod.mk.injEq] at h
    exact h.1
  obtain ⟨_, _, _, a1, a2, a3, _, _⟩ := acceptResponse_ok h3.key.2.ascii hacc
  have hex := hsx extra hx
  -- the key
  have hkey : key = base64 cc.raw := by
    have := h3.key.1
    rw [hl] at this
    exact requestLines_key this
  -- the extensions
  have hext : (∀ e ∈ answers, TokenExt e) ∧
      ∃ xs, Answered (cc.extensions.getD []) answers [] xs ∧ AllPairs R xs exts := by
    by_cases hsv : sc.extensions.getD [] = []
    · have hs3 := hn.sublist
      rw [hsv] at hs3
      have ha0 : answers = [] := by
        cases answers with
        | nil => rfl
        | cons e l => obtain ⟨f, hf, _⟩ := hs3.2.2 e (by simp); cases hf
      subst ha0
      have : exts = [] := by
        have := hs3.2.1
        simpa using this.symm
      subst this
      exact ⟨by simp, [], .nil, .nil⟩
    · have ho := ho.resolve_left hsv
      rw [hl, requestLines_ext hcx] at ho
      refine hcompat.answered hn ?_ .nil
      cases hce' : cc.extensions with
      | none =>
        rw [hce'] at ho
        cases ho
        simp
      | some fs =>
        rw [hce'] at ho
        simp only [Option.map_some, Option.toList] at ho
        by_cases hfs : fs = []
        · subst hfs
          exact absurd ho (listOf_ne_nil_ext _)
        · have hc34 := C34_extensions (ClientConfig.offers fs) (by simpa [ClientConfig.offers] using hfs)
            (by
              intro e hm
              obtain ⟨f, hf, rfl⟩ := List.mem_map.1 hm
              exact hce fs hce' f hf)
          have h2 : AllLists ExtItem [buildExtension (ClientConfig.offers fs)] (ClientConfig.offers fs) := by
            have := AllLists.cons ((parseList_iff recognizes_ext _ _ _).1 hc34) .nil
            simpa using this
          rw [ho.unique C33_extension h2]
          intro o hm
          obtain ⟨f, hf, rfl⟩ := List.mem_map.1 hm
          exact ⟨f, hf, rfl⟩
  obtain ⟨htok, cexts, hans, hpairs⟩ := hext
  -- the values of the headers of the response
  have hv : ∀ n, lower p!"Date" ≠ lower n → lower p!"Server" ≠ lower n → n ∈ handshakeNames →
      values r.headers.list n = values ([(p!"Upgrade", p!"websocket"), (p!"Connection", p!"Upgrade"),
        (p!"Sec-WebSocket-Accept", acceptFor key)] ++ optHeader p!"Sec-WebSocket-Extensions" eh ++
        optHeader p!"Sec-WebSocket-Protocol" sub) n := by
    intro n d1 d2 hm
    rw [hrl]
    exact values_response d1 d2 (hex n hm)
  refine ⟨acceptResponse_built hacc, a1, a2, a3, ?_, cexts, exts, sub, ha, has, hpairs, ?_⟩
  · rw [hv _ (by decide) (by decide) (by decide)]
    cases eh <;> cases sub <;> rfl
  · refine ⟨hr, ?_, ?_, ?_, ?_, ?_⟩
    · refine ⟨[p!"Upgrade"], ?_, p!"Upgrade", by simp, by decide⟩
      have hc : values r.headers.list p!"Connection" = [p!"Upgrade"] := by
        rw [hv _ (by decide) (by decide) (by decide)]
        cases eh <;> cases sub <;> rfl
      rw [hc]
      have : parseList parseToken p!"Upgrade" p!"Connection" = .ok [p!"Upgrade"] := by decide +kernel
      have := AllLists.cons ((parseList_iff recognizes_token _ _ _).1 this) .nil
      simpa using this
    · refine ⟨p!"websocket", ?_, by decide⟩
      have hc : values r.headers.list p!"Upgrade" = [p!"websocket"] := by
        rw [hv _ (by decide) (by decide) (by decide)]
        cases eh <;> cases sub <;> rfl
      rw [hc]
      have : parseList parseUpgradeProtocol p!"websocket" p!"Upgrade" = .ok [p!"websocket"] := by
        decide +kernel
      have := AllLists.cons ((parseList_iff recognizes_protocol _ _ _).1 this) .nil
      simpa using this
    · rw [hv _ (by decide) (by decide) (by decide), ← hkey]
      cases eh <;> cases sub <;> rfl
    · have hc : values r.headers.list p!"Sec-WebSocket-Extensions" = eh.toList := by
        rw [hv _ (by decide) (by decide) (by decide)]
        cases eh <;> cases sub <;> rfl
      rw [hc, heh]
      by_cases h0 : answers = []
      · subst h0
        cases hans
        exact .inl ⟨rfl, rfl⟩
      · rw [if_neg h0]
        right
        cases hce' : cc.extensions with
        | none =>
          rw [hce'] at hans
          cases hans with
          | nil => exact absurd rfl h0
          | cons h _ =>
            obtain ⟨pre, f, post, e, _⟩ := h
            cases pre <;> cases e
        | some fs =>
          rw [hce'] at hans
          refine ⟨fs, answers, rfl, ?_, h0, hans⟩
          have := AllLists.cons ((parseList_iff recognizes_ext _ _ _).1 (C34_extensions answers h0 htok)) .nil
          simpa using this
    · have hc : values r.headers.list p!"Sec-WebSocket-Protocol" = sub.toList := by
        rw [hv _ (by decide) (by decide) (by decide)]
        cases eh <;> cases sub <;> rfl
      rw [hc]
      cases sub with
      | none => exact .inl ⟨rfl, rfl⟩
      | some p =>
        right
        rcases processSubprotocol_ok hk hs with ⟨_, h⟩ | ⟨offers, g1, g2⟩
        · cases h
        · rw [hl] at g1
          obtain ⟨ht, ps, hps, hm⟩ := agreed_sub (requestLines_sub hcp) hct g1 g2 p rfl
          refine ⟨ps, p, hps, ?_, hm, rfl⟩
          have := AllLists.cons ((parseList_iff recognizes_token _ _ _).1
            (C34_subprotocols [p] (by simp) (by simpa using ht))) .nil
          simpa [buildSubprotocol, strJoin] using this

theorem reasonOk : ∀ c ∈ p!"Switching Protocols", ReasonChar c := by
  have : ∀ c ∈ p!"Switching Protocols", 0x20 ≤ c ∧ c ≤ 0x7E := by decide
  intro c hc
  exact .inr (.inl (this c hc))

theorem serverInit_settled (maxSize : Option Int) :
    (serverInit maxSize : Conn X Request).Settled :=
  .inr (.inr ⟨rfl, by simp [serverInit], .fresh Request.parse_fresh, rfl⟩)

/-- The beginning of a frame is expected. -/
def Conn.AtFrame (k : Conn X E) (side : Side) : Prop :=
  k.core.side = side ∧ k.reader = .init ∧ k.pstate = .top ∧ k.core.expectCont = false ∧
    k.core.curSize = none

/-- Neither a close frame nor the end of the stream was received or sent. -/
def Conn.Unclosed (k : Conn X E) (maxSize : Option Int) : Prop :=
  k.core.closeReceived = false ∧ k.core.eofSent = false ∧ [] ∉ k.core.writes ∧ k.core.maxSize = maxSize

theorem utf8Encode_ne {c : Nat} {s : PyStr} {b : Bytes} (hc : c < 128) (h : utf8Encode (c :: s) = .ok b) :
    b ≠ [] := by
  simp only [utf8Encode, utf8EncodeCp, if_pos hc] at h
  split at h
  · cases h
  · cases h; simp

theorem Request.serialize_ne {r : Request} {b : Bytes} (h : r.serialize = .ok b) : b ≠ [] := by
  unfold Request.serialize at h
  split at h
  · cases h
  · rename_i line hl
    split at h
    · cases h
    · cases h
      have := utf8Encode_ne (c := 71) (by omega) hl
      simp [this]

theorem Response.serialize_ne {r : Response} {b : Bytes} (h : r.serialize = .ok b) : b ≠ [] := by
  unfold Response.serialize at h
  split at h
  · cases h
  · rename_i line hl
    split at h
    · cases h
    · cases h
      have := utf8Encode_ne (c := 72) (by omega) hl
      simp [this]

/-- **C43**, for compatible extensions and headers that can be sent.  A client sends a request; a
server receives it in any pieces and answers.  Either the server rejects the request and stays in
the `CONNECTING` state; or it accepts the request and it's in the `OPEN` state, then the client,
which receives the response in any pieces, reaches the `OPEN` state too, with the same subprotocol
and with extensions that match those of the server one by one. Both are ready for frames; neither is
being closed.

Headers added by the application mustn't interfere: the client's with the negotiation, the server's
with the headers of the handshake.  The names of extensions and subprotocols, and the parameters of
extensions, are tokens. -/
theorem C43_agreement_partial {cpy spy : PyEnv} {cc : ClientConfig X} {sc : ServerConfig X}
    {R : X → X → Prop} {req : Request} (hconn : cc.connect cpy = .ok req)
    (hpath : ∀ c ∈ cc.uri.resourceName, 0x21 ≤ c ∧ c ≤ 0x7E)
    (hlen : cc.uri.resourceName.length + 15 ≤ 4110) (hreq : Sendable req.headers.rawItems)
    (hcx : values cc.extraHeaders p!"Sec-WebSocket-Extensions" = [])
    (hcp : values cc.extraHeaders p!"Sec-WebSocket-Protocol" = [])
    (hce : ∀ fs, cc.extensions = some fs → ∀ f ∈ fs, TokenExt (f.name, f.requestParams))
    (hct : ∀ ps, cc.subprotocols = some ps → ∀ p ∈ ps, Tok p)
    (hcompat : Compatible R (cc.extensions.getD []) (sc.extensions.getD []))
    (hsx : ∀ extra, sc.extraHeaders req.path req.headers = .ok extra →
      ∀ n ∈ handshakeNames, values extra n = [])
    (ops : ExtOps X) (crand srand : Nat → Bytes) (hcr : ∀ i, (crand i).length = 4)
    (hsr : ∀ i, (srand i).length = 4) (cmax smax : Option Int) :
    let cenv := cc.env ops crand hcr
    let senv := sc.env spy ops srand hsr
    let c1 := ((clientInit cmax cc.origin).apply cenv (.handshake (.sendRequest req))).2
    ∀ chunks, chunks.flatten = c1.core.writes.flatten →
    let s1 := ((serverInit smax).feedAll senv chunks).2
    s1.core.events = [.handshake req] ∧ s1.core.state = .connecting ∧
    ∀ date r a, sc.accept spy date req = (.ok r, a) →
      let s2 := (s1.apply senv (.handshake (.accept date req))).2
      let s3 := (s2.apply senv (.handshake (.sendResponse r))).2
      (r.statusCode ≠ 101 ∧ s3.core.state = .connecting) ∨
      (r.statusCode = 101 ∧ s3.core.state = .opened ∧ (Sendable r.headers.rawItems →
        ∀ chunks', chunks'.flatten = s3.core.writes.flatten →
        let c2 := (c1.feedAll cenv chunks').2
        c2.core.state = .opened ∧ c2.core.events = [.handshake r] ∧
        c2.core.subprotocol = s3.core.subprotocol ∧ AllPairs R c2.core.exts s3.core.exts ∧
        c2.AtFrame .client ∧ s3.AtFrame .server ∧ c2.Unclosed cmax ∧ s3.Unclosed smax)) := by
  intro cenv senv c1 chunks hch s1
  obtain ⟨hp, hb, _⟩ := connect_lines hconn
  obtain ⟨bytes, hser, hparse⟩ := C26_request_roundtrip_partial req.path req.headers.list
    (by rw [hp]; exact hpath) (by rw [hp]; exact hlen) hreq.2 hreq.1
  rw [← hb] at hser hparse
  have hc1 : c1 = ⟨{
      side := .client, state := .connecting, maxSize := cmax, origin := cc.origin,
      writes := [bytes] }, .init, .hs Response.parse⟩ := by
    simp only [c1, Conn.apply, cenv, ClientConfig.env, Core.sendRequest]
    rw [hser]
    rfl
  have hw : chunks.flatten = bytes := by
    rw [hch, hc1]
    simp
  have hs1 : s1 = ⟨{
      side := .server, state := .connecting, maxSize := smax,
      events := [.handshake req] }, .init, .top⟩ := by
    refine feed_message senv (serverInit_settled smax) (bytes := bytes) (ev := req) ?_ rfl chunks hw
    have := hparse [] false
    simpa using this
  refine ⟨by rw [hs1], by rw [hs1], ?_⟩
  intro date r a hacc s2 s3
  have hs2 : s2 = ⟨(a.store s1.core).1, .init, .top⟩ := by
    simp only [s2, Conn.apply, senv, ServerConfig.env]
    rw [hacc, hs1]
    simp only [Assigned.store, PState.rebind]
    cases a.exts <;> rfl
  by_cases h101 : r.statusCode = 101
  · right
    have hs3 : s3.core.state = .opened := by
      simp only [s3, Conn.apply, senv, ServerConfig.env, Core.sendResponse]
      rw [if_pos h101]
      cases r.serialize <;> rfl
    refine ⟨h101, hs3, ?_⟩
    intro hsend chunks' hch' c2
    obtain ⟨hrb, hre, hbo, hexc, hte, cexts, sexts, sub, hae, has, hpairs, hvalid⟩ :=
      response_valid hconn hcx hcp hce hct hcompat hacc h101 hsx
    obtain ⟨rbytes, hrser, hrparse, _⟩ := C27_response_roundtrip 101 p!"Switching Protocols"
      r.headers.list none (by omega) reasonOk (rb := b!"Switching Protocols") (by decide +kernel)
      (by decide) hsend.2 hsend.1 hte
    have hrr : (Response.mk ((101 : Nat) : Int) p!"Switching Protocols" (Headers.ofList r.headers.list)
        none none) = r := by
      rw [← hrb]
      cases r
      simp only at h101 hre hbo hexc
      simp [h101, hre, hbo, hexc]
    rw [hrr] at hrser hrparse
    have hs3e : s3 = ⟨{ (a.store s1.core).1 with state := .opened, writes := [rbytes] }, .init, .top⟩ := by
      simp only [s3, Conn.apply, senv, ServerConfig.env, Core.sendResponse]
      rw [if_pos h101, hrser, hs2, hs1]
      simp [Assigned.store]
    have hw' : chunks'.flatten = rbytes := by
      rw [hch', hs3e]
      simp
    have hon : cenv.onHs r c1.core = (none, { c1.core with
        exts := cexts, subprotocol := sub, state := .opened,
        events := c1.core.events ++ [.handshake r] }) := by
      have := (processResponse_iff hrb.ok c1.core _).2 ⟨cexts, sub, hvalid, rfl⟩
      simp only [cenv, ClientConfig.env, ClientConfig.onResponse]
      rw [if_neg (by rw [hc1]; simp), this]
      rfl
    have hset : c1.Settled := Conn.apply_settled cenv (clientInit_settled _ _) _
    have hc2 := feed_message cenv (core := c1.core) (co := Response.parse) (ev := r) (bytes := rbytes)
      (by rw [hc1] at hset ⊢; exact hset)
      (by
        have := hrparse (by unfold BodyLess; omega) rfl [] false
        simpa using this) hon chunks' hw'
    have hc2' : c2 = ⟨{ c1.core with
        exts := cexts, subprotocol := sub, state := .opened,
        events := c1.core.events ++ [.handshake r] }, .init, .top⟩ := by
      rw [← hc2]
      simp only [c2]
      rw [hc1]
    rw [hc2', hs3e]
    refine ⟨rfl, by rw [hc1]; rfl, ?_, ?_, ⟨by rw [hc1], rfl, rfl, by rw [hc1], by rw [hc1]⟩, ⟨by rw [hs1]; rfl, rfl,
      rfl, by rw [hs1]; rfl, by rw [hs1]; rfl⟩, ⟨by rw [hc1], by rw [hc1], ?_, by rw [hc1]⟩, by rw [hs1]; rfl,
      by rw [hs1]; rfl, ?_, by rw [hs1]; rfl⟩
    · simp only [Assigned.store, has, Option.getD_some]
    · simp only [Assigned.store, hae, Option.getD_some]
      exact hpairs
    · rw [hc1]
      simpa using Ne.symm (Request.serialize_ne hser)
    · simpa using Ne.symm (Response.serialize_ne hrser)
  · left
    refine ⟨h101, ?_⟩
    simp only [s3, Conn.apply, senv, ServerConfig.env, Core.sendResponse]
    rw [if_neg h101]
    have : s2.core.state = .connecting := by
      rw [hs2, hs1]
      rfl
    cases r.serialize <;> exact this

/-! ## Compatible factories -/

/-- Factories are compatible if the client has no two factories with the same name, and each
factory of the client is compatible with each factory of the server that has the same name. -/
theorem C43_compatible {R : X → X → Prop} {cfs : List (ClientFactory X)} {sfs : List (ServerFactory X)}
    (hd : (cfs.map ClientFactory.name).Nodup)
    (h : ∀ f ∈ cfs, ∀ g ∈ sfs, g.name = f.name → ∀ cacc sacc, AllPairs R cacc sacc → ∀ answer y,
      g.processRequestParams f.requestParams sacc = .ok (answer, y) →
      TokenExt (f.name, answer) ∧ ∃ x, f.processResponseParams answer cacc = .ok x ∧ R x y) :
    Compatible R cfs sfs := by
  intro f hf cacc sacc hp answer y ⟨pre, g, post, e, hn, hg, _⟩
  obtain ⟨ht, x, hx, hr⟩ := h f hf g (by rw [e]; simp) hn cacc sacc hp answer y hg
  refine ⟨ht, x, ?_, hr⟩
  obtain ⟨cpre, cpost, rfl⟩ := List.append_of_mem hf
  refine ⟨cpre, f, cpost, rfl, rfl, hx, ?_⟩
  intro k hk hkn
  rw [List.map_append, List.nodup_append] at hd
  exact absurd hkn (hd.2.2 _ (List.mem_map_of_mem hk) _ (by simp))

variable {Z : Zlib}

theorem tok_decStr (n : Nat) : Tok (decStr n) := by
  refine ⟨?_, fun c hc => .inr (.inl (decStr_digits n c hc))⟩
  unfold decStr
  split <;> simp

theorem PmdParams.build_tok (p : PmdParams) : TokenExt (pmdName, p.build) := by
  have n0 : Tok pmdName := .of_all (by decide +kernel)
  refine ⟨n0, ?_⟩
  have n1 : Tok p!"server_no_context_takeover" := .of_all (by decide +kernel)
  have n2 : Tok p!"client_no_context_takeover" := .of_all (by decide +kernel)
  have n3 : Tok p!"server_max_window_bits" := .of_all (by decide +kernel)
  have n4 : Tok p!"client_max_window_bits" := .of_all (by decide +kernel)
  intro q hq
  unfold PmdParams.build at hq
  simp only [List.mem_append] at hq
  rcases hq with ((hq | hq) | hq) | hq
  · split at hq
    · rw [List.mem_singleton.1 hq]; exact ⟨n1, by simp⟩
    · cases hq
  · split at hq
    · rw [List.mem_singleton.1 hq]; exact ⟨n2, by simp⟩
    · cases hq
  · split at hq
    · cases hq
    · split at hq
      · cases hq
      · rw [List.mem_singleton.1 hq]
        exact ⟨n3, by intro v hv; cases hv; exact tok_decStr _⟩
  · split at hq
    · cases hq
    · rw [List.mem_singleton.1 hq]; exact ⟨n4, by simp⟩
    · split at hq
      · cases hq
      · rw [List.mem_singleton.1 hq]
        exact ⟨n4, by intro v hv; cases hv; exact tok_decStr _⟩

/-- Any two valid configurations of permessage-deflate are compatible, if the `zlib` of the client
can create the encoder that they agree on. -/
theorem C43_deflate (cc : PmdClientConfig Z) (sc : PmdServerConfig Z)
    (hc : cc.valid = true) (hs : sc.valid = true)
    (hz : ∀ answer sx, sc.processRequestParams cc.params.build [] = .ok (answer, sx) →
      sx.remoteNct = true ∨ ∃ e, Z.compressobj sx.remoteBits cc.settings = .ok e) :
    Compatible Mirrored [cc.factory] [sc.factory] := by
  apply C43_compatible (by simp)
  intro f hf g hg _ cacc sacc hp answer y h
  rw [List.mem_singleton.1 hf] at h ⊢
  rw [List.mem_singleton.1 hg] at h
  simp only [PmdClientConfig.factory, PmdServerConfig.factory] at h ⊢
  cases hp with
  | cons _ _ =>
    exfalso
    unfold PmdServerConfig.processRequestParams at h
    rw [if_pos (by simp [pmdOps])] at h
    cases h
  | nil =>
    simp only [List.map_nil] at h ⊢
    obtain ⟨cx, h1, h2, _⟩ := C47_agree_partial cc sc hc hs [] [] (by simp) h (hz _ _ h)
    refine ⟨?_, cx, h1, h2⟩
    unfold PmdServerConfig.processRequestParams at h
    split at h
    · cases h
    · split at h
      · cases h
      · split at h
        · cases h
        · split at h
          · cases h
          · cases h
            exact PmdParams.build_tok _

/-- The claim of C43, for the response itself: when a server accepts a request, the client
accepts the response. -/
def Spec.AlwaysAgree : Prop :=
  ∀ (Z : Zlib) (cpy spy : PyEnv) (cc : ClientConfig (Pmd Z)) (sc : ServerConfig (Pmd Z)) (date : PyStr)
    (req : Request) (r : Response) (a : Assigned (Pmd Z)) (c : Core (Pmd Z) Response),
    cc.connect cpy = .ok req → sc.accept spy date req = (.ok r, a) → r.statusCode = 101 →
    c.state = .connecting → (cc.onResponse r c).2.state = .opened

/-- The client wants a window of 256 bytes, which zlib doesn't support. -/
def smallWindowClient : ClientConfig (Pmd storedZlib) where
  uri := { secure := false, host := p!"localhost", port := 80, resourceName := p!"/" }
  raw := b!"the sample nonce"
  extensions := some [({ params := { clientBits := some (.val 8) }, settings := () } :
    PmdClientConfig storedZlib).factory]

def deflateServer : ServerConfig (Pmd storedZlib) where
  extensions := some (enableServerPmd () none)

def handshakeTest (cc : ClientConfig (Pmd storedZlib)) (sc : ServerConfig (Pmd storedZlib)) :
    Option (Int × State) :=
  match cc.connect PyEnv.simple with
  | .error _ => none
  | .ok req =>
    match (sc.accept PyEnv.simple p!"now" req).1 with
    | .error _ => none
    | .ok r => some (r.statusCode, (cc.onResponse r { side := .client, state := .connecting, maxSize := none }).2.state)

/-- **C43.** The claim is false: a client that asks for a window of 256 bytes, and a server with the
default configuration, which accepts; then the client raises `ValueError` in `zlib.compressobj` and
stays in the `CONNECTING` state while the server is in the `OPEN` state. -/
theorem C43_agreement_false : ¬ AlwaysAgree := by
  intro h
  have ht : handshakeTest smallWindowClient deflateServer = some (101, .connecting) := by
    decide +kernel
  unfold handshakeTest at ht
  split at ht
  · cases ht
  · rename_i req hreq
    split at ht
    · cases ht
    · rename_i r hr
      simp only [Option.some.injEq, Prod.mk.injEq] at ht
      have := h storedZlib PyEnv.simple PyEnv.simple smallWindowClient deflateServer p!"now" req r
        (deflateServer.accept PyEnv.simple p!"now" req).2
        { side := .client, state := .connecting, maxSize := none } hreq (by rw [← hr]) ht.1 rfl
      rw [ht.2] at this
      cases this

/-! ## An example -/

/-- A client with the default configuration of permessage-deflate and two subprotocols. -/
def deflateClient : ClientConfig (Pmd storedZlib) where
  uri := { secure := false, host := p!"localhost", port := 80, resourceName := p!"/chat" }
  raw := b!"the sample nonce"
  subprotocols := some [p!"chat", p!"superchat"]
  extensions := some (enableClientPmd () none)

def chatServer : ServerConfig (Pmd storedZlib) where
  extensions := some (enableServerPmd () none)
  subprotocols := some [p!"superchat"]

def goodHeader (p : PyStr × PyStr) : Bool :=
  p.1 ≠ [] ∧ p.1.all isTokenChar ∧ (∀ c ∈ p.2, c = 9 ∨ (0x20 ≤ c ∧ c ≤ 0x7E)) ∧
    (∀ c ∈ p.2.head?.toList ++ p.2.getLast?.toList, c ≠ 9 ∧ c ≠ 0x20) ∧
    p.1.length + p.2.length + 4 ≤ 4110

theorem goodHeader_sound {p : PyStr × PyStr} (h : goodHeader p = true) : GoodHeader p := by
  unfold goodHeader at h
  obtain ⟨h1, h2, h3, h4, h5⟩ := of_decide_eq_true h
  refine ⟨h1, fun c hc => (isTokenChar_iff c).1 (List.all_eq_true.1 h2 c hc), h3, ?_, ?_, h5⟩
  · intro c hc; exact h4 c (by simp [hc])
  · intro c hc; exact h4 c (by simp [hc])

theorem sendable_of {hs : List (PyStr × PyStr)} (h1 : hs.length ≤ 256) (h2 : hs.all goodHeader = true) :
    Sendable hs :=
  ⟨h1, fun p hp => goodHeader_sound (List.all_eq_true.1 h2 p hp)⟩

/-- The hypotheses of `C43_agreement_partial` hold for these configurations, and the server accepts. -/
theorem deflateClient_chatServer : ∃ req, deflateClient.connect PyEnv.simple = .ok req ∧
    (∀ c ∈ deflateClient.uri.resourceName, 0x21 ≤ c ∧ c ≤ 0x7E) ∧ Sendable req.headers.rawItems ∧
    (∀ fs, deflateClient.extensions = some fs → ∀ f ∈ fs, TokenExt (f.name, f.requestParams)) ∧
    (∀ ps, deflateClient.subprotocols = some ps → ∀ p ∈ ps, Tok p) ∧
    Compatible Mirrored (deflateClient.extensions.getD []) (chatServer.extensions.getD []) ∧
    (match chatServer.accept PyEnv.simple p!"now" req with
      | (.ok r, a) => (r.statusCode = 101 ∧ r.headers.rawItems.all goodHeader = true ∧
          a.subprotocol = some (some p!"superchat") ∧ a.exts.map List.length = some 1)
      | (.error _, _) => False) := by
  have hx : (match deflateClient.connect PyEnv.simple with | .ok _ => true | .error _ => false) = true := by
    decide +kernel
  cases hc : deflateClient.connect PyEnv.simple with
  | error e => rw [hc] at hx; cases hx
  | ok req =>
    have hb : (match deflateClient.connect PyEnv.simple with
        | .ok req => req.headers.rawItems.all goodHeader && decide (req.headers.rawItems.length ≤ 256) &&
          (match chatServer.accept PyEnv.simple p!"now" req with
            | (.ok r, a) => decide (r.statusCode = 101) && r.headers.rawItems.all goodHeader &&
                decide (a.subprotocol = some (some p!"superchat")) &&
                decide (a.exts.map List.length = some 1)
            | (.error _, _) => false)
        | .error _ => false) = true := by decide +kernel
    rw [hc] at hb
    simp only [Bool.and_eq_true, decide_eq_true_eq] at hb
    refine ⟨req, rfl, by decide, sendable_of hb.1.2 hb.1.1, ?_, ?_, ?_, ?_⟩
    · intro fs hfs f hf
      cases hfs
      rw [List.mem_singleton.1 (show f ∈ [_] from hf)]
      exact PmdParams.build_tok _
    · intro ps hps p hp
      cases hps
      have : p ≠ [] ∧ p.all isTokenChar = true := by
        simp only [List.mem_cons, List.not_mem_nil, or_false] at hp
        rcases hp with rfl | rfl <;> decide +kernel
      exact .of_all this
    · refine C43_deflate _ _ (by decide) (by decide) ?_
      intro answer sx h
      have hd : (match (({ settings := () } : PmdServerConfig storedZlib).processRequestParams
          ({ clientBits := some .any } : PmdParams).build []) with
          | .ok (_, sx) => decide (sx.remoteBits = 15)
          | .error _ => false) = true := by decide +kernel
      have h' : ({ settings := () } : PmdServerConfig storedZlib).processRequestParams
          ({ clientBits := some .any } : PmdParams).build [] = .ok (answer, sx) := h
      rw [h'] at hd
      simp only [decide_eq_true_eq] at hd
      rw [hd]
      exact .inr ⟨(), rfl⟩
    · split at hb
      · rename_i h
        simp only [Bool.and_eq_true, decide_eq_true_eq] at hb
        exact ⟨hb.2.1.1.1, hb.2.1.1.2, hb.2.1.2, hb.2.2⟩
      · simp at hb

end WS
