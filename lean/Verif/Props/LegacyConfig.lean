import Verif.Model.LegacyConfig
import Verif.Props.LegacyClient

/-!
# C93: the arguments of `connect()` and `serve()` reach the connections
-/

namespace WS.LegacyConfig

/-! ## Specifications -/

/-- `v` is the value of the argument `name`, or its default value if the argument isn't given. -/
def Spec.Arg (kw : Kw) (name : PyStr) (default v : Val) : Prop :=
  (name, v) ∈ kw ∨ (∀ v', (name, v') ∉ kw) ∧ v = default

/-- `v` is the first of `a` and `b` that isn't `None`. -/
def Spec.FirstOf (a b v : Val) : Prop := (a ≠ .none ∧ v = a) ∨ (a = .none ∧ v = b)

/-- The options that `connect()` and `serve()` have in common -/
structure Spec.Configured (kw : Kw) (c : Common) : Prop where
  pingInterval : Spec.Arg kw p!"ping_interval" (.int 20) c.pingInterval
  pingTimeout : Spec.Arg kw p!"ping_timeout" (.int 20) c.pingTimeout
  closeTimeout : ∃ close timeout t, Spec.Arg kw p!"close_timeout" .none close ∧ Spec.Arg kw p!"timeout" .none timeout ∧
    Spec.FirstOf timeout (.int 10) t ∧ Spec.FirstOf close t c.closeTimeout
  maxSize : Spec.Arg kw p!"max_size" (.int 1048576) c.maxSize
  maxQueue : Spec.Arg kw p!"max_queue" (.int 32) c.maxQueue
  readLimit : Spec.Arg kw p!"read_limit" (.int 65536) c.readLimit
  writeLimit : Spec.Arg kw p!"write_limit" (.int 65536) c.writeLimit
  legacyRecv : Spec.Arg kw p!"legacy_recv" (.bool false) c.legacyRecv
  /-- `StreamReader` pauses the transport above twice its limit. -/
  highWater : ∃ n, c.readLimit = .int n ∧ 2 * c.readerLimit ≤ n ∧ n ≤ 2 * c.readerLimit + 1

/-- The arguments that all constructors have -/
def Spec.names : List PyStr := [p!"close_timeout", p!"host", p!"legacy_recv", p!"loop", p!"max_queue", p!"max_size",
  p!"ping_interval", p!"ping_timeout", p!"port", p!"read_limit", p!"secure", p!"timeout", p!"write_limit"]

/-- The warnings that `connect()` and `serve()` issue -/
def Spec.Warned (kw : Kw) (w : List Warning) : Prop :=
  w.Nodup ∧ .origins ∉ w ∧ (.timeout ∈ w ↔ ∃ v, v ≠ .none ∧ (p!"timeout", v) ∈ kw) ∧
    (.klass ∈ w ↔ ∃ v, v ≠ .none ∧ (p!"klass", v) ∈ kw)

/-- The extensions of a connection: `compression` is `"deflate"` or `None`. -/
def Spec.Compressed (enable : Val → Val) (kw : Kw) (v : Val) : Prop :=
  ∃ extensions, Spec.Arg kw p!"extensions" .none extensions ∧
    ((Spec.Arg kw p!"compression" (.str p!"deflate") (.str p!"deflate") ∧ v = enable extensions) ∨
      (Spec.Arg kw p!"compression" (.str p!"deflate") .none ∧ v = extensions))

/-- Which origins a list stands for: `None` and `""` stand for requests without an `Origin` header. -/
def Spec.Allowed (l : List (Option PyStr)) (origin : Option PyStr) : Prop :=
  (origin = none ∧ (none ∈ l ∨ some [] ∈ l)) ∨ (∃ s, s ≠ [] ∧ origin = some s ∧ some s ∈ l)

/-! ## Lemmas -/

theorem arg_spec (kw : Kw) (name : PyStr) (default : Val) : Spec.Arg kw name default (kw.arg name default) := by
  unfold Kw.arg
  cases h : kw.lookup name with
  | none =>
    refine .inr ⟨fun v' hm => ?_, rfl⟩
    rw [List.lookup_eq_none_iff] at h
    have := h _ hm
    simp at this
  | some v =>
    left
    rw [List.lookup_eq_some_iff] at h
    obtain ⟨l1, l2, rfl, _⟩ := h
    simp

/-- Names occur once. -/
def Spec.Distinct (kw : Kw) : Prop := (kw.map Prod.fst).Nodup

theorem arg_unique {kw : Kw} (hd : Spec.Distinct kw) {name : PyStr} {default v : Val} (h : Spec.Arg kw name default v) :
    kw.arg name default = v := by
  have hu : ∀ v v', (name, v) ∈ kw → (name, v') ∈ kw → v = v' := by
    intro v v' h1 h2
    clear h
    unfold Spec.Distinct at hd
    induction kw with
    | nil => cases h1
    | cons p kw ih =>
      simp only [List.map_cons, List.nodup_cons] at hd
      rcases List.mem_cons.1 h1 with h3 | h3 <;> rcases List.mem_cons.1 h2 with h4 | h4
      · rw [← h3] at h4
        simpa using h4.symm
      · rw [← h3] at hd
        exact absurd (List.mem_map_of_mem (f := Prod.fst) h4) hd.1
      · rw [← h4] at hd
        exact absurd (List.mem_map_of_mem (f := Prod.fst) h3) hd.1
      · exact ih hd.2 h3 h4
  rcases arg_spec kw name default with h1 | ⟨h1, h2⟩ <;> rcases h with h3 | ⟨h3, h4⟩
  · exact hu _ _ h1 h3
  · exact absurd h1 (h3 _)
  · exact absurd h3 (h1 _)
  · rw [h2, h4]

theorem firstOf (a b : Val) : Spec.FirstOf a b (if a = .none then b else a) := by
  unfold Spec.FirstOf
  split <;> simp_all

/-- The constructor of a connection with the arguments that `connect()` and `serve()` give -/
theorem commonInit_eq (a b c d e g h i j k l : Val) (kw : Kw)
    (hk : kw.others commonParams = []) (h1 : kw.arg p!"ping_interval" (.int 20) = a)
    (h2 : kw.arg p!"ping_timeout" (.int 20) = b) (h3 : kw.arg p!"close_timeout" .none = c)
    (h4 : kw.arg p!"max_size" (.int (2 ^ 20)) = d) (h5 : kw.arg p!"max_queue" (.int (2 ^ 5)) = e)
    (h6 : kw.arg p!"read_limit" (.int (2 ^ 16)) = g) (h7 : kw.arg p!"write_limit" (.int (2 ^ 16)) = h)
    (h8 : kw.arg p!"host" .none = i) (h9 : kw.arg p!"port" .none = j) (h10 : kw.arg p!"secure" .none = k)
    (h11 : kw.arg p!"legacy_recv" (.bool false) = l) (h12 : kw.arg p!"timeout" .none = .none) :
    commonInit kw =
      match g with
      | .int x =>
        if x / 2 ≤ 0 then .error (.valueError p!"Limit cannot be <= 0")
        else .ok (⟨a, b, if c = .none then .int 10 else c, d, e, g, h, i, j, k, l, x / 2⟩, [])
      | _ => .error .typeError := by
  unfold commonInit
  rw [if_neg (by simp [hk])]
  simp only [closeTimeout, h1, h2, h3, h4, h5, h6, h7, h8, h9, h10, h11, h12]
  simp only [if_true]
  cases g <;> rfl

/-- The keyword arguments of the factory of `connect()` -/
abbrev clientKw (a b c d e g h i j k l m n o p : Val) : Kw :=
  [(p!"ping_interval", a), (p!"ping_timeout", b), (p!"close_timeout", c), (p!"max_size", d),
    (p!"max_queue", e), (p!"read_limit", g), (p!"write_limit", h), (p!"host", i), (p!"port", j), (p!"secure", k),
    (p!"legacy_recv", l), (p!"origin", m), (p!"extensions", n), (p!"subprotocols", o), (p!"extra_headers", p)]

theorem redirect_eq (cr a b c d e g h k l m n o p : Val) (redirects : List (PyStr × Nat)) (host : PyStr) (port : Nat) :
    redirects.foldl (fun f r => f.redirect r.1 r.2)
        (⟨cr, clientKw a b c d e g h (.str host) (.int port) k l m n o p⟩ : Factory) =
      ⟨cr, clientKw a b c d e g h (.str ((redirects.getLast?.map (·.1)).getD host))
        (.int ((redirects.getLast?.map (·.2)).getD port)) k l m n o p⟩ := by
  induction redirects generalizing host port with
  | nil => rfl
  | cons r rs ih =>
    refine (ih r.1 r.2).trans ?_
    cases rs with
    | nil => rfl
    | cons r' rs => simp [List.getLast?_cons]

theorem clientInit_eq (a b c d e g h i j k l m n o p : Val) :
    clientInit (clientKw a b c d e g h i j k l m n o p) =
      match g with
      | .int x =>
        if x / 2 ≤ 0 then .error (.valueError p!"Limit cannot be <= 0")
        else .ok (⟨m, n, o, p, ⟨a, b, if c = .none then .int 10 else c, d, e, g, h, i, j, k, l, x / 2⟩⟩, [])
      | _ => .error .typeError := by
  unfold clientInit
  rw [commonInit_eq a b c d e g h i j k l _ rfl rfl rfl rfl rfl rfl rfl rfl rfl rfl rfl rfl rfl]
  cases g with
  | int x => by_cases hx : x / 2 ≤ 0 <;> simp only [hx, if_true, if_false] <;> rfl
  | _ => rfl

theorem serverInit_eq (hd sv a b c d e g h i j k l m n o p q r : Val) :
    serverInit hd sv [(p!"host", i), (p!"port", j), (p!"secure", k), (p!"ping_interval", a), (p!"ping_timeout", b),
        (p!"close_timeout", c), (p!"max_size", d), (p!"max_queue", e), (p!"read_limit", g), (p!"write_limit", h),
        (p!"legacy_recv", l), (p!"origins", m), (p!"extensions", n), (p!"subprotocols", o), (p!"extra_headers", p),
        (p!"process_request", q), (p!"select_subprotocol", r)] =
      match g with
      | .int x =>
        if x / 2 ≤ 0 then .error (.valueError p!"Limit cannot be <= 0")
        else .ok (⟨hd, sv, (adjustOrigins m).1, n, o, p, q, r,
          ⟨a, b, if c = .none then .int 10 else c, d, e, g, h, i, j, k, l, x / 2⟩⟩, (adjustOrigins m).2)
      | _ => .error .typeError := by
  unfold serverInit
  rw [commonInit_eq a b c d e g h i j k l _ rfl rfl rfl rfl rfl rfl rfl rfl rfl rfl rfl rfl rfl]
  cases g with
  | int x =>
    by_cases hx : x / 2 ≤ 0
    · simp only [hx, if_true]
    · simp only [hx, if_false, List.append_nil]; rfl
  | _ => rfl

theorem closeTimeout_spec (kw : Kw) :
    (∃ close timeout t, Spec.Arg kw p!"close_timeout" .none close ∧ Spec.Arg kw p!"timeout" .none timeout ∧
      Spec.FirstOf timeout (.int 10) t ∧ Spec.FirstOf close t (closeTimeout kw).1) ∧ (closeTimeout kw).1 ≠ .none := by
  refine ⟨⟨_, _, _, arg_spec _ _ _, arg_spec _ _ _, firstOf _ _, firstOf _ _⟩, ?_⟩
  unfold closeTimeout
  simp only
  split
  · split <;> simp_all
  · assumption

theorem given {kw : Kw} (hd : Spec.Distinct kw) (name : PyStr) :
    kw.arg name .none ≠ .none ↔ ∃ v, v ≠ .none ∧ (name, v) ∈ kw := by
  constructor
  · intro h
    rcases arg_spec kw name .none with h1 | ⟨_, h1⟩
    · exact ⟨_, h, h1⟩
    · exact absurd h1 h
  · rintro ⟨v, h1, h2⟩
    rw [arg_unique hd (.inl h2)]
    exact h1

theorem warned {kw : Kw} (hd : Spec.Distinct kw) (default : Val) :
    Spec.Warned kw ((closeTimeout kw).2 ++ (createProtocol default kw).2) := by
  unfold Spec.Warned
  rw [← given hd, ← given hd]
  unfold closeTimeout createProtocol
  simp only
  by_cases h1 : kw.arg p!"timeout" .none = .none <;> by_cases h2 : kw.arg p!"klass" .none = .none <;> simp [h1, h2]

theorem compressed {enable : Val → Val} {kw : Kw} {v : Val} (h : compress enable kw = .ok v) :
    Spec.Compressed enable kw v := by
  unfold compress at h
  simp only at h
  refine ⟨_, arg_spec _ _ _, ?_⟩
  have hc := arg_spec kw p!"compression" (.str p!"deflate")
  split at h
  · next h1 =>
    rw [h1] at hc
    cases h
    exact .inl ⟨hc, rfl⟩
  · split at h
    · cases h
    · next h1 =>
      have h1 : kw.arg p!"compression" (.str p!"deflate") = .none := by simpa using h1
      rw [h1] at hc
      cases h
      exact .inr ⟨hc, rfl⟩

/-! ## C93 -/

/-- **C93, clients.** Every connection that `connect()` creates, before or after redirects to other places, has the
attributes that the arguments of `connect()` say; `host` and `port` are those of the URI or of the last redirect.
No other warning than those of `connect()` is issued. -/
theorem C93_client {enable : Val → Val} {default : Val} {wsuri : WsUri} {kw : Kw} {f : Factory} {w : List Warning}
    (hd : Spec.Distinct kw) (h : connectFactory enable default wsuri kw = .ok (f, w)) :
    Spec.Warned kw w ∧
    (∃ create klass k, Spec.Arg kw p!"create_protocol" .none create ∧ Spec.Arg kw p!"klass" .none klass ∧
      Spec.FirstOf klass default k ∧ Spec.FirstOf create k f.create) ∧
    ∀ (redirects : List (PyStr × Nat)) (c : Client) (w' : List Warning),
      clientInit (redirects.foldl (fun f r => f.redirect r.1 r.2) f).keywords = .ok (c, w') →
      w' = [] ∧ Spec.Configured kw c.common ∧ Spec.Arg kw p!"origin" .none c.origin ∧
        Spec.Compressed enable kw c.extensions ∧ Spec.Arg kw p!"subprotocols" .none c.subprotocols ∧
        Spec.Arg kw p!"extra_headers" .none c.extraHeaders ∧ c.common.secure = .bool wsuri.secure ∧
        c.common.host = .str ((redirects.getLast?.map (·.1)).getD wsuri.host) ∧
        c.common.port = .int ((redirects.getLast?.map (·.2)).getD wsuri.port) := by
  unfold connectFactory at h
  simp only at h
  cases hx : compress enable kw with
  | error e => rw [hx] at h; cases h
  | ok extensions =>
    rw [hx] at h
    cases h
    refine ⟨warned hd default, ⟨_, _, _, arg_spec _ _ _, arg_spec _ _ _, firstOf _ _, firstOf _ _⟩, ?_⟩
    intro redirects c w' hc
    rw [redirect_eq, clientInit_eq] at hc
    have hrl := arg_spec kw p!"read_limit" (.int (2 ^ 16))
    generalize hg : kw.arg p!"read_limit" (.int (2 ^ 16)) = g at hc hrl
    cases g with
    | int x =>
      simp only at hc
      split at hc
      · cases hc
      · cases hc
        obtain ⟨ht, hn⟩ := closeTimeout_spec kw
        refine ⟨rfl, ⟨arg_spec _ _ _, arg_spec _ _ _, ?_, arg_spec _ _ _, arg_spec _ _ _, hrl, arg_spec _ _ _,
          arg_spec _ _ _, ⟨x, rfl, ?_, ?_⟩⟩, arg_spec _ _ _, compressed hx, arg_spec _ _ _, arg_spec _ _ _, rfl, rfl, rfl⟩
        · simp only [if_neg hn]
          exact ht
        · show 2 * (x / 2) ≤ x
          omega
        · show x ≤ 2 * (x / 2) + 1
          omega
    | _ => cases hc

theorem arg_others {kw : Kw} {names : List PyStr} {name : PyStr} (default : Val) (h : name ∉ names) :
    (kw.others names).arg name default = kw.arg name default := by
  unfold Kw.arg Kw.others
  congr 1
  induction kw with
  | nil => rfl
  | cons p kw ih =>
    obtain ⟨n, v⟩ := p
    simp only [List.filter_cons]
    by_cases hn : n = name
    · subst hn
      rw [if_pos (by simpa using h)]
      simp
    · have h2 : (name == n) = false := by simpa using fun h => hn h.symm
      split
      · rw [List.lookup_cons, List.lookup_cons, h2, ih]
      · rw [List.lookup_cons, h2, ih]

/-- The constructor with any arguments -/
theorem commonInit_ok {kw : Kw} {c : Common} {w : List Warning} (h : commonInit kw = .ok (c, w)) :
    Spec.Configured kw c ∧ Spec.Arg kw p!"host" .none c.host ∧ Spec.Arg kw p!"port" .none c.port ∧
      Spec.Arg kw p!"secure" .none c.secure ∧ (∀ p ∈ kw, p.1 ∈ Spec.names) ∧
      w = (if kw.arg p!"timeout" .none = .none then [] else [.timeout]) := by
  unfold commonInit at h
  split at h
  · cases h
  next hk =>
  simp only at h
  have hrl := arg_spec kw p!"read_limit" (.int (2 ^ 16))
  generalize hg : kw.arg p!"read_limit" (.int (2 ^ 16)) = g at h hrl
  cases g with
  | int x =>
    simp only at h
    split at h
    · cases h
    · cases h
      refine ⟨⟨arg_spec _ _ _, arg_spec _ _ _, (closeTimeout_spec kw).1, arg_spec _ _ _, arg_spec _ _ _, hrl,
        arg_spec _ _ _, arg_spec _ _ _, ⟨x, rfl, ?_, ?_⟩⟩, arg_spec _ _ _, arg_spec _ _ _, arg_spec _ _ _, ?_, rfl⟩
      · show 2 * (x / 2) ≤ x
        omega
      · show x ≤ 2 * (x / 2) + 1
        omega
      · intro p hp
        have hk : kw.filter (fun p => !commonParams.contains p.1) = [] := by simpa [Kw.others] using hk
        rw [List.filter_eq_nil_iff] at hk
        have h1 : p.1 ∈ commonParams := by simpa using hk p hp
        have h2 : ∀ n ∈ commonParams, n ∈ Spec.names := by decide
        exact h2 _ h1
  | _ => cases h

theorem Spec.Arg.others {kw : Kw} {names : List PyStr} {name : PyStr} {default v : Val}
    (h : Spec.Arg (kw.others names) name default v) (hn : name ∉ names) : Spec.Arg kw name default v := by
  have hm : ∀ v, (name, v) ∈ kw.others names ↔ (name, v) ∈ kw := by
    intro v
    unfold Kw.others
    simp only [List.mem_filter, Bool.not_eq_true', and_iff_left_iff_imp]
    intro _
    simpa using hn
  simpa only [Spec.Arg, hm] using h

theorem Spec.Configured.others {kw : Kw} {names : List PyStr} {c : Common} (h : Spec.Configured (kw.others names) c)
    (hn : ∀ n ∈ names, n ∉ commonParams) : Spec.Configured kw c := by
  have hm : ∀ n ∈ commonParams, n ∉ names := fun n h1 h2 => hn n h2 h1
  obtain ⟨close, timeout, t, h1, h2, h3, h4⟩ := h.closeTimeout
  exact ⟨h.pingInterval.others (hm _ (by decide)), h.pingTimeout.others (hm _ (by decide)),
    ⟨close, timeout, t, h1.others (hm _ (by decide)), h2.others (hm _ (by decide)), h3, h4⟩,
    h.maxSize.others (hm _ (by decide)), h.maxQueue.others (hm _ (by decide)), h.readLimit.others (hm _ (by decide)),
    h.writeLimit.others (hm _ (by decide)), h.legacyRecv.others (hm _ (by decide)), h.highWater⟩

/-- **C93, constructors.** Client connections that are created without `connect()` have the attributes that the arguments of the
constructor say; there are no other arguments; the warning is issued exactly when `timeout` is given. -/
theorem C93_client_constructor {kw : Kw} {c : Client} {w : List Warning} (hd : Spec.Distinct kw)
    (h : clientInit kw = .ok (c, w)) :
    Spec.Configured kw c.common ∧ Spec.Arg kw p!"host" .none c.common.host ∧ Spec.Arg kw p!"port" .none c.common.port ∧
      Spec.Arg kw p!"secure" .none c.common.secure ∧ Spec.Arg kw p!"origin" .none c.origin ∧
      Spec.Arg kw p!"extensions" .none c.extensions ∧ Spec.Arg kw p!"subprotocols" .none c.subprotocols ∧
      Spec.Arg kw p!"extra_headers" .none c.extraHeaders ∧
      (∀ p ∈ kw, p.1 ∈ Spec.names ∨ p.1 ∈ [p!"origin", p!"extensions", p!"subprotocols", p!"extra_headers"]) ∧
      (w = [.timeout] ∧ (∃ v, v ≠ .none ∧ (p!"timeout", v) ∈ kw) ∨
        w = [] ∧ ¬ ∃ v, v ≠ .none ∧ (p!"timeout", v) ∈ kw) := by
  unfold clientInit at h
  split at h
  · cases h
  · next common warnings hc =>
    cases h
    obtain ⟨h1, h2, h3, h4, h5, rfl⟩ := commonInit_ok hc
    refine ⟨h1.others (by decide), h2.others (by decide), h3.others (by decide), h4.others (by decide), arg_spec _ _ _,
      arg_spec _ _ _, arg_spec _ _ _, arg_spec _ _ _, ?_, ?_⟩
    · intro p hp
      by_cases hn : p.1 ∈ [p!"origin", p!"extensions", p!"subprotocols", p!"extra_headers"]
      · exact .inr hn
      · exact .inl (h5 p (by unfold Kw.others; exact List.mem_filter.2 ⟨hp, by simpa using hn⟩))
    · rw [arg_others _ (by decide), ← given hd]
      by_cases ht : kw.arg p!"timeout" .none = .none <;> simp [ht]

/-- **C93, constructors.** Likewise for server connections -/
theorem C93_server_constructor {handler server : Val} {kw : Kw} {c : Server} {w : List Warning} (hd : Spec.Distinct kw)
    (h : serverInit handler server kw = .ok (c, w)) :
    c.handler = handler ∧ c.server = server ∧
    Spec.Configured kw c.common ∧ Spec.Arg kw p!"host" .none c.common.host ∧ Spec.Arg kw p!"port" .none c.common.port ∧
      Spec.Arg kw p!"secure" .none c.common.secure ∧
      (∃ origins, Spec.Arg kw p!"origins" .none origins ∧ c.origins = (adjustOrigins origins).1) ∧
      Spec.Arg kw p!"extensions" .none c.extensions ∧ Spec.Arg kw p!"subprotocols" .none c.subprotocols ∧
      Spec.Arg kw p!"extra_headers" .none c.extraHeaders ∧
      Spec.Arg kw p!"process_request" .none c.processRequest ∧
      Spec.Arg kw p!"select_subprotocol" .none c.selectSubprotocol ∧
      (∀ p ∈ kw, p.1 ∈ Spec.names ∨ p.1 ∈ [p!"origins", p!"extensions", p!"subprotocols", p!"extra_headers",
        p!"process_request", p!"select_subprotocol"]) ∧
      w.Nodup ∧ .klass ∉ w ∧ (.timeout ∈ w ↔ ∃ v, v ≠ .none ∧ (p!"timeout", v) ∈ kw) ∧
      (.origins ∈ w ↔ ∃ l, (p!"origins", .strs l) ∈ kw ∧ some [] ∈ l) := by
  unfold serverInit at h
  simp only at h
  split at h
  · cases h
  · next common warnings hc =>
    cases h
    obtain ⟨h1, h2, h3, h4, h5, rfl⟩ := commonInit_ok hc
    refine ⟨rfl, rfl, h1.others (by decide), h2.others (by decide), h3.others (by decide), h4.others (by decide),
      ⟨_, arg_spec _ _ _, rfl⟩, arg_spec _ _ _, arg_spec _ _ _, arg_spec _ _ _, arg_spec _ _ _, arg_spec _ _ _, ?_, ?_⟩
    · intro p hp
      by_cases hn : p.1 ∈ [p!"origins", p!"extensions", p!"subprotocols", p!"extra_headers", p!"process_request",
        p!"select_subprotocol"]
      · exact .inr hn
      · exact .inl (h5 p (by unfold Kw.others; exact List.mem_filter.2 ⟨hp, by simpa using hn⟩))
    · rw [arg_others _ (by decide), ← given hd]
      have ho : (adjustOrigins (kw.arg p!"origins" .none)).2 = [.origins] ∧
            (∃ l, (p!"origins", .strs l) ∈ kw ∧ some [] ∈ l) ∨
          (adjustOrigins (kw.arg p!"origins" .none)).2 = [] ∧ ¬ ∃ l, (p!"origins", .strs l) ∈ kw ∧ some [] ∈ l := by
        have ho := arg_spec kw p!"origins" .none
        by_cases hl : ∃ l, (p!"origins", .strs l) ∈ kw ∧ some [] ∈ l
        · refine .inl ⟨?_, hl⟩
          obtain ⟨l, h1, h2⟩ := hl
          rw [arg_unique hd (.inl h1)]
          simp only [adjustOrigins, if_pos h2]
        · refine .inr ⟨?_, hl⟩
          generalize kw.arg p!"origins" .none = o at ho
          cases o with
          | strs l =>
            rcases ho with ho | ⟨_, ho⟩
            · simp only [adjustOrigins]
              rw [if_neg fun h2 => hl ⟨l, ho, h2⟩]
            · cases ho
          | _ => rfl
      generalize (∃ l, (p!"origins", .strs l) ∈ kw ∧ some [] ∈ l) = P at ho ⊢
      rcases ho with ⟨ho, hl⟩ | ⟨ho, hl⟩ <;> rw [ho] <;>
        by_cases ht : kw.arg p!"timeout" .none = .none <;> simp [hl, ht]

/-- **C93, servers.** Every connection that `serve()` creates has the attributes that the arguments of `serve()` say.
Connections issue a warning only if `""` is in `origins`. -/
theorem C93_server {enable : Val → Val} {default host port handler server : Val} {kw : Kw} {f : Factory}
    {w : List Warning} (hd : Spec.Distinct kw) (h : serveFactory enable default host port kw = .ok (f, w)) :
    Spec.Warned kw w ∧
    (∃ create klass k, Spec.Arg kw p!"create_protocol" .none create ∧ Spec.Arg kw p!"klass" .none klass ∧
      Spec.FirstOf klass default k ∧ Spec.FirstOf create k f.create) ∧
    ∀ (c : Server) (w' : List Warning), serverInit handler server f.keywords = .ok (c, w') →
      (w' = [.origins] ∧ (∃ l, (p!"origins", .strs l) ∈ kw ∧ some [] ∈ l) ∨
          w' = [] ∧ ¬ ∃ l, (p!"origins", .strs l) ∈ kw ∧ some [] ∈ l) ∧
        Spec.Configured kw c.common ∧ c.handler = handler ∧ c.server = server ∧
        (∃ origins, Spec.Arg kw p!"origins" .none origins ∧ c.origins = (adjustOrigins origins).1) ∧
        Spec.Compressed enable kw c.extensions ∧ Spec.Arg kw p!"subprotocols" .none c.subprotocols ∧
        Spec.Arg kw p!"extra_headers" .none c.extraHeaders ∧
        Spec.Arg kw p!"process_request" .none c.processRequest ∧
        Spec.Arg kw p!"select_subprotocol" .none c.selectSubprotocol ∧ c.common.host = host ∧ c.common.port = port ∧
        (c.common.secure = .bool true ∧ (∃ v, v ≠ .none ∧ (p!"ssl", v) ∈ kw) ∨
          c.common.secure = .bool false ∧ ¬ ∃ v, v ≠ .none ∧ (p!"ssl", v) ∈ kw) := by
  unfold serveFactory at h
  simp only at h
  cases hx : compress enable kw with
  | error e => rw [hx] at h; cases h
  | ok extensions =>
    rw [hx] at h
    simp only at h
    split at h
    · cases h
    cases h
    refine ⟨warned hd default, ⟨_, _, _, arg_spec _ _ _, arg_spec _ _ _, firstOf _ _, firstOf _ _⟩, ?_⟩
    intro c w' hc
    rw [serverInit_eq] at hc
    have hrl := arg_spec kw p!"read_limit" (.int (2 ^ 16))
    generalize hg : kw.arg p!"read_limit" (.int (2 ^ 16)) = g at hc hrl
    cases g with
    | int x =>
      simp only at hc
      split at hc
      · cases hc
      · cases hc
        obtain ⟨ht, hn⟩ := closeTimeout_spec kw
        refine ⟨?_, ⟨arg_spec _ _ _, arg_spec _ _ _, ?_, arg_spec _ _ _, arg_spec _ _ _, hrl, arg_spec _ _ _,
          arg_spec _ _ _, ⟨x, rfl, ?_, ?_⟩⟩, rfl, rfl, ⟨_, arg_spec _ _ _, rfl⟩, compressed hx, arg_spec _ _ _,
          arg_spec _ _ _, arg_spec _ _ _, arg_spec _ _ _, rfl, rfl, ?_⟩
        · have ho := arg_spec kw p!"origins" .none
          by_cases hl : ∃ l, (p!"origins", .strs l) ∈ kw ∧ some [] ∈ l
          · refine .inl ⟨?_, hl⟩
            obtain ⟨l, h1, h2⟩ := hl
            rw [arg_unique hd (.inl h1)]
            simp only [adjustOrigins, if_pos h2]
          · refine .inr ⟨?_, hl⟩
            generalize kw.arg p!"origins" .none = o at ho
            cases o with
            | strs l =>
              rcases ho with ho | ⟨_, ho⟩
              · simp only [adjustOrigins]
                rw [if_neg fun h2 => hl ⟨l, ho, h2⟩]
              · cases ho
            | _ => rfl
        · simp only [if_neg hn]
          exact ht
        · show 2 * (x / 2) ≤ x
          omega
        · show x ≤ 2 * (x / 2) + 1
          omega
        · rw [← given hd]
          by_cases hs : kw.arg p!"ssl" .none = .none
          · exact .inr ⟨by simp [hs], by simp [hs]⟩
          · exact .inl ⟨by simp [hs], hs⟩
    | _ => cases hc

/-- `connect()` and `serve()` refuse other values of `compression`, and only them (and a host or a port for a Unix
socket). -/
theorem C93_compression (enable : Val → Val) (default : Val) (wsuri : WsUri) (host port : Val) (kw : Kw) (v : Val)
    (hd : Spec.Distinct kw) (hv : Spec.Arg kw p!"compression" (.str p!"deflate") v) :
    ((∃ r, connectFactory enable default wsuri kw = .ok r) ↔ v = .none ∨ v = .str p!"deflate") ∧
    ((∃ r, serveFactory enable default host port kw = .ok r) ↔ (v = .none ∨ v = .str p!"deflate") ∧
      ((p!"unix", .bool true) ∈ kw → host = .none ∧ port = .none)) := by
  have hc : (∃ x, compress enable kw = .ok x) ↔ v = .none ∨ v = .str p!"deflate" := by
    unfold compress
    rw [arg_unique hd hv]
    by_cases h1 : v = .str p!"deflate"
    · simp [h1]
    · by_cases h2 : v = .none <;> simp [h1, h2]
  have hu : kw.arg p!"unix" (.bool false) = .bool true ↔ (p!"unix", .bool true) ∈ kw := by
    constructor
    · intro h
      rcases arg_spec kw p!"unix" (.bool false) with h1 | ⟨_, h1⟩
      · rw [← h]; exact h1
      · rw [h] at h1; cases h1
    · intro h
      exact arg_unique hd (.inl h)
  rw [← hc]
  unfold connectFactory serveFactory
  simp only [hu]
  cases compress enable kw with
  | error e => simp
  | ok x =>
    simp only [Except.ok.injEq, exists_eq', true_and]
    split
    · next h =>
      simp only [reduceCtorEq, exists_false, false_iff]
      intro h2
      have := h2 h.1
      simp [this] at h
    · next h =>
      simp only [Except.ok.injEq, exists_eq', true_iff]
      intro h2
      simpa [h2] using h

/-- Connections can be created if `read_limit` is at least 2. -/
theorem C93_created {enable : Val → Val} {default : Val} {wsuri : WsUri} {kw : Kw} {f : Factory} {w : List Warning}
    (h : connectFactory enable default wsuri kw = .ok (f, w)) (hd : Spec.Distinct kw) (n : Int)
    (hn : Spec.Arg kw p!"read_limit" (.int 65536) (.int n)) (redirects : List (PyStr × Nat)) :
    (∃ r, clientInit (redirects.foldl (fun f r => f.redirect r.1 r.2) f).keywords = .ok r) ↔ 2 ≤ n := by
  unfold connectFactory at h
  simp only at h
  cases hx : compress enable kw with
  | error e => rw [hx] at h; cases h
  | ok extensions =>
    rw [hx] at h
    cases h
    rw [redirect_eq, clientInit_eq]
    have : kw.arg p!"read_limit" (.int (2 ^ 16)) = .int n := arg_unique hd hn
    rw [this]
    simp only
    split
    · simp only [reduceCtorEq, exists_false, false_iff]; omega
    · simp only [Except.ok.injEq, exists_eq', true_iff]; omega

/-- **C93, origins.** In `origins`, `""` and `None` both stand for requests without `Origin`. -/
theorem C93_origins {X : Type} (cfg : ServerConfig X) (l l' : List (Option PyStr)) (w : List Warning)
    (h : adjustOrigins (.strs l) = (.strs l', w)) (hc : cfg.origins = some l') (headers : Headers)
    (origin : Option PyStr) (hh : headers.get? p!"Origin" = .ok origin) :
    (some [] ∈ l → ((∃ o, cfg.processOrigin headers = .ok o) ↔ Spec.Allowed l origin)) ∧
    (some [] ∉ l → l' = l ∧ w = []) ∧ (∀ o, cfg.processOrigin headers = .ok o → o = origin) := by
  have hp : ∀ o, cfg.processOrigin headers = .ok o ↔ origin ∈ l' ∧ o = origin := by
    intro o
    unfold ServerConfig.processOrigin
    rw [hh, hc]
    simp only
    split
    · next hm => simp only [Except.ok.injEq, hm, true_and]; exact eq_comm
    · next hm => simp [hm]
  refine ⟨fun he => ?_, fun he => ?_, fun o ho => ((hp o).1 ho).2⟩
  · simp only [adjustOrigins, if_pos he] at h
    have hl : l' = l.map fun o => if o = some [] then none else o := by
      have := congrArg Prod.fst h
      simpa [eq_comm] using this
    simp only [hp]
    rw [hl]
    constructor
    · rintro ⟨o, ho, -⟩
      obtain ⟨x, hx, hxo⟩ := List.mem_map.1 ho
      split at hxo
      · exact .inl ⟨hxo.symm, .inr he⟩
      · next hne =>
        subst hxo
        cases hx' : x with
        | none => subst hx'; exact .inl ⟨rfl, .inl hx⟩
        | some s =>
          subst hx'
          exact .inr ⟨s, fun h => hne (by rw [h]), rfl, hx⟩
    · intro ho
      refine ⟨origin, List.mem_map.2 ?_, rfl⟩
      rcases ho with ⟨rfl, h1⟩ | ⟨s, h1, rfl, h2⟩
      · exact ⟨some [], he, by simp⟩
      · exact ⟨some s, h2, by simp [h1]⟩
  · simp only [adjustOrigins, if_neg he] at h
    simp only [Prod.mk.injEq, Val.strs.injEq] at h
    exact ⟨h.1.symm, h.2.symm⟩

end WS.LegacyConfig

namespace WS.LegacyClient

/-- The states of a `Connect` object: after its creation, after redirects -/
inductive Spec.Reached (env : Uri.Env) (uri : PyStr) (kw : Kwargs) : Connect → Prop
  | init {c : Connect} : Connect.init env uri kw = .ok c → Reached env uri kw c
  | redirect {c c' : Connect} {location : PyStr} : Reached env uri kw c → c.handleRedirect env location = .ok c' →
      Reached env uri kw c'

/-- **C93.** After any redirects, `host` and `port` of a new connection are those of the current URI; `secure` is
true if and only if the initial URI is a wss URI: then the current URI is a wss URI too, and TLS is used, unless
`ssl=None` is passed. -/
theorem C93_place {env : Uri.Env} {uri : PyStr} {kw : Kwargs} {c : Connect} (h : Spec.Reached env uri kw c) :
    c.protoHost = c.wsuri.host ∧ c.protoPort = c.wsuri.port ∧ (c.protoSecure = true → c.wsuri.secure = true) ∧
      (c.tls = true ↔ c.protoSecure = true ∧ kw.ssl ≠ .none) ∧
      ∃ u, Uri.parseUri env uri = .ok u ∧ c.protoSecure = u.secure := by
  induction h with
  | init h =>
    obtain ⟨h1, h2, -, -⟩ := init_ok h
    have h3 : ∀ {c : Connect}, Connect.init env uri kw = .ok c → c.protoHost = c.wsuri.host ∧
        c.protoPort = c.wsuri.port ∧ c.protoSecure = c.wsuri.secure := by
      intro c h
      unfold Connect.init at h
      split at h
      · cases h
      · split at h <;> cases h
        exact ⟨rfl, rfl, rfl⟩
    obtain ⟨h4, h5, h6⟩ := h3 h
    exact ⟨h4, h5, fun h => by rw [← h6]; exact h, by rw [h6]; exact h2, _, h1, h6⟩
  | redirect _ h ih =>
    obtain ⟨i1, i2, i3, i4, i5⟩ := ih
    obtain ⟨-, r2, r3, -⟩ := handleRedirect_ok h
    unfold Connect.handleRedirect at h
    split at h
    · cases h
    · split at h
      · cases h
      · split at h
        · next hs =>
          cases h
          exact ⟨i1.trans hs.1, i2.trans hs.2, fun h => r2 (i3 h), i4, i5⟩
        · cases h
          exact ⟨rfl, rfl, fun h => r2 (i3 h), i4, i5⟩

end WS.LegacyClient

namespace WS.LegacyConfig

/-- Example: a client -/
example :
    let kw : Kw := [(p!"timeout", .int 5), (p!"max_size", .none), (p!"compression", .none), (p!"origin", .str p!"http://a")]
    let uri : WsUri := { secure := true, host := p!"h", port := 443, resourceName := p!"/" }
    Spec.Distinct kw ∧
    (match connectFactory id (.obj 0) uri kw with
      | .ok (f, w) =>
        (match clientInit (f.redirect p!"g" 8000).keywords with
          | .ok (c, w') => some (w, f.create, w', c.common.closeTimeout, c.common.maxSize, c.common.readerLimit,
              c.common.host, c.origin)
          | .error _ => none)
      | .error _ => none) =
    some ([.timeout], .obj 0, [], .int 5, .none, 32768, .str p!"g", .str p!"http://a") := by
  refine ⟨by unfold Spec.Distinct; decide +kernel, by rfl⟩

/-- Example: a server -/
example :
    let kw : Kw := [(p!"klass", .obj 7), (p!"origins", .strs [some p!"http://a", some []]), (p!"ssl", .obj 3)]
    Spec.Distinct kw ∧
    (match serveFactory id (.obj 0) (.str p!"localhost") (.int 8765) kw with
      | .ok (f, w) =>
        (match serverInit (.obj 1) (.obj 2) f.keywords with
          | .ok (c, w') => some (w, f.create, w', c.common.closeTimeout, c.common.secure, c.origins)
          | .error _ => none)
      | .error _ => none) =
    some ([.klass], .obj 7, [.origins], .int 10, .bool true, .strs [some p!"http://a", none]) := by
  refine ⟨by unfold Spec.Distinct; decide +kernel, by decide +kernel⟩

/-- Example: constructors -/
example :
    (match clientInit [(p!"timeout", .int 5), (p!"origin", .str p!"http://a"), (p!"read_limit", .int 3)] with
      | .ok (c, w) => some (w, c.common.closeTimeout, c.common.readerLimit, c.origin)
      | .error _ => none) = some ([.timeout], .int 5, 1, .str p!"http://a") ∧
    (match serverInit (.obj 1) (.obj 2) [(p!"timeout", .int 5), (p!"origins", .strs [some []])] with
      | .ok (c, w) => some (w, c.common.closeTimeout, c.origins)
      | .error _ => none) = some ([.origins, .timeout], .int 5, .strs [none]) ∧
    (match clientInit [(p!"origins", .none)] with | .ok _ => none | .error e => some e) = some .typeError := by
  decide +kernel

/-- A request with an empty `Origin` header isn't accepted if `""` is in `origins`. -/
example : (match ({ origins := some [none] } : ServerConfig Unit).processOrigin (Headers.ofList [(p!"Origin", [])]) with
    | .ok _ => true | .error _ => false) = false ∧
    (adjustOrigins (.strs [some []])).1 = .strs [none] := by decide +kernel

end WS.LegacyConfig
