import Verif.Props.Exceptions

/-!
# C107: exceptions carry and display what they were created with
-/

namespace WS.Exceptions

/-! ## Specification -/

/-- Attributes, with the position of the argument that they hold, and the default value of this argument -/
def Spec.fields : Cls → List (PyStr × Nat × Val)
  | .connectionClosed | .connectionClosedError | .connectionClosedOK => [(p!"code", 0, .none), (p!"reason", 1, .none)]
  | .invalidHeader | .invalidHeaderValue | .invalidUpgrade | .invalidParameterValue => [(p!"name", 0, .none), (p!"value", 1, .none)]
  | .invalidHeaderFormat | .duplicateParameter | .invalidParameterName => [(p!"name", 0, .none)]
  | .invalidOrigin => [(p!"value", 0, .none)]
  | .invalidStatusCode => [(p!"status_code", 0, .none)]
  | .abortHandshake => [(p!"status", 0, .none), (p!"headers", 1, .none), (p!"body", 2, .bytes [])]
  | .redirectHandshake | .invalidURI => [(p!"uri", 0, .none)]
  | _ => []

/-- What's wrong with something that is missing (`None`), empty, or has another value -/
def Spec.wrong (d : Display) (missing empty invalid : PyStr) (value : Val) (msg : PyStr) : Prop :=
  (value = .none → msg = missing) ∧ (value = .str [] → msg = empty) ∧
    (value ≠ .none → value ≠ .str [] → msg = invalid ++ p!": " ++ d.fmt value)

/-- Creating an exception displays this. -/
def Spec.Shows (d : Display) (cls : Cls) (args : List Val) (p : PyStr → Prop) : Prop :=
  ∃ o, call d cls args = .ok o ∧ o.cls = cls ∧ p (o.str d)

/-! ## C107 -/

theorem fields_closed {cls : Cls} {code reason : Val} {o : Obj} (h : initClosed cls code reason = .ok o) :
    o.dict.lookup p!"code" = some code ∧ o.dict.lookup p!"reason" = some reason := by
  unfold initClosed at h
  split at h
  · cases h; exact ⟨rfl, rfl⟩
  · cases h

theorem fields_abort {d : Display} {status headers body : Val} {o : Obj} (h : initAbort d status headers body = .ok o) :
    o.dict.lookup p!"status" = some status ∧ o.dict.lookup p!"headers" = some headers ∧ o.dict.lookup p!"body" = some body := by
  unfold initAbort at h
  split at h
  · cases h; exact ⟨rfl, rfl, rfl⟩
  · cases h

/-- **C107 attributes**: every exception that is created has the arguments of its constructor as attributes. -/
theorem C107_attributes (d : Display) (cls : Cls) (args : List Val) (o : Obj) (h : call d cls args = .ok o) :
    ∀ k i dflt, (k, i, dflt) ∈ Spec.fields cls → o.dict.lookup k = some (args[i]?.getD dflt) := by
  intro k i dflt hm
  cases cls <;> simp only [call] at h <;> simp only [Spec.fields] at hm <;> try cases hm; done
  all_goals
    repeat' split at h
    all_goals first
      | (cases h; done)
      | (cases h
         simp only [List.mem_cons, Prod.mk.injEq, List.not_mem_nil, or_false] at hm
         first
          | (rcases hm with ⟨rfl, rfl, rfl⟩ | ⟨rfl, rfl, rfl⟩ <;> rfl)
          | (obtain ⟨rfl, rfl, rfl⟩ := hm; rfl))
      | (have := fields_closed h
         simp only [List.mem_cons, Prod.mk.injEq, List.not_mem_nil, or_false] at hm
         rcases hm with ⟨rfl, rfl, rfl⟩ | ⟨rfl, rfl, rfl⟩
         · exact this.1
         · exact this.2)
      | (have := fields_abort h
         simp only [List.mem_cons, Prod.mk.injEq, List.not_mem_nil, or_false] at hm
         rcases hm with ⟨rfl, rfl, rfl⟩ | ⟨rfl, rfl, rfl⟩ | ⟨rfl, rfl, rfl⟩
         · exact this.1
         · exact this.2.1
         · exact this.2.2)

theorem wrong_header (d : Display) (name value : Val) : Spec.wrong d (p!"missing " ++ d.fmt name ++ p!" header")
    (p!"empty " ++ d.fmt name ++ p!" header") (p!"invalid " ++ d.fmt name ++ p!" header") value (headerMessage d name value) := by
  refine ⟨fun h => ?_, fun h => ?_, fun h1 h2 => ?_⟩ <;> unfold headerMessage
  · rw [if_pos h]
  · subst h; rfl
  · rw [if_neg h1, if_neg h2]; simp [List.append_assoc]

/-- **C107 headers**: exceptions about a header say whether it's missing, empty, or invalid, its name, and its value if it's
invalid; a value that isn't given is missing. -/
theorem C107_header (d : Display) (cls : Cls) (hc : cls = .invalidHeader ∨ cls = .invalidHeaderValue ∨ cls = .invalidUpgrade)
    (name value : Val) :
    Spec.Shows d cls [name] (· = p!"missing " ++ d.fmt name ++ p!" header") ∧
      Spec.Shows d cls [name, value] (Spec.wrong d (p!"missing " ++ d.fmt name ++ p!" header")
        (p!"empty " ++ d.fmt name ++ p!" header") (p!"invalid " ++ d.fmt name ++ p!" header") value) := by
  rcases hc with rfl | rfl | rfl <;>
    exact ⟨⟨_, rfl, rfl, (wrong_header d name .none).1 rfl⟩, _, rfl, rfl, wrong_header d name value⟩

/-- **C107 origin**: likewise for the header Origin -/
theorem C107_origin (d : Display) (origin : Val) :
    Spec.Shows d .invalidOrigin [origin] (Spec.wrong d p!"missing Origin header" p!"empty Origin header" p!"invalid Origin header" origin) :=
  ⟨_, rfl, rfl, wrong_header d (.str p!"Origin") origin⟩

/-- **C107 parameters**: likewise for parameters -/
theorem C107_parameter (d : Display) (name value : Val) :
    Spec.Shows d .invalidParameterValue [name, value] (Spec.wrong d (p!"missing value for parameter " ++ d.fmt name)
      (p!"empty value for parameter " ++ d.fmt name) (p!"invalid value for parameter " ++ d.fmt name) value) := by
  refine ⟨_, rfl, rfl, fun h => ?_, fun h => ?_, fun h1 h2 => ?_⟩ <;> simp only [Obj.str, Display.fmt, parameterMessage]
  · rw [if_pos h]
  · subst h; rfl
  · rw [if_neg h1, if_neg h2]

/-- **C107 format**: what's wrong, where, and in what; the message never says that the header is missing or empty. -/
theorem C107_format (d : Display) (name error header pos : Val) :
    Spec.Shows d .invalidHeaderFormat [name, error, header, pos]
      (· = p!"invalid " ++ d.fmt name ++ p!" header: " ++ (d.fmt error ++ p!" at " ++ d.fmt pos ++ p!" in " ++ d.fmt header)) := by
  refine ⟨_, rfl, rfl, ?_⟩
  have := (wrong_header d name (.str (d.fmt error ++ p!" at " ++ d.fmt pos ++ p!" in " ++ d.fmt header))).2.2 (by simp) (by simp)
  refine Eq.trans this ?_
  simp [Display.fmt, List.append_assoc]

/-- **C107 messages**: the other messages. -/
theorem C107_messages (d : Display) (v : Val) :
    Spec.Shows d .invalidStatusCode [v] (· = p!"server rejected WebSocket connection: HTTP " ++ d.fmt v) ∧
    Spec.Shows d .duplicateParameter [v] (· = p!"duplicate parameter: " ++ d.fmt v) ∧
    Spec.Shows d .invalidParameterName [v] (· = p!"invalid parameter name: " ++ d.fmt v) ∧
    Spec.Shows d .redirectHandshake [v] (· = p!"redirect to " ++ d.fmt v) ∧
    Spec.Shows d .invalidURI [v] (· = d.fmt v ++ p!" isn't a valid URI") ∧
    ∀ cls ∈ Spec.plain, cls ≠ .redirectHandshake → Spec.Shows d cls [v] (· = d.fmt v) := by
  refine ⟨⟨_, rfl, rfl, rfl⟩, ⟨_, rfl, rfl, rfl⟩, ⟨_, rfl, rfl, rfl⟩, ⟨_, rfl, rfl, rfl⟩, ⟨_, rfl, rfl, rfl⟩, fun cls hc hr => ?_⟩
  simp only [Spec.plain, List.mem_cons, List.not_mem_nil, or_false] at hc
  rcases hc with rfl | rfl | rfl | rfl | rfl | rfl | rfl | rfl | rfl <;> first | exact ⟨_, rfl, rfl, rfl⟩ | exact absurd rfl hr

/-- **C107 abort**: the status, the number of names of headers, and the size of the body, which is empty by default -/
theorem C107_abort (d : Display) (status : Val) (hs : List (PyStr × PyStr)) (body : Bytes) :
    Spec.Shows d .abortHandshake [status, .headers hs, .bytes body] (· = p!"HTTP " ++ d.fmt status ++ p!", " ++
      decStr (Headers.ofList hs).len ++ p!" headers, " ++ decStr body.length ++ p!" bytes") ∧
    call d .abortHandshake [status, .headers hs] = call d .abortHandshake [status, .headers hs, .bytes []] :=
  ⟨⟨_, rfl, rfl, rfl⟩, rfl⟩

/-- The number of headers in this message isn't the number of lines: headers with the same name count once. -/
theorem C107_count_false (d : Display) : ∃ hs : List (PyStr × PyStr), hs.length = 2 ∧
    Spec.Shows d .abortHandshake [.int 401, .headers hs] (· = p!"HTTP 401, 1 headers, 0 bytes") :=
  ⟨[(p!"Set-Cookie", p!"a"), (p!"Set-Cookie", p!"b")], rfl, _, rfl, rfl, by
    show p!"HTTP " ++ intStr 401 ++ p!", " ++ decStr (Headers.ofList [(p!"Set-Cookie", p!"a"), (p!"Set-Cookie", p!"b")]).len ++ p!" headers, " ++
      decStr ([] : Bytes).length ++ p!" bytes" = _
    decide +kernel⟩

/-- Examples -/
example (d : Display) : Spec.Shows d .invalidHeader [.str p!"Upgrade"] (· = p!"missing Upgrade header") ∧
    Spec.Shows d .invalidOrigin [.str p!"http://x"] (· = p!"invalid Origin header: http://x") ∧
    Spec.Shows d .invalidParameterValue [.str p!"p", .str []] (· = p!"empty value for parameter p") :=
  ⟨⟨_, rfl, rfl, rfl⟩, ⟨_, rfl, rfl, rfl⟩, ⟨_, rfl, rfl, rfl⟩⟩

end WS.Exceptions
