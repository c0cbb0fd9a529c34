import Verif.Model.Exceptions

/-!
# C101: copies of exceptions

The model is in `Verif.Model.Exceptions`.
-/

namespace WS.Exceptions

/-! ## Specification -/

/-- An instance that the library or the application created by calling its class -/
def Spec.Created (d : Display) (o : Obj) : Prop := ∃ args, call d o.cls args = .ok o

/-- The copy is the same exception: its class, what it displays, and its attributes. -/
def Spec.Same (d : Display) (o o' : Obj) : Prop :=
  o'.cls = o.cls ∧ o'.str d = o.str d ∧ ∀ name, o'.dict.lookup name = o.dict.lookup name

/-- Exceptions can be sent to another process. -/
def Spec.Copies (d : Display) (cls : Cls) : Prop :=
  ∀ o, o.cls = cls → Spec.Created d o → ∃ o', o.copy d = .ok o' ∧ Spec.Same d o o'

/-- Classes that can be copied: those without `__init__`, and `RedirectHandshake` -/
def Spec.plain : List Cls := [.webSocketException, .invalidHandshake, .securityError, .invalidMessage, .negotiationError,
  .redirectHandshake, .invalidState, .payloadTooBig, .protocolError]

/-- Classes whose constructor needs several arguments -/
def Spec.several : List Cls := [.connectionClosed, .connectionClosedError, .connectionClosedOK, .invalidHeaderFormat,
  .invalidParameterValue, .abortHandshake]

/-- Classes whose constructor accepts a message instead of its argument -/
def Spec.single : List Cls := [.invalidHeader, .invalidHeaderValue, .invalidOrigin, .invalidUpgrade, .invalidStatusCode,
  .duplicateParameter, .invalidParameterName, .invalidURI]

/-- The attributes `code` and `reason` -/
def Spec.attributes (o : Obj) : Option Val × Option Val := (o.dict.lookup p!"code", o.dict.lookup p!"reason")

/-! ## Theorems -/

private theorem closed_args {cls' : Cls} {a b : Val} {o : Obj} (h : initClosed cls' a b = .ok o) :
    o.cls = cls' ∧ ∃ v, o.args = [v] := by
  unfold initClosed at h
  split at h <;> cases h
  exact ⟨rfl, _, rfl⟩

/-- Every class is in one of the lists. -/
theorem C101_classes (cls : Cls) : cls ∈ Spec.plain ∨ cls ∈ Spec.several ∨ cls ∈ Spec.single := by
  cases cls <;> decide

/-- **C101 partial**: an exception of a class without a constructor, or a `RedirectHandshake`, and its copy are the same.
Missing: the other classes, for which this is false. -/
theorem C101_copy_partial (d : Display) (cls : Cls) (h : cls ∈ Spec.plain) : Spec.Copies d cls := by
  intro o hc ⟨args, ha⟩
  obtain ⟨cls', args', dict⟩ := o
  simp only at hc ha
  subst hc
  simp only [Spec.plain, List.mem_cons, List.not_mem_nil, or_false] at h
  rcases h with rfl | rfl | rfl | rfl | rfl | rfl | rfl | rfl | rfl
  case inr.inr.inr.inr.inr.inl =>
    simp only [call] at ha
    split at ha
    · next uri => cases ha; exact ⟨_, rfl, rfl, by simp [Obj.str, update], by simp [update]⟩
    · cases ha
  all_goals
    simp only [call, Except.ok.injEq, Obj.mk.injEq, true_and] at ha
    obtain ⟨rfl, rfl⟩ := ha
    exact ⟨_, rfl, rfl, rfl, fun _ => rfl⟩

/-- **C101 false**: copying a `ConnectionClosed`, an `InvalidHeaderFormat`, an `InvalidParameterValue` or an
`AbortHandshake` always raises `TypeError`. -/
theorem C101_raises_false (d : Display) (cls : Cls) (h : cls ∈ Spec.several) (o : Obj) (hc : o.cls = cls)
    (ho : Spec.Created d o) : o.copy d = .error .typeError := by
  obtain ⟨args, ha⟩ := ho
  suffices hs : ∃ v, o.args = [v] by
    obtain ⟨v, hv⟩ := hs
    unfold Obj.copy
    rw [hv, hc]
    simp only [Spec.several, List.mem_cons, List.not_mem_nil, or_false] at h
    rcases h with rfl | rfl | rfl | rfl | rfl | rfl <;> rfl
  rw [hc] at ha
  simp only [Spec.several, List.mem_cons, List.not_mem_nil, or_false] at h
  rcases h with rfl | rfl | rfl | rfl | rfl | rfl <;> simp only [call] at ha <;> split at ha <;> try cases ha
  · exact (closed_args ha).2
  · split at ha
    · exact (closed_args ha).2
    · cases ha
  · split at ha
    · exact (closed_args ha).2
    · cases ha
  · exact ⟨_, rfl⟩
  · exact ⟨_, rfl⟩
  · unfold initAbort at ha; split at ha <;> cases ha; exact ⟨_, rfl⟩
  · unfold initAbort at ha; split at ha <;> cases ha; exact ⟨_, rfl⟩

/-- **C101 false**: copying an exception of the other classes succeeds and keeps its attributes, but what it displays is
always longer: the message is taken for the argument. -/
theorem C101_message_false (d : Display) (cls : Cls) (h : cls ∈ Spec.single) (o : Obj) (hc : o.cls = cls)
    (ho : Spec.Created d o) : ∃ o', o.copy d = .ok o' ∧ o'.cls = o.cls ∧
      (∀ name, o'.dict.lookup name = o.dict.lookup name) ∧ (o.str d).length < (o'.str d).length := by
  obtain ⟨args, ha⟩ := ho
  have hne : ∀ name value, headerMessage d name value ≠ [] := by
    intro name value; unfold headerMessage; split <;> (try split) <;> simp
  have h1 : ∀ m : PyStr, m ≠ [] → m.length < (headerMessage d (.str m) .none).length := by
    intro m _; simp [headerMessage, Display.fmt]; omega
  have h2 : ∀ m : PyStr, m ≠ [] → m.length < (headerMessage d (.str p!"Origin") (.str m)).length := by
    intro m hm; simp [headerMessage, Display.fmt, hm]; omega
  rw [hc] at ha
  simp only [Spec.single, List.mem_cons, List.not_mem_nil, or_false] at h
  rcases h with rfl | rfl | rfl | rfl | rfl | rfl | rfl | rfl <;> simp only [call] at ha <;> split at ha <;> cases ha
  all_goals
    refine ⟨_, rfl, rfl, by simp [update, initHeader], ?_⟩
    first
    | (simp [Obj.str, Display.fmt] <;> omega)
    | (simp only [Obj.str, initHeader, Display.fmt]; exact h1 _ (hne _ _))
    | (simp only [Obj.str, initHeader, Display.fmt]; exact h2 _ (hne _ _))

/-- **C101 normal closure**: a connection that closes with a code and a reason is reported with exactly one of
`ConnectionClosedOK` (going away, or a normal closure) and `ConnectionClosedError` (anything else), whose attributes are
this code and this reason; the constructor of the other one fails. -/
theorem C101_closed (d : Display) (code : Int) (reason : PyStr) :
    ∃ o, Spec.attributes o = (some (.int code), some (.str reason)) ∧
      if code = 1000 ∨ code = 1001 then
        call d .connectionClosedOK [.int code, .str reason] = .ok o ∧
          call d .connectionClosedError [.int code, .str reason] = .error .assertionError
      else
        call d .connectionClosedError [.int code, .str reason] = .ok o ∧
          call d .connectionClosedOK [.int code, .str reason] = .error .assertionError := by
  by_cases h : code = 1000 ∨ code = 1001
  · have hok : call d .connectionClosedOK [.int code, .str reason] =
        initClosed .connectionClosedOK (.int code) (.str reason) := by
      simp only [call, Val.int.injEq, if_pos h]
    simp only [if_pos h, hok]
    refine ⟨_, ?_, rfl, ?_⟩
    · rfl
    · simp only [call, ne_eq, Val.int.injEq]; rw [if_neg (by omega)]
  · have hok : call d .connectionClosedError [.int code, .str reason] =
        initClosed .connectionClosedError (.int code) (.str reason) := by
      simp only [call, ne_eq, Val.int.injEq]; rw [if_pos (by omega)]
    simp only [if_neg h, hok]
    refine ⟨_, ?_, rfl, ?_⟩
    · rfl
    · simp only [call, Val.int.injEq, if_neg h]

-- Concrete cases: `ProtocolError("invalid opcode")` can be copied; copying `ConnectionClosedError(1006, "")` raises
-- `TypeError`; the copy of `InvalidURI("x")` displays something else.
example (d : Display) : (Obj.mk .protocolError [.str p!"invalid opcode"] []).copy d
      = .ok (Obj.mk .protocolError [.str p!"invalid opcode"] []) ∧
    (∃ o, call d .connectionClosedError [.int 1006, .str []] = .ok o ∧ o.copy d = .error .typeError ∧
      o.str d = p!"code = 1006 (connection closed abnormally [internal]), no reason") ∧
    ∃ o o', call d .invalidURI [.str p!"x"] = .ok o ∧ o.str d = p!"x isn't a valid URI" ∧ o.copy d = .ok o' ∧
      o'.str d = p!"x isn't a valid URI isn't a valid URI" :=
  ⟨rfl, ⟨_, rfl, rfl, by show formatClose 1006 [] = _; decide +kernel⟩, _, _, rfl, rfl, rfl, rfl⟩

end WS.Exceptions
