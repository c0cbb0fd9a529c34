import Verif.Model.Utf8

/-!
# /repo/src/websockets/datastructures.py `Headers`

This is the value of a `Headers` object; aliasing of the lists it contains is modelled in
`Verif.Model.HeadersHeap`.
-/

namespace WS

/-- `str.lower()` on ASCII characters.  Other characters are left alone: names of headers that
come from the network, and every value that the modelled code lower-cases, are ASCII tokens
(datastructures.py 100, 111, 118, 122, 125, 149). -/
def pyLower (s : PyStr) : PyStr := s.map fun c => if 65 ≤ c ∧ c ≤ 90 then c + 32 else c

/-- datastructures.py 73-79.  `_dict` is an insertion-ordered association list. -/
structure Headers where
  dict : List (PyStr × List PyStr) := []
  list : List (PyStr × PyStr) := []
deriving DecidableEq, Repr

/-- `d[key]` on a `dict`: `none` stands for `KeyError` (datastructures.py 111, 149). -/
def dictGet {V : Type} (d : List (PyStr × V)) (k : PyStr) : Option V :=
  (d.find? fun p => p.1 == k).map (·.2)

/-- `d.setdefault(key, []).append(value)` (datastructures.py 118) -/
def dictAppend (k v : PyStr) : List (PyStr × List PyStr) → List (PyStr × List PyStr)
  | [] => [(k, [v])]
  | (k', vs) :: d => if k' = k then (k', vs ++ [v]) :: d else (k', vs) :: dictAppend k v d

namespace Headers

/-- datastructures.py 117-119 `__setitem__`.  `low` is `str.lower`. -/
def set (h : Headers) (key value : PyStr) (low : PyStr → PyStr := pyLower) : Headers :=
  { dict := dictAppend (low key) value h.dict, list := h.list ++ [(key, value)] }

/-- datastructures.py 121-125 `__delitem__` -/
def del (h : Headers) (key : PyStr) (low : PyStr → PyStr := pyLower) : Except Exc Headers :=
  match dictGet h.dict (low key) with
  | none => .error .keyError
  | some _ =>
    .ok { dict := h.dict.filter fun p => p.1 ≠ low key,
          list := h.list.filter fun p => low p.1 ≠ low key }

/-- datastructures.py 110-115 `__getitem__` -/
def get (h : Headers) (key : PyStr) (low : PyStr → PyStr := pyLower) : Except Exc PyStr :=
  match dictGet h.dict (low key) with
  | none => .error .keyError
  | some [v] => .ok v
  | some _ => .error .multipleValuesError

/-- `Mapping.get(key)`, inherited from `collections.abc`: only `KeyError` is caught (for datastructures.py 36). -/
def get? (h : Headers) (key : PyStr) (low : PyStr → PyStr := pyLower) :
    Except Exc (Option PyStr) :=
  match h.get key low with
  | .ok v => .ok (some v)
  | .error .keyError => .ok none
  | .error e => .error e

/-- datastructures.py 142-149 `get_all` -/
def getAll (h : Headers) (key : PyStr) (low : PyStr → PyStr := pyLower) : List PyStr :=
  (dictGet h.dict (low key)).getD []

/-- datastructures.py 99-100 `__contains__` -/
def contains (h : Headers) (key : PyStr) (low : PyStr → PyStr := pyLower) : Bool :=
  (dictGet h.dict (low key)).isSome

/-- datastructures.py 102-103 `__iter__` -/
def keys (h : Headers) : List PyStr := h.dict.map (·.1)

/-- datastructures.py 105-106 `__len__` -/
def len (h : Headers) : Nat := h.dict.length

/-- datastructures.py 151-156 `raw_items` -/
def rawItems (h : Headers) : List (PyStr × PyStr) := h.list

/-- datastructures.py 132-138 `clear` -/
def clear (_ : Headers) : Headers := {}

/-- datastructures.py 127-130 `__eq__` -/
def eq (h h' : Headers) : Bool := h.list = h'.list

/-- datastructures.py 75-79 `__init__` with a list of pairs (`MutableMapping.update` calls
`__setitem__` for each pair). -/
def ofList (l : List (PyStr × PyStr)) (low : PyStr → PyStr := pyLower) : Headers :=
  l.foldl (fun h p => h.set p.1 p.2 low) {}

/-- datastructures.py 81-82 `__str__` -/
def toStr (h : Headers) : PyStr :=
  (h.list.map fun p => p.1 ++ p!": " ++ p.2 ++ [13, 10]).flatten ++ [13, 10]

/-- datastructures.py 93-95 `serialize` -/
def serialize (h : Headers) : Except Exc Bytes := utf8Encode h.toStr

end Headers

end WS
