import Verif.Model.Headers

/-!
# /repo/src/websockets/datastructures.py `Headers`, with the identity of the lists of values

The attribute `_dict` of a `Headers` object maps names to `list` objects.  `copy()` copies the
dictionary, not these lists.  The heap holds the contents of the lists of values; a list is
known by its index in the heap.  The dictionary and `_list` of an object belong to it alone, since
`copy()` copies them.
-/

namespace WS

/-- The contents of all lists of values. -/
abbrev HHeap := List (List PyStr)

/-- The contents of a list of values (datastructures.py 76). -/
def HHeap.get (H : HHeap) (a : Nat) : List PyStr := H[a]?.getD []

/-- datastructures.py 73-79.  `_dict` maps names to lists of values in the heap. -/
structure HObj where
  dict : List (PyStr × Nat) := []
  list : List (PyStr × PyStr) := []

namespace HObj

/-- datastructures.py 117-119 `__setitem__`: `setdefault` creates a list only if the name isn't
in the dictionary. -/
def set (low : PyStr → PyStr) (H : HHeap) (x : HObj) (key value : PyStr) : HHeap × HObj :=
  match dictGet x.dict (low key) with
  | some a => (H.modify a (· ++ [value]), { x with list := x.list ++ [(key, value)] })
  | none => (H ++ [[value]],
      { dict := x.dict ++ [(low key, H.length)], list := x.list ++ [(key, value)] })

/-- datastructures.py 121-125 `__delitem__`; a `KeyError` leaves the object as it is. -/
def del (low : PyStr → PyStr) (x : HObj) (key : PyStr) : Except Exc HObj :=
  match dictGet x.dict (low key) with
  | none => .error .keyError
  | some _ =>
    .ok { dict := x.dict.filter fun p => p.1 ≠ low key,
          list := x.list.filter fun p => low p.1 ≠ low key }

/-- datastructures.py 132-138 `clear` -/
def clear (_ : HObj) : HObj := {}

/-- datastructures.py 87-91 `copy`: a new object with the same lists of values. -/
def copy (x : HObj) : HObj := { dict := x.dict, list := x.list }

/-- datastructures.py 142-149 `get_all` (the contents of the list it returns) -/
def getAll (low : PyStr → PyStr) (H : HHeap) (x : HObj) (key : PyStr) : List PyStr :=
  match dictGet x.dict (low key) with
  | some a => H.get a
  | none => []

/-- datastructures.py 110-115 `__getitem__` -/
def get (low : PyStr → PyStr) (H : HHeap) (x : HObj) (key : PyStr) : Except Exc PyStr :=
  match dictGet x.dict (low key) with
  | none => .error .keyError
  | some a => match H.get a with
    | [v] => .ok v
    | _ => .error .multipleValuesError

/-- The value of the object: what the model of `Verif.Model.Headers` is about (datastructures.py 75-79). -/
def deref (H : HHeap) (x : HObj) : Headers :=
  { dict := x.dict.map fun p => (p.1, H.get p.2), list := x.list }

end HObj

end WS
