import Verif.Model.Headers

/-!
# /repo/src/websockets/imports.py: lazy imports

`__getattr__` and `__dir__` of the modules that call `lazy_import`: `websockets`, `websockets.client`,
`websockets.server` and `websockets.http`.

Python's import system is modelled as far as `import_name` uses it: modules are known by their absolute
name; importing a module that exists succeeds (its code doesn't raise an exception).
-/

namespace WS.Imports

/-- Exceptions that `lazy_import` and the functions that it defines raise. -/
inductive Err where
  | assertionError
  | attributeError
  | importError
  | indexError
  /-- A subclass of `ImportError`, when a module doesn't exist. -/
  | moduleNotFoundError
deriving DecidableEq, Repr

/-- A module, once imported. -/
structure Module (Obj : Type) where
  /-- What `getattr` returns for its attributes, before its submodules are imported. -/
  attrs : List (PyStr × Obj) := []
  /-- Does it have a `__path__`? -/
  isPackage : Bool := false

/-- All modules that can be imported. -/
structure World (Obj : Type) where
  find : PyStr → Option (Module Obj)
  /-- The object that stands for a module. -/
  moduleObj : PyStr → Obj

/-- imports.py 21-24: count the dots at the beginning of `source`.  `source[level]` raises `IndexError` only
if `source` is empty. -/
def importLevel : PyStr → Nat → Except Err (Nat × PyStr)
  | [], _ => .error .indexError
  | c :: rest, level =>
    if c = 46 then
      match rest with
      | [] => .error .assertionError
      | _ :: _ => importLevel rest (level + 1)
    else .ok (level, c :: rest)

/-- `s.rsplit(".", 1)[0]`, if there's a dot in `s` (for imports.py 26) -/
def parent (s : PyStr) : Option PyStr :=
  match s.reverse.dropWhile (· ≠ 46) with
  | [] => none
  | _ :: r => some r.reverse

/-- Python's `importlib._bootstrap._resolve_name`: `package.rsplit(".", level - 1)[0]`, an `ImportError` if there are
less than `level - 1` dots (for imports.py 26). -/
def ancestor : Nat → PyStr → Option PyStr
  | 0, p => some p
  | n + 1, p => (parent p).bind (ancestor n)

/-- Python's `__import__`: the absolute name of the module to import.  `package` is `globals["__package__"]`
(for imports.py 26). -/
def resolve (package name : PyStr) (level : Nat) : Except Err PyStr :=
  match level with
  | 0 => .ok name
  | n + 1 =>
    if package = [] then .error .importError
    else match ancestor n package with
      | none => .error .importError
      | some base => .ok (base ++ p!"." ++ name)

/-- imports.py 9-27 `import_name`: `__import__` with `[name]` as `fromlist` imports the submodule `name` if the module
is a package that has no such attribute. -/
def importName {Obj : Type} (W : World Obj) (package name source : PyStr) : Except Err Obj :=
  match importLevel source 0 with
  | .error e => .error e
  | .ok (level, rest) =>
    match resolve package rest level with
    | .error e => .error e
    | .ok abs =>
      match W.find abs with
      | none => .error .moduleNotFoundError
      | some m =>
        match dictGet m.attrs name with
        | some o => .ok o
        | none =>
          if m.isPackage = true ∧ (W.find (abs ++ p!"." ++ name)).isSome = true then
            .ok (W.moduleObj (abs ++ p!"." ++ name))
          else .error .attributeError

/-- A module that calls `lazy_import(globals(), aliases, deprecated_aliases)`. -/
structure Call (Obj : Type) where
  /-- `globals()["__name__"]` -/
  name : PyStr
  /-- `globals()["__package__"]`: `name` for packages, its parent for other modules. -/
  package : PyStr
  /-- `globals()`, when `lazy_import` is called -/
  vars : List (PyStr × Obj)
  aliases : List (PyStr × PyStr) := []
  deprecated : List (PyStr × PyStr) := []

namespace Call

variable {Obj : Type}

/-- `set(d)` (imports.py 62-64) -/
def keys {V : Type} (d : List (PyStr × V)) : List PyStr := d.map (·.1)

/-- `a & b` isn't empty (imports.py 66-68). -/
def overlap (a b : List PyStr) : Bool := a.any fun k => b.contains k

/-- imports.py 57-67: the checks of `lazy_import` -/
def lazyImport (c : Call Obj) : Except Err Unit :=
  if overlap (keys c.vars) (keys c.aliases) then .error .assertionError
  else if overlap (keys c.vars) (keys c.deprecated) then .error .assertionError
  else if overlap (keys c.aliases) (keys c.deprecated) then .error .assertionError
  else .ok ()

/-- imports.py 73-96 `__getattr__`: the result, and the warnings that are issued. -/
def getattrHook (W : World Obj) (c : Call Obj) (name : PyStr) : Except Err Obj × List PyStr :=
  match dictGet c.aliases name with
  | some source => (importName W c.package name source, [])
  | none =>
    match dictGet c.deprecated name with
    | some source => (importName W c.package name source, [c.name ++ p!"." ++ name ++ p!" is deprecated"])
    | none => (.error .attributeError, [])

/-- PEP 562: `getattr(module, name)` when the global variables are `vars`. -/
def getattr (W : World Obj) (c : Call Obj) (vars : List (PyStr × Obj)) (name : PyStr) : Except Err Obj × List PyStr :=
  match dictGet vars name with
  | some o => (.ok o, [])
  | none => c.getattrHook W name

/-- `a <= b` for strings (imports.py 101) -/
def strLe : PyStr → PyStr → Bool
  | [], _ => true
  | _ :: _, [] => false
  | a :: as, b :: bs => if a < b then true else if b < a then false else strLe as bs

/-- Python's `sorted` (by insertion; for a total order, all algorithms give the same result) (imports.py 101). -/
def insertSorted (a : PyStr) : List PyStr → List PyStr
  | [] => [a]
  | b :: l => if strLe a b then a :: b :: l else b :: insertSorted a l

/-- `sorted(l)` (imports.py 101) -/
def sorted (l : List PyStr) : List PyStr := l.foldr insertSorted []

/-- `set(l)` (imports.py 101) -/
def setOf : List PyStr → List PyStr
  | [] => []
  | a :: l => if (setOf l).contains a then setOf l else a :: setOf l

/-- imports.py 100-101 `__dir__`: `namespace_set` was computed when `lazy_import` was called. -/
def dir (c : Call Obj) : List PyStr :=
  sorted (setOf (keys c.vars ++ keys c.aliases ++ keys c.deprecated))

/-- `d[key] = value` (imports.py 107-111) -/
def store (d : List (PyStr × Obj)) (key : PyStr) (value : Obj) : List (PyStr × Obj) :=
  match d with
  | [] => [(key, value)]
  | (k, v) :: d => if k = key then (k, value) :: d else (k, v) :: store d key value

/-- imports.py 107-108 and 110-111: one of the two loops -/
def eagerLoop (W : World Obj) (package : PyStr) : List (PyStr × PyStr) → List (PyStr × Obj) →
    Except Err (List (PyStr × Obj))
  | [], vars => .ok vars
  | (name, source) :: l, vars =>
    match importName W package name source with
    | .error e => .error e
    | .ok o => eagerLoop W package l (store vars name o)

/-- imports.py 105-111: before Python 3.7, the global variables after `lazy_import` -/
def eager (W : World Obj) (c : Call Obj) : Except Err (List (PyStr × Obj)) :=
  match eagerLoop W c.package c.aliases c.vars with
  | .error e => .error e
  | .ok vars => eagerLoop W c.package c.deprecated vars

end Call

end WS.Imports
