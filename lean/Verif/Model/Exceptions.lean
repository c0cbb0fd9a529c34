import Verif.Model.FormatClose
import Verif.Model.Headers

/-!
# Exceptions: /repo/src/websockets/exceptions.py

Instances of the exception classes, how they're created, displayed, and copied.  `BaseException` is C code of CPython
(Objects/exceptions.c): `__new__` stores positional arguments in `args`; `__init__` does so again; `__str__` displays
`args`; `__reduce__`, which `copy.copy()` and `pickle` call, says to call the class with `args`, then to update
`__dict__`.

Keyword arguments of constructors are given by position; tracebacks, causes and contexts aren't represented (they
aren't copied).
-/

namespace WS.Exceptions

/-- Python objects -/
inductive Val where
  | none
  | str (s : PyStr)
  | int (i : Int)
  | bytes (b : Bytes)
  | headers (hs : List (PyStr × PyStr))
  /-- any other object -/
  | other (id : Nat)
deriving DecidableEq

/-- What Python displays, as far as it doesn't matter here: `format(x)` for other objects than strings and integers;
`str(args)` for a tuple of arguments (used by exceptions.py 187-191, 317). -/
structure Display where
  other : Val → PyStr
  tuple : List Val → PyStr

/-- `format(x)` in a f-string (used by exceptions.py 187-191, 205, 245, 264, 276, 290-294, 317, 355) -/
def Display.fmt (d : Display) : Val → PyStr
  | .str s => s
  | .int i => intStr i
  | .none => p!"None"
  | v => d.other v

/-- exceptions.py 64-373: the classes -/
inductive Cls where
  | webSocketException
  | connectionClosed
  | connectionClosedError
  | connectionClosedOK
  | invalidHandshake
  | securityError
  | invalidMessage
  | invalidHeader
  | invalidHeaderFormat
  | invalidHeaderValue
  | invalidOrigin
  | invalidUpgrade
  | invalidStatusCode
  | negotiationError
  | duplicateParameter
  | invalidParameterName
  | invalidParameterValue
  | abortHandshake
  | redirectHandshake
  | invalidState
  | invalidURI
  | payloadTooBig
  | protocolError
deriving DecidableEq

/-- An instance: its class, `args`, and the attributes in `__dict__` -/
structure Obj where
  cls : Cls
  args : List Val
  dict : List (PyStr × Val) := []
deriving DecidableEq

/-- Exceptions raised by a constructor -/
inductive Err where
  | typeError
  | assertionError
deriving DecidableEq

/-- exceptions.py 183-192 `InvalidHeader.__init__`: the message -/
def headerMessage (d : Display) (name value : Val) : PyStr :=
  if value = .none then p!"missing " ++ d.fmt name ++ p!" header"
  else if value = .str [] then p!"empty " ++ d.fmt name ++ p!" header"
  else p!"invalid " ++ d.fmt name ++ p!" header: " ++ d.fmt value

/-- exceptions.py 183-192 `InvalidHeader.__init__`, called for an instance of `cls` -/
def initHeader (d : Display) (cls : Cls) (name value : Val) : Obj :=
  { cls, args := [.str (headerMessage d name value)], dict := [(p!"name", name), (p!"value", value)] }

/-- exceptions.py 122-125 `ConnectionClosed.__init__`; `format_close` compares `code` with integers. -/
def initClosed (cls : Cls) : Val → Val → Except Err Obj
  | .int code, .str reason =>
    .ok { cls, args := [.str (formatClose code reason)], dict := [(p!"code", .int code), (p!"reason", .str reason)] }
  | _, _ => .error .typeError

/-- exceptions.py 286-295 `InvalidParameterValue.__init__`: the message -/
def parameterMessage (d : Display) (name value : Val) : PyStr :=
  if value = .none then p!"missing value for parameter " ++ d.fmt name
  else if value = .str [] then p!"empty value for parameter " ++ d.fmt name
  else p!"invalid value for parameter " ++ d.fmt name ++ p!": " ++ d.fmt value

/-- exceptions.py 308-318 `AbortHandshake.__init__` -/
def initAbort (d : Display) (status : Val) : Val → Val → Except Err Obj
  | .headers hs, .bytes body =>
    .ok { cls := .abortHandshake
          args := [.str (p!"HTTP " ++ d.fmt status ++ p!", " ++ decStr (Headers.ofList hs).len ++ p!" headers, " ++
            decStr body.length ++ p!" bytes")]
          dict := [(p!"status", status), (p!"headers", .headers hs), (p!"body", .bytes body)] }
  | _, _ => .error .typeError

/-- Calling the class with these arguments: exceptions.py 122-125, 136-138, 149-151, 183-192, 203-206, 224-225, 243-246,
262-265, 274-277, 286-295, 308-318, 329-330, 353-356; other classes have no `__init__`. -/
def call (d : Display) (cls : Cls) (args : List Val) : Except Err Obj :=
  match cls with
  | .connectionClosed =>
    match args with
    | [code, reason] => initClosed cls code reason
    | _ => .error .typeError
  | .connectionClosedError =>
    match args with
    | [code, reason] =>
      if code ≠ .int 1000 ∧ code ≠ .int 1001 then initClosed cls code reason else .error .assertionError
    | _ => .error .typeError
  | .connectionClosedOK =>
    match args with
    | [code, reason] =>
      if code = .int 1000 ∨ code = .int 1001 then initClosed cls code reason else .error .assertionError
    | _ => .error .typeError
  | .invalidHeader | .invalidHeaderValue | .invalidUpgrade =>
    match args with
    | [name] => .ok (initHeader d cls name .none)
    | [name, value] => .ok (initHeader d cls name value)
    | _ => .error .typeError
  | .invalidHeaderFormat =>
    match args with
    | [name, error, header, pos] =>
      .ok (initHeader d cls name (.str (d.fmt error ++ p!" at " ++ d.fmt pos ++ p!" in " ++ d.fmt header)))
    | _ => .error .typeError
  | .invalidOrigin =>
    match args with
    | [origin] => .ok (initHeader d cls (.str p!"Origin") origin)
    | _ => .error .typeError
  | .invalidStatusCode =>
    match args with
    | [code] => .ok { cls, args := [.str (p!"server rejected WebSocket connection: HTTP " ++ d.fmt code)]
                      dict := [(p!"status_code", code)] }
    | _ => .error .typeError
  | .duplicateParameter =>
    match args with
    | [name] => .ok { cls, args := [.str (p!"duplicate parameter: " ++ d.fmt name)], dict := [(p!"name", name)] }
    | _ => .error .typeError
  | .invalidParameterName =>
    match args with
    | [name] => .ok { cls, args := [.str (p!"invalid parameter name: " ++ d.fmt name)], dict := [(p!"name", name)] }
    | _ => .error .typeError
  | .invalidParameterValue =>
    match args with
    | [name, value] => .ok { cls, args := [.str (parameterMessage d name value)]
                             dict := [(p!"name", name), (p!"value", value)] }
    | _ => .error .typeError
  | .abortHandshake =>
    match args with
    | [status, headers] => initAbort d status headers (.bytes [])
    | [status, headers, body] => initAbort d status headers body
    | _ => .error .typeError
  | .redirectHandshake =>
    match args with
    -- `super().__init__()` isn't called; `__new__` has stored the arguments
    | [uri] => .ok { cls, args := [uri], dict := [(p!"uri", uri)] }
    | _ => .error .typeError
  | .invalidURI =>
    match args with
    | [uri] => .ok { cls, args := [.str (d.fmt uri ++ p!" isn't a valid URI")], dict := [(p!"uri", uri)] }
    | _ => .error .typeError
  | _ => .ok { cls, args }

/-- `str(exc)`: `BaseException.__str__`, and exceptions.py 332-333 `RedirectHandshake.__str__` -/
def Obj.str (d : Display) (o : Obj) : PyStr :=
  match o.cls with
  | .redirectHandshake => p!"redirect to " ++ d.fmt ((o.dict.lookup p!"uri").getD .none)
  | _ =>
    match o.args with
    | [] => []
    | [v] => d.fmt v
    | args => d.tuple args

/-- `a.update(b)` for dictionaries (used by `BaseException.__setstate__` for the attributes set in exceptions.py 123-354) -/
def update (a b : List (PyStr × Val)) : List (PyStr × Val) :=
  b.foldl (fun a p => if a.any (·.1 = p.1) then a.map (fun q => if q.1 = p.1 then p else q) else a ++ [p]) a

/-- `copy.copy(exc)` or `pickle.loads(pickle.dumps(exc))`: `BaseException.__reduce__` and `__setstate__`
(CPython; exceptions.py 64-373 doesn't override them) -/
def Obj.copy (d : Display) (o : Obj) : Except Err Obj :=
  match call d o.cls o.args with
  | .error e => .error e
  | .ok c => .ok { c with dict := update c.dict o.dict }

end WS.Exceptions
