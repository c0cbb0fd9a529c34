import Verif.Model.Frames

/-!
# What exceptions display: /repo/src/websockets/exceptions.py `format_close`
-/

namespace WS

/-- exceptions.py 72-89 `CLOSE_CODES` -/
def closeCodes : List (Int × PyStr) :=
  [(1000, p!"OK"),
   (1001, p!"going away"),
   (1002, p!"protocol error"),
   (1003, p!"unsupported type"),
   (1005, p!"no status code [internal]"),
   (1006, p!"connection closed abnormally [internal]"),
   (1007, p!"invalid data"),
   (1008, p!"policy violation"),
   (1009, p!"message too big"),
   (1010, p!"extension required"),
   (1011, p!"unexpected error"),
   (1012, p!"service restart"),
   (1013, p!"try again later"),
   (1014, p!"bad gateway"),
   (1015, p!"TLS failure [internal]")]

/-- exceptions.py 97-102 -/
def explainClose (code : Int) : PyStr :=
  if 3000 ≤ code ∧ code < 4000 then p!"registered"
  else if 4000 ≤ code ∧ code < 5000 then p!"private use"
  else (closeCodes.lookup code).getD p!"unknown"

/-- exceptions.py 92-110 `format_close`, which is also `str(exc)` for `ConnectionClosed` (125) -/
def formatClose (code : Int) (reason : PyStr) : PyStr :=
  p!"code = " ++ intStr code ++ p!" (" ++ explainClose code ++ p!"), " ++
    if reason ≠ [] then p!"reason = " ++ reason else p!"no reason"

/-- exceptions.py 136-138: the assertion of `ConnectionClosedError` -/
def closedErrorOk (code : Int) : Bool := code ≠ 1000 && code ≠ 1001

/-- exceptions.py 149-151: the assertion of `ConnectionClosedOK` -/
def closedOKOk (code : Int) : Bool := code = 1000 || code = 1001

end WS
