import Verif.Model.LegacyLife

/-!
# Attributes of legacy connections: /repo/src/websockets/legacy/protocol.py 401-438

`open`, `closed` and `wait_closed()`, in the states of `Verif.Model.LegacyLife`.
-/

namespace WS.LegacyLife

/-- legacy/protocol.py 401-415 `open`; `none`: `AttributeError`, `transfer_data_task` doesn't exist. -/
def St.openAttr (s : St) : Option Bool :=
  if s.state = .opened then
    match s.transfer with
    | .absent => none
    | .ended => some false
    | _ => some true
  else some false

/-- legacy/protocol.py 417-426 `closed` -/
def St.closedAttr (s : St) : Bool := s.state = .closed

/-- legacy/protocol.py 428-438 `wait_closed`: it returns. -/
def St.waitClosed (s : St) : Bool := s.lost

end WS.LegacyLife
