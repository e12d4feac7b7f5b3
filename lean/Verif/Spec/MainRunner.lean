import Verif.Model.MainRunner

/-! # The life of the parts of an event server -/

namespace HatEvent

/-- A part calls another one while it is open: the eventer server and the client runner the backend
(`eventer_server.py:108`, `eventer_client_runner.py:90`), an engine runner the eventer server and the backend (`engine_runner.py:70-117`). -/
inductive MainPart.Uses : MainPart → MainPart → Prop
  | serverBackend : MainPart.Uses .eventerServer .backend
  | clientsBackend : MainPart.Uses .clientRunner .backend
  | engineBackend (k : Nat) : MainPart.Uses (.engineRunner k) .backend
  | engineServer (k : Nat) : MainPart.Uses (.engineRunner k) .eventerServer

end HatEvent
