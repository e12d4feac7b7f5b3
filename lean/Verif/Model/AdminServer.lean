import Verif.Model.AdminClient
import Verif.Model.Event

/-!
# Adminer server

Models `adminer/server.py` with the callbacks of `server/adminer_server.py` as a machine.

* The callbacks are functions, so a request is processed up to the sending of its response without suspension.
* `json.decode` and `logging.config.dictConfig` may raise: `ok` of a request tells that they have not.  What a failed
  `dictConfig` has changed in the logging module is not modelled.
* A message is handed to the connection when `send_msg` is called; a lost connection raises `ConnectionError`.
* Closing of the whole server is not modelled.
-/

namespace HatEvent

/-- Messages of a client, `adminer/server.py:51-68`.  `other` is any other type and what cannot be decoded. -/
inductive AdminReq where
  | get (conv : Nat)
  | set (conv : Nat) (conf : Json)
  | other

/-- Responses, `adminer/server.py:87-94,104-111`.  `none` and `false` are errors. -/
inductive AdminRes where
  | got (conv : Nat) (conf : Option Json)
  | done (conv : Nat) (ok : Bool)

/-- A connection: its loop is running, the connection is lost, responses handed to it, requests processed,
`adminer/server.py:46-78`. -/
structure AdminConn where
  running : Bool := false
  lost : Bool := false
  sent : List AdminRes := []
  handled : List AdminReq := []

/-- `AdminerServer`, `server/adminer_server.py:10-23`, with the connections of `adminer/server.py`. -/
structure AdminServer where
  conf : Json
  next : Nat := 0
  conns : Nat → AdminConn := fun _ => {}

/-- What may happen to the connections of `adminer/server.py:46-78`. -/
inductive AdminServerAct where
  | accept
  | lose (id : Nat)
  | receive (id : Nat) (req : AdminReq) (ok : Bool)
  | giveUp (id : Nat)

namespace AdminServer

/-- Change of a connection (helper of the model of `adminer/server.py:46-78`). -/
def setConn (s : AdminServer) (id : Nat) (f : AdminConn → AdminConn) : AdminServer :=
  { s with conns := fun i => if i = id then f (s.conns i) else s.conns i }

/-- End of a connection loop, `adminer/server.py:70-78`. -/
def endLoop (s : AdminServer) (id : Nat) : AdminServer :=
  s.setConn id fun c => { c with running := false, lost := true }

/-- A response, `adminer/server.py:92-94,109-111`. -/
def respond (s : AdminServer) (id : Nat) (res : AdminRes) : AdminServer :=
  if (s.conns id).lost then s.endLoop id else s.setConn id fun c => { c with sent := c.sent ++ [res] }

/-- A request is taken up, `adminer/server.py:55-65`. -/
def take (s : AdminServer) (id : Nat) (req : AdminReq) : AdminServer :=
  s.setConn id fun c => { c with handled := c.handled ++ [req] }

/-- `_on_set_log_conf`, `server/adminer_server.py:41-43`. -/
def store (s : AdminServer) (conf : Json) (ok : Bool) : AdminServer := if ok then { s with conf := conf } else s

/-- A message is received, `adminer/server.py:51-68,80-111`; `_on_get_log_conf`, `server/adminer_server.py:38-39`. -/
def receive (s : AdminServer) (id : Nat) (req : AdminReq) (ok : Bool) : AdminServer :=
  if (s.conns id).running then
    match req with
    | .get conv => (s.take id req).respond id (.got conv (some s.conf))
    | .set conv conf => ((s.take id req).store conf ok).respond id (.done conv ok)
    | .other => s.endLoop id
  else s

/-- The loop finds its connection lost, `adminer/server.py:51,70-71`. -/
def giveUp (s : AdminServer) (id : Nat) : AdminServer :=
  if (s.conns id).lost then s.endLoop id else s

/-- Effect of an action. `accept` starts a connection loop, `adminer/server.py:34,46-47`. -/
def step (s : AdminServer) : AdminServerAct → AdminServer
  | .accept => { s.setConn s.next (fun c => { c with running := true }) with next := s.next + 1 }
  | .lose id => s.setConn id fun c => { c with lost := true }
  | .receive id req ok => s.receive id req ok
  | .giveUp id => s.giveUp id

/-- A history of `adminer/server.py:39-111`. -/
def run (s : AdminServer) (acts : List AdminServerAct) : AdminServer := acts.foldl step s

/-- `create_adminer_server`, `server/adminer_server.py:10-23`. -/
def init (conf : Json) : AdminServer := { conf := conf }

end AdminServer
end HatEvent
