import Verif.Model.AdminServer

/-!
# An adminer client and its server

The connection delivers messages in order and each of them once, until it is closed; messages that are on their way then may arrive or not.  That one side has
closed the connection is noticed by the other one later.
-/

namespace HatEvent

/-- The calls of a user, `adminer/client.py:56-69`. -/
inductive AdminQuery where
  | get
  | set (conf : Json)

/-- The response that is expected, `adminer/client.py:61,69`. -/
def AdminQuery.kind : AdminQuery → AdminKind
  | .get => .getLogConf
  | .set _ => .setLogConf

/-- The message, `adminer/client.py:59-60,67-68,72-76`. -/
def AdminQuery.toReq (conv : Nat) : AdminQuery → AdminReq
  | .get => .get conv
  | .set conf => .set conv conf

/-- What the client receives for a response, `adminer/server.py:87-94,104-111`, `adminer/client.py:95-111`. -/
def AdminRes.toMsg : AdminRes → AdminMsg
  | .got conv conf => ⟨conv, .getLogConf, conf⟩
  | .done conv ok => ⟨conv, .setLogConf, if ok then some .null else none⟩

/-- A client, the server, the number of its connection, the messages the client has handed to it, the number of those the server has received, and the number
of responses the client has received. -/
structure AdminWire where
  id : Nat
  client : AdminClient := AdminClient.connected
  server : AdminServer
  asked : List AdminReq := []
  taken : Nat := 0
  read : Nat := 0

/-- What may happen: a call of a user, actions of the client, the server receives the next message (`ok` as in `AdminServerAct`), the client receives the next response, one
side notices that the other one has closed the connection, other actions of the server. -/
inductive AdminWireAct where
  | ask (query : AdminQuery)
  | client (act : AdminAct)
  | arrive (ok : Bool)
  | deliver
  | notice
  | server (act : AdminServerAct)

namespace AdminWire

/-- The connection at the server, `adminer/server.py:46`. -/
def conn (s : AdminWire) : AdminConn := s.server.conns s.id

/-- A call up to its first await, `adminer/client.py:71-76`. -/
def ask (s : AdminWire) (query : AdminQuery) : AdminWire :=
  { s with
    client := s.client.request query.kind
    asked := if s.client.isOpen then s.asked ++ [query.toReq s.client.next] else s.asked }

/-- Actions of the client that are not calls or messages, `adminer/client.py:78-88,113-125`. -/
def clientStep (s : AdminWire) : AdminAct → AdminWire
  | .request _ => s
  | .receive _ => s
  | act => { s with client := s.client.step act }

/-- The message the server gets next, `adminer/server.py:51`. -/
def request (s : AdminWire) : Option AdminReq := if s.conn.running then s.asked[s.taken]? else none

/-- The server gets the next message, `adminer/server.py:51-68`. -/
def arrive (s : AdminWire) (ok : Bool) : AdminWire :=
  match s.request with
  | some req => { s with server := s.server.step (.receive s.id req ok), taken := s.taken + 1 }
  | none => s

/-- The client gets the next response, `adminer/client.py:95`. -/
def deliver (s : AdminWire) : AdminWire :=
  match s.conn.sent[s.read]? with
  | some res =>
    if s.client.started && !s.client.ended then { s with client := s.client.step (.receive res.toMsg), read := s.read + 1 } else s
  | none => s

/-- One side has closed the connection, `adminer/server.py:78`, `adminer/client.py:121`. -/
def closed (s : AdminWire) : Bool := s.conn.lost || !s.client.isOpen

/-- Effect of an action; messages of this client come only from it. -/
def step (s : AdminWire) : AdminWireAct → AdminWire
  | .ask query => s.ask query
  | .client act => s.clientStep act
  | .arrive ok => s.arrive ok
  | .deliver => s.deliver
  | .notice => if s.closed then { s with client := s.client.step .close, server := s.server.step (.lose s.id) } else s
  | .server (.receive i req ok) => if i = s.id then s else { s with server := s.server.step (.receive i req ok) }
  | .server act => { s with server := s.server.step act }

/-- A history. -/
def run (s : AdminWire) (acts : List AdminWireAct) : AdminWire := acts.foldl step s

/-- The beginning, `server/adminer_server.py:10-23`, `adminer/client.py:28-40`. -/
def init (id : Nat) (conf : Json) : AdminWire := { id := id, server := AdminServer.init conf }

end AdminWire
end HatEvent
