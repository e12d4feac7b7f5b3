import Verif.Model.Link

/-!
# A client and a server with the messages of both directions

The connection of `Model/Link` with the messages of the client as well: the server gets what the client has handed to the connection, in
order and each message once.  That one side has closed the connection is noticed by the other one later.  Messages that are on their way when the connection is closed may
arrive or not.
-/

namespace HatEvent

/-- The two sides and the number of messages of the client the server has received, without the initialization. -/
structure Wire where
  link : Link
  taken : Nat := 0

/-- What may happen: actions of the server, the end of `connect`, actions of the client, the server receives the next message of the client, the client
the next one of the server, one side notices that the other one has closed the connection. -/
inductive WireAct where
  | server (act : EvAct)
  | connect
  | client (act : ReqAct)
  | arrive
  | deliver
  | notice

namespace Wire

/-- The connection of the client at the server. -/
def conn (s : Wire) : Conn := s.link.server.conns s.link.id

/-- Actions of the server that are not messages of this client, and its initialization, which `connect` sends (`eventer/client.py:80-88`,
`eventer/server.py:136-138`). -/
def permits (s : Wire) : EvAct → Bool
  | .receive i msg =>
    if i = s.link.id then
      match s.conn.phase, msg with
      | .waiting, .init _ => true
      | _, _ => false
    else true
  | _ => true

/-- The message the server loop gets next, `eventer/server.py:175`. -/
def request (s : Wire) : Option ClientMsg :=
  match s.conn.phase, s.link.client with
  | .ready _, some client => client.sent[s.taken]?
  | _, _ => none

/-- The flag of the message the client gets next: notifications with acknowledgment do not have it, `eventer/server.py:264-267`. -/
def lastFlag (s : Wire) : Bool :=
  match s.conn.sent[s.link.read]? with
  | some (.events call _ _) => !(s.link.server.calls call).withAck
  | _ => true

/-- One side has closed the connection, `eventer/server.py:202`, `eventer/client.py:194`. -/
def closed (s : Wire) : Bool :=
  s.conn.lost || match s.link.client with
    | some client => !client.isOpen
    | none => false

/-- What happens to the two sides. -/
def acts (s : Wire) : WireAct → List LinkAct
  | .server act => if s.permits act then [.server act] else []
  | .connect => [.connect]
  | .client act => [.client act]
  | .arrive =>
    match s.request with
    | some msg => [.server (.receive s.link.id msg)]
    | none => []
  | .deliver => [.deliver s.lastFlag]
  | .notice => if s.closed then [.server (.lose s.link.id), .client .close] else []

/-- Effect of an action; `eventer/server.py:175` and `eventer/client.py:165` for the two directions. -/
def step (s : Wire) (a : WireAct) : Wire where
  link := s.link.run (s.acts a)
  taken :=
    match a with
    | .arrive => if s.request.isSome then s.taken + 1 else s.taken
    | _ => s.taken

/-- A history. -/
def run (s : Wire) (acts : List WireAct) : Wire := acts.foldl step s

/-- The beginning, `eventer/server.py:46-72`. -/
def init (id : Nat) (useC : Bool) (token : Option String) : Wire := { link := Link.init id useC token }

end Wire
end HatEvent
