import Verif.Model.ReqClient

/-!
# A client connected to a server

The eventer server and one of its clients, with the connection between them.  The connection delivers the messages handed to it
in order and each of them once, until it is lost; messages may be delayed.
-/

namespace HatEvent

/-- What the client receives for a message of the server (`eventer/server.py:153,233,247,253,264`, `eventer/client.py:165-184`).  `last` is the flag of the
message.  `MsgInitRes` is handled in `connect`, later it is an unsupported message (`client.py:183-184`). -/
def ServerMsg.toPeer (last : Bool) : ServerMsg → PeerMsg
  | .initOk _ => .other
  | .initError => .other
  | .status st => .status st
  | .events _ conv es => .notify conv es last
  | .registerRes conv evs => .answer conv (.events evs)
  | .queryRes conv result => .answer conv (.result result)

/-- A server, its client with the connection `id`, and the number of messages delivered to the client; `client` is `none` until `connect` has
returned. -/
structure Link where
  id : Nat
  server : EvServer
  client : Option ReqClient := none
  read : Nat := 0

/-- What may happen.  `server` and `client` are actions of the two sides. -/
inductive LinkAct where
  | server (act : EvAct)
  | connect
  | client (act : ReqAct)
  | deliver (last : Bool)

namespace Link

/-- The end of `connect`, `eventer/client.py:91-109`: the first message is a success. -/
def connect (s : Link) : Link :=
  match s.client, (s.server.conns s.id).sent with
  | none, .initOk status :: _ => { s with client := some (ReqClient.init status), read := 1 }
  | _, _ => s

/-- The receive loop gets the next message, `eventer/client.py:165`. -/
def deliver (s : Link) (last : Bool) : Link :=
  match s.client, (s.server.conns s.id).sent[s.read]? with
  | some client, some msg =>
    match client.loop with
    | .receiving => { s with client := some (client.receive (msg.toPeer last)), read := s.read + 1 }
    | _ => s
  | _, _ => s

/-- An action of the client.  Messages come only from the server. -/
def clientStep (s : Link) : ReqAct → Link
  | .receive _ => s
  | act => { s with client := s.client.map (·.step act) }

/-- Effect of an action. -/
def step (s : Link) : LinkAct → Link
  | .server act => { s with server := s.server.step act }
  | .connect => s.connect
  | .client act => s.clientStep act
  | .deliver last => s.deliver last

/-- A history. -/
def run (s : Link) (acts : List LinkAct) : Link := acts.foldl step s

/-- The beginning, `eventer/server.py:46-72`. -/
def init (id : Nat) (useC : Bool) (token : Option String) : Link := { id := id, server := EvServer.init useC token }

end Link
end HatEvent
