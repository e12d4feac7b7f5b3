import Verif.Model.EventerServer

/-!
# Eventer client

Models `eventer/client.py` after `connect` has returned, as a machine.  Between
two actions the real code awaits.

* A message is handed to the connection when `send_msg` is called; `send_msg` may return later.
* A closed connection raises `ConnectionError` on `send_msg`.
* Conversations are numbered; the conversation of a request is new.
* Callbacks may take any time and raise.  Messages that can not be decoded are `other`.
* Closing (of the connection or of the client) cancels the receive loop; a task that is cancelled before it
  starts never runs (asyncio).
-/

namespace HatEvent

/-- What a response carries, `client.py:233-241,249-250`. -/
inductive Answer where
  | events (events : Option (List Event))
  | result (result : QueryResult)

/-- Messages of a server, `client.py:165-184`.  `other` is any other type. -/
inductive PeerMsg where
  | status (status : Status)
  | notify (conv : Nat) (events : List Event) (last : Bool)
  | answer (conv : Nat) (answer : Answer)
  | other

/-- How `register` or `query` ends: a registration without response returns nothing
(`client.py:145`), a response, `ConnectionError`, cancelled. -/
inductive CallEnd where
  | nothing
  | answered (answer : Answer)
  | connectionError
  | cancelled

/-- Where a call of `register` or `query` is: in `send_msg` (`client.py:140-143,153-156`), waiting for its
future (l.204-208), its future is done but the call was not resumed, finished. -/
inductive CallPhase where
  | absent
  | sending (conv : Nat) (withResponse : Bool)
  | waiting (conv : Nat)
  | resolved (conv : Nat) (result : CallEnd)
  | finished (result : CallEnd)

/-- Where the receive loop is, `client.py:160-198`: spawned, waiting for a message (l.165), in a callback
(l.217,223), finished; `never` is cancelled before it started. -/
inductive RecvPhase where
  | spawned
  | receiving
  | calling (msg : PeerMsg)
  | ended
  | never

/-- `Client`, `client.py:70-77`.  `calls` has the future of each call instead of `_conv_futures`; `sent` are messages handed to the
connection, `told` and `notified` the arguments of the callbacks. -/
structure ReqClient where
  isOpen : Bool := true
  loop : RecvPhase := .spawned
  status : Status
  nextConv : Nat := 0
  nextCall : Nat := 0
  calls : Nat → CallPhase := fun _ => .absent
  sent : List ClientMsg := []
  told : List Status := []
  notified : List (List Event) := []

/-- What may happen. -/
inductive ReqAct where
  | start
  | register (events : List RegisterEvent) (withResponse : Bool)
  | query (params : QueryParams)
  | sendDone (call : Nat)
  | resume (call : Nat)
  | cancel (call : Nat)
  | receive (msg : PeerMsg)
  | callbackDone (ok : Bool)
  | close
  | stop

namespace ReqClient

/-- A call moves on. -/
def setCall (s : ReqClient) (k : Nat) (p : CallPhase) : ReqClient :=
  { s with calls := fun i => if i = k then p else s.calls i }

/-- A pending future fails, `client.py:196-198`. -/
def failCall : CallPhase → CallPhase
  | .waiting conv => .resolved conv .connectionError
  | p => p

/-- The future of a conversation gets its result, `client.py:243-247,252-256`. -/
def answerCall (conv : Nat) (answer : Answer) : CallPhase → CallPhase
  | .waiting c => if c = conv then .resolved c (.answered answer) else .waiting c
  | p => p

/-- End of the receive loop, `client.py:186-198`. -/
def endLoop (s : ReqClient) : ReqClient :=
  { s with isOpen := false, loop := .ended, calls := fun k => failCall (s.calls k) }

/-- The receive loop starts, `client.py:103,160-165`. -/
def start (s : ReqClient) : ReqClient :=
  match s.loop with
  | .spawned => { s with loop := .receiving }
  | _ => s

/-- A request is handed to the connection, `client.py:139-143,152-156`. -/
def request (s : ReqClient) (msg : Nat → ClientMsg) (withResponse : Bool) : ReqClient :=
  if s.isOpen then
    { s.setCall s.nextCall (.sending s.nextConv withResponse) with
      nextCall := s.nextCall + 1
      nextConv := s.nextConv + 1
      sent := s.sent ++ [msg s.nextConv] }
  else
    { s.setCall s.nextCall (.finished .connectionError) with nextCall := s.nextCall + 1 }

/-- `send_msg` of a request returns, `client.py:145-146,158,200-208`. -/
def sendDone (s : ReqClient) (k : Nat) : ReqClient :=
  match s.calls k with
  | .sending conv withResponse =>
    if withResponse then
      if s.isOpen then s.setCall k (.waiting conv)
      else s.setCall k (.finished .connectionError)
    else s.setCall k (.finished .nothing)
  | _ => s

/-- A call goes on after its future is done, `client.py:208-211`. -/
def resume (s : ReqClient) (k : Nat) : ReqClient :=
  match s.calls k with
  | .resolved _ result => s.setCall k (.finished result)
  | _ => s

/-- The task of a call is cancelled (at l.140, 153 or 208), `client.py:207-211`. -/
def cancel (s : ReqClient) (k : Nat) : ReqClient :=
  match s.calls k with
  | .absent => s
  | .finished _ => s
  | _ => s.setCall k (.finished .cancelled)

/-- A message in the receive loop, `client.py:165-184`, up to the first await. -/
def process (s : ReqClient) (msg : PeerMsg) : ReqClient :=
  match msg with
  | .status status => { s with loop := .calling msg, status := status, told := s.told ++ [status] }
  | .notify _ events _ => { s with loop := .calling msg, notified := s.notified ++ [events] }
  | .answer conv answer => { s with calls := fun k => answerCall conv answer (s.calls k) }
  | .other => s.endLoop

/-- A message is received, `client.py:165`. -/
def receive (s : ReqClient) (msg : PeerMsg) : ReqClient :=
  match s.loop with
  | .receiving => s.process msg
  | _ => s

/-- An acknowledgment, `client.py:225-231`. -/
def acknowledge (s : ReqClient) (conv : Nat) : ReqClient :=
  if s.isOpen then { s with loop := .receiving, sent := s.sent ++ [.ack conv] } else s.endLoop

/-- After a callback, `client.py:213-231`. -/
def afterCallback (s : ReqClient) (msg : PeerMsg) : ReqClient :=
  match msg with
  | .notify conv _ false => s.acknowledge conv
  | _ => { s with loop := .receiving }

/-- A callback has finished or raised, `client.py:217,223`. -/
def callbackDone (s : ReqClient) (ok : Bool) : ReqClient :=
  match s.loop with
  | .calling msg => if ok then s.afterCallback msg else s.endLoop
  | _ => s

/-- The client or its connection is closed, `client.py:120-122`. -/
def close (s : ReqClient) : ReqClient :=
  { s with
    isOpen := false
    loop := match s.loop with
      | .spawned => .never
      | l => l }

/-- The receive loop of a closed client gets `ConnectionError` or is cancelled, `client.py:165,186-198`. -/
def stop (s : ReqClient) : ReqClient :=
  if s.isOpen then s
  else
    match s.loop with
    | .receiving => s.endLoop
    | .calling _ => s.endLoop
    | _ => s

/-- Effect of an action. -/
def step (s : ReqClient) : ReqAct → ReqClient
  | .start => s.start
  | .register events withResponse => s.request (fun conv => .register conv events (!withResponse)) withResponse
  | .query params => s.request (fun conv => .query conv params) true
  | .sendDone k => s.sendDone k
  | .resume k => s.resume k
  | .cancel k => s.cancel k
  | .receive msg => s.receive msg
  | .callbackDone ok => s.callbackDone ok
  | .close => s.close
  | .stop => s.stop

/-- A history. -/
def run (s : ReqClient) (acts : List ReqAct) : ReqClient := acts.foldl step s

/-- A connected client, `client.py:70-109`. -/
def init (status : Status) : ReqClient := { status := status }

end ReqClient
end HatEvent
