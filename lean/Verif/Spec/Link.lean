import Verif.Spec.EventerServer
import Verif.Model.Link

/-!
# Specification of a client connected to a server
-/

namespace HatEvent.Spec

open Classical in
/-- The events of a call of `notify_events` the client with connection `id` is to be told, if it is one. -/
noncomputable def dueOf (s : EvServer) (id : Nat) : EvAct → List Event
  | .notify events persisted _ =>
    match s.infos.find? fun p => p.1 = id with
    | some (_, info) => if info.req.persisted = persisted then wanted info.req events else []
    | none => []
  | _ => []

/-- The events the client with connection `id` is to be told, in the order of calls of `notify_events`. -/
noncomputable def due (id : Nat) : EvServer → List EvAct → List Event
  | _, [] => []
  | s, a :: acts => dueOf s id a ++ due id (s.step a) acts

/-- When a call of `notify_events` has events with `P` for the client, earlier calls that had such events for it have returned. -/
def InTurn (P : Event → Bool) (id : Nat) (s : EvServer) (acts : List EvAct) : Prop :=
  ∀ before events persisted withAck after, acts = before ++ .notify events persisted withAck :: after →
    (∃ e ∈ dueOf (s.run before) id (.notify events persisted withAck), P e = true) →
    ∀ j < (s.run before).nextCall, (∃ es, (id, es) ∈ ((s.run before).calls j).targets ∧ ∃ e ∈ es, P e = true) →
      ((s.run before).calls j).returned

/-- Subscriptions of the client can be handled by the C implementation. -/
def CleanClient (id : Nat) (s : EvServer) : Prop :=
  s.useC = true → ∀ info, (id, info) ∈ s.infos → ∀ q ∈ info.req.subscriptions, NulFree q

/-- The responses among messages, with their conversations. -/
def answersOf (sent : List ServerMsg) : List (Nat × Answer) :=
  sent.filterMap fun m => match m with
    | .registerRes conv evs => some (conv, .events evs)
    | .queryRes conv r => some (conv, .result r)
    | _ => none

/-- The conversation of a request that wants a response. -/
def asksFor : ClientMsg → Option Nat
  | .register conv _ last => if last then none else some conv
  | .query conv _ => some conv
  | _ => none

/-- What a callback gave, as a response. -/
def answerOf : Handled → Option Answer
  | .registered evs => some (.events evs)
  | .queried r => some (.result r)
  | .raised => none

/-- A response to a registration has events, a response to a query has a result. -/
inductive Suits : ClientMsg → Answer → Prop
  | register {conv : Nat} {evs : List RegisterEvent} {last : Bool} (r : Option (List Event)) : Suits (.register conv evs last) (.events r)
  | query {conv : Nat} {params : QueryParams} (r : QueryResult) : Suits (.query conv params) (.result r)

/-- The messages the server gets on a connection, in order, without initializations. -/
def received (id : Nat) (acts : List EvAct) : List ClientMsg :=
  acts.filterMap fun a => match a with
    | .receive _ (.init _) => none
    | .receive i msg => if i = id then some msg else none
    | _ => none

/-- The actions of the server. -/
def serverActs (acts : List LinkAct) : List EvAct :=
  acts.filterMap fun a => match a with
    | .server act => some act
    | _ => none

/-- The messages handed to the connection by the client. -/
def Link.requests (s : Link) : List ClientMsg := (s.client.map (·.sent)).getD []

/-- After the initialization, which `connect` sends, the server gets messages of the client, in the order they were sent. -/
def Faithful (id : Nat) (useC : Bool) (token : Option String) (acts : List LinkAct) : Prop :=
  ∀ before, before <+: acts →
    received id (serverActs before) <+: Link.requests ((HatEvent.Link.init id useC token).run before)

end HatEvent.Spec
