import Verif.Model.Sync
import Verif.Spec.Event

/-!
# Specification of synchronisation
-/

namespace HatEvent.Spec

open Classical in
/-- What a backend whose last id is `c` makes of a sequence of events: it ignores events that are not after
the last one (`backends/lmdb/backend.py:152-154`). -/
noncomputable def accept (c : EventId) : List Event → List Event
  | [] => []
  | e :: l => if IdLt c e.id then e :: accept e.id l else accept c l

open Classical in
/-- Its last id afterwards. -/
noncomputable def lastAfter (c : EventId) : List Event → EventId
  | [] => c
  | e :: l => if IdLt c e.id then lastAfter e.id l else lastAfter c l

open Classical in
/-- Events after an id. -/
noncomputable def after (c : EventId) (l : List Event) : List Event := l.filter fun e => decide (IdLt c e.id)

/-- The events of a server that were flushed during a history, in order. -/
def flushed (server : Int) (acts : List SyncAct) : List Event :=
  (acts.flatMap fun a => match a with
    | .flush registered => registered.flatten
    | _ => []).filter fun e => e.id.server = server

/-- What an action does to the stored events of a server; `keep` tells which events are stored at all. -/
def storedStep (server : Int) (keep : Event → Bool) (stored : List Event) : SyncAct → List Event
  | .flush registered => stored ++ registered.flatten.filter fun e => e.id.server = server && keep e
  | .remove gone => stored.filter fun e => !gone e
  | _ => stored

/-- The events of a server that are stored after a history, in order. -/
def stored (server : Int) (keep : Event → Bool) (acts : List SyncAct) : List Event :=
  acts.foldl (storedStep server keep) []

/-- The action removes no events. -/
def keepsAll : SyncAct → Prop
  | .remove _ => False
  | _ => True

/-- The ids of the server increase. -/
def Increasing (l : List Event) : Prop := l.Pairwise fun a b => IdLt a.id b.id

/-- The events of an answer that an action hands to the client. -/
def answer (s : Sync) : SyncAct → List Event
  | .deliver =>
    if s.closed then []
    else
      match s.wire with
      | .response es _ :: _ => es
      | _ => []
  | _ => []

/-- The events of all answers the client received, in order. -/
def queried (s : Sync) : List SyncAct → List Event
  | [] => []
  | a :: acts => answer s a ++ queried (s.step a) acts

/-- The calls consist of the events, cut into whole sessions. -/
structure WholeSessions (calls : List (List Event)) (events : List Event) : Prop where
  all : calls.flatten = events
  nonempty : ∀ c ∈ calls, c ≠ []
  single : ∀ c ∈ calls, ∀ a ∈ c, ∀ b ∈ c, a.id.session = b.id.session
  order : calls.Pairwise fun c c' => ∀ a ∈ c, ∀ b ∈ c', a.id.session < b.id.session

end HatEvent.Spec
