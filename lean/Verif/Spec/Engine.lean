import Verif.Model.Engine

/-!
# Specification of engine sessions
-/

namespace HatEvent.Spec

/-- The events of one session: one timestamp, instances counted from `first + 1`. -/
def numbered (server session : Int) (timestamp : Timestamp) : Int → List RegisterEvent → List Event
  | _, [] => []
  | first, r :: l =>
    ⟨⟨server, session, first + 1⟩, r.type, timestamp, r.sourceTimestamp, r.payload⟩ ::
      numbered server session timestamp (first + 1) l

/-- What modules returned during a session, with the sources of the modules. -/
def madeIn (s : Engine) (session : Int) : List (Source × RegisterEvent) :=
  (s.made.filter fun x => x.1 = session).map fun x => x.2

/-- What a module was given to process during a session. -/
def seenIn (s : Engine) (module : Nat) (session : Int) : List (Source × Event) :=
  (s.seen.filter fun x => x.1 = module ∧ x.2.2.id.session = session).map fun x => x.2

/-- The events of a session with their sources: first those of the request, then those of
modules. -/
def sourced (r : EngineRequest) (made : List (Source × RegisterEvent)) : List (Source × RegisterEvent) :=
  r.events.map (fun e => (r.source, e)) ++ made

/-- A complete session for a request. -/
structure Session (s : Engine) (server session : Int) (r : EngineRequest) (events : List Event) : Prop where
  content : ∃ timestamp, events =
    numbered server session timestamp 0 ((sourced r (madeIn s session)).map Prod.snd)
  seen : ∀ i sub, s.conf.modules[i]? = some sub → seenIn s i session =
    (((sourced r (madeIn s session)).map Prod.fst).zip events).filter fun p => sub.matches p.2.type

end HatEvent.Spec
