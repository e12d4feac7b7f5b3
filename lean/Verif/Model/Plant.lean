import Verif.Model.Pair
import Verif.Model.Engine

/-!
# Two servers with their engines

The backends and connections of `Model/Pair.lean`, and on each server at most one engine that registers events in the
backend (`server/main_runner.py:80-116`, `server/engine_runner.py:61-93`).  Which server has an engine at a time is up to the
monitor server; here both may have one, at any time (`server/main_runner.py:168-176`).
-/

namespace HatEvent

/-- What may happen on a server, besides its connections: the actions of the backend other than registrations and end of
the process (`backends/lmdb/backend.py:50-105,196-289`), `restart`; creation of an engine with modules of the given
subscriptions (`server/engine_runner.py:61-82`), and an action of the engine.  Answers of the backend to the engine are part
of the latter and not restricted to what the backend does. -/
inductive SiteAct where
  | touch (partitionId : Int)
  | flush
  | cleanup (fl : Rat → Rat) (sizeEntries : Rat → Option Int) (now : Timestamp)
  | restart
  | start (modules : List Sub)
  | engine (act : EngineAct)

/-- What may happen. -/
inductive PlantAct where
  | left (act : SiteAct)
  | right (act : SiteAct)
  | fore (act : SideAct)
  | back (act : SideAct)

/-- `pair` are the backends and connections, `left` and `right` the engines (`EngineRunner._engine`,
`server/engine_runner.py:33`), `past` records what happened to `pair`. -/
structure Plant where
  pair : Pair
  left : Option Engine
  right : Option Engine
  past : List PairAct

/-- Nothing exists yet (`server/main_runner.py:30-40`). -/
def Plant.new (conf : Conf) (left right : Int) : Plant := ⟨.new conf left right, none, none, []⟩

/-- `create_engine` gets the last event id from the backend (`server/engine.py:38-39`); the previous engine was closed
before (`server/engine_runner.py:84-91,107-111`).  A backend that is closed raises. -/
def startEngine (server : Int) (b : Backend) (engine : Option Engine) (modules : List Sub) : Option Engine :=
  match engine.map Engine.phase with
  | none | some .closed =>
    match b.getLastEventId server with
    | .ok last => some (.create ⟨server, modules, 1024⟩ last)
    | .error _ => engine
  | _ => engine

/-- The engine after an action on a server (`server/engine_runner.py:61-93`). -/
def siteEngine (server : Int) (b : Backend) (engine : Option Engine) : SiteAct → Option Engine
  | .restart => none
  | .start modules => startEngine server b engine modules
  | .engine act => engine.map (·.step act)
  | _ => engine

/-- Calls of `Backend.register` an action of the engine makes (`server/engine.py:125,153`). -/
def newCalls (engine : Option Engine) (act : EngineAct) : List BackendOp :=
  match engine with
  | none => []
  | some s => ((s.step act).sent.drop s.sent.length).map .register

/-- What an action on a server does to the backend.  A process that is started again uses the same configuration
(`server/main.py:60-78`). -/
def siteOps (conf : Conf) (engine : Option Engine) : SiteAct → List BackendOp
  | .touch i => [.touch i]
  | .flush => [.flush]
  | .cleanup fl sizeEntries now => [.cleanup fl sizeEntries now]
  | .restart => [.reopen conf]
  | .start _ => []
  | .engine act => newCalls engine act

/-- What an action does to the backends and connections. -/
def Plant.doings (conf : Conf) (p : Plant) : PlantAct → List PairAct
  | .left act => (siteOps conf p.left act).map .left
  | .right act => (siteOps conf p.right act).map .right
  | .fore act => [.fore act]
  | .back act => [.back act]

/-- Effect of an action on the engine of the left server (`server/engine_runner.py:61-93`). -/
def Plant.nextLeft (left : Int) (p : Plant) : PlantAct → Option Engine
  | .left act => siteEngine left p.pair.left p.left act
  | _ => p.left

/-- Effect of an action on the engine of the right server (`server/engine_runner.py:61-93`). -/
def Plant.nextRight (right : Int) (p : Plant) : PlantAct → Option Engine
  | .right act => siteEngine right p.pair.right p.right act
  | _ => p.right

/-- Effect of an action. -/
def Plant.step (conf : Conf) (left right : Int) (p : Plant) (act : PlantAct) : Plant :=
  ⟨p.pair.run (p.doings conf act), p.nextLeft left act, p.nextRight right act, p.past ++ p.doings conf act⟩

/-- A history. -/
def Plant.run (conf : Conf) (left right : Int) (acts : List PlantAct) : Plant :=
  acts.foldl (Plant.step conf left right) (.new conf left right)

end HatEvent
