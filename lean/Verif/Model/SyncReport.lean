import Verif.Model.Sync

/-!
# Reports of a synchronisation

The client of a remote event server (`Model/Sync.lean`) with what it tells others about itself: events
`event/<local id>/synced/<remote id>` are registered at the remote server, and by the engine of the local server if
there is one.

* Status messages and messages of events have queues of their own, as have questions and reports; messages of both
  kinds may overtake each other here, which they do not do in the code.
* Reading the last id of the local backend (`eventer_client.py:127-128`) is done before the history begins.
* What the engines do with a report is not modelled (see C18–C22): a call of `register` returns, or raises
  after the engine has closed (`engine.py:92-93,144-145`).
-/

namespace HatEvent

/-- `SyncedState`, `eventer_client.py:18-22`. -/
inductive SyncedState where
  | connected
  | syncing
  | synced
  deriving DecidableEq, Repr

/-- Payload of a report, `eventer_client.py:97-99,191-193`, `engine_runner.py:49-51`; no count is written like `None`. -/
structure SyncedReport where
  state : SyncedState
  count : Option Nat
  deriving DecidableEq, Repr

/-- Place in `_set_synced`, `eventer_client.py:188-205`: not in it, waiting for `send` (l.195-200), waiting for the local
engine (l.205, `main_runner.py:193-197`, `engine_runner.py:60`); `lost` tells that the engine has closed since. -/
inductive ReportStage where
  | idle
  | sent (report : SyncedReport)
  | calling (lost : Bool)
  deriving DecidableEq, Repr

/-- The client with its reports.  `state` is `_synced`, `counter` is `synced_counter`, `reports` are the arguments of the calls of
`_set_synced`, `up` are register messages and `down` status messages on their way (`true` is `OPERATIONAL`), `operational`
tells that the remote server has an engine and `toTell` that it is telling its status (`eventer/server.py:86-94`).
`remote` is what the present engine of the remote server was given, `here` what engines of the local server were given, and
`engine` tells that one is open.  `answers` is what the remote server has answered. -/
structure Reporter where
  sync : Sync
  state : Option SyncedState
  counter : Nat
  stage : ReportStage
  reports : List SyncedReport
  up : List SyncedReport
  down : List Bool
  operational : Bool
  toTell : Bool
  remote : List SyncedReport
  engine : Bool
  here : List SyncedReport
  answers : List (List Event)

/-- What may happen, as in `SyncAct`; moreover: the remote server changes its status, tells its status, the client hears the
status, the remote server handles a report, an engine of the local server is made or closes, its `register` returns or
raises. -/
inductive ReportAct where
  | flush (registered : List (List Event))
  | remove (gone : Event → Bool)
  | connect
  | notify
  | serve (size : Nat)
  | deliver
  | advance
  | close
  | status (operational : Bool)
  | tell
  | hear
  | handle
  | engine (isOpen : Bool)
  | returned
  | raised

/-- Before the connection, `eventer_client.py:44-51`. -/
def Reporter.init (remoteId : Int) (keep : Event → Bool) (last : EventId) (operational engine : Bool) : Reporter :=
  { sync := .init remoteId keep last, state := none, counter := 0, stage := .idle, reports := [], up := [], down := []
    operational := operational, toTell := false, remote := [], engine := engine, here := [], answers := [] }

/-- `_set_synced` up to its first await, `eventer_client.py:188-200`. -/
def Reporter.setSynced (r : Reporter) (state : SyncedState) (count : Option Nat) : Reporter :=
  { r with
    state := some state
    stage := .sent ⟨state, count⟩
    reports := r.reports ++ [⟨state, count⟩]
    up := r.up ++ [⟨state, count⟩] }

/-- `_set_synced` after its first await, `eventer_client.py:202-205`, `engine_runner.py:42-60`. -/
def Reporter.call (r : Reporter) (report : SyncedReport) : Reporter :=
  if r.engine then { r with here := r.here ++ [report], stage := .calling false } else { r with stage := .idle }

/-- `_synchronize` outside of `_set_synced` up to its next await, `eventer_client.py:123-178`. -/
def Reporter.work (r : Reporter) : Reporter :=
  match r.sync.task with
  | .starting =>
    if r.state = none then r.setSynced .connected none else { r with sync := r.sync.advance }
  | .answered _ _ result _ =>
    if !result.isEmpty && r.counter == 0 && r.state != some .syncing then r.setSynced .syncing none
    else { r with counter := r.counter + result.length, sync := r.sync.advance }
  | .draining _ =>
    if r.sync.queue matches some [] then
      { r with sync := r.sync.advance }.setSynced .synced (some r.counter)
    else { r with sync := r.sync.advance }
  | _ => { r with sync := r.sync.advance }

/-- Progress of `_synchronize`, `eventer_client.py:123-205`. -/
def Reporter.advance (r : Reporter) : Reporter :=
  if r.sync.closed || !r.sync.connected then r
  else
    match r.stage with
    | .idle => r.work
    | .sent report => r.call report
    | .calling _ => r

/-- Events of an answer. -/
def SyncMsg.answer : SyncMsg → Option (List Event)
  | .notify _ => none
  | .response events _ => some events

/-- A query is answered, `eventer/server.py:236-248`. -/
def Reporter.serve (r : Reporter) (size : Nat) : Reporter :=
  { r with
    sync := r.sync.step (.serve size)
    answers :=
      r.answers ++ ((r.sync.step (.serve size)).wire.drop r.sync.wire.length).filterMap SyncMsg.answer }

/-- The remote server changes its status: the engine first (`server/eventer_server.py:70-71`), then clients are told
(`eventer/server.py:88-94`).  Its calls are made one after another (`engine_runner.py:62-122`). -/
def Reporter.setStatus (r : Reporter) (operational : Bool) : Reporter :=
  if r.toTell || (operational && r.operational) then r
  else
    { r with
      operational := operational
      toTell := true
      remote := if operational then [] else r.remote }

/-- `_on_status`, `eventer_client.py:95-107`. -/
def Reporter.onStatus (r : Reporter) (operational : Bool) : Reporter :=
  match r.state with
  | none => r
  | some state => if operational then { r with up := r.up ++ [⟨state, none⟩] } else r

/-- `_on_register` of the remote server, `server/eventer_server.py:100-105`. -/
def Reporter.handle (r : Reporter) : Reporter :=
  match r.up with
  | [] => r
  | report :: up => { r with up := up, remote := if r.operational then r.remote ++ [report] else r.remote }

/-- Effect of an action. -/
def Reporter.step (r : Reporter) : ReportAct → Reporter
  | .flush registered => { r with sync := r.sync.step (.flush registered) }
  | .remove gone => { r with sync := r.sync.step (.remove gone) }
  | .connect => { r with sync := r.sync.step .connect, toTell := r.toTell && r.sync.connected }
  | .notify => { r with sync := r.sync.step .notify }
  | .serve size => r.serve size
  | .deliver => { r with sync := r.sync.step .deliver }
  | .advance => r.advance
  | .close => { r with sync := r.sync.step .close }
  | .status operational => r.setStatus operational
  | .tell =>
    if r.toTell && r.sync.connected then { r with toTell := false, down := r.down ++ [r.operational] }
    else { r with toTell := false }
  | .hear =>
    match r.down with
    | [] => r
    | operational :: down => if r.sync.closed then r else { r with down := down }.onStatus operational
  | .handle => r.handle
  | .engine isOpen =>
    { r with engine := isOpen, stage := if r.stage = .calling false && !isOpen then .calling true else r.stage }
  | .returned => if r.stage matches .calling _ then { r with stage := .idle } else r
  | .raised =>
    if r.stage = .calling true then { r with sync := r.sync.step .close } else r

/-- A history. -/
def Reporter.run (r : Reporter) (acts : List ReportAct) : Reporter := acts.foldl Reporter.step r

end HatEvent
