import Verif.Model.Duo

/-!
# Two servers that synchronise each other

Both servers of a redundant pair have a backend and a client of the other one
(`server/main_runner.py:80-116`, `server/eventer_client_runner.py:77-112`): `Model/Duo.lean` in both directions.
Events a server receives from the other one are registered in its backend like its own.
-/

namespace HatEvent

/-- Backends of both servers; `fore` takes the events of the left server to the right one, `back` those of the right server
to the left one (`server/main_runner.py:80-87,105-116`). -/
structure Pair where
  left : Backend
  right : Backend
  fore : Sync
  back : Sync

/-- What may happen on a connection, as in `DuoAct` (`server/eventer_client_runner.py:74-112`). -/
inductive SideAct where
  | connect
  | notify
  | serve
  | deliver
  | advance
  | close

/-- The same action of `Model/Duo.lean`. -/
def SideAct.toDuo : SideAct → DuoAct
  | .connect => .connect
  | .notify => .notify
  | .serve => .serve
  | .deliver => .deliver
  | .advance => .advance
  | .close => .close

/-- What may happen: an action of a backend or of a connection. -/
inductive PairAct where
  | left (op : BackendOp)
  | right (op : BackendOp)
  | fore (act : SideAct)
  | back (act : SideAct)

/-- Nothing exists yet (`server/main_runner.py:30-40`). -/
def Pair.new (conf : Conf) (left right : Int) : Pair :=
  ⟨.new conf, .new conf, (Duo.new conf left).link, (Duo.new conf right).link⟩

/-- The direction from left to right. -/
def Pair.foreward (p : Pair) : Duo := ⟨p.left, p.right, p.fore⟩

/-- The direction from right to left. -/
def Pair.backward (p : Pair) : Duo := ⟨p.right, p.left, p.back⟩

/-- Seen from the other direction. -/
def Pair.mirror (p : Pair) : Pair := ⟨p.right, p.left, p.back, p.fore⟩

/-- An action of the backend of the left server: it is the primary of `fore` and the standby of `back`
(`server/main_runner.py:89-111`). -/
def Pair.stepLeft (p : Pair) (op : BackendOp) : Pair :=
  ⟨p.left.step op, p.right, (p.foreward.stepPrimary op).link, (p.backward.stepStandby op).link⟩

/-- Calls of `register` of the standby of a connection are calls of the primary of the other one
(`server/eventer_client.py:114-186`). -/
def Duo.registers (d : Duo) (calls : List (List Event)) : Duo :=
  calls.foldl (fun d es => d.stepPrimary (.register es)) d

/-- An action of the connection from left to right. -/
def Pair.stepFore (p : Pair) (act : SideAct) : Pair :=
  ⟨p.left, (p.foreward.step act.toDuo).standby, (p.foreward.step act.toDuo).link,
    (p.backward.registers ((p.foreward.step act.toDuo).link.calls.drop p.fore.calls.length)).link⟩

/-- Effect of an action. -/
def Pair.step (p : Pair) : PairAct → Pair
  | .left op => p.stepLeft op
  | .right op => (p.mirror.stepLeft op).mirror
  | .fore act => p.stepFore act
  | .back act => (p.mirror.stepFore act).mirror

/-- A history. -/
def Pair.run (p : Pair) (acts : List PairAct) : Pair := acts.foldl Pair.step p

end HatEvent
