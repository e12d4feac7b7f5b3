import Verif.Model.Matches
import Verif.Model.Subscription

/-!
# Events

Models the data types of `src_py/hat/event/common/common.py`.  Python integers
are unbounded, hence `Int`.
-/

namespace HatEvent

/-- `Timestamp`, `common/common.py:39-43`. -/
structure Timestamp where
  s : Int
  us : Int
  deriving DecidableEq, Repr

/-- `Timestamp.__lt__`: named tuples compare lexicographically
(`common/common.py:39`). -/
def Timestamp.lt (a b : Timestamp) : Bool :=
  if a.s ≠ b.s then a.s < b.s else a.us < b.us

/-- `Timestamp.__le__` (`common/common.py:39`). -/
def Timestamp.le (a b : Timestamp) : Bool :=
  if a.s ≠ b.s then a.s < b.s else a.us ≤ b.us

/-- `min_timestamp`, `common/common.py:53`. -/
def minTimestamp : Timestamp := ⟨-(2 ^ 63), 0⟩

/-- `max_timestamp`, `common/common.py:56`. -/
def maxTimestamp : Timestamp := ⟨2 ^ 63 - 1, 999999⟩

/-- `Status`, `common/common.py:60-64`. -/
inductive Status where
  | standby | starting | operational | stopping
  deriving DecidableEq, Repr

/-- `Order`, `common/common.py:67-69`. -/
inductive Order where
  | descending | ascending
  deriving DecidableEq, Repr

/-- `OrderBy`, `common/common.py:72-74`. -/
inductive OrderBy where
  | timestamp | sourceTimestamp
  deriving DecidableEq, Repr

/-- `EventId`, `common/common.py:77-80`. -/
structure EventId where
  server : Int
  session : Int
  instance_ : Int
  deriving DecidableEq, Repr

/-- `EventId.__lt__`: lexicographic (`common/common.py:77`). -/
def EventId.lt (a b : EventId) : Bool :=
  if a.server ≠ b.server then a.server < b.server
  else if a.session ≠ b.session then a.session < b.session
  else a.instance_ < b.instance_

/-- `EventId.__le__`: lexicographic (`common/common.py:77`). -/
def EventId.le (a b : EventId) : Bool :=
  if a.server ≠ b.server then a.server < b.server
  else if a.session ≠ b.session then a.session < b.session
  else a.instance_ ≤ b.instance_

/-- `json.Data` (hat-json).  Finite floats are rationals; NaN and infinities
are not modelled. -/
inductive Json where
  | null
  | bool (b : Bool)
  | int (n : Int)
  | float (q : Rat)
  | str (s : String)
  | arr (l : List Json)
  | obj (l : List (String × Json))
  deriving Repr

/-- `EventPayload`, `common/common.py:83-92`. -/
inductive Payload where
  | binary (type : String) (data : List UInt8)
  | json (data : Json)
  deriving Repr

/-- `Event`, `common/common.py:95-107`. -/
structure Event where
  id : EventId
  type : EventType
  timestamp : Timestamp
  sourceTimestamp : Option Timestamp
  payload : Option Payload
  deriving Repr

/-- `Event.__lt__`, `common/common.py:109-122`. -/
def Event.lt (self other : Event) : Bool :=
  if self.id = other.id then false
  else if self.id.server = other.id.server then self.id.lt other.id
  else if self.timestamp ≠ other.timestamp then self.timestamp.lt other.timestamp
  else true

/-- `Event.__gt__`, `common/common.py:124-137`. -/
def Event.gt (self other : Event) : Bool :=
  if self.id = other.id then false
  else if self.id.server = other.id.server then other.id.lt self.id
  else if self.timestamp ≠ other.timestamp then other.timestamp.lt self.timestamp
  else false

/-- `RegisterEvent`, `common/common.py:140-143`. -/
structure RegisterEvent where
  type : EventType
  sourceTimestamp : Option Timestamp
  payload : Option Payload
  deriving Repr

/-- `QueryTimeseriesParams`, `common/common.py:150-159`. -/
structure QueryTimeseriesParams where
  eventTypes : Option (List EventType) := none
  tFrom : Option Timestamp := none
  tTo : Option Timestamp := none
  sourceTFrom : Option Timestamp := none
  sourceTTo : Option Timestamp := none
  order : Order := .descending
  orderBy : OrderBy := .timestamp
  maxResults : Option Int := none
  lastEventId : Option EventId := none
  deriving DecidableEq, Repr

/-- `QueryServerParams`, `common/common.py:162-166`. -/
structure QueryServerParams where
  serverId : Int
  persisted : Bool := false
  maxResults : Option Int := none
  lastEventId : Option EventId := none
  deriving DecidableEq, Repr

/-- `QueryParams`, `common/common.py:146-171`. -/
inductive QueryParams where
  | latest (eventTypes : Option (List EventType))
  | timeseries (params : QueryTimeseriesParams)
  | server (params : QueryServerParams)
  deriving DecidableEq, Repr

/-- `QueryResult`, `common/common.py:174-176`. -/
structure QueryResult where
  events : List Event
  moreFollows : Bool
  deriving Repr

end HatEvent
