import Verif.Model.Event

/-!
# Command line manager

Models the query and subscribe actions of `manager/main.py`: from the command line values to the parameters sent.

* Options are given as recognised by `argparse`; a value that `argparse` refuses ends the program (`SystemExit`).
* Timestamps are given as parsed (`_parse_timestamp`, l.296-300, see `Time.lean` for the conversion).
* `register` and `server` (not implemented) are not modelled.
-/

namespace HatEvent

/-- `str.split(sep)` of one character. -/
def splitChars (sep : Char) : List Char → List (List Char)
  | [] => [[]]
  | c :: r =>
    if c = sep then [] :: splitChars sep r
    else match splitChars sep r with
      | [] => [[c]]
      | w :: ws => (c :: w) :: ws

/-- `_parse_event_type`, `manager/main.py:303-304`. -/
def parseEventType (s : String) : EventType := (splitChars '/' s.toList).map String.ofList

/-- `argparse` error: usage and exit. -/
def argparseExit : PyErr := .exception "SystemExit"

/-- `_parse_event_id`, `manager/main.py:307-308`: `EventId` is given one list, two fields are missing.  `argparse` reports a
`TypeError` of a type function as invalid value. -/
def parseEventId (_ : String) : Except PyErr EventId := .error argparseExit

/-- `_parse_order` with `choices`, `manager/main.py:86-89,311-312`: `argparse` looks for the parsed `Order`
among the names.  An unknown name is a `KeyError`, which ends the program too. -/
def parseOrder (_ : String) : Except PyErr Order := .error argparseExit

/-- `_parse_order_by` with `choices`, `manager/main.py:90-94,315-316`. -/
def parseOrderBy (_ : String) : Except PyErr OrderBy := .error argparseExit

/-- An option that may be missing. -/
def optionArg {α β : Type} (parse : α → Except PyErr β) : Option α → Except PyErr (Option β)
  | none => .ok none
  | some s => match parse s with
    | .ok x => .ok (some x)
    | .error err => .error err

/-- Options of `query timeseries`, `manager/main.py:66-101`. -/
structure CliTimeseries where
  eventTypes : Option (List String) := none
  tFrom : Option Timestamp := none
  tTo : Option Timestamp := none
  sourceTFrom : Option Timestamp := none
  sourceTTo : Option Timestamp := none
  order : Option String := none
  orderBy : Option String := none
  maxResults : Option Int := none
  lastEventId : Option String := none

/-- Options of `query`, `manager/main.py:54-117`. -/
inductive CliQuery where
  | latest (eventTypes : Option (List String))
  | timeseries (options : CliTimeseries)
  | server (serverId : Int) (persisted : Bool) (maxResults : Option Int) (lastEventId : Option String)

/-- Parameters of `query timeseries`, `manager/main.py:66-101,170-180`. -/
def cliTimeseries (o : CliTimeseries) : Except PyErr QueryParams := do
  let order ← optionArg parseOrder o.order
  let orderBy ← optionArg parseOrderBy o.orderBy
  let lastEventId ← optionArg parseEventId o.lastEventId
  return .timeseries {
    eventTypes := o.eventTypes.map fun l => l.map parseEventType
    tFrom := o.tFrom
    tTo := o.tTo
    sourceTFrom := o.sourceTFrom
    sourceTTo := o.sourceTTo
    order := order.getD .descending
    orderBy := orderBy.getD .timestamp
    maxResults := o.maxResults
    lastEventId := lastEventId }

/-- Parameters of `query server`, `manager/main.py:103-117,182-187`: `QueryTimeseriesParams` has no `server_id`. -/
def cliServer (_serverId : Int) (_persisted : Bool) (_maxResults : Option Int) (lastEventId : Option String) :
    Except PyErr QueryParams := do
  let _ ← optionArg parseEventId lastEventId
  throw .typeError

/-- `main` for `query`, `manager/main.py:165-190`. -/
def cliQuery : CliQuery → Except PyErr QueryParams
  | .latest eventTypes => .ok (.latest (eventTypes.map fun l => l.map parseEventType))
  | .timeseries o => cliTimeseries o
  | .server serverId persisted maxResults lastEventId => cliServer serverId persisted maxResults lastEventId

/-- Subscriptions of `subscribe`, `manager/main.py:127-129,197-198`. -/
def cliSubscriptions (eventTypes : List String) : List EventType :=
  if eventTypes.isEmpty then [["*"]] else eventTypes.map parseEventType

end HatEvent
