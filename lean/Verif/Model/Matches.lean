/-!
# Event types and the query type matcher

Models `src_py/hat/event/common/matches.py`.
-/

namespace HatEvent

/-- Event type segment, `common/common.py` `EventTypeSegment = str`. -/
abbrev Segment := String

/-- Event type (and query type), a tuple of segments,
`common/common.py` `EventType`. -/
abbrev EventType := List Segment

/-- The `zip` loop of `common/matches.py:40-44`: compares corresponding
subtypes, `'?'` on the query side accepts anything.  Stops at the shorter
list, like Python's `zip`. -/
def matchesZip : EventType → EventType → Bool
  | i :: event, j :: query =>
    if j ≠ "?" ∧ i ≠ j then false else matchesZip event query
  | _, _ => true

/-- `matches_query_type`, `common/matches.py:4-44`. -/
def matchesQueryType (eventType queryType : EventType) : Bool :=
  -- l.30: `bool(query_type and query_type[-1] == '*')`
  let isVariable := queryType.getLast? == some "*"
  -- l.31-32
  let query := if isVariable then queryType.dropLast else queryType
  -- l.34-35
  if eventType.length < query.length then false
  -- l.37-38
  else if eventType.length > query.length ∧ ¬ isVariable then false
  -- l.40-44
  else matchesZip eventType query

end HatEvent
