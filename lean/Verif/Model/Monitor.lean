import Verif.Model.Conditions

/-!
# Monitor state

The part of the state of hat-monitor that the event server and its components read, and the functions
that select servers from it.
-/

namespace HatEvent

/-- `ComponentInfo` of hat-monitor, the fields that are used. -/
structure MonitorInfo where
  cid : Int
  mid : Int
  name : String
  group : String
  data : Json
  rank : Int
  reqToken : Option Int
  resToken : Option Int

/-- `State` of hat-monitor. -/
structure MonitorState where
  info : Option MonitorInfo
  components : List MonitorInfo

/-- `==` of two infos (named tuples), `eventer_client_runner.py:138`. -/
def MonitorInfo.eq (a b : MonitorInfo) : Bool :=
  a.cid == b.cid && a.mid == b.mid && a.name == b.name && a.group == b.group && pyEq a.data b.data &&
    a.rank == b.rank && a.reqToken == b.reqToken && a.resToken == b.resToken

/-- Where a server can be reached, `EventerServerData`, `eventer_client_runner.py:28-30`. -/
structure ServerAddr where
  serverId : Int
  host : String
  port : Int
  deriving DecidableEq

/-- `ServerData`, `component.py:51-55`. -/
structure ServerData where
  addr : ServerAddr
  token : Option String
  deriving DecidableEq

/-- `isinstance(x, int)`, with the value; booleans are integers. -/
def Json.asInt : Json → Option Int
  | .int n => some n
  | .bool b => some (if b then 1 else 0)
  | _ => none

/-- `isinstance(x, str)`, with the value. -/
def Json.asStr : Json → Option String
  | .str s => some s
  | _ => none

/-- `isinstance(x, (str, NoneType))`, with the value. -/
def Json.asToken : Json → Option (Option String)
  | .str s => some (some s)
  | .null => some none
  | _ => none

/-- The data of a server, `eventer_client_runner.py:141-149` and `component.py:184-192`. -/
def readServerData (data : Json) : Option ServerData :=
  match (jsonGet data (.name "server_id")).asInt,
    (jsonGet data (.array [.name "eventer_server", .name "host"])).asStr,
    (jsonGet data (.array [.name "eventer_server", .name "port"])).asInt,
    (jsonGet data (.name "server_token")).asToken with
  | some serverId, some host, some port, some token => some ⟨⟨serverId, host, port⟩, token⟩
  | _, _, _, _ => none

/-- `info == state.info`, `eventer_client_runner.py:138`. -/
def isSelf (self : Option MonitorInfo) (info : MonitorInfo) : Bool :=
  match self with
  | some self => info.eq self
  | none => false

/-- One component in `_get_eventer_server_data`, `eventer_client_runner.py:137-155`. -/
def eventerServerDataOf (group : String) (serverToken : Option String) (self : Option MonitorInfo) (info : MonitorInfo) :
    Option ServerAddr :=
  if isSelf self info || info.group != group then none
  else
    match readServerData info.data with
    | none => none
    | some data => if serverToken.isSome && data.token != serverToken then none else some data.addr

/-- `_get_eventer_server_data`, `eventer_client_runner.py:136-155`. -/
def eventerServerData (group : String) (serverToken : Option String) (state : MonitorState) : List ServerAddr :=
  state.components.filterMap (eventerServerDataOf group serverToken state.info)

/-- `_active_server_filter`, `component.py:202-205`. -/
def isActiveServer (serverGroup : String) (info : MonitorInfo) : Bool :=
  info.group == serverGroup && info.reqToken.isSome && info.reqToken == info.resToken

/-- `_get_active_server_data`, `component.py:179-200`. -/
def activeServerData (serverGroup : String) (clientToken : Option String) (state : MonitorState) : Option ServerData :=
  match state.components.find? (isActiveServer serverGroup) with
  | none => none
  | some info =>
    match readServerData info.data with
    | none => none
    | some data => if clientToken.isSome && clientToken != data.token then none else some data

end HatEvent
