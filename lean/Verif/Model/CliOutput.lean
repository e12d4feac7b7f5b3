import Verif.Model.Cli
import Verif.Model.ReqClient

/-!
# Register and output of the command line manager

Models `register` (with its exit code) and the printed JSON of `manager/main.py`, and `manager/common.py`.

* Reading JSON, YAML and TOML text is a parameter; so is `json.get_file_format` (the suffix of a path).
* Standard input and files are given by their bytes.
* JSON is printed as a value; `json.encode` (hat-json) is not modelled.
-/

namespace HatEvent

/-! ## Output -/

/-- A digit of `bytes.hex` (used in `manager/common.py:42`). -/
def cliHexDigit (n : Nat) : Char := if n < 10 then Char.ofNat (48 + n) else Char.ofNat (87 + n)

/-- `bytes.hex`, `manager/common.py:42`. -/
def cliHexChars : List UInt8 → List Char
  | [] => []
  | b :: rest => cliHexDigit (b.toNat / 16) :: cliHexDigit (b.toNat % 16) :: cliHexChars rest

/-- `_event_id_to_json`, `manager/common.py:27-30`. -/
def cliEventIdToJson (id : EventId) : Json :=
  .obj [("server", .int id.server), ("session", .int id.session), ("instance", .int id.instance_)]

/-- `_timestamp_to_json`, `manager/common.py:33-35`. -/
def cliTimestampToJson (t : Timestamp) : Json := .obj [("s", .int t.s), ("us", .int t.us)]

/-- `_event_payload_to_json`, `manager/common.py:38-48`. -/
def cliPayloadToJson : Payload → Json
  | .binary type data =>
    .obj [("data_type", .str "binary"), ("binary_type", .str type), ("data", .str (String.ofList (cliHexChars data)))]
  | .json data => .obj [("data_type", .str "json"), ("data", data)]

/-- An optional part, `manager/common.py:16-19`; named tuples are never false. -/
def optionToJson {α : Type} (f : α → Json) : Option α → Json
  | none => .null
  | some x => f x

/-- `event_to_json`, `manager/common.py:11-19`. -/
def cliEventToJson (e : Event) : Json :=
  .obj [("id", cliEventIdToJson e.id), ("type", .arr (e.type.map .str)), ("timestamp", cliTimestampToJson e.timestamp),
    ("source_timestamp", optionToJson cliTimestampToJson e.sourceTimestamp), ("payload", optionToJson cliPayloadToJson e.payload)]

/-- `query_result_to_json`, `manager/common.py:22-24`. -/
def queryResultToJson (r : QueryResult) : Json :=
  .obj [("events", .arr (r.events.map cliEventToJson)), ("more_follows", .bool r.moreFollows)]

/-- What `subscribe` prints for one notification, `manager/main.py:268-270`. -/
def notificationToJson (events : List Event) : Json := .arr (events.map cliEventToJson)

/-! ## Register -/

/-- `json.Format` (used in `manager/main.py:323-374`). -/
inductive JsonFormat where
  | json
  | yaml
  | toml
  deriving DecidableEq

/-- Values of `--payload-type`, `manager/main.py:39-43`. -/
inductive PayloadType where
  | json
  | yaml
  | toml
  | binary
  | none
  deriving DecidableEq

/-- The parameters of the model: `json.decode_stream`/`json.decode_file` of some bytes (`manager/main.py:346,377`), and `json.get_file_format`
(`manager/main.py:356`), which raises `ValueError` for other suffixes. -/
structure Reading where
  decode : JsonFormat → List UInt8 → Except PyErr Json
  suffix : String → Option JsonFormat

/-- Where the payload is: `--payload-path`, `manager/main.py:47-49`, with the bytes there. -/
inductive PayloadSource where
  | stdin (bytes : List UInt8)
  | file (path : String) (bytes : List UInt8)

/-- The bytes of a source (helper for `manager/main.py:346,350,377,380`). -/
def PayloadSource.bytes : PayloadSource → List UInt8
  | .stdin bytes => bytes
  | .file _ bytes => bytes

/-- The format for standard input, `manager/main.py:324-337`; `none` is binary. -/
def stdinFormat : Option PayloadType → Option JsonFormat
  | none => some .json
  | some .json => some .json
  | some .yaml => some .yaml
  | some .toml => some .toml
  | some .binary => Option.none
  | some .none => Option.none

/-- The format for a file, `manager/main.py:354-374`; `none` is binary. -/
def fileFormat (r : Reading) (path : String) : Option PayloadType → Option JsonFormat
  | none => r.suffix path
  | some .json => some .json
  | some .yaml => some .yaml
  | some .toml => some .toml
  | some .binary => Option.none
  | some .none => Option.none

/-- The payload in a format, `manager/main.py:345-352,376-382`. -/
def payloadIn (r : Reading) (binaryType : String) (bytes : List UInt8) : Option JsonFormat → Except PyErr Payload
  | some format => (r.decode format bytes).map .json
  | none => .ok (.binary binaryType bytes)

/-- The payload with its format, `manager/main.py:323-382`. -/
def payloadFrom (r : Reading) (type : Option PayloadType) (binaryType : String) : PayloadSource → Except PyErr Payload
  | .stdin bytes => payloadIn r binaryType bytes (stdinFormat type)
  | .file path bytes => payloadIn r binaryType bytes (fileFormat r path type)

/-- `_read_payload`, `manager/main.py:319-382`. -/
def readPayload (r : Reading) (type : Option PayloadType) (binaryType : String) (source : PayloadSource) :
    Except PyErr (Option Payload) :=
  if type = some .none then .ok none else (payloadFrom r type binaryType source).map some

/-- Options of `register`, `manager/main.py:33-52`. -/
structure CliRegister where
  sourceTimestamp : Option Timestamp := none
  payloadType : Option PayloadType := none
  binaryType : String := ""
  source : PayloadSource
  eventType : String

/-- The event `register` sends, `manager/main.py:153-158`. -/
def cliRegister (r : Reading) (o : CliRegister) : Except PyErr RegisterEvent :=
  match readPayload r o.payloadType o.binaryType o.source with
  | .ok payload => .ok ⟨parseEventType o.eventType, o.sourceTimestamp, payload⟩
  | .error e => .error e

/-- The call `register` makes, `manager/main.py:234`. -/
def cliRegisterCall (e : RegisterEvent) : ReqAct := .register [e] false

/-- The exit code of `register` for the end of its call, `manager/main.py:221-222,234-237` and `sys.exit` in `manager/__main__.py`: `None` is 1, events are 0,
an exception is 1, cancelling (`SIGINT`) is suppressed. -/
def registerExit : CallEnd → Nat
  | .nothing => 1
  | .answered (.events none) => 1
  | .answered _ => 0
  | .connectionError => 1
  | .cancelled => 0

end HatEvent
