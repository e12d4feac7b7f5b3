import Verif.Model.OldCodec
import Verif.Model.Lmdb
import Verif.Spec.Sbs
import Verif.Spec.Codec

/-! # Specification: what is in the files of old databases -/

namespace HatEvent
namespace Spec

/-- The JSON text of the payload (if it is a JSON payload) can be read back. -/
def OldJsonReadable (jc : JsonCodec) (p : Option OldPayload) : Prop :=
  ∀ d, p = some (.json d) → jc.decode (jc.encode d) = .ok d

/-- Payload as written by 0.6 (schema in `v06.py:130-138`). -/
def Written06Payload (jc : JsonCodec) : OldPayload → Sbs
  | .binary d => .choice "binary" (.bytes d)
  | .json d => .choice "json" (.str (jc.encode d))
  | .sbs d => .choice "sbs" (.record [
      ("module", match d.module_ with | some m => .choice "value" (.str m) | none => .choice "none" .none),
      ("type", .str d.type), ("data", .bytes d.data)])

/-- Event as written by 0.6 (schema in `v06.py:140-146`); there is no encoder for it in the repository. -/
def Written06 (jc : JsonCodec) (e : Event06) : Sbs :=
  .record [("id", .record [("server", .int e.id.server), ("instance", .int e.id.instance_)]),
    ("type", .array (e.type.map .str)),
    ("timestamp", .record [("s", .int e.timestamp.s), ("us", .int e.timestamp.us)]),
    ("sourceTimestamp", match e.sourceTimestamp with
      | some t => .choice "value" (.record [("s", .int t.s), ("us", .int t.us)])
      | none => .choice "none" .none),
    ("payload", match e.payload with
      | some p => .choice "value" (Written06Payload jc p)
      | none => .choice "none" .none)]

/-- The settings of a 0.9 database are in the file: JSON of the version under the key of `SettingsId.VERSION`. -/
def HoldsVersion (writeJson : Json → Bytes) (f : RawFile) (settings : Dict SettingsId String) : Prop :=
  ∃ db, Dict.get f "SYSTEM_SETTINGS" = some db ∧
    Dict.get db [0, 0, 0, 0, 0, 0, 0, 0] = (Dict.get settings .version).map fun v => writeJson (.str v)

/-- The databases of 0.9, `backends/lmdb/common.py:30-39`. -/
def Names09 : List String :=
  ["SYSTEM_SETTINGS", "SYSTEM_LAST_EVENT_ID", "SYSTEM_LAST_TIMESTAMP", "REF", "LATEST_DATA", "LATEST_TYPE",
    "TIMESERIES_DATA", "TIMESERIES_PARTITION", "TIMESERIES_COUNT"]

end Spec
end HatEvent
