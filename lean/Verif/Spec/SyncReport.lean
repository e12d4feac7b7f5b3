import Verif.Model.SyncReport
import Verif.Spec.Sync

/-!
# Vocabulary of reports of a synchronisation (C85)
-/

namespace HatEvent.Spec

/-- The reports of a synchronisation that has received these events (`docs/server.rst`, "Eventer Client"). -/
def dueReports (received : List Event) : List SyncedReport :=
  if received = [] then [⟨.connected, none⟩, ⟨.synced, some 0⟩]
  else [⟨.connected, none⟩, ⟨.syncing, none⟩, ⟨.synced, some received.length⟩]

/-- No engine of the local server closes. -/
def EngineStays (acts : List ReportAct) : Prop := .engine false ∉ acts

/-- What an action does to the backend of the remote server. -/
def remoteActs : ReportAct → List SyncAct
  | .flush registered => [.flush registered]
  | .remove gone => [.remove gone]
  | _ => []

end HatEvent.Spec
