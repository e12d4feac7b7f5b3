import Verif.Model.Plant
import Verif.Spec.Pair

/-!
# Specification of two servers with their engines
-/

namespace HatEvent.Spec

/-- The time an action of an engine reads from the clock, if it reads it. -/
def readsClock : EngineAct → Option Timestamp
  | .take now | .registered _ now | .raise _ now | .close now => some now
  | _ => none

/-- The time an action on a server reads from the clock for events. -/
def siteClock : SiteAct → Option Timestamp
  | .engine act => readsClock act
  | _ => none

/-- Actions on the left server. -/
def leftActs (acts : List PlantAct) : List SiteAct :=
  acts.filterMap fun a => match a with
    | .left act => some act
    | _ => none

/-- Actions on the right server. -/
def rightActs (acts : List PlantAct) : List SiteAct :=
  acts.filterMap fun a => match a with
    | .right act => some act
    | _ => none

/-- The clock of a server is not set back, and shows times that can be stored. -/
structure Clock (acts : List SiteAct) : Prop where
  onward : (acts.filterMap siteClock).Pairwise TimeLe
  valid : ∀ t ∈ acts.filterMap siteClock, TimeLe minTimestamp t

end HatEvent.Spec
