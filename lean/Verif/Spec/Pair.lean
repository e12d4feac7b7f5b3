import Verif.Model.Pair
import Verif.Spec.Duo

/-!
# Specification of two servers that synchronise each other
-/

namespace HatEvent.Spec

/-- The servers are set up alike: all configurations show the same latest events, and each engine registers events of
its own server. -/
structure Matched (conf : Conf) (left right : Int) (acts : List PairAct) : Prop where
  different : left ≠ right
  confL : ∀ c, .left (.reopen c) ∈ acts → LookupLaw c ∧ ∀ e, Visible c e ↔ Visible conf e
  confR : ∀ c, .right (.reopen c) ∈ acts → LookupLaw c ∧ ∀ e, Visible c e ↔ Visible conf e
  ownL : ∀ es, .left (.register es) ∈ acts → ∀ e ∈ es, e.id.server = left
  ownR : ∀ es, .right (.register es) ∈ acts → ∀ e ∈ es, e.id.server = right

/-- Each server registers its own events in order, at any time. -/
def BothInOrder (conf : Conf) (left right : Int) (acts : List PairAct) : Prop :=
  ∀ pre, pre <+: acts →
    Orderly left (ofServer left (told ((Pair.new conf left right).run pre).left)) ∧
    Orderly right (ofServer right (told ((Pair.new conf left right).run pre).right))

/-- No two events of one type and timestamp of both servers. -/
def NoTies (left right : Int) (p : Pair) : Prop :=
  ∀ x ∈ ofServer left (told p.left), ∀ y ∈ ofServer right (told p.right), x.type = y.type → x.timestamp ≠ y.timestamp

end HatEvent.Spec
