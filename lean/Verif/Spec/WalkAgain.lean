import Verif.Spec.Ascent

/-
Specification vocabulary for second walks.
-/
namespace PyProm.Spec

/-- The cell is higher than every touching data cell. -/
def Peak (d : DataMap) (t : Pt) : Prop := ∀ q, Adj t q → Data d q → el d q < el d t

/-- The line of steepest ascent from `p` rises strictly up to a single highest cell; it meets no flat. -/
def RisesToPeak (d : DataMap) (w : Int → Int → Rat → Rat) (p : Pt) : Prop := ∃ t, LeadsTo d w p t ∧ Peak d t

/-- The walk climbs from this point of a feature: any on the edge, else one of the highest of its neighbourhood. -/
def ClimbedFrom (f : Feature) (c : List P3) (p : P3) : Prop := p ∈ c ∧ (f.edge = true ∨ ∀ q ∈ c, q.e ≤ p.e)

end PyProm.Spec
