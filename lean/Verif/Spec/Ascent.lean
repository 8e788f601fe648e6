import Verif.Spec.Walk

/-
Specification vocabulary for the line of steepest ascent.
-/
namespace PyProm.Spec

/-- One strictly rising step to the steepest touching cell; of several equally steep ones the first, clockwise
from the row above. -/
def FirstSteep (d : DataMap) (w : Int → Int → Rat → Rat) (p q : Pt) : Prop :=
  RiseStep d w p q ∧ ∃ pre post, ring p = pre ++ q :: post ∧ ∀ r ∈ pre, ¬ Steepest d w p r

/-- The line of steepest ascent from `p` passes through `t`. -/
def LeadsTo (d : DataMap) (w : Int → Int → Rat → Rat) (p t : Pt) : Prop :=
  Relation.ReflTransGen (FirstSteep d w) p t

end PyProm.Spec
