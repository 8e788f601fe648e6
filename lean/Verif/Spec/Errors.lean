import Verif.Spec.Faithful
import Mathlib.Algebra.Order.Group.Unbundled.Abs
import Mathlib.Algebra.Order.Ring.Rat

/-
Two measurements of one terrain
-/
namespace PyProm.Spec

/-- The rasters have data in the same cells, with heights that differ by at most `ε`. -/
structure Measures (ε : Rat) (d d' : DataMap) : Prop where
  data : ∀ p, Data d' p ↔ Data d p
  off : ∀ p, Data d p → |el d' p - el d p| ≤ ε

/-- On `d`, one gets from `p` to `q` without descending below `p`. -/
def UpTo (d : DataMap) (p q : Pt) : Prop := Passable d (el d p) p q

end PyProm.Spec
