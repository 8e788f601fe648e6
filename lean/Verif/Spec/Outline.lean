import Mathlib.Algebra.Order.Ring.Rat
import Mathlib.Algebra.Order.Group.Unbundled.Abs

/-
Polygons of the plane, given by their corners in order
-/
namespace PyProm.Spec

/-- Twice the signed area of the triangle `a`, `b`, `q`: positive if `q` is to the left of the way from `a` to `b`. -/
def turn (a b q : Rat × Rat) : Rat := (b.1 - a.1) * (q.2 - a.2) - (b.2 - a.2) * (q.1 - a.1)

/-- The edges of a polygon. -/
def edges (poly : List (Rat × Rat)) : List ((Rat × Rat) × (Rat × Rat)) := poly.zip (poly.tail ++ poly.take 1)

/-- `q` is in the interior of a convex polygon: strictly on the same side of all its edges. -/
def Inside (poly : List (Rat × Rat)) (q : Rat × Rat) : Prop :=
  poly ≠ [] ∧ ((∀ e ∈ edges poly, 0 < turn e.1 e.2 q) ∨ ∀ e ∈ edges poly, turn e.1 e.2 q < 0)

/-- `q` is in the interior or on the border of a convex polygon. -/
def InsideOrOn (poly : List (Rat × Rat)) (q : Rat × Rat) : Prop :=
  poly ≠ [] ∧ ((∀ e ∈ edges poly, 0 ≤ turn e.1 e.2 q) ∨ ∀ e ∈ edges poly, turn e.1 e.2 q ≤ 0)

/-- The area of a polygon. -/
def area (poly : List (Rat × Rat)) : Rat :=
  |((edges poly).map fun e => e.1.1 * e.2.2 - e.2.1 * e.1.2).sum| / 2

/-- `q` is covered by the union of convex polygons. -/
def Covered (polys : List (List (Rat × Rat))) (q : Rat × Rat) : Prop := ∃ poly ∈ polys, InsideOrOn poly q

/-- `q` is in the interior of one of the polygons. -/
def Within (polys : List (List (Rat × Rat))) (q : Rat × Rat) : Prop := ∃ poly ∈ polys, Inside poly q

end PyProm.Spec
