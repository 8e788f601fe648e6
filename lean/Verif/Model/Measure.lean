import Verif.Model.Coords
import Verif.Model.Closest
import Verif.Model.Containers

/-
Model of distances and positions: /repo/pyprom/lib/datamaps/base_datamap.py (distance),
/repo/pyprom/lib/locations/base_gridpoint.py (distance), /repo/pyprom/lib/containers/base_gridpoint.py (index)
-/
namespace PyProm

/-- The square of `BaseDataMap.distance`, base_datamap.py:129-135. `math.hypot` is the square root of the sum of
squares; roots of rationals need not be rational, so the model has the square. -/
def DataMap.distanceSq (d : DataMap) (us them : Pt) : Rat :=
  (((us.1 - them.1 : Int) : Rat) * d.gt1) ^ 2 + (((us.2 - them.2 : Int) : Rat) * d.gt5) ^ 2

/-- The square of `BaseGridPoint.distance`, base_gridpoint.py:78-91. -/
def gridDistanceSq (us them : Pt) : Int := (us.1 - them.1) ^ 2 + (us.2 - them.2) ^ 2

/-- `BaseGridPointContainer.index`, containers/base_gridpoint.py:58-74: position of the first equal member, by the
equality of the members (GridPoint or BaseGridPoint). -/
def indexOf {α : Type} (eq : α → α → Bool) (l : List α) (x : α) : Option Nat := l.findIdx? fun y => eq y x

end PyProm
