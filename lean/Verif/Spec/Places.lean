import Verif.Spec.Features
import Verif.Model.Coords

/-
Where features are, independent of how they are found.
-/
namespace PyProm.Spec

/-- The coordinates of `f` are those of the cell `q`. -/
def AtCell (d : DataMap) (q : Pt) (f : Feature) : Prop :=
  f.lat = latOf d q ∧ f.lon = lonOf d q

/-- The coordinates of `f` are those of a cell of the raster. -/
def OnMap (d : DataMap) (f : Feature) : Prop := ∃ q, InB d q ∧ AtCell d q f

/-- The coordinates of `f` are those of a cell of the raster that has the height of `f`. -/
def OnLevel (d : DataMap) (f : Feature) : Prop := ∃ q, InB d q ∧ AtCell d q f ∧ d.cell q.1 q.2 = f.elevation

/-- All cells recorded as the area of `f` have the height of `f`. -/
def LevelArea (d : DataMap) (f : Feature) : Prop :=
  ∀ pts, f.multipoint = some pts → ∀ m ∈ pts, InB d (m.x, m.y) ∧ d.cell m.x m.y = f.elevation

/-- The position `(lat, lon)` is between the corners `cs`, in latitude and in longitude. -/
def Between (cs : List (Rat × Rat)) (lat lon : Rat) : Prop :=
  ((∃ c ∈ cs, c.1 ≤ lat) ∧ ∃ c ∈ cs, lat ≤ c.1) ∧ (∃ c ∈ cs, c.2 ≤ lon) ∧ ∃ c ∈ cs, lon ≤ c.2

end PyProm.Spec
