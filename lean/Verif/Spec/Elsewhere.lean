import Verif.Spec.Assumptions
import Verif.Model.Basin
import Mathlib.Algebra.Order.Ring.Rat
import Mathlib.Algebra.Order.Group.Unbundled.Abs

/-
The same raster at another place: what the map then is, and when the two runs make the same choices.
-/
namespace PyProm.Spec

/-- The cells of `d` with the geotransform of `g`. -/
def laid (g d : DataMap) : DataMap :=
  { d with gt0 := g.gt0, gt1 := g.gt1, gt2 := g.gt2, gt3 := g.gt3, gt4 := g.gt4, gt5 := g.gt5, fl := g.fl }

/-- The latitude in `g` that is as many rows from the origin as `a` is in `d`. -/
def newLat (d g : DataMap) (a : Rat) : Rat := g.gt3 + (a - d.gt3) / d.gt5 * g.gt5

/-- The longitude in `g` that is as many columns from the origin as `a` is in `d`. -/
def newLon (d g : DataMap) (a : Rat) : Rat := g.gt0 + (a - d.gt0) / d.gt1 * g.gt1

/-- A feature at another place. -/
def placeF (L M : Rat → Rat) (f : Feature) : Feature := { f with lat := L f.lat, lon := M f.lon }

/-- A map with all features at other places: same heights, linkers, domains and families. -/
def placeMap (L M : Rat → Rat) (m : DMap) : DMap :=
  { m with
    summits := m.summits.map (placeF L M)
    st := { m.st with objs := m.st.objs.map fun o => { o with f := placeF L M o.f } } }

/-- Neighbouring cells are further apart than the sixth decimal of their coordinates. -/
structure Coarse (d : DataMap) : Prop where
  geo : Unrotated d
  lat : 1 / 1000000 < |d.gt5|
  lon : 1 / 1000000 < |d.gt1|

/-- Different cells have different coordinates, rounded to six decimals. -/
def Told (d : DataMap) : Prop := ∀ p q, InB d p → InB d q → round6 (latOf d p) = round6 (latOf d q) →
  round6 (lonOf d p) = round6 (lonOf d q) → p = q

/-- The second run is on the moved raster and makes the same choices as the first. -/
structure SameElsewhere (g : DataMap) (E E' : SaddleEnv) : Prop where
  raster : E'.d = laid g E.d
  slopes : E'.w = E.w
  near : E'.near = E.near
  pairs : E'.fc = E.fc
  paths : ∀ f, E'.find (placeF (newLat E.d g) (newLon E.d g) f) = E.find f
  fuel : E'.fuel = E.fuel

end PyProm.Spec
