import Mathlib.Data.Int.Log
import Mathlib.Data.Rat.Floor
import Verif.Spec.Assumptions
import Verif.Spec.Elsewhere

/-
Rounding of floating-point numbers.
-/
namespace PyProm
namespace Spec

/-- Results are off by at most a part `u` of their size. -/
def RoundedBy (u : Rat) (fl : Rat → Rat) : Prop := ∀ r, |fl r - r| ≤ u * |r|

/-- The nearest floating-point number with 53 binary digits, the even one of two (double precision;
neither overflow nor underflow). -/
def double (r : Rat) : Rat :=
  if r = 0 then 0
  else pyRound (r / 2 ^ (Int.log 2 |r| - 52)) * 2 ^ (Int.log 2 |r| - 52)

/-- The raster is not rotated, and the rounding errors of its coordinates are small in comparison with its
pixels: sixteen times the unit of rounding, at the size of the greatest coordinate, is less than a pixel. -/
structure FineFloats (u : Rat) (d : DataMap) : Prop where
  nonneg : 0 ≤ u
  small : u ≤ 1 / 1000
  rounded : RoundedBy u d.fl
  gt2 : d.gt2 = 0
  gt4 : d.gt4 = 0
  lon : 16 * (u * (|d.gt0| + d.maxY * |d.gt1|)) < |d.gt1|
  lat : 16 * (u * (|d.gt3| + d.maxX * |d.gt5|)) < |d.gt5|

/-- The latitude that is computed in `g`, rounded, for the row at the latitude `a` in `d`. -/
def roundLat (d g : DataMap) (a : Rat) : Rat := g.fl (g.fl g.gt3 + g.fl ((a - d.gt3) / d.gt5 * g.gt5))

/-- The longitude that is computed in `g`, rounded, for the column at the longitude `a` in `d`. -/
def roundLon (d g : DataMap) (a : Rat) : Rat := g.fl (g.fl (g.gt0 + g.fl ((a - d.gt0) / d.gt1 * g.gt1)))

/-- The second run is on the same cells with the geotransform and the rounding of `g`, and makes the same choices as the
first. -/
structure SameRounded (g : DataMap) (E E' : SaddleEnv) : Prop where
  raster : E'.d = laid g E.d
  slopes : E'.w = E.w
  near : E'.near = E.near
  pairs : E'.fc = E.fc
  paths : ∀ f, E'.find (placeF (roundLat E.d g) (roundLon E.d g) f) = E.find f
  fuel : E'.fuel = E.fuel

/-- The raster with coordinates that are not rounded. -/
def exactly (d : DataMap) : DataMap := { d with fl := fun r => r }

end Spec
end PyProm
