import Verif.Spec.Floats
import Verif.Model.Measure
import Verif.Model.Points
import Verif.Model.Util
import Verif.Model.Walk

/-
Cases of /repo/pyprom/tests/testDataMap.py, locations/testGridPoint.py, locations/testBaseGridPoint.py and
locations/testSpotElevation.py evaluated on the model. These are tests of the model against results the authors state
for the code, not proofs of properties. In exact arithmetic stated coordinates are compared up to `10⁻¹²`; in double
precision they come out to the last bit.
-/
namespace PyProm
open Spec

/-- The raster N44W072.hgt of the tests without its heights, which are not at hand: 3601 by 3601 cells, upper left
corner and pixel size as in testDataMap.py:25-36 and 67-68. -/
def hgt : DataMap where
  maxX := 3600
  maxY := 3600
  cell _ _ := 0
  nodata := some (-32768)
  gt0 := -72 - 1 / 7200
  gt1 := 1 / 3600
  gt3 := 45 + 1 / 7200
  gt5 := -1 / 3600

/-- Equality up to the rounding of floats. -/
def near (a b : Rat) : Bool := decide (a - b ≤ 1 / 1000000000000) && decide (b - a ≤ 1 / 1000000000000)

/-- The same for pairs. -/
def near2 (a b : Rat × Rat) : Bool := near a.1 b.1 && near a.2 b.2

/-- `testDataMapGeneralDataMap`, testDataMap.py:25-36. -/
example : near2 hgt.lowerLeft (44.00013888888889, -72.00013888888888) &&
    near2 hgt.upperLeft (45.00013888888889, -72.00013888888888) &&
    near2 hgt.lowerRight (44.00013888888889, -71.00013888888888) &&
    near2 hgt.upperRight (45.00013888888889, -71.00013888888888) := by decide +kernel

/-- `testDataMapLatLongToXY`, testDataMap.py:38-49: the places that do not lie half way between two cells. -/
example : [((44.000138, -71.000138888) : Rat × Rat), (44.33333, -71.33333), (44.7777, -71.7777),
      (45.00013888888889, -72.00013888888888)].map (fun p => hgt.latLongToXY p.1 p.2) =
    [some (3600, 3600), some (2401, 2401), some (801, 801), some (0, 0)] := by decide +kernel

/-- The raster in double precision: numbers of the test are rounded, and so is every result. -/
def hgtD : DataMap where
  maxX := 3600
  maxY := 3600
  cell _ _ := 0
  nodata := some (-32768)
  gt0 := double (-72.00013888888888)
  gt1 := double 0.0002777777777777778
  gt3 := double 45.00013888888889
  gt5 := double (-0.0002777777777777778)
  fl := double

/-- Two decimal numbers of a test, as Python reads them. -/
def doubles (p : Rat × Rat) : Rat × Rat := (double p.1, double p.2)

/-- `testDataMapGeneralDataMap`, testDataMap.py:25-36, in double precision. -/
example : hgtD.lowerLeft = doubles (44.00013888888889, -72.00013888888888) ∧
    hgtD.upperLeft = doubles (45.00013888888889, -72.00013888888888) ∧
    hgtD.lowerRight = doubles (44.00013888888889, -71.00013888888888) ∧
    hgtD.upperRight = doubles (45.00013888888889, -71.00013888888888) := by decide +kernel

/-- `testDataMapLatLongToXY`, testDataMap.py:38-49, in double precision. Seven of the places lie exactly half way between
two cells in at least one direction, where the result depends on the rounding of floats. -/
example : [((44.000138, -71.000138888) : Rat × Rat), (44.1, -71.1), (44.2, -71.2), (44.25, -71.25), (44.33333, -71.33333),
      (44.5, -71.5), (44.6125, -71.6125), (44.75, -71.75), (44.7777, -71.7777), (44.8125, -71.8125),
      (45.00013888888889, -72.00013888888888)].map (fun p => hgtD.latLongToXY (doubles p).1 (doubles p).2) =
    [(3600, 3600), (3241, 3241), (2880, 2880), (2701, 2700), (2401, 2401), (1801, 1800), (1396, 1395), (901, 900),
      (801, 801), (676, 675), (0, 0)].map some := by decide +kernel

/-- `testDataMapSubset`, testDataMap.py:62-76, in double precision. -/
example : let s := hgtD.subset 100 100 200 199
    s.maxX = 199 ∧ s.maxY = 198 ∧ s.gt5 = double (-0.0002777777777777778) ∧ s.gt1 = double 0.0002777777777777778 ∧
    s.lowerLeft = doubles (44.91708333333334, -71.97236111111111) ∧
    s.upperLeft = doubles (44.97236111111111, -71.97236111111111) ∧
    s.lowerRight = doubles (44.91708333333334, -71.9173611111111) ∧
    s.upperRight = doubles (44.97236111111111, -71.9173611111111) := by decide +kernel

/-- `testDataMapGeom`, testDataMap.py:78-87, in double precision. -/
example : hgtD.pointGeom 100 100 = [((-71.97222222222223, 44.9725) : Rat × Rat),
      (-71.97222222222223, 44.97222222222223), (-71.9725, 44.97222222222223), (-71.9725, 44.9725)].map doubles := by
  decide +kernel

/-- `testDataMapSubset`, testDataMap.py:62-76. -/
example : let s := hgt.subset 100 100 200 199
    s.maxX = 199 ∧ s.maxY = 198 ∧ near s.gt5 (-0.0002777777777777778) ∧ near s.gt1 0.0002777777777777778 ∧
    near2 s.lowerLeft (44.91708333333334, -71.97236111111111) ∧
    near2 s.upperLeft (44.97236111111111, -71.97236111111111) ∧
    near2 s.lowerRight (44.91708333333334, -71.9173611111111) ∧
    near2 s.upperRight (44.97236111111111, -71.9173611111111) := by decide +kernel

/-- `testDataMapGeom`, testDataMap.py:78-87. -/
example : ((hgt.pointGeom 100 100).zip [((-71.97222222222223, 44.9725) : Rat × Rat),
      (-71.97222222222223, 44.97222222222223), (-71.9725, 44.97222222222223), (-71.9725, 44.9725)]).all
    (fun p => near2 p.1 p.2) ∧ (hgt.pointGeom 100 100).length = 4 := by decide +kernel

/-- `testDataMapDistance`, testDataMap.py:105-112, squared. -/
example : near (hgt.distanceSq (0, 0) (1, 1)) (0.00039283710065919305 ^ 2) ∧
    near (hgt.distanceSq (0, 0) (0, 1)) (0.0002777777777777778 ^ 2) := by decide +kernel

/-- The raster of `DataMapSteepestNeighborTests`, testDataMap.py:125-130: an array put over a window of the file. -/
def hgt3 (rows : List (List Rat)) : DataMap :=
  { DataMap.ofRows rows (some (-32768)) with gt0 := hgt.gt0, gt1 := hgt.gt1, gt3 := hgt.gt3, gt5 := hgt.gt5 }

/-- Slopes over its cells, with the root of two to eleven digits. -/
def hgtSlope : Int → Int → Rat → Rat :=
  exactSlope fun dx dy => if dx ≠ 0 ∧ dy ≠ 0 then 1.4142135623 / 3600 else 1 / 3600

/-- `testSteepestNeighborAbove` to `testSteepestNeighborCorner`, testDataMap.py:132-181. -/
example : let best := fun rows x y => (steepestNeighbor (hgt3 rows) hgtSlope x y).toOption
    best [[11, 15, 12], [13, 10, 9], [14, 11, 8]] 1 1 = some (some ⟨0, 1, 15⟩) ∧
    best [[11, 15, 12], [13, 10, 9], [14, 16, 8]] 1 1 = some (some ⟨2, 1, 16⟩) ∧
    best [[17, 15, 12], [13, 10, 9], [14, 11, 8]] 1 1 = some (some ⟨0, 1, 15⟩) ∧
    best [[18, 15, 12], [13, 10, 9], [14, 11, 8]] 1 1 = some (some ⟨0, 0, 18⟩) ∧
    best [[15, 16, 12], [13, 10, 15], [14, 11, 8]] 0 0 = some (some ⟨0, 1, 16⟩) := by
  decide +kernel

/-- `testGridPointToSpotElevation`, locations/testGridPoint.py:76-83: `==` of the results. -/
example : let s := P3.toSpot hgt ⟨1, 2, 3⟩
    seEq s.1 s.2.1 s.2.2 44.999861111111116 (-71.99958333333333) 3 := by decide +kernel

/-- `testGridPointEquals`, `testGridPointNotEquals`, `testGridPointLessThan`, locations/testGridPoint.py:85-107. -/
example : gpEq ⟨1, 2, 3⟩ ⟨1, 2, 3⟩ ∧ gpNe ⟨1, 2, 3⟩ ⟨2, 2, 3⟩ ∧ gpLt ⟨1, 2, 3⟩ ⟨1, 2, 4⟩ := by decide +kernel

/-- `testBaseGridPointDistance`, `testBaseGridPointEq`, `testBaseGridPointLt`, locations/testBaseGridPoint.py:53-87. -/
example : gridDistanceSq (0, 0) (10, 0) = 10 ^ 2 ∧ bgEq (0, 0) (0, 0) ∧ bgLt (0, 0) (1, 0) := by decide +kernel

/-- `testSpotElevationDMS`, locations/testSpotElevation.py:30-36. -/
example : let a := toDms 44.11291666666667
    let b := toDms (-71.37791666666666)
    a.1 = 44 ∧ a.2.1 = 6 ∧ decide (a.2.2 - 46.5 < 1 / 10000000 ∧ 46.5 - a.2.2 < 1 / 10000000) ∧
    b.1 = -71 ∧ b.2.1 = 22 ∧ decide (b.2.2 - 40.5 < 1 / 10000000 ∧ 40.5 - b.2.2 < 1 / 10000000) := by
  decide +kernel

/-- `testSummitDomainShape`, containers/testSummitDomain.py:166-187, in double precision: the corners of the three polygons of the
stated shape are the corners of the polygons of three cells of the subset, each a diagonal neighbour of the next. -/
example : let s := hgtD.subset 1000 1000 100 100
    (s.pointGeom 4 70).Perm ([((-71.70277777777778, 44.721111111111114) : Rat × Rat), (-71.70305555555555, 44.721111111111114),
      (-71.70305555555555, 44.721388888888896), (-71.70277777777778, 44.721388888888896)].map doubles) ∧
    (s.pointGeom 3 69).Perm ([((-71.70333333333333, 44.721388888888896) : Rat × Rat), (-71.70333333333333, 44.721666666666664),
      (-71.70305555555555, 44.721666666666664), (-71.70305555555555, 44.721388888888896)].map doubles) ∧
    (s.pointGeom 2 68).Perm ([((-71.70361111111112, 44.721666666666664) : Rat × Rat), (-71.70361111111112, 44.721944444444446),
      (-71.70333333333333, 44.721944444444446), (-71.70333333333333, 44.721666666666664)].map doubles) := by
  decide +kernel

/-- `testGridPointToSpotElevation` in double precision: the same numbers. -/
example : P3.toSpot hgtD ⟨1, 2, 3⟩ = (double 44.999861111111116, double (-71.99958333333333), 3) := by decide +kernel

end PyProm
