import Verif.Model.Grid
import Verif.Model.Neighbors

/-
Model of the raster loader.
Python source: /repo/pyprom/lib/loaders/gdal_loader.py, lib/loaders/util, lib/constants.py:13-35
and DataMap's constructor in lib/datamaps/datamap.py.
-/
namespace PyProm

/-- What the loader uses of a GDAL raster band: `GetUnitType`, `GetNoDataValue` and the cells (row, column).
Strings are lists of characters. -/
structure Band where
  unit : List Char
  nodata : Option Rat
  cell : Int → Int → Rat

/-- What `GetProjection` and the spatial reference made of it tell: there is none, it is geographic, or it is projected
with the given linear unit (in metres). -/
inductive Srs
  | none
  | geographic
  | projected (factor : Rat)

/-- A GDAL dataset: size, bands, geotransform and reference system. -/
structure Dataset where
  width : Nat
  height : Nat
  bands : List Band
  gt0 : Rat
  gt1 : Rat
  gt2 : Rat
  gt3 : Rat
  gt4 : Rat
  gt5 : Rat
  srs : Srs

/-- `Units`, constants.py:23-26. -/
inductive Units
  | feet
  | meters
  | unknown
deriving DecidableEq, Repr

/-- `Confidence`, constants.py:28-31. -/
inductive Confidence
  | high
  | medium
  | low
deriving DecidableEq, Repr

/-- The value of a `Confidence`. The enumeration derives from `str`, so members are compared as the strings "2", "1",
"0" (constants.py:28-31). -/
def Confidence.value : Confidence → Char
  | .high => '2'
  | .medium => '1'
  | .low => '0'

/-- `GDAL_METERS`, constants.py:34. -/
def gdalMeters : List (List Char) := ["m", "meter", "metre", "meters", "metres"].map String.toList

/-- `GDAL_FEET`, constants.py:35. -/
def gdalFeet : List (List Char) :=
  ["ft", "feet", "foot", "us_survey_foot", "us-ft", "us survey foot", "US survey foot"].map String.toList

/-- `METERS_PER_FOOT`, constants.py:13. -/
def loaderMetresPerFoot : Rat := 3048 / 10000

/-- `dataset.GetRasterBand(i)`, counted from 1; `None`, on which every method call fails, if there is no such band. -/
def Dataset.band (d : Dataset) (i : Nat) : Except PyErr Band :=
  if i = 0 then .error .attributeError
  else match d.bands[i - 1]? with
    | some b => .ok b
    | none => .error .attributeError

/-- The GDAL and numpy functions the loader calls: reading a band at a reduced size, percentiles of a nonempty array,
and the warp to EPSG:4326 (warp_to_geographic.py:3-30). -/
structure Gdal where
  read : Dataset → Band → Nat → Nat → Except PyErr (List Rat)
  percentile : List Rat → Nat → Rat
  warp : Dataset → Dataset

/-- `abs` on numbers. -/
def Rat.abs' (r : Rat) : Rat := if r < 0 then -r else r

/-- The unit declared by the band, detect_vertical_units.py:28-34. -/
def unitOfBand (b : Band) : Option Units :=
  if b.unit.map Char.toLower ∈ gdalMeters then some .meters
  else if b.unit.map Char.toLower ∈ gdalFeet then some .feet
  else none

/-- The hint of the reference system, detect_vertical_units.py:37-52. -/
def unitOfSrs : Srs → Option Units
  | .projected f =>
    if Rat.abs' (f - 1) < 1 / 1000000000 then some .meters
    else if Rat.abs' (f - loaderMetresPerFoot) < 1 / 1000000 then some .feet
    else none
  | _ => none

/-- Cells that hold data, detect_vertical_units.py:71-72. -/
def dropNodata (nodata : Option Rat) (arr : List Rat) : List Rat :=
  match nodata with
  | some n => arr.filter (· ≠ n)
  | none => arr

/-- The guess from the heights, detect_vertical_units.py:74-86. -/
def unitOfHeights (g : Gdal) (arr : List Rat) : Units × Confidence :=
  if arr.isEmpty then (.unknown, .low)
  else if g.percentile arr 99 - g.percentile arr 1 > 8900 then (.feet, .medium)
  else (.meters, .low)

/-- The sampling step, detect_vertical_units.py:58-61. -/
def sampleStep (d : Dataset) (sampleSize : Nat) : Nat := max 1 (Nat.sqrt (d.width * d.height / sampleSize))

/-- `detect_vertical_unit`, detect_vertical_units.py:16-86. Simplification: `astype("float32")` does not round. -/
def detectUnit (g : Gdal) (d : Dataset) (bandIndex : Nat) (sampleSize : Nat := 100000) :
    Except PyErr (Units × Confidence) := do
  let band ← d.band bandIndex
  match unitOfBand band with
  | some u => .ok (u, .high)
  | none => match unitOfSrs d.srs with
    | some u => .ok (u, .medium)
    | none => do
      let arr ← g.read d band (d.width / sampleStep d sampleSize) (d.height / sampleStep d sampleSize)
      .ok (unitOfHeights g (dropNodata band.nodata arr))

/-- `convert_dataset_vertical_units_from_feet_to_meters`, metricate_vertical_dataset.py:10-45. Line 31 calls
`SetUnitType` on the numpy array, which has no such attribute. -/
def metricate (d : Dataset) (bandIndex : Nat) : Except PyErr Dataset := do
  let _ ← d.band bandIndex
  .error .attributeError

/-- The same without line 31: a dataset with one band, whose cells are converted; line 43 writes to band `bandIndex` of
it. No nodata value is set on the new band. -/
def metricateIntended (d : Dataset) (bandIndex : Nat) : Except PyErr Dataset := do
  let b ← d.band bandIndex
  if bandIndex ≠ 1 then .error .attributeError
  else return { d with bands := [⟨[], none, fun x y => b.cell x y * loaderMetresPerFoot⟩] }

/-- How loading fails: with the loader's own exception, or with another Python error. -/
inductive GLoadErr
  | refused
  | py (e : PyErr)
deriving DecidableEq, Repr

/-- The unit to assume, gdal_loader.py:71-76. -/
def chooseUnits (g : Gdal) (src : Dataset) (bandIndex : Nat) (force : Option Units) (minc : Confidence) :
    Except GLoadErr Units :=
  match force with
  | some u => .ok u
  | none =>
    match detectUnit g src bandIndex with
    | .error e => .error (.py e)
    | .ok (u, c) => if c.value < minc.value ∨ u = .unknown then .error .refused else .ok u

/-- `GDALLoader.__init__` from the opened dataset on, gdal_loader.py:68-83; the attribute `gdal_dataset` is returned.
`conv` is the conversion that is called (line 78). Line 83 warps the source and not the converted dataset. -/
def loadWith (conv : Dataset → Nat → Except PyErr Dataset) (g : Gdal) (src : Dataset) (bandIndex : Nat)
    (force : Option Units) (minc : Confidence) : Except GLoadErr Dataset :=
  match chooseUnits g src bandIndex force minc with
  | .error e => .error e
  | .ok u =>
    if u = .meters then .ok (g.warp src)
    else match conv src bandIndex with
      | .error e => .error (.py e)
      | .ok _ => .ok (g.warp src)

/-- The loader as it is. -/
def load : Gdal → Dataset → Nat → Option Units → Confidence → Except GLoadErr Dataset := loadWith metricate

/-- `DataMap.__init__`, datamap.py:48-66: band 1 of the dataset. -/
def Dataset.toDataMap (d : Dataset) : Except PyErr DataMap := do
  let b ← d.band 1
  return { maxX := d.height - 1, maxY := d.width - 1, cell := b.cell, nodata := b.nodata, gt0 := d.gt0, gt1 := d.gt1,
           gt2 := d.gt2, gt3 := d.gt3, gt4 := d.gt4, gt5 := d.gt5 }

end PyProm
