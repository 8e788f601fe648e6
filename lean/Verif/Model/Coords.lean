import Verif.Model.Grid

/-
Model of the coordinate functions of /repo/pyprom/lib/datamaps/datamap.py
-/
namespace PyProm

/-- Python's `round` on a number: nearest integer, ties to even. -/
def pyRound (r : Rat) : Int :=
  let f := r.floor
  let diff := r - f
  if diff < 1 / 2 then f
  else if diff > 1 / 2 then f + 1
  else if f % 2 = 0 then f else f + 1

/-- `xy_to_latlon`, datamap.py:76-84. Returns `(lat, lon)`. Every product and every sum is rounded
(`fl`), in the order of evaluation. -/
def DataMap.xyToLatLon (d : DataMap) (x y : Int) : Rat × Rat :=
  let lon := d.fl (d.fl (d.gt0 + d.fl (y * d.gt1)) + d.fl (x * d.gt2))
  let lat := d.fl (d.fl (d.gt3 + d.fl (y * d.gt4)) + d.fl (x * d.gt5))
  (lat, lon)

/-- `latlong_to_xy`, datamap.py:86-94; a zero pixel size raises ZeroDivisionError
(`none`). The difference and the quotient are rounded. -/
def DataMap.latLongToXY (d : DataMap) (lat lon : Rat) : Option Pt :=
  if d.gt1 = 0 ∨ d.gt5 = 0 then none
  else
    let ny := pyRound (d.fl (d.fl (lon - d.gt0) / d.gt1))
    let nx := pyRound (d.fl (d.fl (lat - d.gt3) / d.gt5))
    some (nx, ny)

/-- `elevation`, datamap.py:96-104. -/
def DataMap.elevation (d : DataMap) (lat lon : Rat) : Option Rat :=
  (d.latLongToXY lat lon).bind fun p => d.get p.1 p.2

/-- `upper_left`, datamap.py:144-146. -/
def DataMap.upperLeft (d : DataMap) : Rat × Rat := d.xyToLatLon 0 0
/-- `lower_left`, datamap.py:148-150. -/
def DataMap.lowerLeft (d : DataMap) : Rat × Rat := d.xyToLatLon d.maxX 0
/-- `upper_right`, datamap.py:152-154. -/
def DataMap.upperRight (d : DataMap) : Rat × Rat := d.xyToLatLon 0 d.maxY
/-- `lower_right`, datamap.py:156-158. -/
def DataMap.lowerRight (d : DataMap) : Rat × Rat := d.xyToLatLon d.maxX d.maxY

/-- Assumed behaviour of `gdal.Translate(srcWin=[xoff, yoff, xsize, ysize])` for a
window inside the raster: GDAL's x axis is the array's second axis; the affine
geotransform is moved to the window's first pixel (rounded after each operation). -/
def gdalTranslateWin (d : DataMap) (xoff yoff : Int) (xsize ysize : Nat) : DataMap where
  maxX := ysize - 1
  maxY := xsize - 1
  cell i j := d.cell (yoff + i) (xoff + j)
  nodata := d.nodata
  gt0 := d.fl (d.fl (d.gt0 + d.fl (xoff * d.gt1)) + d.fl (yoff * d.gt2))
  gt1 := d.gt1
  gt2 := d.gt2
  gt3 := d.fl (d.fl (d.gt3 + d.fl (xoff * d.gt4)) + d.fl (yoff * d.gt5))
  gt4 := d.gt4
  gt5 := d.gt5
  fl := d.fl

/-- `subset`, datamap.py:106-128. -/
def DataMap.subset (d : DataMap) (x y : Int) (xSpan ySpan : Nat) : DataMap :=
  let xOffset := y
  let yOffset := x
  let xSize := ySpan
  let ySize := xSpan
  gdalTranslateWin d xOffset yOffset xSize ySize

/-- `point_geom`, datamap.py:130-142: the corner list handed to shapely,
`(long, lat)` pairs, with every sum and quotient rounded. -/
def DataMap.pointGeom (d : DataMap) (x y : Int) : List (Rat × Rat) :=
  let loc := d.xyToLatLon x y
  (d.iterateDiagonal x y).map fun n =>
    let rem := d.xyToLatLon n.1 n.2.1
    (d.fl (d.fl (loc.2 + rem.2) / 2), d.fl (d.fl (loc.1 + rem.1) / 2))

end PyProm
