/-
Model of the raster access layer of pyProm.
Python source: /repo/pyprom/lib/datamaps/base_datamap.py and datamap.py
-/
namespace PyProm

/-- A raster coordinate `(x, y)` (`Numpy_X`, `Numpy_Y`). -/
abbrev Pt := Int × Int

/-- A point with elevation, the `(x, y, el)` tuples used all over pyProm
(`XY_Elevation`). -/
structure P3 where
  x : Int
  y : Int
  e : Rat
deriving DecidableEq, Repr

/-- Forget the elevation. -/
def P3.xy (p : P3) : Pt := (p.x, p.y)

/-- What the algorithms use of a `DataMap` (datamap.py:48-66): `max_x`, `max_y`, the
numpy array, the nodata marker and the six geotransform numbers. `fl` is the rounding of the
results of floating-point operations on coordinates; without rounding it is the identity.
Simplification: the array is a total function on `Int × Int`; only in-range
coordinates are stored values, out-of-range reads go through `DataMap.get`. -/
structure DataMap where
  maxX : Nat
  maxY : Nat
  cell : Int → Int → Rat
  nodata : Option Rat
  gt0 : Rat := 0
  gt1 : Rat := 1
  gt2 : Rat := 0
  gt3 : Rat := 0
  gt4 : Rat := 0
  gt5 : Rat := -1
  fl : Rat → Rat := fun r => r

/-- `FULL_SHIFT_LIST`, base_datamap.py:34-41. -/
def fullShift : List Pt :=
  [(-1, 0), (-1, 1), (0, 1), (1, 1), (1, 0), (1, -1), (0, -1), (-1, -1)]

/-- `ORTHOGONAL_SHIFT_LIST`, base_datamap.py:42-44. -/
def orthogonalShift : List Pt := [(-1, 0), (0, 1), (1, 0), (0, -1)]

/-- `DIAGONAL_SHIFT_LIST`, base_datamap.py:45-47. -/
def diagonalShift : List Pt := [(-1, 1), (1, 1), (1, -1), (-1, -1)]

/-- `coord_inbounds`, base_datamap.py:52-53. -/
def DataMap.inbounds (d : DataMap) (x y : Int) : Bool :=
  (decide (x ≥ 0) && decide (x ≤ d.maxX)) && (decide (y ≥ 0) && decide (y ≤ d.maxY))

/-- `is_map_edge`, base_datamap.py:146-149. -/
def DataMap.isMapEdge (d : DataMap) (x y : Int) : Bool :=
  decide (x = 0) || decide (y = 0) || decide (x = d.maxX) || decide (y = d.maxY)

/-- A yielded neighbour: coordinate and elevation; `none` is Python's `None`. -/
abbrev Nbr := Int × Int × Option Rat

/-- Shared loop body of `iterateFull`, `iterateOrthogonal`, `iterateDiagonal`
(base_datamap.py:55-104). The generator is modelled by the list it yields. -/
def DataMap.iterate (d : DataMap) (shifts : List Pt) (x y : Int) : List Nbr :=
  shifts.map fun s =>
    let x' := x + s.1
    let y' := y + s.2
    if d.inbounds x' y' then (x', y', some (d.cell x' y')) else (x', y', d.nodata)

/-- `iterateFull`, base_datamap.py:55-70. -/
def DataMap.iterateFull (d : DataMap) (x y : Int) : List Nbr := d.iterate fullShift x y

/-- `iterateOrthogonal`, base_datamap.py:72-87. -/
def DataMap.iterateOrthogonal (d : DataMap) (x y : Int) : List Nbr :=
  d.iterate orthogonalShift x y

/-- `iterateDiagonal`, base_datamap.py:89-104. -/
def DataMap.iterateDiagonal (d : DataMap) (x y : Int) : List Nbr :=
  d.iterate diagonalShift x y

/-- numpy index resolution along one axis with last index `m`: `0..m` is itself,
`-(m+1)..-1` wraps, anything else is an IndexError (`none`). -/
def npIndex (m : Nat) (i : Int) : Option Int :=
  if 0 ≤ i ∧ i ≤ m then some i
  else if i < 0 ∧ -((m : Int) + 1) ≤ i then some (i + m + 1)
  else none

/-- `get`, base_datamap.py:137-144: `float(self.numpy_array[x, y])`. `none` is an
IndexError. -/
def DataMap.get (d : DataMap) (x y : Int) : Option Rat :=
  match npIndex d.maxX x, npIndex d.maxY y with
  | some i, some j => some (d.cell i j)
  | _, _ => none

/-- Python `set.add` on a list of distinct elements. -/
def setAdd {α} [DecidableEq α] (l : List α) (a : α) : List α :=
  if a ∈ l then l else l ++ [a]

/-- Python `set(l)`: the distinct elements (the model keeps first-seen order). -/
def toSet {α} [DecidableEq α] (l : List α) : List α := l.foldl setAdd []

/-- All cells of the raster in numpy C order (`numpy.nditer`,
feature_discovery.py:105). -/
def DataMap.cells (d : DataMap) : List Pt :=
  (List.range (d.maxX + 1)).flatMap fun (i : Nat) =>
    (List.range (d.maxY + 1)).map fun (j : Nat) => ((i : Int), (j : Int))

/-- Number of cells (`numpy_array.size`). -/
def DataMap.size (d : DataMap) : Nat := (d.maxX + 1) * (d.maxY + 1)

/-- Raster from a list of rows, used in examples (`numpy_array_override`,
datamap.py:160-167, is the Python counterpart). Row = x, column = y. -/
def DataMap.ofRows (rows : List (List Rat)) (nodata : Option Rat := none) : DataMap where
  maxX := rows.length - 1
  maxY := (rows.headD []).length - 1
  cell x y := ((rows.getD x.toNat []).getD y.toNat 0)
  nodata := nodata

end PyProm
