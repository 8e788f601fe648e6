import Verif.Model.Coords
import Verif.Model.Loader
import Verif.Model.Serial

/-
Model of DataMap objects whose heights can be replaced (/repo/pyprom/lib/datamaps/datamap.py) and of what a
DomainMap takes as its data (/repo/pyprom/domain_map.py:71-77)
-/
namespace PyProm

/-- A DataMap object: what its `gdal_dataset` holds, what it answers from (`numpy_array` with the attributes
read from the dataset), and `md5` (datamap.py:48-69). -/
structure MapObj where
  source : DataMap
  now : DataMap
  fp : Fingerprint

/-- An array with two axes. -/
structure Arr where
  rows : Nat
  cols : Nat
  cell : Int → Int → Rat

/-- `numpy_array` of a raster, row by row. -/
def rowsOf (d : DataMap) : List (List Rat) :=
  (List.range (d.maxX + 1)).map fun (x : Nat) => (List.range (d.maxY + 1)).map fun (y : Nat) => d.cell x y

/-- `DataMap.__init__`, datamap.py:48-69. `fpr` makes the fingerprint of the file and an array (see
`fingerprint`). -/
def MapObj.create (fpr : List (List Rat) → Fingerprint) (src : DataMap) : MapObj := ⟨src, src, fpr (rowsOf src)⟩

/-- `numpy_array_override`, datamap.py:160-168. `none` stands for AssertionError; asserts are assumed to be
on. -/
def MapObj.override (m : MapObj) (a : Arr) : Option MapObj :=
  if a.rows = m.now.maxX + 1 ∧ a.cols = m.now.maxY + 1 then some { m with now := { m.now with cell := a.cell } }
  else none

/-- `subset`, datamap.py:106-128, on the object: the window is cut out of `gdal_dataset`. -/
def MapObj.subset (fpr : List (List Rat) → Fingerprint) (m : MapObj) (x y : Int) (xSpan ySpan : Nat) : MapObj :=
  .create fpr (m.source.subset x y xSpan ySpan)

/-! ### What a DomainMap is made of -/

/-- What an attribute of a loader holds. -/
inductive LoaderAttr
  | path
  | dataset (d : Dataset)
  | method

/-- A GDALLoader after construction: `source_gdal_dataset` and `gdal_dataset` (gdal_loader.py:62-83). -/
structure LoaderObj where
  source : Dataset
  dataset : Dataset

/-- Attribute access on a GDALLoader: those set in gdal_loader.py:27, 62, 78-83 and the method of line 85. -/
def LoaderObj.attr (l : LoaderObj) : String → Except PyErr LoaderAttr
  | "filename" => .ok .path
  | "source_gdal_dataset" => .ok (.dataset l.source)
  | "gdal_dataset" => .ok (.dataset l.dataset)
  | "to_datamap" => .ok .method
  | _ => .error .attributeError

/-- The argument `data` of DomainMap. -/
inductive MapData
  | datamap (d : DataMap)
  | loader (l : LoaderObj)
  | other

/-- The attribute `datamap` of a new DomainMap, domain_map.py:71-77. An attribute of a loader is not a
DataMap; the later accesses to its corners (lines 83-87) then fail. -/
def MapData.resolve : MapData → Except PyErr DataMap
  | .datamap d => .ok d
  | .loader l => do
    let _ ← l.attr "datamap"
    .error .attributeError
  | .other => .error .typeError

/-- `GDALLoader.to_datamap` with `DataMap.from_loader`, gdal_loader.py:85-89, datamap.py:71-76. -/
def LoaderObj.toDataMap (l : LoaderObj) : Except PyErr DataMap := do
  match ← l.attr "gdal_dataset" with
  | .dataset d => d.toDataMap
  | _ => .error .attributeError

end PyProm
