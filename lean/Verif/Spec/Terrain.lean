import Verif.Model.Grid
import Mathlib.Logic.Relation
import Mathlib.Data.Rat.Defs

/-
Specification vocabulary for terrain. It uses only the raw raster (`maxX`, `maxY`,
`cell`, `nodata`), none of the model's functions.
-/
namespace PyProm.Spec

/-- The coordinate lies in the raster. -/
def InB (d : DataMap) (p : Pt) : Prop :=
  0 ≤ p.1 ∧ p.1 ≤ (d.maxX : Int) ∧ 0 ≤ p.2 ∧ p.2 ≤ (d.maxY : Int)

/-- Stored elevation. -/
def el (d : DataMap) (p : Pt) : Rat := d.cell p.1 p.2

/-- The coordinate lies in the raster and holds data. -/
def Data (d : DataMap) (p : Pt) : Prop := InB d p ∧ some (el d p) ≠ d.nodata

/-- Two different coordinates that touch orthogonally or diagonally. -/
def Adj (p q : Pt) : Prop :=
  p ≠ q ∧ -1 ≤ q.1 - p.1 ∧ q.1 - p.1 ≤ 1 ∧ -1 ≤ q.2 - p.2 ∧ q.2 - p.2 ≤ 1

/-- The coordinate is on the outermost ring of the raster. -/
def Border (d : DataMap) (p : Pt) : Prop :=
  p.1 = 0 ∨ p.2 = 0 ∨ p.1 = (d.maxX : Int) ∨ p.2 = (d.maxY : Int)

/-- One step inside a flat area: to a touching data cell of the same elevation. -/
def Level (d : DataMap) (p q : Pt) : Prop := Adj p q ∧ Data d q ∧ el d q = el d p

/-- `q` is in the flat area of `p`. -/
def Flat (d : DataMap) (p q : Pt) : Prop := Relation.ReflTransGen (Level d) p q

/-- `q` is a data cell touching the flat area of `p` without belonging to its level. -/
def Rim (d : DataMap) (p q : Pt) : Prop :=
  Data d q ∧ el d q ≠ el d p ∧ ∃ m, Flat d p m ∧ Adj m q

/-- `q` is a strictly higher data cell touching the flat area of `p`. -/
def HighRim (d : DataMap) (p q : Pt) : Prop := Rim d p q ∧ el d p < el d q

end PyProm.Spec
