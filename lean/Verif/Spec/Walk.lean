import Verif.Spec.Features

/-
Specification vocabulary for ascents.
-/
namespace PyProm.Spec

/-- The nodata marker, if there is one, lies below all data. -/
def NodataLow (d : DataMap) : Prop := ∀ v, d.nodata = some v → ∀ p, Data d p → v < el d p

/-- One step that does not descend, to a touching data cell. -/
def UpStep (d : DataMap) (p q : Pt) : Prop := Adj p q ∧ Data d q ∧ el d p ≤ el d q

/-- `q` can be reached from `p` without ever descending or leaving the data. -/
def Ascends (d : DataMap) (p q : Pt) : Prop := Relation.ReflTransGen (UpStep d) p q

/-- Length of the offset to a touching cell is positive. -/
def PosLength (len : Int → Int → Rat) : Prop := ∀ s, Adj (0, 0) s → 0 < len s.1 s.2

/-- What is assumed of computed slopes: no rise gives none, a rise gives one. -/
def Upward (w : Int → Int → Rat → Rat) : Prop :=
  ∀ s, Adj (0, 0) s → w s.1 s.2 0 = 0 ∧ ∀ r, 0 < r → 0 < w s.1 s.2 r

/-- Computed slope from the cell `p` to a cell `q` of elevation `e`. -/
def slope (d : DataMap) (w : Int → Int → Rat → Rat) (p q : Pt) (e : Rat) : Rat :=
  w (p.1 - q.1) (p.2 - q.2) (e - el d p)

/-- `q` is a touching data cell that is not lower, and none is steeper. -/
def Steepest (d : DataMap) (w : Int → Int → Rat → Rat) (p q : Pt) : Prop :=
  Adj p q ∧ Data d q ∧ el d p ≤ el d q ∧
    ∀ r, Adj p r → Data d r → el d p ≤ el d r → slope d w p r (el d r) ≤ slope d w p q (el d q)

/-- One strictly rising step in a steepest direction. -/
def RiseStep (d : DataMap) (w : Int → Int → Rat → Rat) (p q : Pt) : Prop :=
  Steepest d w p q ∧ el d p < el d q

/-- What is seen at a coordinate next to a cell: the stored elevation, outside the raster the nodata
marker, if there is one. -/
def Seen (d : DataMap) (q : Pt) (e : Rat) : Prop :=
  (InB d q ∧ e = el d q) ∨ (¬ InB d q ∧ d.nodata = some e)

/-- The eight touching coordinates, clockwise. -/
def ring (p : Pt) : List Pt :=
  [(p.1 - 1, p.2), (p.1 - 1, p.2 + 1), (p.1, p.2 + 1), (p.1 + 1, p.2 + 1), (p.1 + 1, p.2),
   (p.1 + 1, p.2 - 1), (p.1, p.2 - 1), (p.1 - 1, p.2 - 1)]

/-- No two touching data cells are equally high. -/
def NoFlats (d : DataMap) : Prop := ∀ p q, Data d p → Data d q → Adj p q → el d p ≠ el d q

end PyProm.Spec
