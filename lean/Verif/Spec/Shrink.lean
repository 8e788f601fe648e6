import Verif.Spec.Faithful

/-
Rasters that show the same ground with more or fewer cells
-/
namespace PyProm.Spec

/-- Every cell of `d` is shown by one or more cells of `w`: `φ` tells which cell a cell of `w` shows. Heights are the same; cells that
show one cell hang together; cells that touch show cells that touch or are one, and two cells that touch are shown by some two cells
that touch. -/
structure Shows (φ : Pt → Pt) (w d : DataMap) : Prop where
  data : ∀ q, Data w q → Data d (φ q)
  height : ∀ q, Data w q → el w q = el d (φ q)
  onto : ∀ p, Data d p → ∃ q, Data w q ∧ φ q = p
  near : ∀ q r, Data w q → Data w r → Adj q r → φ q = φ r ∨ Adj (φ q) (φ r)
  touch : ∀ p s, Data d p → Data d s → Adj p s → ∃ q r, Data w q ∧ Data w r ∧ φ q = p ∧ φ r = s ∧ Adj q r
  whole : ∀ q r, Data w q → Data w r → φ q = φ r → Relation.ReflTransGen (fun a b => Adj a b ∧ Data w b ∧ φ b = φ q) q r

/-- The summits `f` of `w` and `g` of `d` are the same: of the same height, for an area of `w` that consists of all cells
that show the area of `d`. -/
def SamePeak (φ : Pt → Pt) (w d : DataMap) (f g : Feature) : Prop :=
  f.elevation = g.elevation ∧ ∃ q p, SummitFor w q f ∧ SummitFor d p g ∧ Data w q ∧ Data d p ∧
    ∀ r, Data w r → (Flat w q r ↔ Flat d p (φ r))

/-- Every cell of `d` is a block of `a` times `b` cells of `w`. -/
structure Blocks (a b : Nat) (w d : DataMap) : Prop where
  rows : w.maxX + 1 = a * (d.maxX + 1)
  columns : w.maxY + 1 = b * (d.maxY + 1)
  height : ∀ p, InB w p → el w p = el d (p.1 / a, p.2 / b)
  nodata : w.nodata = d.nodata

/-- `w` shows the data cells of `d`, `x` rows and `y` columns further on, and no other data. -/
structure Framed (x y : Int) (w d : DataMap) : Prop where
  data : ∀ p, Data w p ↔ Data d (p.1 - x, p.2 - y)
  height : ∀ p, Data w p → el w p = el d (p.1 - x, p.2 - y)

end PyProm.Spec
