import Verif.Spec.Turned

/-
A raster before and after a change of heights in some cells
-/
namespace PyProm.Spec

/-- The rasters have the same cells at the same places, and the same value stands for no data. -/
structure SameFrame (d d' : DataMap) : Prop where
  maxX : d'.maxX = d.maxX
  maxY : d'.maxY = d.maxY
  nodata : d'.nodata = d.nodata
  gt0 : d'.gt0 = d.gt0
  gt1 : d'.gt1 = d.gt1
  gt2 : d'.gt2 = d.gt2
  gt3 : d'.gt3 = d.gt3
  gt4 : d'.gt4 = d.gt4
  gt5 : d'.gt5 = d.gt5
  fl : d'.fl = d.fl

/-- Cell `p` was changed. -/
def Changed (d d' : DataMap) (p : Pt) : Prop := InB d p ∧ el d' p ≠ el d p

/-- The flat area of `s` contains or touches a changed cell. -/
def Touched (d d' : DataMap) (s : Pt) : Prop := ∃ m, Flat d s m ∧ (Changed d d' m ∨ ∃ r, Adj m r ∧ Changed d d' r)

/-- Features `fs` of `d` and `fs'` of `d'` are the same apart from those at flat areas that contain or touch changed cells. -/
def SameApart (R : Feature → Feature → Prop) (d d' : DataMap) (fs fs' : List Feature) : Prop :=
  ∃ A A' B B', fs.Perm (A ++ B) ∧ fs'.Perm (A' ++ B') ∧ Matched R A A' ∧
    (∀ f ∈ A, ∃ s, LocatedAt d s f ∧ Data d s ∧ ¬ Touched d d' s) ∧
    (∀ f ∈ B, ∃ s, LocatedAt d s f ∧ Data d s ∧ Touched d d' s) ∧
    (∀ f ∈ A', ∃ s, LocatedAt d' s f ∧ Data d' s ∧ ¬ Touched d' d s) ∧
    ∀ f ∈ B', ∃ s, LocatedAt d' s f ∧ Data d' s ∧ Touched d' d s

end PyProm.Spec
