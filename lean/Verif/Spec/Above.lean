import Verif.Spec.Tiles
import Verif.Spec.Faithful

/-
Rasters that agree above some height
-/
namespace PyProm.Spec

/-- Cell `p` of `w` is the cell of `d` that is `x` rows and `y` columns further on, and from the height `h` upwards the rasters
show the same ground: a cell with ground of this height or higher in one of them has the same height in the other. -/
structure AgreeAbove (h : Rat) (x y : Int) (w d : DataMap) : Prop where
  ground : ∀ p, Data w p ∧ h ≤ el w p ↔ Data d (moved x y p) ∧ h ≤ el d (moved x y p)
  el : ∀ p, Data w p → h ≤ el w p → el d (moved x y p) = el w p

/-- The summits `f` of `w` and `g` of `d` are the same: of the same height, for the same cells, at one of them. -/
structure SameHill (x y : Int) (w d : DataMap) (f g : Feature) : Prop where
  elevation : g.elevation = f.elevation
  cells : (f.multipoint = none ∧ g.multipoint = none) ∨
    ∃ a b, f.multipoint = some a ∧ g.multipoint = some b ∧ b.Perm (a.map (movedM x y))
  place : ∃ p q, LocatedAt w p f ∧ LocatedAt d q g ∧ Flat d (moved x y p) q

end PyProm.Spec
