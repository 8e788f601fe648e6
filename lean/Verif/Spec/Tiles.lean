import Verif.Spec.Features

/-
What it means that the analysis of a part of a map (a tile) and the analysis of the whole map report the
same feature. Cells of the tile and of the map are numbered differently; `(x, y)` is the cell of the map
that the tile starts with.
-/
namespace PyProm.Spec

/-- The cell of the map that is cell `p` of the tile. -/
def moved (x y : Int) (p : Pt) : Pt := (x + p.1, y + p.2)

/-- A point with elevation, moved alike. -/
def moved3 (x y : Int) (p : P3) : P3 := ⟨x + p.x, y + p.y, p.e⟩

/-- An entry of a multipoint, moved alike. -/
def movedM (x y : Int) (p : MPt) : MPt := ⟨x + p.x, y + p.y, p.e⟩

/-- A cell of the map lies in the tile of `xs` rows and `ys` columns that starts at `(x, y)`, but not on
its outermost ring. -/
def InnerCell (x y : Int) (xs ys : Nat) (m : Pt) : Prop :=
  x < m.1 ∧ m.1 < x + xs - 1 ∧ y < m.2 ∧ m.2 < y + ys - 1

/-- `f` of the tile and `g` of the map are the same feature: kind, cell, height, edge status, the cells
recorded for it and its neighbourhoods of higher cells. -/
structure SameInTile (d : DataMap) (x y : Int) (xs ys : Nat) (f g : Feature) : Prop where
  kind : f.kind = g.kind
  place : ∃ s, Data (d.subset x y xs ys) s ∧ LocatedAt (d.subset x y xs ys) s f ∧ LocatedAt d (moved x y s) g
  elevation : f.elevation = g.elevation
  edge : f.edge = g.edge
  cells : (f.multipoint = none ∧ g.multipoint = none) ∨
    ∃ a b, f.multipoint = some a ∧ g.multipoint = some b ∧ b.Perm (a.map (movedM x y))
  high : (∀ c ∈ f.hpn, ∃ c' ∈ g.hpn, c'.Perm (c.map (moved3 x y))) ∧
    (∀ c' ∈ g.hpn, ∃ c ∈ f.hpn, c'.Perm (c.map (moved3 x y)))

end PyProm.Spec
