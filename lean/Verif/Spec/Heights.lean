import Verif.Spec.Features
import Mathlib.Data.List.Forall2
import Mathlib.Data.List.Perm.Basic

/-
What it means that two analyses report the same features when heights are given in another unit or
above another datum, and sets are iterated in another order.
-/
namespace PyProm.Spec

/-- Comparing heights gives the same before and after `φ` (for example metres to feet, or another sea
level). -/
def Increasing (φ : Rat → Rat) : Prop := ∀ a b, a < b → φ a < φ b

/-- The raster with all heights (and the nodata marker) passed through `φ`. -/
def rescaled (φ : Rat → Rat) (d : DataMap) : DataMap :=
  { d with cell := fun x y => φ (d.cell x y), nodata := d.nodata.map φ }

/-- A point with its height passed through `φ`. -/
def scale3 (φ : Rat → Rat) (p : P3) : P3 := ⟨p.x, p.y, φ p.e⟩

/-- An entry of a multipoint, alike. -/
def scaleM (φ : Rat → Rat) (p : MPt) : MPt := ⟨p.x, p.y, p.e.map φ⟩

/-- `l'` is, in some order, a list of partners of the elements of `l`. -/
def Matched {α β : Type} (R : α → β → Prop) (l : List α) (l' : List β) : Prop :=
  ∃ m, List.Forall₂ R l m ∧ m.Perm l'

/-- `c'` lists the points of `c` in some order, with heights passed through `φ`. -/
def SamePoints (φ : Rat → Rat) (c c' : List P3) : Prop := c'.Perm (c.map (scale3 φ))

/-- `g` is the feature `f` with heights passed through `φ`; lists of cells may be in another order. -/
structure SameScaled (φ : Rat → Rat) (f g : Feature) : Prop where
  kind : g.kind = f.kind
  lat : g.lat = f.lat
  lon : g.lon = f.lon
  elevation : g.elevation = φ f.elevation
  edge : g.edge = f.edge
  cells : (f.multipoint = none ∧ g.multipoint = none) ∨
    ∃ a b, f.multipoint = some a ∧ g.multipoint = some b ∧ b.Perm (a.map (scaleM φ))
  edgePoints : SamePoints φ f.edgePoints g.edgePoints
  high : Matched (SamePoints φ) f.hpn g.hpn

/-- `g` is a runoff for the same border points as the runoff `f`. -/
structure SameRunoff (φ : Rat → Rat) (f g : Feature) : Prop where
  kind : g.kind = f.kind
  elevation : g.elevation = φ f.elevation
  edge : g.edge = f.edge
  cells : (f.multipoint = none ∧ g.multipoint = none) ∨
    ∃ a b, f.multipoint = some a ∧ g.multipoint = some b ∧ b.Perm (a.map (scaleM φ))
  edgePoints : SamePoints φ f.edgePoints g.edgePoints

end PyProm.Spec
