import Verif.Spec.Heights

/-
One terrain stored in two ways: with rows from south to north instead of north to south, columns from east to west, rows and
columns exchanged, or several of these. Cells have other numbers then, but are at the same place.
-/
namespace PyProm.Spec

/-- `d'` stores the terrain of `d`; cell `p` of `d` is cell `σ p` of `d'`. -/
structure Turned (σ : Pt → Pt) (d d' : DataMap) : Prop where
  inj : ∀ p q, σ p = σ q → p = q
  onto : ∀ q, ∃ p, σ p = q
  adj : ∀ p q, Adj (σ p) (σ q) ↔ Adj p q
  inB : ∀ p, InB d' (σ p) ↔ InB d p
  border : ∀ p, Border d' (σ p) ↔ Border d p
  el : ∀ p, el d' (σ p) = el d p
  nodata : d'.nodata = d.nodata
  lat : ∀ p, latOf d' (σ p) = latOf d p
  lon : ∀ p, lonOf d' (σ p) = lonOf d p

/-- Rows in reverse order. -/
def upsideDown (d : DataMap) : DataMap :=
  { d with cell := fun x y => d.cell (d.maxX - x) y
           gt0 := d.gt0 + d.maxX * d.gt2, gt2 := -d.gt2, gt3 := d.gt3 + d.maxX * d.gt5, gt5 := -d.gt5 }

/-- Columns in reverse order. -/
def leftRight (d : DataMap) : DataMap :=
  { d with cell := fun x y => d.cell x (d.maxY - y)
           gt0 := d.gt0 + d.maxY * d.gt1, gt1 := -d.gt1, gt3 := d.gt3 + d.maxY * d.gt4, gt4 := -d.gt4 }

/-- Rows and columns exchanged. -/
def transposed (d : DataMap) : DataMap :=
  { d with maxX := d.maxY, maxY := d.maxX, cell := fun x y => d.cell y x
           gt1 := d.gt2, gt2 := d.gt1, gt4 := d.gt5, gt5 := d.gt4 }

/-- A point with elevation, with the number its cell has in the other raster. -/
def turn3 (σ : Pt → Pt) (p : P3) : P3 := ⟨(σ p.xy).1, (σ p.xy).2, p.e⟩

/-- An entry of a multipoint, alike. -/
def turnM (σ : Pt → Pt) (p : MPt) : MPt := ⟨(σ (p.x, p.y)).1, (σ (p.x, p.y)).2, p.e⟩

/-- `g` is, in the other raster, the summit or saddle `f`: for the same cells, at one of them, with the same height, edge points and
higher neighbourhoods. Lists of cells may be in another order. -/
structure SameTurned (σ : Pt → Pt) (d : DataMap) (f g : Feature) : Prop where
  kind : g.kind = f.kind
  place : ∃ p q, LocatedAt d p f ∧ LocatedAt d q g ∧ Flat d p q
  edge : g.edge = f.edge
  cells : (f.multipoint = none ∧ g.multipoint = none) ∨
    ∃ a b, f.multipoint = some a ∧ g.multipoint = some b ∧ b.Perm (a.map (turnM σ))
  edgePoints : g.edgePoints.Perm (f.edgePoints.map (turn3 σ))
  high : Matched (fun c c' => c'.Perm (c.map (turn3 σ))) f.hpn g.hpn

/-- `g` is, in the other raster, a runoff for the border points of the runoff `f`. -/
structure SameOutlet (σ : Pt → Pt) (f g : Feature) : Prop where
  kind : g.kind = f.kind
  elevation : g.elevation = f.elevation
  edge : g.edge = f.edge
  cells : (f.multipoint = none ∧ g.multipoint = none) ∨
    ∃ a b, f.multipoint = some a ∧ g.multipoint = some b ∧ b.Perm (a.map (turnM σ))
  edgePoints : g.edgePoints.Perm (f.edgePoints.map (turn3 σ))

/-- `g` is, in the other raster, the summit `f`: for the same cells, at one of them, with the same height and edge points. -/
structure SameTop (σ : Pt → Pt) (d : DataMap) (f g : Feature) : Prop extends SameOutlet σ f g where
  place : ∃ p q, LocatedAt d p f ∧ LocatedAt d q g ∧ Flat d p q

end PyProm.Spec
