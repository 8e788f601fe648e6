import Verif.Spec.Components
import Verif.Model.Discovery

/-
What feature discovery has to report for one flat area, in terms of the terrain only.
`Feature` (a plain record of the attributes of the reported object) is shared with the model.
-/
namespace PyProm.Spec

/-- The flat area of `q` reaches the border of the map. -/
def OnBorder (d : DataMap) (q : Pt) : Prop := ∃ m, Flat d q m ∧ Border d m

/-- `S` lists the strictly higher cells around the flat area of `q`. -/
def HighList (d : DataMap) (q : Pt) (S : List P3) : Prop :=
  ∀ p, p ∈ S ↔ HighRim d q p.xy ∧ p.e = el d p.xy

/-- `S` lists the border cells around the flat area of `q`. -/
def BorderRimList (d : DataMap) (q : Pt) (S : List P3) : Prop :=
  ∀ p, p ∈ S ↔ Rim d q p.xy ∧ Border d p.xy ∧ p.e = el d p.xy

/-- `S` lists the border cells of the flat area of `q`, each once. -/
def BorderList (d : DataMap) (q : Pt) (S : List P3) : Prop :=
  S.Nodup ∧ ∀ p, p ∈ S ↔ Flat d q p.xy ∧ Border d p.xy ∧ p.e = el d p.xy

/-- `high` are the high neighbourhoods of the flat area of `q`. -/
def IsHigh (d : DataMap) (q : Pt) (high : List (List P3)) : Prop :=
  ∃ S, HighList d q S ∧ IsComponents S high

/-- `lower` are the border neighbourhoods that lie entirely below the flat area of `q`. -/
def IsLower (d : DataMap) (q : Pt) (lower : List (List P3)) : Prop :=
  ∃ S M, BorderRimList d q S ∧ IsComponents S M ∧
    lower = M.filter fun c => decide (∀ p ∈ c, p.e < el d q)

/-- `str` are the connected border stretches of the flat area of `q`. -/
def IsStretches (d : DataMap) (q : Pt) (str : List (List P3)) : Prop :=
  ∃ S, BorderList d q S ∧ IsComponents S str

/-- A border stretch that separates exactly two lower border neighbourhoods. -/
def Separates (lower : List (List P3)) (c : List P3) : Prop := touchCount lower c = 2

instance (lower : List (List P3)) (c : List P3) : Decidable (Separates lower c) := by
  unfold Separates; infer_instance

/-- The latitude of the cell `q`: by the geotransform, every product and sum rounded. -/
def latOf (d : DataMap) (q : Pt) : Rat := d.fl (d.fl (d.gt3 + d.fl (q.2 * d.gt4)) + d.fl (q.1 * d.gt5))

/-- The longitude of the cell `q`. -/
def lonOf (d : DataMap) (q : Pt) : Rat := d.fl (d.fl (d.gt0 + d.fl (q.2 * d.gt1)) + d.fl (q.1 * d.gt2))

/-- `f` is the runoff for the border stretch `c`: an edge feature with the elevation of the
area, located at the middle element of the stretch and carrying the stretch. -/
def RunoffFor (d : DataMap) (q : Pt) (c : List P3) (f : Feature) : Prop :=
  f.kind = .runoff ∧ f.elevation = el d q ∧ f.edge = true ∧ f.edgePoints = c ∧
  f.multipoint = none ∧
  ∃ mid, c[c.length / 2]? = some mid ∧
    f.lat = latOf d (mid.x, mid.y) ∧ f.lon = lonOf d (mid.x, mid.y)

/-- The flat area of `q` has no strictly higher neighbour. -/
def IsTop (d : DataMap) (q : Pt) : Prop := ∀ r, ¬ HighRim d q r

/-- Two higher neighbours of the flat area of `q` are not connected through higher
neighbours: the high ground around it falls apart. -/
def TwoHigh (d : DataMap) (q : Pt) : Prop :=
  ∃ a b, HighRim d q a ∧ HighRim d q b ∧
    ¬ Relation.ReflTransGen (fun u v => Adj u v ∧ HighRim d q v) a b

/-- The location and elevation of `f` are those of the cell `q`. -/
def LocatedAt (d : DataMap) (q : Pt) (f : Feature) : Prop :=
  f.lat = latOf d q ∧ f.lon = lonOf d q ∧
  f.elevation = el d q

/-- `mp` records the flat area of `q`: nothing for a single cell, else every cell once. -/
def RecordsArea (d : DataMap) (q : Pt) (mp : Option (List MPt)) : Prop :=
  (mp = none ∧ ∀ m, Flat d q m ↔ m = q) ∨
  (∃ pts : List Pt, mp = some (pts.map fun m => ⟨m.1, m.2, none⟩) ∧ pts.Nodup ∧
    (∀ m, m ∈ pts ↔ Flat d q m) ∧ ∃ m, m ≠ q ∧ Flat d q m)

/-- `f` is the summit for the flat area of `q`. -/
structure SummitFor (d : DataMap) (q : Pt) (f : Feature) : Prop where
  kind : f.kind = .summit
  located : LocatedAt d q f
  area : RecordsArea d q f.multipoint
  edge : f.edge = true ↔ OnBorder d q
  edgePoints : BorderList d q f.edgePoints

/-- `f` is a saddle for the flat area of `q`. -/
structure SaddleFor (d : DataMap) (q : Pt) (f : Feature) : Prop where
  kind : f.kind = .saddle
  located : LocatedAt d q f
  high : IsHigh d q f.hpn

/-- The eight cells around `p`, clockwise from the one above. -/
def around (p : Pt) : List Pt :=
  [(p.1 - 1, p.2), (p.1 - 1, p.2 + 1), (p.1, p.2 + 1), (p.1 + 1, p.2 + 1), (p.1 + 1, p.2),
    (p.1 + 1, p.2 - 1), (p.1, p.2 - 1), (p.1 - 1, p.2 - 1)]

/-- `q` is the cell reported for a flat area that is met at `p`: `p` if it is the only cell of the
area, else the first cell around `p` that belongs to it. -/
def ReportedFrom (d : DataMap) (p q : Pt) : Prop :=
  (q = p ∧ ∀ m, ¬ Level d p m) ∨
  ∃ l r, around p = l ++ q :: r ∧ Level d p q ∧ ∀ m ∈ l, ¬ Level d p m

/-- One flat area with the features reported for it. -/
structure Region where
  site : Pt
  features : List Feature

/-- `regs` covers every flat area of the raster exactly once. -/
structure Covers (d : DataMap) (regs : List Region) : Prop where
  data : ∀ r ∈ regs, Data d r.site
  once : regs.Pairwise fun r r' => ¬ Flat d r.site r'.site
  all : ∀ p, Data d p → ∃ r ∈ regs, Flat d r.site p

/-- The report for a border area with higher ground (the decision table of edge analysis).
`high`, `lower` and `str` are its high neighbourhoods, the lower border neighbourhoods and
its border stretches. -/
structure EdgeTable (d : DataMap) (q : Pt) (fs : List Feature)
    (high lower str : List (List P3)) : Prop where
  isHigh : IsHigh d q high
  isLower : IsLower d q lower
  isStr : IsStretches d q str
  nothing : high.length < 2 → lower.length < 2 → fs = []
  saddle : 2 ≤ high.length → lower.length < 2 → ∃ f, fs = [f] ∧ SaddleFor d q f ∧
    f.edge = true ∧ BorderList d q f.edgePoints
  runoffs : 2 ≤ lower.length → ∃ cs rs, cs.Perm (str.filter fun c => decide (Separates lower c)) ∧
    List.Forall₂ (RunoffFor d q) cs rs ∧
    ((high.length < 2 ∧ fs = rs) ∨
     (2 ≤ high.length ∧ ∃ f, fs = rs ++ [f] ∧ SaddleFor d q f ∧
      (f.edge = true ↔ ∃ c ∈ str, ¬ Separates lower c) ∧ f.edgePoints.Nodup ∧
      (∀ p, p ∈ f.edgePoints ↔ (∃ c ∈ str, p ∈ c ∧ ¬ Separates lower c))))

end PyProm.Spec
