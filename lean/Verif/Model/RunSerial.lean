import Verif.Model.Serial
import Verif.Model.Basin

/-
The objects of a DomainMap as saving sees them: connects the model of runs with that of saving and loading
-/
namespace PyProm

/-- Ids of the objects of a map. The code draws them at random (`randomString`, util.py:121-131). -/
structure ObjIds where
  sum : Nat → Nat
  sad : Nat → Nat
  link : Nat → Nat

/-- The Perimeter `equalHeightBlob` makes, equalheight.py:86-99. Simplification: the index has no empty
rows. -/
def Perim.ofBlob (b : Blob) : Perim where
  points := b.perim
  index := some (b.perim.foldl indexPut [])
  mapEdge := b.mapEdge
  mapEdgePoints := some b.mapEdgePoints

/-- The MultiPoint of a feature. Features of the model only have its points; the perimeter is computed
again from the first, with which `equalHeightBlob` started (equalheight.py:43-46). -/
def Feature.area (d : DataMap) (f : Feature) : Option MultiObj :=
  f.multipoint.map fun pts =>
    ⟨pts, f.elevation, (pts.head?.bind fun m => equalHeightBlob d m.x m.y f.elevation).map Perim.ofBlob⟩

/-- A Summit of the map, as saved. -/
def DMap.lSummit (m : DMap) (d : DataMap) (ids : ObjIds) (D : Nat) (f : Feature) : LSummit where
  id := ids.sum D
  lat := f.lat
  lon := f.lon
  ele := f.elevation
  edge := f.edge
  edgePoints := f.edgePoints
  mp := f.area d
  disq := false
  links := m.st.sumLinks D
  domain := (m.domPoints D).map fun _ => D

/-- The numbers of the saddles among the nodes. -/
def saddleNos (l : List Node) : List Nat := l.filterMap fun
  | .saddle k => some k
  | .summit _ => none

/-- A Saddle or Runoff of the map, as saved, with the flags `f`. -/
def DMap.lSaddle (m : DMap) (d : DataMap) (f : Flags) (ids : ObjIds) (k : Nat) (o : SObj) : LSaddle where
  runoff := decide (o.f.kind = .runoff)
  id := ids.sad k
  lat := o.f.lat
  lon := o.f.lon
  ele := o.f.elevation
  edge := o.f.edge
  edgePoints := o.f.edgePoints
  single := f.single k
  basin := f.basin k
  over := f.over k
  mp := o.f.area d
  hpn := o.f.hpn
  parent := o.parent
  children := o.children
  alts := saddleNos (f.alts (.saddle k))
  links := m.st.sadLinks k

/-- A blank feature, for numbers that belong to no object. -/
def Feature.blank : Feature := mkSummit (0, 0) 0 none false []

/-- The DomainMap as saved. Domains are named by the numbers of their summits; their points have no
elevation in the model of the walk. -/
def DMap.toL (m : DMap) (d : DataMap) (f : Flags) (ids : ObjIds) : LMap where
  sum D := m.lSummit d ids D (m.summits[D]?.getD .blank)
  sad k := m.lSaddle d f ids k (m.st.objs[k]?.getD { f := .blank })
  link i := ⟨ids.link i, (m.net.link i).1, (m.net.link i).2, f.linkDisq i⟩
  dom D := ⟨D, m.st.domSaddles D, ((m.domPoints D).getD []).map MPt.ofPt⟩
  summits := List.range m.summits.length
  saddles := m.saddles
  runoffs := m.runoffs
  linkers := m.linkers
  domains := m.domains

end PyProm
