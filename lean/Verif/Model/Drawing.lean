import Verif.Model.Kml
import Verif.Model.Basin
import Verif.Model.DivideTree

/-
Model of what a KML writer is given of a DomainMap and of the paths of a divide tree.
Python source: /repo/pyprom/lib/kmlwriter.py:116-163, /repo/pyprom/dividetree.py:168-197
-/
namespace PyProm

/-- What the writer reads of a feature (kmlwriter.py:183-197). The identifier stands for the object; the writer does not
read it. -/
def Feature.drawn (id : Nat) (f : Feature) : KSpot := ⟨id, f.lat, f.lon, f.elevation⟩

/-- The Summit `D` as `append` sees it, kmlwriter.py:127-129; `other` if the map has no such object. -/
def DMap.drawSummit (m : DMap) (D : Nat) : KLeaf :=
  match m.summits[D]? with
  | some f => .summit (f.drawn D)
  | none => .other

/-- The Saddle or Runoff `k` as `append` sees it, kmlwriter.py:131-140, with the flags of the map. -/
def DMap.drawSaddle (m : DMap) (fl : Flags) (k : Nat) : KLeaf :=
  match m.st.objs[k]? with
  | some o => if o.f.kind = .runoff then .runoff (o.f.drawn k) else .saddle (o.f.drawn k) (fl.saddleDisq k)
  | none => .other

/-- The Linker `i` as `append` sees it, kmlwriter.py:146-148. -/
def DMap.drawLinker (m : DMap) (i : Nat) : KLeaf :=
  match m.st.store[i]? with
  | some l =>
    match m.st.objs[l.saddle]?, m.summits[l.summit]? with
    | some o, some f => .linker i (o.f.drawn l.saddle) (f.drawn l.summit)
    | _, _ => .other
  | none => .other

/-- The SummitDomain of summit `D` as `append` sees it, kmlwriter.py:158-160. -/
def DMap.drawDomain (m : DMap) (D : Nat) : KLeaf :=
  match m.summits[D]? with
  | some f => .domain D (f.drawn D)
  | none => .other

/-- A DomainMap as argument of `append`, kmlwriter.py:150-156. -/
def DMap.drawing (m : DMap) (fl : Flags) : KItem :=
  .map (m.linkers.map m.drawLinker) (m.saddles.map (m.drawSaddle fl)) ((List.range m.summits.length).map m.drawSummit)
    (m.runoffs.map (m.drawSaddle fl)) (m.domains.map m.drawDomain)

/-- `LPRpath.elements_for_kml`, dividetree.py:189-197. -/
def LprPath.elements (m : DMap) (fl : Flags) (q : LprPath) : List KLeaf :=
  q.path.map (fun i => m.drawSummit (m.net.link i).1) ++ q.path.map (fun i => m.drawSaddle fl (m.net.link i).2) ++
    q.path.map m.drawLinker

/-- `LPRPaths.elements_for_kml`, dividetree.py:174-178. -/
def lprElements (m : DMap) (fl : Flags) (ps : List LprPath) : List KLeaf := ps.flatMap fun q => q.elements m fl

end PyProm
