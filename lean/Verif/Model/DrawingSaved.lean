import Verif.Model.Drawing
import Verif.Model.Loaded

/-
Model of what a KML writer is given of a DomainMap whose objects are named one by one, for instance of a loaded one.
Python source: /repo/pyprom/lib/kmlwriter.py:116-172
-/
namespace PyProm

/-- What the writer reads of a summit (kmlwriter.py:183-197). -/
def LSummit.drawn (id : Nat) (s : LSummit) : KSpot := ⟨id, s.lat, s.lon, s.ele⟩

/-- What the writer reads of a saddle or runoff (kmlwriter.py:183-197). -/
def LSaddle.drawn (id : Nat) (s : LSaddle) : KSpot := ⟨id, s.lat, s.lon, s.ele⟩

/-- A Summit as `append` sees it, kmlwriter.py:127-129. -/
def LMap.drawSummit (m : LMap) (D : Nat) : KLeaf := .summit ((m.sum D).drawn D)

/-- A Saddle or Runoff as `append` sees it, kmlwriter.py:131-140. -/
def LMap.drawSaddle (m : LMap) (k : Nat) : KLeaf :=
  if (m.sad k).runoff then .runoff ((m.sad k).drawn k) else .saddle ((m.sad k).drawn k) (m.sad k).disqualified

/-- A Linker as `append` sees it, kmlwriter.py:146-148. -/
def LMap.drawLinker (m : LMap) (i : Nat) : KLeaf :=
  .linker i ((m.sad (m.link i).saddle).drawn (m.link i).saddle) ((m.sum (m.link i).summit).drawn (m.link i).summit)

/-- A SummitDomain as `append` sees it, kmlwriter.py:158-160. -/
def LMap.drawDomain (m : LMap) (i : Nat) : KLeaf := .domain i ((m.sum (m.dom i).summit).drawn (m.dom i).summit)

/-- A DomainMap as argument of `append`, kmlwriter.py:150-156. -/
def LMap.drawing (m : LMap) : KItem :=
  .map (m.linkers.map m.drawLinker) (m.saddles.map m.drawSaddle) (m.summits.map m.drawSummit) (m.runoffs.map m.drawSaddle)
    (m.domains.map m.drawDomain)

/-- The texts of geometries if the outline of a domain is made of its points (summit_domain.py:234-244) and `area` is the
text of the union of the cells at them. -/
def LMap.texts (m : LMap) (w : Wkt) (area : List MPt → List Char) : Wkt := { w with area := fun i => area (m.dom i).points }

end PyProm
