/-
Model of the KML writer.
Python source: /repo/pyprom/lib/kmlwriter.py
-/
namespace PyProm

/-- What the writer uses of a spot elevation, with an identifier of the object. -/
structure KSpot where
  id : Nat
  lat : Rat
  lon : Rat
  ele : Rat
deriving DecidableEq, Repr

/-- The types of features that `_append_spotElevation_derivative` distinguishes. -/
inductive FType
  | summit
  | runoff
  | basin
  | saddle
  | spot
deriving DecidableEq, Repr

/-- The strings passed for them, kmlwriter.py:127-144. -/
def FType.str : FType → List Char
  | .summit => "Summit".toList
  | .runoff => "RunOff".toList
  | .basin => "BasinSaddle".toList
  | .saddle => "Saddle".toList
  | .spot => "SpotElevation".toList

/-- Their styles, kmlwriter.py:198-212. -/
def FType.style : FType → List Char
  | .summit => "#summit".toList
  | .runoff => "#runoff".toList
  | .basin => "#basinsaddle".toList
  | .saddle => "#saddle".toList
  | .spot => "#spotelevation".toList

/-- Features that are not collections. A saddle comes with what `disqualified` is when it is appended. `other` is
an object of any other class. -/
inductive KLeaf
  | summit (s : KSpot)
  | runoff (s : KSpot)
  | saddle (s : KSpot) (disq : Bool)
  | spot (s : KSpot)
  | linker (id : Nat) (saddle summit : KSpot)
  | domain (id : Nat) (summit : KSpot)
  | other
deriving DecidableEq, Repr

/-- What can be appended: a feature, a container of spot elevations, or a domain map. -/
inductive KItem
  | leaf (l : KLeaf)
  | container (ls : List KLeaf)
  | map (linkers saddles summits runoffs domains : List KLeaf)
deriving Repr

/-- The geometries as well-known text: of a point (longitude, latitude; spot_elevation.py:139-145), of a line
from saddle to summit (linker.py:235-242), and of the area of the domain with the given identifier
(summit_domain.py:234-244). The text is that of the geometry the Placemark holds (fastkml, pygeoif). -/
structure Wkt where
  point : Rat → Rat → List Char
  line : Rat × Rat → Rat × Rat → List Char
  area : Nat → List Char

/-- A placemark. Name and description are texts made of elevation and type (kmlwriter.py:183-197); the model keeps
what they are made of. `kind` is absent for linkers and domains. -/
structure Placemark where
  kind : Option FType
  geometry : List Char
  ele : Rat
deriving DecidableEq, Repr

/-- The state of a writer: the keys of the two dictionaries and the six folders, kmlwriter.py:75-97. -/
structure KmlSt where
  spotKeys : List (List Char) := []
  lineKeys : List (List Char) := []
  linkers : List Placemark := []
  saddles : List Placemark := []
  summits : List Placemark := []
  runoffs : List Placemark := []
  spots : List Placemark := []
  domains : List Placemark := []
deriving DecidableEq, Repr

/-- The placemark of a spot elevation, kmlwriter.py:183-197. -/
def spotPm (w : Wkt) (t : FType) (f : KSpot) : Placemark := ⟨some t, w.point f.lon f.lat, f.ele⟩

/-- `_append_spotElevation_derivative`, kmlwriter.py:175-212. -/
def KmlSt.addSpot (w : Wkt) (s : KmlSt) (t : FType) (f : KSpot) : KmlSt :=
  if t.str ++ w.point f.lon f.lat ∈ s.spotKeys then s
  else
    let s := { s with spotKeys := s.spotKeys ++ [t.str ++ w.point f.lon f.lat] }
    match t with
    | .basin => { s with saddles := s.saddles ++ [spotPm w t f] }
    | .saddle => { s with saddles := s.saddles ++ [spotPm w t f] }
    | .summit => { s with summits := s.summits ++ [spotPm w t f] }
    | .runoff => { s with runoffs := s.runoffs ++ [spotPm w t f] }
    | .spot => { s with spots := s.spots ++ [spotPm w t f] }

/-- The text of the line of a linker. -/
def lineOf (w : Wkt) (saddle summit : KSpot) : List Char := w.line (saddle.lon, saddle.lat) (summit.lon, summit.lat)

/-- `_append_linker`, kmlwriter.py:214-223. -/
def KmlSt.addLinker (w : Wkt) (s : KmlSt) (saddle summit : KSpot) : KmlSt :=
  if lineOf w saddle summit ∈ s.lineKeys then s
  else { s with lineKeys := s.lineKeys ++ [lineOf w saddle summit],
                linkers := s.linkers ++ [⟨none, lineOf w saddle summit, 0⟩] }

/-- `append` of a feature, kmlwriter.py:127-163, with `_append_summit_domain` (165-172); `false` if the exception of
line 162 is raised. -/
def KmlSt.appendLeaf (w : Wkt) (s : KmlSt) : KLeaf → KmlSt × Bool
  | .summit f => (s.addSpot w .summit f, true)
  | .runoff f => (s.addSpot w .runoff f, true)
  | .saddle f d => (s.addSpot w (if d then .basin else .saddle) f, true)
  | .spot f => (s.addSpot w .spot f, true)
  | .linker _ sa su => (s.addLinker w sa su, true)
  | .domain i su => ({ s with domains := s.domains ++ [⟨none, w.area i, su.ele⟩] }, true)
  | .other => (s, false)

/-- `extend` over features, kmlwriter.py:105-114: stops at the first exception. -/
def KmlSt.extendLeaves (w : Wkt) (s : KmlSt) : List KLeaf → KmlSt × Bool
  | [] => (s, true)
  | l :: ls =>
    match s.appendLeaf w l with
    | (s, true) => s.extendLeaves w ls
    | (s, false) => (s, false)

/-- `append`, kmlwriter.py:116-163. A domain map's collections are appended in the order of lines 151-155. -/
def KmlSt.append (w : Wkt) (s : KmlSt) : KItem → KmlSt × Bool
  | .leaf l => s.appendLeaf w l
  | .container ls => s.extendLeaves w ls
  | .map li sa su ru dom => s.extendLeaves w (li ++ sa ++ su ++ ru ++ dom)

/-- `extend`, kmlwriter.py:105-114. -/
def KmlSt.extend (w : Wkt) (s : KmlSt) : List KItem → KmlSt × Bool
  | [] => (s, true)
  | l :: ls =>
    match s.append w l with
    | (s, true) => s.extend w ls
    | (s, false) => (s, false)

/-- A document: the ids of its styles and its folders. -/
structure KmlDoc where
  styles : List (List Char)
  folders : List (List Char × List Placemark)
deriving DecidableEq, Repr

/-- `generateDocument`, kmlwriter.py:225-263; empty folders are left out. The name of the document and logging are left out. -/
def KmlSt.document (s : KmlSt) : KmlDoc where
  styles := ["saddle", "summit", "basinsaddle", "runoff", "spotelevation"].map String.toList
  folders := [("Saddles".toList, s.saddles), ("Summits".toList, s.summits), ("SpotElevations".toList, s.spots),
    ("Runoffs".toList, s.runoffs), ("Linkers".toList, s.linkers), ("SummitDomains".toList, s.domains)].filter
      fun f => !f.2.isEmpty

end PyProm
