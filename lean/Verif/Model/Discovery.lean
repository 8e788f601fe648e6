import Verif.Model.Blob
import Verif.Model.Neighbors
import Verif.Model.Coords

/-
Model of /repo/pyprom/feature_discovery.py and of
high_perimeter_neighborhood_shortest_path in lib/logic/shortest_path_by_points.py
-/
namespace PyProm

/-- Entry of a `MultiPoint.points` list: a 2-tuple `(x, y)` has `none`, a 3-tuple
`(x, y, el)` has `some el`. -/
structure MPt where
  x : Int
  y : Int
  e : Option Rat
deriving DecidableEq, Repr

/-- 2-tuple entry. -/
def MPt.ofPt (p : Pt) : MPt := ⟨p.1, p.2, none⟩
/-- 3-tuple entry. -/
def MPt.ofP3 (p : P3) : MPt := ⟨p.x, p.y, some p.e⟩

/-- Class of a discovered object. -/
inductive Kind
  | summit | saddle | runoff
deriving DecidableEq, Repr

/-- Attributes a Summit/Saddle/Runoff gets in feature discovery
(summit.py:50-81, saddle.py:63-120, runoff.py:29-53). `multipoint = none` is the empty
list passed for single points. -/
structure Feature where
  kind : Kind
  lat : Rat
  lon : Rat
  elevation : Rat
  multipoint : Option (List MPt)
  edge : Bool
  edgePoints : List P3
  hpn : List (List P3)
deriving DecidableEq, Repr

/-- `Runoff.__init__` forces `edgeEffect = True` (runoff.py:53). -/
def mkRunoff (loc : Rat × Rat) (el : Rat) (mp : Option (List MPt)) (edgePoints : List P3)
    (hpn : List (List P3)) : Feature :=
  { kind := .runoff, lat := loc.1, lon := loc.2, elevation := el, multipoint := mp, edge := true,
    edgePoints := edgePoints, hpn := hpn }

/-- `Saddle.__init__` as used in discovery. -/
def mkSaddle (loc : Rat × Rat) (el : Rat) (mp : Option (List MPt)) (edge : Bool)
    (edgePoints : List P3) (hpn : List (List P3)) : Feature :=
  { kind := .saddle, lat := loc.1, lon := loc.2, elevation := el, multipoint := mp, edge := edge,
    edgePoints := edgePoints, hpn := hpn }

/-- `Summit.__init__` as used in discovery. -/
def mkSummit (loc : Rat × Rat) (el : Rat) (mp : Option (List MPt)) (edge : Bool)
    (edgePoints : List P3) : Feature :=
  { kind := .summit, lat := loc.1, lon := loc.2, elevation := el, multipoint := mp, edge := edge,
    edgePoints := edgePoints, hpn := [] }

/-- Selection loop of `high_perimeter_neighborhood_shortest_path`
(shortest_path_by_points.py:54-64): the candidate with the first strictly smaller
cost. -/
def hpnSelect (cost : MPt → MPt → Rat) (point : MPt) :
    List P3 → Option (P3 × Rat) → Option (P3 × Rat)
  | [], best => best
  | t :: ts, best =>
    let c := cost point (MPt.ofP3 t)
    match best with
    | none => hpnSelect cost point ts (some (t, c))
    | some (b, bc) =>
      if c < bc then hpnSelect cost point ts (some (t, c))
      else hpnSelect cost point ts (some (b, bc))

/-- `high_perimeter_neighborhood_shortest_path`, shortest_path_by_points.py:21-66.
Returns the selected point and the list `flat_area_points` as it is left behind (it is
the caller's list, extended in place at line 41). `cost pts s t` is the total cost of
the dijkstar path from `s` to `t` in the graph on the points `pts`. The parameter
`_point` is overwritten by the loop variable at line 46, so after that loop `point` is
the last element of the list. Failures: no points at all (NameError is impossible as
`point` is a parameter), no candidate: `shortest_length.nodes` on None. -/
def hpnShortestPath (cost : List MPt → MPt → MPt → Rat) (_point : P3) (flat : List MPt)
    (hpn : List (List P3)) : Except PyErr (P3 × List MPt) :=
  let pts := flat ++ hpn.flatten.map MPt.ofP3
  let point := pts.getLastD (MPt.ofP3 _point)
  match hpnSelect (cost pts) point hpn.flatten none with
  | none => .error .attributeError
  | some (c, _) => .ok (c, pts)

/-- `list.remove(pt)` for every `pt` of a list (feature_discovery.py:402-403); a missing
element raises ValueError. -/
def removeAll : List P3 → List P3 → Except PyErr (List P3)
  | [], l => .ok l
  | p :: ps, l => if p ∈ l then removeAll ps (l.erase p) else .error .valueError

/-- State of the runoff loop (feature_discovery.py:374-403): created runoffs, edge point
neighbourhoods turned into runoffs, remaining edge points, and the shared
`multipoint.points`. -/
structure RunoffSt where
  runoffs : List Feature
  converted : List (List P3)
  remaining : List P3
  mp : Option (List MPt)
deriving DecidableEq, Repr

/-- Everything a feature analysis can depend on besides the raster: set pop choices per
call site and the dijkstra cost. -/
structure Oracle where
  pop : Nat → List P3 → Nat
  cost : List MPt → MPt → MPt → Rat

/-- Body of the loop over `touching.items()`, feature_discovery.py:374-403. -/
def runoffBody (d : DataMap) (o : Oracle) (h : Rat) (edgeNbhds : List (List P3))
    (high : List (List P3)) (s : RunoffSt) (it : Nat × List Nat) : Except PyErr RunoffSt :=
  if it.1 + 1 > edgeNbhds.length then .ok s
  else if it.2.length = 2 then
    match edgeNbhds[it.1]? with
    | none => .error .indexError
    | some nb =>
      match nb[nb.length / 2]? with
      | none => .error .indexError
      | some mid => do
        let loc := d.xyToLatLon mid.x mid.y
        let (hpn, mp) ← (match s.mp with
          | some pts => do
            let (c, pts') ← hpnShortestPath o.cost mid pts high
            pure ([[c]], some pts')
          | none => pure (high, none) : Except PyErr (List (List P3) × Option (List MPt)))
        let remaining ← removeAll nb s.remaining
        pure { runoffs := s.runoffs ++ [mkRunoff loc h none nb hpn]
               converted := s.converted ++ [nb]
               remaining := remaining
               mp := mp }
  else .ok s

/-- The filter of feature_discovery.py:324-327. -/
def lowerNbhds (h : Rat) : List (List P3) → Except PyErr (List (List P3))
  | [] => .ok []
  | nb :: nbs => do
    let hi ← highestP3 nb
    let rest ← lowerNbhds h nbs
    match hi with
    | [] => .error .indexError
    | t :: _ => if t.e < h then pure (nb :: rest) else pure rest

/-- `edge_feature_analysis`, feature_discovery.py:274-434. -/
def edgeFeatureAnalysis (d : DataMap) (o : Oracle) (x y : Int) (h : Rat)
    (mapEdgePoints : List P3) (mp : Option (List MPt)) (edge : Bool) (edgePoints : List P3)
    (high : List (List P3)) : Except PyErr (List Feature) :=
  if edge = false then .ok []
  else
    let loc := d.xyToLatLon x y
    if high.isEmpty then .ok [mkRunoff loc h mp edgePoints high]
    else do
      let nbhds ← contiguousNeighbors (o.pop 1) mapEdgePoints
      let lower ← lowerNbhds h nbhds
      if lower.length ≤ 1 then
        if high.length > 1 then .ok [mkSaddle loc h mp edge edgePoints high] else .ok []
      else
        let edgeNbhds ← contiguousNeighbors (o.pop 2) edgePoints
        let touching := touchingNeighborhoods d (edgeNbhds ++ lower)
        let s ← touching.foldlM (runoffBody d o h edgeNbhds high)
          { runoffs := [], converted := [], remaining := edgePoints, mp := mp }
        if high.length ≥ 2 then
          if s.converted.length = edgeNbhds.length then
            .ok (s.runoffs ++ [mkSaddle loc h s.mp false [] high])
          else .ok (s.runoffs ++ [mkSaddle loc h s.mp edge s.remaining high])
        else .ok s.runoffs

/-- `consolidatedFeatureLogic`, feature_discovery.py:214-270, with
`Perimeter.findHighPerimeterNeighborhoods` (perimeter.py:103-128) inlined. -/
def consolidatedFeatureLogic (d : DataMap) (o : Oracle) (x y : Int) (h : Rat)
    (perim : List P3) (mapEdgePoints : List P3) (mp : Option (List MPt)) (edge : Bool)
    (edgePoints : List P3) : Except PyErr (List Feature) := do
  let high ← contiguousNeighbors (o.pop 0) (perim.filter fun p => p.e > h)
  let loc := d.xyToLatLon x y
  let first :=
    if high.isEmpty then [mkSummit loc h mp edge edgePoints]
    else if high.length > 1 ∧ edge = false then [mkSaddle loc h mp edge edgePoints high]
    else []
  if edge then
    let more ← edgeFeatureAnalysis d o x y h mapEdgePoints mp edge edgePoints high
    pure (first ++ more)
  else pure first

/-- `analyze_multipoint`, feature_discovery.py:135-156. Returns the features and the
points newly marked as visited. -/
def analyzeMultipoint (d : DataMap) (o : Oracle) (x y : Int) (h : Rat) :
    Except PyErr (List Feature × List Pt) :=
  match equalHeightBlob d x y h with
  | none => .error .fuel
  | some b => do
    let fs ← consolidatedFeatureLogic d o x y h b.perim b.mapEdgePoints
      (some (b.points.map MPt.ofPt)) b.mapEdge b.edgePoints
    pure (fs, b.points)

/-- Accumulated perimeter of a single point. -/
structure SsAcc where
  perim : List P3
  mapEdge : List P3
deriving DecidableEq, Repr

/-- Neighbour loop of `summit_and_saddle`, feature_discovery.py:189-204. `inl q` is the
early return at the first equal neighbour `q`. Comparing `None` with a number would be
a TypeError (it never happens: `None` is only yielded when nodata is `None`). The test
`not self.visited[x][y]` at line 196 is always true there because of line 174. -/
def ssLoop (d : DataMap) (h : Rat) : List Nbr → SsAcc → Except PyErr (P3 ⊕ SsAcc)
  | [], acc => .ok (.inr acc)
  | (x, y, oe) :: ns, acc =>
    if oe = d.nodata then ssLoop d h ns acc
    else match oe with
      | none => .error .typeError
      | some e =>
        if e = h then .ok (.inl ⟨x, y, e⟩)
        else
          let acc1 := if e > h then { acc with perim := acc.perim ++ [⟨x, y, e⟩] } else acc
          let acc2 := if d.isMapEdge x y then
            { acc1 with mapEdge := setAdd acc1.mapEdge ⟨x, y, e⟩ } else acc1
          ssLoop d h ns acc2

/-- `summit_and_saddle`, feature_discovery.py:158-212, at an unvisited point or not.
Returns the features and the new visited points. -/
def summitAndSaddle (d : DataMap) (o : Oracle) (visited : List Pt) (p : Pt) (h : Rat) :
    Except PyErr (List Feature × List Pt) :=
  if p ∈ visited then .ok ([], visited)
  else do
    let edge := d.isMapEdge p.1 p.2
    let edgePoints : List P3 := if edge then [⟨p.1, p.2, h⟩] else []
    match ← ssLoop d h (d.iterateFull p.1 p.2) ⟨[], []⟩ with
    | .inl q => do
      let (fs, marked) ← analyzeMultipoint d o q.x q.y q.e
      pure (fs, visited ++ marked)
    | .inr acc => do
      let fs ← consolidatedFeatureLogic d o p.1 p.2 h acc.perim acc.mapEdge none edge edgePoints
      pure (fs, visited)

/-- The scan loop of `analyze`, feature_discovery.py:109-129, over the cells in the given
order. The features are returned in order of discovery. -/
def analyzeLoop (d : DataMap) (o : Pt → Oracle) : List Pt → List Pt → Except PyErr (List Feature)
  | [], _ => .ok []
  | p :: ps, visited =>
    if some (d.cell p.1 p.2) = d.nodata then analyzeLoop d o ps visited
    else do
      let (fs, visited') ← summitAndSaddle d (o p) visited p (d.cell p.1 p.2)
      let rest ← analyzeLoop d o ps visited'
      pure (fs ++ rest)

/-- The three containers `analyze` returns. -/
structure Discovered where
  summits : List Feature
  saddles : List Feature
  runoffs : List Feature
deriving DecidableEq, Repr

/-- `analyze`, feature_discovery.py:87-133, sorting the results into containers
(lines 120-127). `order` is the scan order. -/
def analyze (d : DataMap) (o : Pt → Oracle) (order : List Pt) : Except PyErr Discovered := do
  let fs ← analyzeLoop d o order []
  pure { summits := fs.filter fun f => f.kind = .summit
         saddles := fs.filter fun f => f.kind = .saddle
         runoffs := fs.filter fun f => f.kind = .runoff }

/-- One corner runoff (feature_discovery.py:447-458): the default constructor leaves
multipoint and high neighbourhoods empty. -/
def cornerRunoff (d : DataMap) (loc : Rat × Rat) (x y : Int) : Except PyErr Feature :=
  match d.get x y with
  | none => .error .indexError
  | some e => .ok (mkRunoff loc e none [⟨x, y, e⟩] [])

/-- `make_corner_runoffs`, feature_discovery.py:436-460. -/
def makeCornerRunoffs (d : DataMap) : Except PyErr (List Feature) := do
  let rll ← cornerRunoff d d.lowerLeft d.maxX 0
  let rlr ← cornerRunoff d d.lowerRight d.maxX d.maxY
  let rul ← cornerRunoff d d.upperLeft 0 0
  let rur ← cornerRunoff d d.upperRight 0 d.maxY
  pure [rll, rlr, rul, rur]

end PyProm
