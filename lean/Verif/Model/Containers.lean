import Verif.Model.Equality

/-
Model of /repo/pyprom/lib/containers/spot_elevation.py and gridpoint.py: extremes, filters, lookup
by id and pseudo summits
-/
namespace PyProm

/-! ### Extremes -/

/-- Loop of `lowest` (containers/spot_elevation.py:58-67, gridpoint.py:80-89) with `better a b` for
`a < b`, and of `highest` (78-87, 97-106) with `better a b` for `a > b`. -/
def extremeLoop {α} (elev : α → Rat) (better : Rat → Rat → Bool) : List α → Rat × List α → Rat × List α
  | [], a => a
  | p :: ps, (h, acc) =>
    if better (elev p) h then extremeLoop elev better ps (elev p, [p])
    else if elev p = h then extremeLoop elev better ps (h, acc ++ [p])
    else extremeLoop elev better ps (h, acc)

/-- `lowest`, containers/spot_elevation.py:49-67 and gridpoint.py:73-89. -/
def lowestOf {α} (elev : α → Rat) (ps : List α) : Except PyErr (List α) :=
  match ps with
  | [] => .error .indexError
  | p :: _ => .ok (extremeLoop elev (fun a b => decide (a < b)) ps (elev p, [])).2

/-- `highest`, containers/spot_elevation.py:69-87 and gridpoint.py:91-106. -/
def highestOf {α} (elev : α → Rat) (ps : List α) : Except PyErr (List α) :=
  match ps with
  | [] => .error .indexError
  | p :: _ => .ok (extremeLoop elev (fun a b => decide (a > b)) ps (elev p, [])).2

/-! ### SpotElevationContainer -/

/-- `points` and `fast_lookup`, containers/spot_elevation.py:34-47. -/
structure SContainer where
  points : List Spot
  lookup : Nat → Option Spot

/-- `fast_lookup[s.id] = s`. -/
def lookupPut (f : Nat → Option Spot) (s : Spot) : Nat → Option Spot := fun i => if i = s.id then some s else f i

/-- `SpotElevationContainer.__init__`, containers/spot_elevation.py:36-47. -/
def SContainer.mk' (l : List Spot) : SContainer where
  points := l
  lookup := l.foldl lookupPut fun _ => none

/-- `append`, containers/spot_elevation.py:238-251; the overriding versions in summits.py, saddles.py
and runoffs.py do the same. -/
def SContainer.append (c : SContainer) (s : Spot) : SContainer where
  points := c.points ++ [s]
  lookup := lookupPut c.lookup s

/-- `extend`, containers/spot_elevation.py:253-268, with a list as argument. -/
def SContainer.extend (c : SContainer) (l : List Spot) : SContainer where
  points := c.points ++ l
  lookup := l.foldl lookupPut c.lookup

/-- Index of a Python list of length `n`. -/
def pyIndex (n : Nat) (i : Int) : Option Nat :=
  if 0 ≤ i ∧ i < n then some i.toNat
  else if i < 0 ∧ -(n : Int) ≤ i then some (i + n).toNat
  else none

/-- `__setitem__`, containers/spot_elevation.py:301-313. -/
def SContainer.setItem (c : SContainer) (i : Int) (s : Spot) : Except PyErr SContainer :=
  match pyIndex c.points.length i with
  | none => .error .indexError
  | some k => .ok { c with points := c.points.set k s }

/-- `__getitem__`, containers/spot_elevation.py:315-323. -/
def SContainer.getItem (c : SContainer) (i : Int) : Except PyErr Spot :=
  match (pyIndex c.points.length i).bind fun k => c.points[k]? with
  | none => .error .indexError
  | some s => .ok s

/-- `by_id`, containers/spot_elevation.py:89-96. -/
def SContainer.byId (c : SContainer) (i : Nat) : Except PyErr Spot :=
  match c.lookup i with
  | none => .error .keyError
  | some s => .ok s

/-- `index`, containers/spot_elevation.py:270-285: position of the first equal member. -/
def SContainer.index (c : SContainer) (s : Spot) : Option Nat := c.points.findIdx? fun x => x.eq s

/-- A modifying call of the public interface. -/
inductive COp
  | append (s : Spot)
  | extend (l : List Spot)
  | setItem (i : Int) (s : Spot)
deriving Repr

/-- One call. -/
def SContainer.apply (c : SContainer) : COp → Except PyErr SContainer
  | .append s => .ok (c.append s)
  | .extend l => .ok (c.extend l)
  | .setItem i s => c.setItem i s

/-- `METERS_PER_FOOT`, constants.py:13. -/
def metersPerFoot : Rat := 3048 / 10000

/-- `FEET_PER_MILE`, constants.py:19. -/
def feetPerMile : Rat := 5280

/-- `SpotElevation.feet`, locations/spot_elevation.py:126-135, with `FEET_PER_METER`, constants.py:16. -/
def Spot.feet (s : Spot) : Rat := s.e * (1 / metersPerFoot)

/-- Unit table of `radius`, containers/spot_elevation.py:117-129, after `unit.lower()`. -/
def unitFactor (value : Rat) (unit : String) : Except PyErr Rat :=
  if unit ∈ ["meters", "meter", "m"] then .ok value
  else if unit ∈ ["kilometers", "kilometer", "km"] then .ok (value * 1000)
  else if unit ∈ ["feet", "foot", "ft"] then .ok (metersPerFoot * value)
  else if unit ∈ ["miles", "mile", "mi"] then .ok (metersPerFoot * value * feetPerMile)
  else .error .valueError

/-- `radius`, containers/spot_elevation.py:98-139. `geo` is geopy's distance in metres between two
coordinates, `lower` is `str.lower`. -/
def SContainer.radius (geo : Rat → Rat → Rat → Rat → Rat) (lower : String → String) (c : SContainer)
    (lat long value : Rat) (unit : String) : Except PyErr SContainer := do
  let dist ← unitFactor value (lower unit)
  pure (.mk' (c.points.filter fun p => decide (geo lat long p.lat p.lon < dist)))

/-- `rectangle`, containers/spot_elevation.py:141-169. -/
def SContainer.rectangle (c : SContainer) (lat1 long1 lat2 long2 : Rat) : SContainer :=
  let upperlat := max lat1 lat2
  let upperlong := max long1 long2
  let lowerlat := min lat1 lat2
  let lowerlong := min long1 long2
  .mk' (c.points.filter fun x =>
    decide (lowerlat < x.lat) && decide (x.lat < upperlat) &&
    (decide (lowerlong < x.lon) && decide (x.lon < upperlong)))

/-- `elevationRange`, containers/spot_elevation.py:171-187. -/
def SContainer.elevationRange (c : SContainer) (lower upper : Rat) : SContainer :=
  .mk' (c.points.filter fun x => decide (x.feet > lower) && decide (x.feet < upper))

/-- `elevationRangeMetric`, containers/spot_elevation.py:189-205. -/
def SContainer.elevationRangeMetric (c : SContainer) (lower upper : Rat) : SContainer :=
  .mk' (c.points.filter fun x => decide (upper > x.e) && decide (x.e > lower))

/-! ### GridPointContainer -/

/-- `genFastLookup`, containers/gridpoint.py:107-114. -/
def gpLookup (points : List P3) : Pt → Option P3 :=
  points.foldl (fun f p => fun q => if q = p.xy then some p else f q) fun _ => none

/-- `iterNeighborFull`, containers/gridpoint.py:116-136. -/
def gpNeighbors (lk : Pt → Option P3) (p : P3) : List P3 :=
  fullShift.filterMap fun s => lk (p.x + s.1, p.y + s.2)

/-- Neighbour loop of the inner `equalHeightBlob`, containers/gridpoint.py:195-206; `none` is the early
`return None`. The stack has its top at the head. -/
def psVisit (explored : List Pt) (g : P3) : List P3 → List P3 → Option (List P3)
  | [], st => some st
  | n :: ns, st =>
    if n.xy ∈ explored then psVisit explored g ns st
    else
      let st := if n.e = g.e then n :: st else st
      if n.e > g.e then none else psVisit explored g ns st

/-- `while toBeAnalyzed`, containers/gridpoint.py:189-208. Returns `exploredGridPoints` and the
result. -/
def psBlob (lk : Pt → Option P3) : Nat → List Pt → List P3 → List P3 →
    Except PyErr (List Pt × Option (List P3))
  | 0, _, _, _ => .error .fuel
  | n + 1, explored, stack, analyzed =>
    match stack with
    | [] => .ok (explored, some analyzed)
    | g :: rest =>
      let explored := g.xy :: explored
      match psVisit explored g (gpNeighbors lk g) rest with
      | none => .ok (explored, none)
      | some st => psBlob lk n explored st (analyzed ++ [g])

/-- How the neighbour loop of the main loop ends: blob found, higher neighbour, or neither. -/
inductive PsEnd
  | found (l : List P3)
  | higher
  | open
deriving DecidableEq, Repr

/-- Neighbour loop of the main loop, containers/gridpoint.py:218-229. -/
def psNbrs (lk : Pt → Option P3) (fuel : Nat) (p : P3) : List P3 → List Pt →
    Except PyErr (List Pt × PsEnd)
  | [], explored => .ok (explored, .open)
  | n :: ns, explored =>
    if n.e = p.e then
      match psBlob lk fuel explored [p] [] with
      | .error e => .error e
      | .ok (explored, some (a :: l)) => .ok (explored, .found (a :: l))
      | .ok (explored, _) => if n.e > p.e then .ok (explored, .higher) else psNbrs lk fuel p ns explored
    else if n.e > p.e then .ok (explored, .higher)
    else psNbrs lk fuel p ns explored

/-- Main loop of `findPseudoSummits`, containers/gridpoint.py:211-232. -/
def psMain (lk : Pt → Option P3) (fuel : Nat) : List P3 → List Pt → List P3 → Except PyErr (List P3)
  | [], _, out => .ok out
  | p :: ps, explored, out =>
    if p.xy ∈ explored then psMain lk fuel ps explored out
    else
      match psNbrs lk fuel p (gpNeighbors lk p) (p.xy :: explored) with
      | .error e => .error e
      | .ok (explored, .found l) => psMain lk fuel ps explored (out ++ l)
      | .ok (explored, .higher) => psMain lk fuel ps explored out
      | .ok (explored, .open) => psMain lk fuel ps explored (out ++ [p])

/-- `findPseudoSummits`, containers/gridpoint.py:159-233, on a container whose lookup table was
generated from its points. -/
def findPseudoSummits (points : List P3) : Except PyErr (List P3) :=
  psMain (gpLookup points) (17 * points.length + 10) points [] []

end PyProm
