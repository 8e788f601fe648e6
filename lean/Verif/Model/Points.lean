import Verif.Model.Containers
import Verif.Model.Coords
import Verif.Model.Closest
import Verif.Model.Serial

/-
Model of the remaining public interface of point collections: neighbour iteration
(/repo/pyprom/lib/containers/base_self_iterable.py, gridpoint.py), growing them (perimeter.py,
multipoint.py, gridpoint.py, base_gridpoint.py), the typed feature containers (spot_elevation.py,
summits.py, saddles.py, runoffs.py), the views of a SummitDomain (summit_domain.py), conversions between
GridPoint and SpotElevation, and reading and writing DomainMap files (domain_map.py).
-/
namespace PyProm

/-! ### Neighbours inside a Perimeter -/

/-- `BaseSelfIterable.__init__` with a list only, base_self_iterable.py:50-68: an empty list leaves the
index unset. -/
def Perim.ofList (l : List P3) (mapEdge : Bool) (mapEdgePoints : Option (List P3)) : Perim where
  points := l
  index := if l.isEmpty then none else some (l.foldl indexPut [])
  mapEdge := mapEdge
  mapEdgePoints := mapEdgePoints

/-- Loop over a shift table in base_self_iterable.py:80-87, 99-106 and 118-125. The index is a
`defaultdict(dict)` in all constructors and callers, so a missing row is empty; reading an index that was
never set is an AttributeError. The rows added by reading are not modelled. -/
def Perim.nbrs (s : Perim) (shifts : List Pt) (p : Pt) : Except PyErr (List P3) :=
  match s.index with
  | none => .error .attributeError
  | some idx => .ok (shifts.filterMap fun t => (List.lookup (p.1 + t.1) idx).bind fun r => List.lookup (p.2 + t.2) r)

/-- `iterNeighborFull`, base_self_iterable.py:70-87. -/
def Perim.nbrsFull (s : Perim) (p : Pt) : Except PyErr (List P3) := s.nbrs fullShift p

/-- `iterNeighborOrthogonal`, base_self_iterable.py:89-106. -/
def Perim.nbrsOrthogonal (s : Perim) (p : Pt) : Except PyErr (List P3) := s.nbrs orthogonalShift p

/-- `iterNeighborOrthogonalDiagonal`, base_self_iterable.py:108-125: the loop is over
`ORTHOGONAL_SHIFT_LIST`. -/
def Perim.nbrsOrthogonalDiagonal (s : Perim) (p : Pt) : Except PyErr (List P3) := s.nbrs orthogonalShift p

/-! ### What may be put into a MultiPoint or Perimeter -/

/-- What a caller may pass as a point: a tuple, a BaseGridPoint, a GridPoint, or something else. -/
inductive PyPoint
  | tuple (l : List Rat)
  | base (x y : Int)
  | grid (p : P3)
  | other
deriving DecidableEq, Repr

/-- `MultiPoint._check_and_return_incoming_point_type`, multipoint.py:253-273. GridPoint is a subclass of
BaseGridPoint; its `to_tuple` has three entries. The plain `Exception` of the code is `valueError`. -/
def multiIncoming : PyPoint → Except PyErr (List Rat)
  | .base x y => check [x, y]
  | .grid p => check [p.x, p.y, p.e]
  | .tuple l => check l
  | .other => .error .typeError
where
  /-- The test of the length. -/
  check (l : List Rat) : Except PyErr (List Rat) := if l.length ≠ 2 then .error .valueError else .ok l

/-- `Perimeter._check_and_return_incoming_point_type`, perimeter.py:215-235. -/
def perimIncoming : PyPoint → Except PyErr (List Rat)
  | .grid p => check [p.x, p.y, p.e]
  | .tuple l => check l
  | .base _ _ => .error .typeError
  | .other => .error .typeError
where
  /-- The test of the length. -/
  check (l : List Rat) : Except PyErr (List Rat) := if l.length ≠ 3 then .error .valueError else .ok l

/-- `MultiPoint.append`, multipoint.py:125-136, and `Perimeter.append`, perimeter.py:130-140, on the list
of points. -/
def appendPoint (incoming : PyPoint → Except PyErr (List Rat)) (l : List (List Rat)) (p : PyPoint) :
    Except PyErr (List (List Rat)) := do
  let i ← incoming p
  pure (l ++ [i])

/-- `MultiPoint.__setitem__`, multipoint.py:188-198, and `Perimeter.__setitem__`, perimeter.py:149-159. -/
def setPoint (incoming : PyPoint → Except PyErr (List Rat)) (l : List (List Rat)) (k : Int) (p : PyPoint) :
    Except PyErr (List (List Rat)) := do
  let i ← incoming p
  match pyIndex l.length k with
  | none => .error .indexError
  | some n => .ok (l.set n i)

/-- `Perimeter.append` of a 3-tuple or GridPoint: the index is not touched (perimeter.py:139-140). -/
def Perim.append (s : Perim) (p : P3) : Perim := { s with points := s.points ++ [p] }

/-! ### GridPointContainer -/

/-- `points` and `fastLookup` of a GridPointContainer, containers/gridpoint.py:29-46. -/
structure GPC where
  points : List P3
  lookup : Pt → Option P3

/-- `genFastLookup`, containers/gridpoint.py:107-114: writes over the existing table. -/
def GPC.gen (c : GPC) : GPC :=
  { c with lookup := c.points.foldl (fun f p => fun q => if q = p.xy then some p else f q) c.lookup }

/-- `GridPointContainer.__init__`, containers/gridpoint.py:31-46, with GridPoints only. -/
def GPC.mk' (l : List P3) : GPC := GPC.gen ⟨l, fun _ => none⟩

/-- `append`, containers/gridpoint.py:267-279. -/
def GPC.append (c : GPC) (p : P3) : GPC := GPC.gen ⟨c.points ++ [p], c.lookup⟩

/-- `__setitem__`, inherited: containers/base_gridpoint.py:83-95. -/
def GPC.setItem (c : GPC) (i : Int) (p : P3) : Except PyErr GPC :=
  match pyIndex c.points.length i with
  | none => .error .indexError
  | some k => .ok { c with points := c.points.set k p }

/-- Any reordering done by `sort`, containers/base_gridpoint.py:50-56, with the sorted list given. -/
def GPC.sorted (c : GPC) (l : List P3) : GPC := { c with points := l }

/-- `iterNeighborFull` and `iterNeighborOrthogonal`, containers/gridpoint.py:116-157. The table is
generated first if it has no rows. -/
def GPC.nbrs (c : GPC) (shifts : List Pt) (p : Pt) : List P3 :=
  shifts.filterMap fun t => c.lookup (p.1 + t.1, p.2 + t.2)

/-- `findClosestPoints`, containers/gridpoint.py:235-265; `hyp` is `BaseGridPoint.distance`,
base_gridpoint.py:79-93. -/
def GPC.findClosest (hyp : Pt → Pt → Rat) (c o : GPC) : Option P3 × Option P3 × Rat :=
  c.points.foldl (fun s m => o.points.foldl (fun s t =>
    if hyp m.xy t.xy < s.2.2 then (some m, some t, hyp m.xy t.xy) else s) s) (none, none, maxsize)

/-! ### Typed feature containers -/

/-- Classes of location objects: SpotElevation and its subclasses Summit, Saddle and Runoff (a subclass of
Saddle), and anything else. -/
inductive Cls
  | spot | summit | saddle | runoff | other
deriving DecidableEq, Repr

/-- The chain of classes an object of that class is an instance of. -/
def Cls.mro : Cls → List Cls
  | .spot => [.spot]
  | .summit => [.summit, .spot]
  | .saddle => [.saddle, .spot]
  | .runoff => [.runoff, .saddle, .spot]
  | .other => [.other]

/-- `isinstance`. -/
def Cls.isa (c d : Cls) : Bool := decide (d ∈ c.mro)

/-- The four container classes. -/
inductive CCls
  | spots | summits | saddles | runoffs
deriving DecidableEq, Repr

/-- What the constructor demands: nothing (containers/spot_elevation.py:36-47), Summits (summits.py:26-38),
Saddles (saddles.py:31-42), Runoffs (runoffs.py:28-39). `other` stands for an object of another class that has an
`id`; the plain container reads it. -/
def CCls.initAccepts : CCls → Cls → Bool
  | .spots, _ => true
  | .summits, c => c.isa .summit
  | .saddles, c => c.isa .saddle
  | .runoffs, c => c.isa .runoff && c.isa .saddle

/-- What `append`, `extend` and `__setitem__` demand (`isSpotElevation`, `isSummit`, `isSaddle`):
containers/spot_elevation.py:238-268, 301-313; summits.py:49-80, 119-130; saddles.py:127-160, 225-234;
RunoffsContainer has no own version and takes those of SaddlesContainer. -/
def CCls.growAccepts : CCls → Cls → Bool
  | .spots, c => c.isa .spot
  | .summits, c => c.isa .summit
  | .saddles, c => c.isa .saddle
  | .runoffs, c => c.isa .saddle

/-- A location object: its class and data. -/
structure TObj where
  cls : Cls
  s : Spot
deriving DecidableEq, Repr

/-- A container of a class with its members. The table of ids is that of `SContainer`. -/
structure TContainer where
  cls : CCls
  items : List TObj
deriving DecidableEq, Repr

/-- The constructor of the class. -/
def TContainer.new (c : CCls) (l : List TObj) : Except PyErr TContainer :=
  if (l.filter fun o => !c.initAccepts o.cls).length ≠ 0 then .error .typeError else .ok ⟨c, l⟩

/-- A modifying call with any argument. -/
inductive TOp
  | append (o : TObj)
  | extend (l : List TObj)
  | setItem (i : Int) (o : TObj)
deriving Repr

/-- One call; on an exception the container keeps its members. -/
def TContainer.call (c : TContainer) : TOp → Except PyErr TContainer
  | .append o => if c.cls.growAccepts o.cls then .ok { c with items := c.items ++ [o] } else .error .typeError
  | .extend l =>
    if l.all fun o => c.cls.growAccepts o.cls then .ok { c with items := c.items ++ l } else .error .typeError
  | .setItem i o =>
    if c.cls.growAccepts o.cls then
      match pyIndex c.items.length i with
      | none => .error .indexError
      | some k => .ok { c with items := c.items.set k o }
    else .error .typeError

/-- The state after a call, whether it raised or not. -/
def TContainer.after (c : TContainer) (op : TOp) : TContainer := (c.call op).toOption.getD c

/-- The range filters (containers/spot_elevation.py:98-205) end with `self.__class__([x for x in … if …])`. -/
def TContainer.select (c : TContainer) (keep : Spot → Bool) : Except PyErr TContainer :=
  TContainer.new c.cls (c.items.filter fun o => keep o.s)

/-! ### Views of a SummitDomain -/

/-- `iterateBaseCoordinate`, `baseCoordinate` and `members`, summit_domain.py:61-70, 109-117, 155-162:
latitude and longitude. Only the first two entries of the points are read, here and below. -/
def domainBaseCoordinates (pts : List Pt) : List (Rat × Rat) := pts.map fun p => ((p.1 : Rat), (p.2 : Rat))

/-- `iterateSpotElevation` and `spotElevation`, summit_domain.py:119-129, 164-171: latitude, longitude,
elevation; `none` is an IndexError. -/
def domainSpotElevations (d : DataMap) (pts : List Pt) : Option (List (Rat × Rat × Rat)) :=
  pts.mapM fun p => (d.get p.1 p.2).map fun e => ((d.xyToLatLon p.1 p.2).1, (d.xyToLatLon p.1 p.2).2, e)

/-- `iterateBaseGridPoint` and `baseGridPoint`, summit_domain.py:131-140, 173-180; `none` is a
ZeroDivisionError. -/
def domainBaseGridPoints (d : DataMap) (pts : List Pt) : Option (List Pt) :=
  pts.mapM fun p => d.latLongToXY p.1 p.2

/-- `iterateGridPoint` and `gridPoint`, summit_domain.py:142-153, 182-188. -/
def domainGridPoints (d : DataMap) (pts : List Pt) : Option (List P3) :=
  pts.mapM fun p => (d.get p.1 p.2).map fun e => ⟨p.1, p.2, e⟩

/-! ### Conversions of points -/

/-- `GridPoint.toSpotElevation`, gridpoint.py:76-88. -/
def P3.toSpot (d : DataMap) (p : P3) : Rat × Rat × Rat :=
  let ll := d.xyToLatLon p.x p.y
  (ll.1, ll.2, p.e)

/-- `SpotElevation.toGridPoint` and `toXYTuple`, locations/spot_elevation.py:96-125. -/
def toGridPoint (d : DataMap) (s : Rat × Rat × Rat) : Option P3 :=
  (d.latLongToXY s.1 s.2.1).map fun q => ⟨q.1, q.2, s.2.2⟩

/-- `MultiPoint.pointsLatLong`, multipoint.py:110-123. -/
def multiLatLong (d : DataMap) (pts : List MPt) : List (Rat × Rat) := pts.map fun m => d.xyToLatLon m.x m.y

/-- `MultiPoint.points_with_elevation`, multipoint.py:173-179. -/
def multiWithElevation (e : Rat) (pts : List MPt) : List P3 := pts.map fun m => ⟨m.x, m.y, e⟩

/-! ### Linkers -/

/-- `Linker.prom`, containers/linker.py:53-60. -/
def linkProm (saddle summit : Spot) : Rat := summit.e - saddle.e

/-- `Linker.prom_ft`, containers/linker.py:63-70. -/
def linkPromFt (saddle summit : Spot) : Rat := summit.feet - saddle.feet

/-- `Linker.__eq__`, containers/linker.py:253-264, on summit and saddle. -/
def linkObjEq (a b : Spot × Spot) : Bool := pyListEq Spot.eq [a.1, a.2] [b.1, b.2]

/-- `Linker.__ne__`, containers/linker.py:266-277: `!=` of two lists asks `==` of the members. -/
def linkObjNe (a b : Spot × Spot) : Bool := !pyListEq Spot.eq [a.1, a.2] [b.1, b.2]

/-- `Linker.__hash__`, containers/linker.py:244-251. `hpn` are the high neighbourhoods of the saddle;
`hint` is the hash of an integer. -/
def linkObjHash (hash pair : Int × Int → Int) (nil : Int) (hash3 : Int × Int × Rat → Int) (hint : Int → Int)
    (a : Spot × Spot) (hpn : List (List P3)) : Except PyErr Int := do
  let sa ← saddleHash hash pair nil a.2.lat a.2.lon hpn
  pure (hint (sa + seHash hash3 a.1.lat a.1.lon a.1.e))

/-- A SummitDomain as `==` sees it. -/
structure DomObj where
  summit : Spot
  saddles : List Spot
  points : List P3

/-- `SummitDomain.__eq__`, summit_domain.py:246-249. -/
def DomObj.eq (a b : DomObj) : Bool :=
  a.summit.eq b.summit && pyListEq Spot.eq (pySorted Spot.lt a.saddles) (pySorted Spot.lt b.saddles) &&
    perimEq a.points b.points

/-- `SummitDomain.__hash__`, summit_domain.py:251-256. -/
def DomObj.hash (hash3 : Int × Int × Rat → Int) (a : DomObj) : Int := seHash hash3 a.summit.lat a.summit.lon a.summit.e

/-! ### DomainMap files -/

/-- Files by their path. -/
abbrev Files := String → Option (List UInt8)

/-- `DOMAIN_EXTENSION`, constants.py:9. -/
def domainExtension : String := ".dom"

/-- `name.endswith(ext)`. -/
def pyEndsWith (name ext : String) : Bool := ext.toList.isSuffixOf name.toList

/-- `DomainMap.write`, domain_map.py:153-170. `expand` is `os.path.expanduser`, `zip` what
`gzip.open(…, 'wb')` writes, `data` the result of `to_cbor`. -/
def writeDomain (expand : String → String) (zip : List UInt8 → List UInt8) (fs : Files) (name : String)
    (data : List UInt8) : Files :=
  let name := expand name
  let name := if !pyEndsWith name domainExtension then name ++ domainExtension else name
  fun f => if f = name then some (zip data) else fs f

/-- `DomainMap.read`, domain_map.py:134-151, up to `from_cbor`; `none` is FileNotFoundError or a broken
file. -/
def readDomain (expand : String → String) (unzip : List UInt8 → Option (List UInt8)) (fs : Files)
    (name : String) : Option (List UInt8) :=
  let name := expand name
  (fs name).bind unzip

/-- `seconds_to_arcseconds`, util.py:101-108. -/
def secondsToArc (s : Rat) : Rat := s * 3600

/-- `arcseconds_to_seconds`, util.py:111-118. -/
def arcToSeconds (a : Rat) : Rat := a / 3600

end PyProm
