import Verif.Model.Equality

/-
Model of saving and loading: `to_dict` and `from_dict` of /repo/pyprom/lib/locations/*.py,
lib/containers/{multipoint,perimeter,linker,saddles,runoffs,summits,summit_domain}.py and of
domain_map.py, and of the fingerprint in lib/datamaps/datamap.py
-/
namespace PyProm

/-! ### Values -/

/-- The values a saved file is made of. Ids are non-empty strings that are only compared; the model
numbers them. -/
inductive PyVal
  | none
  | bool (b : Bool)
  | int (i : Int)
  | num (r : Rat)
  | id (n : Nat)
  | list (l : List PyVal)
  | tuple (l : List PyVal)
  | dict (l : List (String × PyVal))

mutual
/-- Assumed behaviour of `cbor.loads(cbor.dumps(v))`: tuples come back as lists, everything else as it
was (domain_map.py:172-195). -/
def PyVal.cbor : PyVal → PyVal
  | .none => .none
  | .bool b => .bool b
  | .int i => .int i
  | .num r => .num r
  | .id n => .id n
  | .list l => .list (cborL l)
  | .tuple l => .list (cborL l)
  | .dict l => .dict (cborD l)
/-- The same for the members of a list. -/
def cborL : List PyVal → List PyVal
  | [] => []
  | v :: l => v.cbor :: cborL l
/-- The same for the entries of a dict. -/
def cborD : List (String × PyVal) → List (String × PyVal)
  | [] => []
  | e :: l => cborE e :: cborD l
/-- The same for one entry. -/
def cborE : String × PyVal → String × PyVal
  | (k, v) => (k, v.cbor)
end

/-- `v[k]` for a string `k`. -/
def PyVal.get (v : PyVal) (k : String) : Except PyErr PyVal :=
  match v with
  | .dict l =>
    match l.lookup k with
    | some x => .ok x
    | Option.none => .error .keyError
  | _ => .error .typeError

/-- `v.get(k, None)`. -/
def PyVal.find (v : PyVal) (k : String) : Except PyErr (Option PyVal) :=
  match v with
  | .dict l => .ok (l.lookup k)
  | _ => .error .attributeError

/-- Iteration over a list or tuple. -/
def PyVal.seq : PyVal → Except PyErr (List PyVal)
  | .list l => .ok l
  | .tuple l => .ok l
  | _ => .error .typeError

/-- An attribute that is a number. Python stores whatever it finds; the model stops with TypeError at a
value of another type, which saved files do not contain. The same holds for the next three. -/
def PyVal.toNum : PyVal → Except PyErr Rat
  | .num r => .ok r
  | _ => .error .typeError

/-- An integer. -/
def PyVal.toInt : PyVal → Except PyErr Int
  | .int i => .ok i
  | _ => .error .typeError

/-- A Boolean. -/
def PyVal.toBool : PyVal → Except PyErr Bool
  | .bool b => .ok b
  | _ => .error .typeError

/-- An id. -/
def PyVal.toId : PyVal → Except PyErr Nat
  | .id n => .ok n
  | _ => .error .typeError

/-! ### Points -/

/-- The tuple `(x, y, elevation)`. -/
def P3.toVal (p : P3) : PyVal := .tuple [.int p.x, .int p.y, .num p.e]

/-- An entry of `MultiPoint.points` or `SummitDomain.points`. -/
def MPt.toVal (p : MPt) : PyVal :=
  match p.e with
  | none => .tuple [.int p.x, .int p.y]
  | some e => .tuple [.int p.x, .int p.y, .num e]

/-- `tuple(pt)` of a point with elevation. -/
def P3.ofVal (v : PyVal) : Except PyErr P3 := do
  match ← v.seq with
  | [x, y, e] => do
    let x ← x.toInt
    let y ← y.toInt
    let e ← e.toNum
    pure ⟨x, y, e⟩
  | _ => .error .indexError

/-- `tuple(pt)` of a point with or without elevation. -/
def MPt.ofVal (v : PyVal) : Except PyErr MPt := do
  match ← v.seq with
  | [x, y] => do
    let x ← x.toInt
    let y ← y.toInt
    pure ⟨x, y, none⟩
  | [x, y, e] => do
    let x ← x.toInt
    let y ← y.toInt
    let e ← e.toNum
    pure ⟨x, y, some e⟩
  | _ => .error .indexError

/-- `(pt[0], pt[1])`. -/
def MPt.ofVal2 (v : PyVal) : Except PyErr MPt := do
  match ← v.seq with
  | x :: y :: _ => do
    let x ← x.toInt
    let y ← y.toInt
    pure ⟨x, y, none⟩
  | _ => .error .indexError

/-- A list of values. -/
def PyVal.ofList {α} (f : α → PyVal) (l : List α) : PyVal := .list (l.map f)

/-- `[f(x) for x in v]`. -/
def PyVal.mapSeq {α} (v : PyVal) (f : PyVal → Except PyErr α) : Except PyErr (List α) := do
  let l ← v.seq
  l.mapM f

/-- `BaseGridPoint.to_dict`, base_gridpoint.py:58-66. -/
def bgpToDict (p : Pt) : PyVal := .dict [("x", .int p.1), ("y", .int p.2)]

/-- `BaseGridPoint.from_dict`, base_gridpoint.py:36-46. -/
def bgpFromDict (v : PyVal) : Except PyErr Pt := do
  let x ← (← v.get "x").toInt
  let y ← (← v.get "y").toInt
  pure (x, y)

/-- `GridPoint.to_dict`, gridpoint.py:63-69. -/
def gpToDict (p : P3) : PyVal := .dict [("x", .int p.x), ("y", .int p.y), ("elevation", .num p.e)]

/-- `GridPoint.from_dict`, gridpoint.py:40-51. -/
def gpFromDict (v : PyVal) : Except PyErr P3 := do
  let x ← (← v.get "x").toInt
  let y ← (← v.get "y").toInt
  let e ← (← v.get "elevation").toNum
  pure ⟨x, y, e⟩

/-- `GridPointContainer.to_dict`, containers/gridpoint.py:48-56. -/
def gpcToDict (l : List P3) : PyVal := .dict [("points", .ofList gpToDict l)]

/-- `GridPointContainer.from_dict`, containers/gridpoint.py:58-71. -/
def gpcFromDict (v : PyVal) : Except PyErr (List P3) := do
  (← v.get "points").mapSeq gpFromDict

/-- A SpotElevation (spot_elevation.py:29-58) whose edge points are BaseGridPoints. -/
structure SpotObj where
  lat : Rat
  lon : Rat
  ele : Rat
  edge : Bool
  edgePoints : List Pt
  id : Nat
deriving DecidableEq, Repr

/-- `SpotElevation.to_dict`, spot_elevation.py:60-73. -/
def SpotObj.toDict (s : SpotObj) : PyVal :=
  .dict [("latitude", .num s.lat), ("longitude", .num s.lon), ("elevation", .num s.ele),
    ("edge", .bool s.edge), ("edgepoints", .ofList bgpToDict s.edgePoints), ("id", .id s.id)]

/-- `SpotElevation.from_dict`, spot_elevation.py:75-94. -/
def SpotObj.fromDict (v : PyVal) : Except PyErr SpotObj := do
  let lat ← (← v.get "lat").toNum
  let lon ← (← v.get "lon").toNum
  let ele ← (← v.get "ele").toNum
  let edge ← (← v.get "edge").toBool
  let pts ← (← v.get "edgepoints").mapSeq bgpFromDict
  let id ← (← v.get "id").toId
  pure { lat, lon, ele, edge, edgePoints := pts, id }

/-! ### Perimeter and MultiPoint -/

/-- A dict with integer keys in order of insertion. -/
abbrev IntDict (β : Type) := List (Int × β)

/-- `d[k] = g(d.get(k))`. -/
def IntDict.upd {β} (k : Int) (g : Option β → β) : IntDict β → IntDict β
  | [] => [(k, g none)]
  | (k', b) :: l => if k' = k then (k', g (some b)) :: l else (k', b) :: IntDict.upd k g l

/-- `index[x][y] = p` on a `defaultdict(dict)`. -/
def indexPut (idx : IntDict (IntDict P3)) (p : P3) : IntDict (IntDict P3) :=
  IntDict.upd p.x (fun o => IntDict.upd p.y (fun _ => p) (o.getD [])) idx

/-- A Perimeter (perimeter.py:34-62, base_self_iterable.py:42-62). `index = none` is an attribute that
was never set. -/
structure Perim where
  points : List P3
  index : Option (IntDict (IntDict P3))
  mapEdge : Bool
  mapEdgePoints : Option (List P3)
deriving DecidableEq, Repr

/-- `BaseSelfIterable.__init__` with an index only, base_self_iterable.py:47-56. -/
def Perim.ofIndex (idx : IntDict (IntDict P3)) (mapEdge : Bool) (mapEdgePoints : Option (List P3)) : Perim where
  points := if idx.isEmpty then [] else idx.flatMap fun r => r.2.map (·.2)
  index := if idx.isEmpty then none else some idx
  mapEdge := mapEdge
  mapEdgePoints := mapEdgePoints

/-- `Perimeter.to_dict`, perimeter.py:64-75. -/
def Perim.toDict (p : Perim) : PyVal :=
  .dict [("points", .ofList P3.toVal p.points), ("mapEdge", .bool p.mapEdge),
    ("mapEdgePoints", match p.mapEdgePoints with
      | none => .none
      | some l => .ofList P3.toVal l)]

/-- `Perimeter.from_dict`, perimeter.py:77-101. -/
def Perim.fromDict (v : PyVal) : Except PyErr Perim := do
  let pts ← (← v.get "points").mapSeq P3.ofVal
  let idx := pts.foldl indexPut []
  let mapEdge ← (← v.get "mapEdge").toBool
  let mep ← (← v.get "mapEdgePoints").mapSeq P3.ofVal
  pure (.ofIndex idx mapEdge (some mep))

/-- A MultiPoint (multipoint.py:57-79) without its reference to the DataMap, which the caller of
`from_dict` supplies. -/
structure MultiObj where
  points : List MPt
  elevation : Rat
  perimeter : Option Perim
deriving DecidableEq, Repr

/-- `MultiPoint.to_dict`, multipoint.py:81-92. -/
def MultiObj.toDict (m : MultiObj) : Except PyErr PyVal :=
  match m.perimeter with
  | none => .error .attributeError
  | some p => .ok (.dict [("points", .ofList MPt.toVal m.points), ("perimeter", p.toDict),
      ("elevation", .num m.elevation)])

/-- `MultiPoint.from_dict`, multipoint.py:94-109. -/
def MultiObj.fromDict (v : PyVal) : Except PyErr MultiObj := do
  let pts ← (← v.get "points").mapSeq MPt.ofVal2
  let per ← Perim.fromDict (← v.get "perimeter")
  let ele ← (← v.get "elevation").toNum
  pure ⟨pts, ele, some per⟩

/-- The entry `multipoint`: absent when the attribute is falsy, i.e. the empty list or a MultiPoint
without points (summit.py:155-156, saddle.py:340-341). -/
def multiEntry (m : Option MultiObj) : Except PyErr (List (String × PyVal)) :=
  match m with
  | none => .ok []
  | some m =>
    if m.points.isEmpty then .ok []
    else do
      let v ← m.toDict
      pure [("multipoint", v)]

/-- Reading of the entry `multipoint` (summit.py:178-180, saddle.py:393-395). A dict with entries is
truthy. -/
def multiRead (v : PyVal) : Except PyErr (Option MultiObj) := do
  match ← v.find "multipoint" with
  | none => pure none
  | some w => do
    let m ← MultiObj.fromDict w
    pure (some m)

/-! ### Features -/

/-- A Summit object (summit.py:50-81). `links` are references to Linkers, `domain` to a
SummitDomain. -/
structure LSummit where
  id : Nat
  lat : Rat
  lon : Rat
  ele : Rat
  edge : Bool
  edgePoints : List P3
  mp : Option MultiObj
  disq : Bool
  links : List Nat
  domain : Option Nat
deriving DecidableEq, Repr

/-- A Saddle or Runoff object (saddle.py:63-120, runoff.py:29-53). `over` is `_disqualified`; `parent`,
`children`, `alts` are references to other such objects, `links` to Linkers. -/
structure LSaddle where
  runoff : Bool
  id : Nat
  lat : Rat
  lon : Rat
  ele : Rat
  edge : Bool
  edgePoints : List P3
  single : Bool
  basin : Bool
  over : Option Bool
  mp : Option MultiObj
  hpn : List (List P3)
  parent : Option Nat
  children : List Nat
  alts : List Nat
  links : List Nat
deriving DecidableEq, Repr

/-- A Linker (linker.py:26-50); `summit` and `saddle` are references. -/
structure LLinker where
  id : Nat
  summit : Nat
  saddle : Nat
  disq : Bool
deriving DecidableEq, Repr

/-- A SummitDomain (summit_domain.py:26-58). -/
structure LDomain where
  summit : Nat
  saddles : List Nat
  points : List MPt
deriving DecidableEq, Repr

/-- `Saddle.disqualified`, saddle.py:250-260. -/
def LSaddle.disqualified (s : LSaddle) : Bool :=
  match s.over with
  | some b => b
  | none => s.single || s.basin

/-- `SpotElevation.__eq__` of two saddles. -/
def LSaddle.eq (a b : LSaddle) : Bool := seEq a.lat a.lon a.ele b.lat b.lon b.ele

/-- `SpotElevation.__eq__` of two summits. -/
def LSummit.eq (a b : LSummit) : Bool := seEq a.lat a.lon a.ele b.lat b.lon b.ele

/-- `Summit.to_dict`, summit.py:138-160; `linkId` gives the ids of the Linkers. -/
def LSummit.toDict (linkId : Nat → Nat) (s : LSummit) : Except PyErr PyVal := do
  let mp ← multiEntry s.mp
  pure (.dict ([("lat", .num s.lat), ("lon", .num s.lon), ("ele", .num s.ele), ("edge", .bool s.edge),
    ("edgepoints", .ofList P3.toVal s.edgePoints), ("id", .id s.id)] ++ mp ++
    [("saddles", .ofList (fun i => .id (linkId i)) s.links)]))

/-- `Summit.from_dict`, summit.py:161-186. -/
def LSummit.fromDict (v : PyVal) : Except PyErr LSummit := do
  let lat ← (← v.get "lat").toNum
  let lon ← (← v.get "lon").toNum
  let ele ← (← v.get "ele").toNum
  let edge ← (← v.get "edge").toBool
  let pts ← (← v.get "edgepoints").mapSeq P3.ofVal
  let id ← (← v.get "id").toId
  let mp ← multiRead v
  pure { id, lat, lon, ele, edge, edgePoints := pts, mp, disq := false, links := [], domain := none }

/-- An entry of a dict that is only written if the flag is set. -/
def flagEntry (k : String) (b : Bool) : List (String × PyVal) := if b then [(k, .bool b)] else []

/-- `v.get(k, default)` for a flag. -/
def flagRead (v : PyVal) (k : String) : Except PyErr (Option Bool) := do
  match ← v.find k with
  | none => pure none
  | some w => do
    let b ← w.toBool
    pure (some b)

/-- The entries `Saddle.to_dict` writes, saddle.py:331-357, given those for the multipoint. -/
def LSaddle.entries (sadId linkId : Nat → Nat) (s : LSaddle) (mp : List (String × PyVal)) : List (String × PyVal) :=
  [("lat", .num s.lat), ("lon", .num s.lon), ("ele", .num s.ele), ("edge", .bool s.edge),
    ("edgepoints", .ofList P3.toVal s.edgePoints), ("id", .id s.id)] ++
  flagEntry "singleSummit" s.single ++ flagEntry "basinSaddle" s.basin ++
  flagEntry "disqualified" (s.over = some true) ++ mp ++
  (if s.hpn.isEmpty then [] else
    [("highPerimeterNeighborhoods", .ofList (PyVal.ofList P3.toVal) s.hpn)]) ++
  [("children", .ofList (fun i => .id (sadId i)) s.children),
   ("summits", .ofList (fun i => .id (linkId i)) s.links)] ++
  (match s.parent with
    | none => []
    | some p => [("parent", .id (sadId p))]) ++
  (if s.alts.isEmpty then [] else
    [("basinSaddleAlternatives", .ofList (fun i => .id (sadId i)) s.alts)])

/-- `Saddle.to_dict`, saddle.py:323-358, also that of Runoff. `sadId` gives the ids of saddles,
`linkId` those of Linkers. -/
def LSaddle.toDict (sadId linkId : Nat → Nat) (s : LSaddle) : Except PyErr PyVal := do
  let mp ← multiEntry s.mp
  pure (.dict (s.entries sadId linkId mp))

/-- The high perimeter neighbourhoods, saddle.py:397-401. -/
def hpnRead (v : PyVal) : Except PyErr (List (List P3)) := do
  match ← v.find "highPerimeterNeighborhoods" with
  | none => pure []
  | some w => w.mapSeq fun nb => nb.mapSeq P3.ofVal

/-- `Saddle.from_dict`, saddle.py:360-410; for a Runoff the constructor sets `edgeEffect`
(runoff.py:53). -/
def LSaddle.fromDict (runoff : Bool) (v : PyVal) : Except PyErr LSaddle := do
  let lat ← (← v.get "lat").toNum
  let lon ← (← v.get "lon").toNum
  let ele ← (← v.get "ele").toNum
  let edge ← (← v.get "edge").toBool
  let pts ← (← v.get "edgepoints").mapSeq P3.ofVal
  let id ← (← v.get "id").toId
  let single ← flagRead v "singleSummit"
  let basin ← flagRead v "basinSaddle"
  let over ← flagRead v "disqualified"
  let mp ← multiRead v
  let hpn ← hpnRead v
  pure { runoff, id, lat, lon, ele, edge := edge || runoff, edgePoints := pts,
         single := single.getD false, basin := basin.getD false, over, mp, hpn,
         parent := none, children := [], alts := [], links := [] }

/-! ### Containers -/

/-- `fast_lookup` of a container of the given objects (containers/spot_elevation.py:47): the position
of the last object with the id. -/
def lookupId {α} (idOf : α → Nat) (l : List α) (i : Nat) : Option Nat :=
  (List.range l.length).foldl (fun r k => if (l[k]?.map idOf) = some i then some k else r) none

/-- `sc.by_id(i)`. -/
def byId {α} (idOf : α → Nat) (l : List α) (i : Nat) : Except PyErr Nat :=
  match lookupId idOf l i with
  | none => .error .keyError
  | some k => .ok k

/-- A list of ids, or `None`. -/
def idsRead (v : PyVal) (k : String) : Except PyErr (List Nat) := do
  match ← v.find k with
  | none => pure []
  | some w => w.mapSeq PyVal.toId

/-- Body of the second loop of `SaddlesContainer.from_dict`, containers/saddles.py:181-197. -/
def restoreRefs (l : List LSaddle) (v : PyVal) : Except PyErr (List LSaddle) := do
  let sid ← (← v.get "id").toId
  let children ← idsRead v "children"
  let l ← children.foldlM (fun l c => do
    let k ← byId LSaddle.id l sid
    let c ← byId LSaddle.id l c
    pure (l.modify k fun s => { s with children := s.children ++ [c] })) l
  let l ← (match ← v.find "parent" with
    | none => pure l
    | some w => do
      let p ← w.toId
      let k ← byId LSaddle.id l sid
      let p ← byId LSaddle.id l p
      pure (l.modify k fun s => { s with parent := some p }) : Except PyErr (List LSaddle))
  let alts ← idsRead v "basinSaddleAlternatives"
  alts.foldlM (fun l a => do
    let k ← byId LSaddle.id l sid
    let a ← byId LSaddle.id l a
    pure (l.modify k fun s => { s with alts := s.alts ++ [a] })) l

/-- `SaddlesContainer.from_dict`, containers/saddles.py:163-198: the loaded objects; references are
positions in the list. -/
def saddlesFromDict (v : PyVal) : Except PyErr (List LSaddle) := do
  let ds ← (← v.get "saddles").seq
  let l ← ds.mapM (LSaddle.fromDict false)
  ds.foldlM restoreRefs l

/-- `RunoffsContainer.from_dict`, containers/runoffs.py:46-64. -/
def runoffsFromDict (v : PyVal) : Except PyErr (List LSaddle) := do
  (← v.get "runoffs").mapSeq (LSaddle.fromDict true)

/-- `SummitsContainer.from_dict`, containers/summits.py:88-107. -/
def summitsFromDict (v : PyVal) : Except PyErr (List LSummit) := do
  (← v.get "summits").mapSeq LSummit.fromDict

/-! ### Linkers and domains -/

/-- Everything that is loaded, as lists of objects; references are positions. `saddles` holds the
saddles and then the runoffs (domain_map.py:224-225). -/
structure LState where
  summits : List LSummit
  saddles : List LSaddle
  linkers : List LLinker
  domains : List LDomain
deriving DecidableEq, Repr

/-- `Linker.__eq__`, linker.py:253-264. -/
def LState.linkerEq (s : LState) (a b : LLinker) : Bool :=
  (match s.summits[a.summit]?, s.summits[b.summit]? with
    | some x, some y => x.eq y
    | _, _ => false) &&
  (match s.saddles[a.saddle]?, s.saddles[b.saddle]? with
    | some x, some y => x.eq y
    | _, _ => false)

/-- `self not in l` for the Linkers with the given positions. -/
def LState.notIn (s : LState) (a : LLinker) (l : List Nat) : Bool :=
  !l.any fun i => match s.linkers[i]? with
    | some b => s.linkerEq b a
    | none => false

/-- `Linker.to_dict`, linker.py:197-210. -/
def LLinker.toDict (sumId sadId : Nat → Nat) (l : LLinker) : PyVal :=
  .dict ([("id", .id l.id)] ++ flagEntry "disqualified" l.disq ++
    [("summit", .id (sumId l.summit)), ("saddle", .id (sadId l.saddle))])

/-- `Linker.from_dict`, linker.py:212-232, with `add_to_remote_saddle_and_summit`, linker.py:179-195. -/
def loadLinker (s : LState) (v : PyVal) : Except PyErr LState := do
  let k ← byId LSaddle.id s.saddles (← (← v.get "saddle").toId)
  let D ← byId LSummit.id s.summits (← (← v.get "summit").toId)
  let id ← (← v.get "id").toId
  let d ← flagRead v "disqualified"
  let l : LLinker := { id, summit := D, saddle := k, disq := d.getD false }
  let i := s.linkers.length
  let sumLinks := (s.summits[D]?.map (·.links)).getD []
  let sadLinks := (s.saddles[k]?.map (·.links)).getD []
  let summits := if s.notIn l sumLinks then s.summits.modify D fun x => { x with links := x.links ++ [i] }
    else s.summits
  let saddles := if s.notIn l sadLinks then s.saddles.modify k fun x => { x with links := x.links ++ [i] }
    else s.saddles
  pure { s with summits, saddles, linkers := s.linkers ++ [l] }

/-- `SummitDomain.to_dict`, summit_domain.py:190-202. -/
def LDomain.toDict (sumId sadId : Nat → Nat) (d : LDomain) : PyVal :=
  .dict [("points", .ofList MPt.toVal d.points), ("saddles", .ofList (fun k => .id (sadId k)) d.saddles),
    ("summit", .id (sumId d.summit))]

/-- `SummitDomain.from_dict`, summit_domain.py:204-233. -/
def loadDomain (s : LState) (v : PyVal) : Except PyErr LState := do
  let pts ← (← v.get "points").mapSeq MPt.ofVal
  let sads ← (← (← v.get "saddles").mapSeq PyVal.toId).mapM (byId LSaddle.id s.saddles)
  let D ← byId LSummit.id s.summits (← (← v.get "summit").toId)
  let i := s.domains.length
  pure { s with
    summits := s.summits.modify D fun x => { x with domain := some i }
    domains := s.domains ++ [⟨D, sads, pts⟩] }

/-! ### DomainMap -/

/-- A DomainMap (domain_map.py:46-89) with all objects reachable from it: `sum`, `sad`, `link`, `dom`
are the objects, the lists are references. -/
structure LMap where
  sum : Nat → LSummit
  sad : Nat → LSaddle
  link : Nat → LLinker
  dom : Nat → LDomain
  summits : List Nat
  saddles : List Nat
  runoffs : List Nat
  linkers : List Nat
  domains : List Nat

/-- Id of a summit. -/
def LMap.sumId (m : LMap) (D : Nat) : Nat := (m.sum D).id
/-- Id of a saddle. -/
def LMap.sadId (m : LMap) (k : Nat) : Nat := (m.sad k).id
/-- Id of a Linker. -/
def LMap.linkId (m : LMap) (i : Nat) : Nat := (m.link i).id

/-- `SaddlesContainer.to_dict`, containers/saddles.py:157-161, and that of RunoffsContainer,
containers/runoffs.py:40-44. -/
def LMap.saddlesToDict (m : LMap) (key : String) (ks : List Nat) : Except PyErr PyVal := do
  let ds ← ks.mapM fun k => (m.sad k).toDict m.sadId m.linkId
  pure (.dict [(key, .list ds)])

/-- `SummitsContainer.to_dict`, containers/summits.py:79-86. -/
def LMap.summitsToDict (m : LMap) : Except PyErr PyVal := do
  let ds ← m.summits.mapM fun D => (m.sum D).toDict m.linkId
  pure (.dict [("summits", .list ds)])

/-- What `DataMap.md5` is made of: the checksum of the file and the hash of the printed raster. The
checksum has a fixed width, so the string determines both. -/
structure Fingerprint where
  checksum : Nat
  hash : Int
deriving DecidableEq, Repr

/-- The fingerprint as a value. -/
def Fingerprint.toVal (p : Fingerprint) : PyVal := .tuple [.id p.checksum, .int p.hash]

/-- `DomainMap.to_dict`, domain_map.py:244-265, without the entries that are not read back (`domain`,
`datamap`, `date`, `version`). The fingerprint stands for a string; see `Fingerprint`. -/
def LMap.toDict (m : LMap) (fp : Fingerprint) : Except PyErr PyVal := do
  let su ← m.summitsToDict
  let sa ← m.saddlesToDict "saddles" m.saddles
  let ru ← m.saddlesToDict "runoffs" m.runoffs
  pure (.dict [("file_md5", fp.toVal), ("summits", su), ("saddles", sa), ("runoffs", ru),
    ("linkers", .ofList (fun i => (m.link i).toDict m.sumId m.sadId) m.linkers),
    ("summit_domains", .ofList (fun i => (m.dom i).toDict m.sumId m.sadId) m.domains)])

/-- Why loading stops. -/
inductive LoadErr
  | mismatch
  | py (e : PyErr)
deriving DecidableEq, Repr

/-- The fingerprint found in a file. -/
def fpRead (v : PyVal) : Except PyErr Fingerprint := do
  match ← (← v.get "file_md5").seq with
  | [c, h] => do
    let c ← c.toId
    let h ← h.toInt
    pure ⟨c, h⟩
  | _ => .error .typeError

/-- The part of `DomainMap.from_dict` after the comparison of fingerprints, domain_map.py:214-238. The
number of saddles is returned with the objects. The loaded domains are then put into a set, in which
domains with equal summits, saddles and points are one; the model lists all. -/
def loadBody (v : PyVal) : Except PyErr (LState × Nat) := do
  let sads ← saddlesFromDict (← v.get "saddles")
  let sums ← summitsFromDict (← v.get "summits")
  let runs ← runoffsFromDict (← v.get "runoffs")
  let s ← (← (← v.get "linkers").seq).foldlM loadLinker ⟨sums, sads ++ runs, [], []⟩
  let s ← (← (← v.get "summit_domains").seq).foldlM loadDomain s
  pure (s, sads.length)

/-- `DomainMap.from_dict`, domain_map.py:197-242. -/
def LState.fromDict (v : PyVal) (fp : Fingerprint) : Except LoadErr (LState × Nat) :=
  match fpRead v with
  | .error e => .error (.py e)
  | .ok p =>
    if p ≠ fp then .error .mismatch
    else match loadBody v with
      | .error e => .error (.py e)
      | .ok r => .ok r

/-! ### Fingerprint of a raster -/

/-- What numpy prints of an axis that is summarised: three items at either end (`edgeitems`). -/
def visAxis {α} (l : List α) : List (Option α) :=
  if l.length > 6 then (l.take 3).map some ++ [none] ++ (l.drop (l.length - 3)).map some
  else l.map some

/-- Assumed behaviour of `numpy.array2string` with the default options: rasters of more than 1000 cells
are summarised; what is printed depends only on the result of this function. -/
def printed (a : List (List Rat)) : List (Option (List (Option Rat))) :=
  if (a.map List.length).sum > 1000 then (visAxis a).map (Option.map visAxis)
  else a.map fun r => some (r.map some)

/-- `DataMap.md5`, datamap.py:59. `md5` is the checksum of a file's content (util.py:133-150), `hash`
Python's hash of strings, which depends on the process; `fmt` lays out the printed cells. -/
def fingerprint {File} (md5 : File → Nat) (hash : String → Int)
    (fmt : List (Option (List (Option Rat))) → String) (file : File) (a : List (List Rat)) : Fingerprint where
  checksum := md5 file
  hash := hash (fmt (printed a))

end PyProm
