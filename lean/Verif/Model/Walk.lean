import Verif.Model.SaddleNet
import Verif.Model.Location

/-
Model of /repo/pyprom/lib/logic/summit_domain_walk.py, of the parts of
lib/containers/summit_domain.py and lib/containers/linker.py it uses, of
BaseDataMap.steepestNeighbor and of DomainMap.walk
-/
namespace PyProm

/-! ### Steepest neighbour -/

/-- The slope computed without rounding, base_datamap.py:121: `len dx dy` is the `hypot`. -/
def exactSlope (len : Int → Int → Rat) (dx dy : Int) (r : Rat) : Rat := r / len dx dy

/-- Loop body of `steepestNeighbor`, base_datamap.py:118-126. `w dx dy r` is the slope the code
computes for a rise of `r` over the offset: `r` divided by the `hypot` of the scaled offsets, as in `exactSlope`, up
to rounding. The pair holds `steepest_neighbor` and `steepest_slope`. -/
def steepStep (w : Int → Int → Rat → Rat) (x y : Int) (pe : Rat) (best : Option P3 × Rat) (n : Nbr) :
    Option P3 × Rat :=
  match n.2.2 with
  | none => best
  | some e =>
    if e < pe then best
    else
      let slope := w (x - n.1) (y - n.2.1) (e - pe)
      if best.2 < slope then
        if slope < 0 then best else (some ⟨n.1, n.2.1, e⟩, slope)
      else best

/-- `steepestNeighbor`, base_datamap.py:106-127. -/
def steepestNeighbor (d : DataMap) (w : Int → Int → Rat → Rat) (x y : Int) : Except PyErr (Option P3) :=
  match d.get x y with
  | none => .error .indexError
  | some pe => .ok ((d.iterateFull x y).foldl (steepStep w x y pe) (none, -1)).1

/-! ### Climbing -/

/-- What climbing depends on besides the raster: the computed slopes and the nearest point map
(`find_closest_point_by_distance_map`). -/
structure WalkEnv where
  d : DataMap
  w : Int → Int → Rat → Rat
  near : List P3 → List P3 → Except PyErr (P3 → Option P3)

/-- State of a `Walk`: `summit_domain_points` and the `points` lists of the SummitDomain objects.
A domain is named by the index of its summit. Simplification: listed points are kept as
coordinates, their elevation is dropped. -/
structure WSt where
  lookup : Pt → Option Nat
  points : Nat → List Pt

/-- `SummitDomain.append` with the external hash, summit_domain.py:72-85. -/
def WSt.append (s : WSt) (D : Nat) (p : Pt) : WSt where
  lookup q := if q = p then some D else s.lookup q
  points k := if k = D then s.points k ++ [p] else s.points k

/-- `SummitDomain.extend` with the external hash, summit_domain.py:87-99. -/
def WSt.extend (s : WSt) (D : Nat) (ps : List Pt) : WSt := ps.foldl (fun s p => s.append D p) s

/-- Cells of a summit as used by `_prepopulate_summit_domain_points`,
summit_domain_walk.py:61-66. An empty multipoint is falsy. -/
def summitCells (d : DataMap) (f : Feature) : Except PyErr (List Pt) :=
  match f.multipoint with
  | some (m :: ms) => .ok ((m :: ms).map fun m => (m.x, m.y))
  | _ =>
    match d.latLongToXY f.lat f.lon with
    | some p => .ok [p]
    | none => .error .valueError

/-- `_prepopulate_summit_domain_points`, summit_domain_walk.py:48-66, for the summits from number
`k` on. `old k` are the points of the domain that summit `k` already has, if any. -/
def prepopulate (d : DataMap) (old : Nat → Option (List Pt)) : Nat → List Feature → WSt →
    Except PyErr WSt
  | _, [], s => .ok s
  | k, f :: fs, s =>
    match old k with
    | some _ => prepopulate d old (k + 1) fs s
    | none => do
      let cells ← summitCells d f
      prepopulate d old (k + 1) fs (s.extend k cells)

/-- `Walk.__init__`, summit_domain_walk.py:38-46: the hash starts empty. -/
def walkInit (d : DataMap) (old : Nat → Option (List Pt)) (summits : List Feature) :
    Except PyErr WSt :=
  prepopulate d old 0 summits
    { lookup := fun _ => none, points := fun k => (old k).getD [] }

/-- Loop of `climb_points` over `closest.items()`, summit_domain_walk.py:145-148. Reading a missing
key of the inner dict is a KeyError. -/
def assignFlat (m : P3 → Option P3) : List P3 → WSt → Except PyErr WSt
  | [], s => .ok s
  | p :: ps, s =>
    match m p with
    | none => assignFlat m ps s
    | some hp =>
      match s.lookup hp.xy with
      | none => .error .keyError
      | some D =>
        assignFlat m ps { s with lookup := fun q => if q = p.xy then some D else s.lookup q }

/-- `for point in points: self.climb(point)`, summit_domain_walk.py:137-142, where `loop` is the part
of `climb` after the membership test of lines 86-87. -/
def climbAll (loop : WSt → List Pt → P3 → Except PyErr (Option Nat × WSt)) : List P3 → WSt →
    Except PyErr WSt
  | [], s => .ok s
  | p :: ps, s =>
    match s.lookup p.xy with
    | some _ => climbAll loop ps s
    | none =>
      match loop s [p.xy] p with
      | .error e => .error e
      | .ok r => climbAll loop ps r.2

/-- The `while True` loop of `climb`, summit_domain_walk.py:88-107, with the call
`climb_points([], sn)` (lines 109-149) written out. Python's recursion limit is not modelled. -/
def climbLoop (E : WalkEnv) : Nat → WSt → List Pt → P3 → Except PyErr (Option Nat × WSt)
  | 0, _, _, _ => .error .fuel
  | n + 1, s, climbed, cur =>
    match steepestNeighbor E.d E.w cur.x cur.y with
    | .error e => .error e
    | .ok none => .ok (none, s)
    | .ok (some sn) =>
      match s.lookup sn.xy with
      | some D => .ok (some D, s.extend D climbed)
      | none =>
        if sn.e = cur.e then
          match equalHeightBlob E.d sn.x sn.y sn.e with
          | none => .error .fuel
          | some b =>
            let high := b.perim.filter fun p => p.e > sn.e
            match climbAll (climbLoop E n) high s with
            | .error e => .error e
            | .ok s1 =>
              let members : List P3 := b.points.map fun p => ⟨p.1, p.2, b.elevation⟩
              match E.near members high with
              | .error e => .error e
              | .ok m =>
                match assignFlat m members s1 with
                | .error e => .error e
                | .ok s2 =>
                  match s2.lookup sn.xy with
                  | none => .error .keyError
                  | some D => .ok (some D, s2.extend D climbed)
        else climbLoop E n s (climbed ++ [sn.xy]) sn

/-- `climb`, summit_domain_walk.py:69-107. The result is `None` or the domain. -/
def climb (E : WalkEnv) (fuel : Nat) (s : WSt) (p : P3) : Except PyErr (Option Nat × WSt) :=
  match s.lookup p.xy with
  | some D => .ok (some D, s)
  | none => climbLoop E fuel s [p.xy] p

/-- `climb_points` without an entry point, summit_domain_walk.py:109-151; the returned set is not
used by the callers beyond logging. -/
def climbPoints (E : WalkEnv) (fuel : Nat) (ps : List P3) (s : WSt) : Except PyErr WSt :=
  climbAll (climbLoop E fuel) ps s

/-! ### Climbing from saddles -/

/-- A Saddle or Runoff object; references are indices into the list of all such objects. -/
structure SObj where
  f : Feature
  parent : Option Nat := none
  children : List Nat := []
  disq : Option Bool := none
deriving DecidableEq, Repr

/-- A Linker object (linker.py:30-50). -/
structure LinkRec where
  summit : Nat
  saddle : Nat
deriving DecidableEq, Repr

/-- State of `climb_from_saddles`. `store` are all Linker objects in order of creation; `sumLinks`
and `sadLinks` are `summit.saddles` and `saddle.summits` as indices into `store`. -/
structure CSt where
  w : WSt
  objs : List SObj
  store : List LinkRec
  sumLinks : Nat → List Nat
  sadLinks : Nat → List Nat
  walked : List Nat
  linkers : List Nat
  doms : List Nat
  domSaddles : Nat → List Nat

/-- Everything `climb_from_saddles` depends on. -/
structure SaddleEnv extends WalkEnv where
  summits : List Feature
  fc : PairSearch
  find : Feature → P3 → P3 → PathInfo
  fuel : Nat

/-- `Linker.__eq__`, linker.py:253-264: equality of the summits and of the saddles, both by
`SpotElevation.__eq__`. -/
def linkEq (E : SaddleEnv) (objs : List SObj) (a b : LinkRec) : Bool :=
  match E.summits[a.summit]?, E.summits[b.summit]?, objs[a.saddle]?, objs[b.saddle]? with
  | some s, some s', some t, some t' =>
    seEq s.lat s.lon s.elevation s'.lat s'.lon s'.elevation &&
    seEq t.f.lat t.f.lon t.f.elevation t'.f.lat t'.f.lon t'.f.elevation
  | _, _, _, _ => false

/-- `self not in list` for linkers. -/
def linkIn (E : SaddleEnv) (s : CSt) (l : LinkRec) (ids : List Nat) : Bool :=
  ids.any fun i => match s.store[i]? with
    | some l' => linkEq E s.objs l' l
    | none => false

/-- Update one entry of a list-valued table. -/
def pushAt (f : Nat → List Nat) (k v : Nat) : Nat → List Nat := fun i => if i = k then f i ++ [v] else f i

/-- The repeated block `summitDomains.add(sd) … linkers.append(linker)`
(summit_domain_walk.py:222-227, 241-246, 264-269) with `add_to_remote_saddle_and_summit`
(linker.py:179-195). -/
def addLinker (E : SaddleEnv) (ignoreDup : Bool) (s : CSt) (D sid : Nat) : CSt :=
  let l : LinkRec := ⟨D, sid⟩
  let i := s.store.length
  { s with
    doms := setAdd s.doms D
    domSaddles := pushAt s.domSaddles D sid
    store := s.store ++ [l]
    linkers := s.linkers ++ [i]
    sumLinks := if ignoreDup && linkIn E s l (s.sumLinks D) then s.sumLinks else pushAt s.sumLinks D i
    sadLinks := if ignoreDup && linkIn E s l (s.sadLinks sid) then s.sadLinks
      else pushAt s.sadLinks sid i }

/-- The loops over `highPerimeterNeighborhoods` that create linkers, summit_domain_walk.py:234-246
and 258-269. -/
def linkEdges (E : SaddleEnv) (ignoreDup : Bool) (sid : Nat) : List (List P3) → CSt → Except PyErr CSt
  | [], s => .ok s
  | [] :: _, _ => .error .indexError
  | (h0 :: _) :: es, s =>
    match s.w.lookup h0.xy with
    | none => linkEdges E ignoreDup sid es s
    | some D => linkEdges E ignoreDup sid es (addLinker E ignoreDup s D sid)

/-- Climb from all points of all high neighbourhoods, summit_domain_walk.py:193-194. -/
def climbEdges (E : SaddleEnv) : List (List P3) → WSt → Except PyErr WSt
  | [], s => .ok s
  | e :: es, s =>
    match climbPoints E.toWalkEnv E.fuel e s with
    | .error e => .error e
    | .ok s' => climbEdges E es s'

/-- A node of a path that is used as a high point; nodes without elevation are not produced, as the
path ends are high points. -/
def MPt.toP3 (m : MPt) : Except PyErr P3 :=
  match m.e with
  | some e => .ok ⟨m.x, m.y, e⟩
  | none => .error .indexError

/-- `generate_synthetic_saddles`, summit_domain_walk.py:282-319. `none` stands for the list with the
saddle itself. -/
def generateSynthetic (E : SaddleEnv) (f : Feature) : Except PyErr (Option (List Feature)) :=
  if f.hpn.length < 2 then .ok none
  else if f.hpn.length > 2 then do
    let cs ← generateChildSaddles E.d E.fc f
    pure (some cs)
  else
    match f.multipoint with
    | some (_ :: _) => do
      let (a, b, m) ← saddleHighPath (E.find f) f.hpn
      let a ← a.toP3
      let b ← b.toP3
      pure (some [mkSaddle (E.d.xyToLatLon m.x m.y) f.elevation none false [] [[a], [b]]])
    | _ => do
      let hs ← f.hpn.mapM highestP3
      pure (some [mkSaddle (f.lat, f.lon) f.elevation none false [] hs])

/-- Replace one object. -/
def modObj (objs : List SObj) (k : Nat) (g : SObj → SObj) : List SObj := objs.modify k g

/-- One saddle of `saddlesUnderTest` when it is synthetic, summit_domain_walk.py:193-201, 256-270. -/
def walkSynthetic (E : SaddleEnv) (s : CSt) (sid : Nat) : Except PyErr CSt :=
  match s.objs[sid]? with
  | none => .error .indexError
  | some o => do
    let w ← climbEdges E o.f.hpn s.w
    let s' ← linkEdges E false sid o.f.hpn { s with w := w }
    pure { s' with walked := s'.walked ++ [sid] }

/-- One of the `edge_saddles`, summit_domain_walk.py:233-252. -/
def walkEdgeSaddle (E : SaddleEnv) (base : Nat) (s : CSt) (sid : Nat) : Except PyErr CSt :=
  match s.objs[sid]? with
  | none => .error .indexError
  | some o => do
    let s' ← linkEdges E true sid o.f.hpn s
    pure { s' with
      objs := modObj (modObj s'.objs sid (fun o => { o with parent := some base })) base
        (fun o => { o with children := o.children ++ [sid], disq := some true })
      walked := s'.walked ++ [sid] }

/-- Allocate the objects of freshly created saddles; returns their indices. -/
def alloc (s : CSt) (fs : List Feature) : CSt × List Nat :=
  ({ s with objs := s.objs ++ fs.map (fun f => { f := f }) },
    (List.range fs.length).map (s.objs.length + ·))

/-- Lines 233-255 of climb_from_saddles: the loop over `edge_saddles` and the base saddle itself. -/
def finishEdge (E : SaddleEnv) (s : CSt) (base : Nat) (sids : List Nat) : Except PyErr CSt := do
  let s' ← sids.foldlM (walkEdgeSaddle E base) s
  pure { s' with
    objs := modObj s'.objs base (fun o => { o with disq := some true })
    walked := s'.walked ++ [base] }

/-- `generate_child_saddles` on an edge saddle also enters the new saddles as children
(internal_saddle_network.py:225-228). -/
def adoptChildren (s : CSt) (base : Nat) (sids : List Nat) : CSt :=
  let objs := sids.foldl (fun objs k => modObj objs k (fun o => { o with parent := some base })) s.objs
  { s with objs := modObj objs base (fun o => { o with children := o.children ++ sids }) }

/-- `generate_synthetic_saddles(saddle)` as called for an edge feature; returns the state and the
indices of the saddles. -/
def edgeSynthetic (E : SaddleEnv) (s : CSt) (base : Nat) (f : Feature) :
    Except PyErr (CSt × List Nat) := do
  match ← generateSynthetic E f with
  | none => pure (s, [base])
  | some fs =>
    let (s1, ids) := alloc s fs
    if f.hpn.length > 2 && f.edge then pure (adoptChildren s1 base ids, ids) else pure (s1, ids)

/-- One round of the main loop of `climb_from_saddles`, summit_domain_walk.py:184-270. -/
def walkFeature (E : SaddleEnv) (s : CSt) (base : Nat) : Except PyErr CSt :=
  match s.objs[base]? with
  | none => .error .indexError
  | some o =>
    if o.f.edge = false then do
      match ← generateSynthetic E o.f with
      | none => walkSynthetic E s base
      | some fs =>
        let (s1, ids) := alloc s fs
        ids.foldlM (walkSynthetic E) s1
    else do
      let w ← climbEdges E o.f.hpn s.w
      let s := { s with w := w }
      if o.f.kind = .runoff then
        if o.f.hpn.isEmpty then
          match E.d.latLongToXY o.f.lat o.f.lon with
          | none => .error .valueError
          | some p =>
            match s.w.lookup p with
            | none => pure { s with walked := s.walked ++ [base] }
            | some D =>
              let s1 := addLinker E true s D base
              let (s2, ids) ← edgeSynthetic E s1 base o.f
              finishEdge E s2 base ids
        else finishEdge E s base [base]
      else
        let (s2, ids) ← edgeSynthetic E s base o.f
        finishEdge E s2 base ids

/-- What `climb_from_saddles` returns, as indices of objects (summit_domain_walk.py:272-280). -/
structure Walked where
  saddles : List Nat
  runoffs : List Nat
  linkers : List Nat
  domains : List Nat
deriving DecidableEq, Repr

/-- Sorting of `walkedFeatures` into containers, summit_domain_walk.py:272-278. -/
def sortWalked (s : CSt) : Walked :=
  let isRunoff := fun i => match s.objs[i]? with
    | some o => decide (o.f.kind = .runoff)
    | none => false
  { saddles := s.walked.filter fun i => !isRunoff i
    runoffs := s.walked.filter isRunoff
    linkers := s.linkers
    domains := s.doms }

/-- `climb_from_saddles`, summit_domain_walk.py:153-280, over the features with the given
indices. -/
def climbFromSaddles (E : SaddleEnv) (bases : List Nat) (s : CSt) : Except PyErr (Walked × CSt) := do
  let s' ← bases.foldlM (walkFeature E) s
  pure (sortWalked s', s')

end PyProm
