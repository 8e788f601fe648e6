import Verif.Model.Walk

/-
Model of the walk related parts of /repo/pyprom/domain_map.py, of AnalyzeData.run and of
SaddlesContainer.rebuildSaddles
-/
namespace PyProm

/-! ### rebuildSaddles -/

/-- The new saddle for two high neighbourhoods, lib/containers/saddles.py:69-104. The middle is
truncated towards zero by `int()` (lines 84-87). -/
def rebuildTwo (d : DataMap) (fc : PairSearch) (f : Feature) : Except PyErr Feature := do
  let hs ← f.hpn.mapM highestP3
  let loc ← (match f.multipoint with
    | some (m :: ms) =>
      match (fc (f.hpn.getD 0 []) (f.hpn.getD 1 [])).1 with
      | none => .error .indexError
      | some (a, b) => do
        let c ← multiClosest (((a.x + b.x).tdiv 2 : Int) : Rat) (((a.y + b.y).tdiv 2 : Int) : Rat)
          (m :: ms)
        pure (d.xyToLatLon c.x c.y)
    | _ => pure (f.lat, f.lon) : Except PyErr (Rat × Rat))
  pure (mkSaddle loc f.elevation none false [] hs)

/-- One round of `rebuildSaddles`, lib/containers/saddles.py:57-113, for the saddle with index `k`:
the objects afterwards and the indices entered into `new_saddles`. For more than two high
neighbourhoods parent and children are set in internal_saddle_network.py:227-229. -/
def rebuildOne (d : DataMap) (fc : PairSearch) (objs : List SObj) (k : Nat) :
    Except PyErr (List SObj × List Nat) :=
  match objs[k]? with
  | none => .error .indexError
  | some o =>
    if o.f.hpn.length < 2 then .ok (objs, [k])
    else do
      let fs ← (if o.f.hpn.length > 2 then generateChildSaddles d fc o.f
        else do
          let f ← rebuildTwo d fc o.f
          pure [f] : Except PyErr (List Feature))
      let ids := (List.range fs.length).map (objs.length + ·)
      if o.f.edge then
        let objs' := objs ++ fs.map fun f => { f := f, parent := some k }
        pure (modObj objs' k (fun o => { o with children := o.children ++ ids, disq := some true }),
          ids ++ [k])
      else pure (objs ++ fs.map (fun f => { f := f }), ids)

/-- `rebuildSaddles`, lib/containers/saddles.py:42-115, on the saddles with the given indices. -/
def rebuildSaddles (d : DataMap) (fc : PairSearch) : List Nat → List SObj →
    Except PyErr (List SObj × List Nat)
  | [], objs => .ok (objs, [])
  | k :: ks, objs => do
    let (objs, new) ← rebuildOne d fc objs k
    let (objs, rest) ← rebuildSaddles d fc ks objs
    pure (objs, new ++ rest)

/-! ### DomainMap -/

/-- A DomainMap (domain_map.py:46-89) with everything reachable from it. Saddles, runoffs, linkers and
domains are indices; `domPoints k` are the points of the domain of summit `k`, if it has one. -/
structure DMap where
  summits : List Feature
  st : CSt
  domPoints : Nat → Option (List Pt)
  saddles : List Nat
  runoffs : List Nat
  linkers : List Nat
  domains : List Nat

/-- State without any links. -/
def CSt.start (objs : List SObj) : CSt where
  w := { lookup := fun _ => none, points := fun _ => [] }
  objs := objs
  store := []
  sumLinks _ := []
  sadLinks _ := []
  walked := []
  linkers := []
  doms := []
  domSaddles _ := []

/-- `AnalyzeData.run`, feature_discovery.py:63-85, and `DomainMap.run(superSparse=True)`,
domain_map.py:107-122. -/
def DMap.discover (d : DataMap) (fc : PairSearch) (o : Pt → Oracle) (order : List Pt) (rebuild : Bool) :
    Except PyErr DMap := do
  let D ← analyze d o order
  let corners ← makeCornerRunoffs d
  let objs : List SObj := (D.saddles ++ (D.runoffs ++ corners)).map fun f => { f := f }
  let n := D.saddles.length
  let runoffs := (List.range (D.runoffs ++ corners).length).map (n + ·)
  let (objs, saddles) ← (if rebuild then rebuildSaddles d fc (List.range n) objs
    else pure (objs, List.range n) : Except PyErr (List SObj × List Nat))
  pure { summits := D.summits, st := .start objs, domPoints := fun _ => none, saddles := saddles,
         runoffs := runoffs, linkers := [], domains := [] }

/-- `DomainMap.walk`, domain_map.py:320-336, together with lines 160-164 of summit_domain_walk.py.
Passing the list `sel` of saddles returns the walked saddles and runoffs. -/
def DMap.walk (E : SaddleEnv) (m : DMap) (sel : List Nat) :
    Except PyErr (DMap × Option (List Nat × List Nat)) := do
  let E := { E with summits := m.summits }
  let w ← walkInit E.d m.domPoints m.summits
  let bases := if sel.isEmpty then m.saddles ++ m.runoffs else sel
  let (r, s) ← climbFromSaddles E bases { m.st with w := w, walked := [], linkers := [], doms := [] }
  let m' := { m with
    st := s
    domPoints := fun k => if k < m.summits.length then some (s.w.points k) else none
    linkers := r.linkers
    domains := r.domains }
  if sel.isEmpty then pure ({ m' with saddles := r.saddles, runoffs := r.runoffs }, none)
  else pure (m', some (r.saddles, r.runoffs))

/-- `DomainMap.run(sparse=True)`, domain_map.py:107-129. -/
def DMap.runSparse (E : SaddleEnv) (o : Pt → Oracle) (order : List Pt) (rebuild : Bool) :
    Except PyErr DMap := do
  let m ← DMap.discover E.d E.fc o order rebuild
  let (m', _) ← m.walk E []
  pure m'

end PyProm
