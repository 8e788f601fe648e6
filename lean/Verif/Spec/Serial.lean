import Verif.Model.Serial

/-
Specification of saving and loading: what a loaded object has to share with the saved one
-/
namespace PyProm.Spec

/-- The loaded perimeter `q` has the points and edge points of `p`. -/
structure PerimeterKept (p q : Perim) : Prop where
  points : q.points.Perm p.points
  mapEdge : q.mapEdge = p.mapEdge
  edgePoints : q.mapEdgePoints = p.mapEdgePoints

/-- The index of a perimeter gives exactly its members. -/
def IndexExact (q : Perim) : Prop :=
  ∀ x y r, ((q.index.getD []).lookup x).bind (·.lookup y) = some r ↔ r ∈ q.points ∧ r.x = x ∧ r.y = y

/-- The loaded MultiPoint `n` covers the same cells in the same order as `m`. -/
structure MultiKept (m n : MultiObj) : Prop where
  cells : n.points.map (fun p => (p.x, p.y)) = m.points.map fun p => (p.x, p.y)
  elevation : n.elevation = m.elevation
  perimeter : ∃ p q, m.perimeter = some p ∧ n.perimeter = some q ∧ PerimeterKept p q

/-- The attribute `multipoint` is kept. -/
def AreaKept : Option MultiObj → Option MultiObj → Prop
  | none, none => True
  | some m, some n => MultiKept m n
  | _, _ => False

/-- All points of a perimeter have different coordinates. -/
def Apart (l : List P3) : Prop := l.Pairwise fun p q => ¬ (p.x = q.x ∧ p.y = q.y)

/-- A MultiPoint with points, a perimeter without repeated cells, and a list of edge points. -/
def AreaSound (m : MultiObj) : Prop :=
  m.points ≠ [] ∧ ∃ p, m.perimeter = some p ∧ Apart p.points ∧ ∃ l, p.mapEdgePoints = some l

/-- The loaded summit `t` has the attributes of `s`; references are left out. -/
structure SummitKept (s t : LSummit) : Prop where
  id : t.id = s.id
  lat : t.lat = s.lat
  lon : t.lon = s.lon
  ele : t.ele = s.ele
  edge : t.edge = s.edge
  edgePoints : t.edgePoints = s.edgePoints
  disq : t.disq = s.disq
  area : AreaKept s.mp t.mp

/-- The loaded saddle `t` has the attributes of `s`; references are left out. -/
structure SaddleKept (s t : LSaddle) : Prop where
  runoff : t.runoff = s.runoff
  id : t.id = s.id
  lat : t.lat = s.lat
  lon : t.lon = s.lon
  ele : t.ele = s.ele
  edge : t.edge = s.edge
  edgePoints : t.edgePoints = s.edgePoints
  single : t.single = s.single
  basin : t.basin = s.basin
  disq : t.disqualified = s.disqualified
  over : t.over = some true ↔ s.over = some true
  free : t.over ≠ some false
  hpn : t.hpn = s.hpn
  area : AreaKept s.mp t.mp

/-- The references of the saddles with positions in `l` point to the copies of the saddles that those of
`ks` referred to. -/
def FamilyKept (m : LMap) (ks : List Nat) (l : List LSaddle) : Prop :=
  l.length = ks.length ∧ ∀ (p : Nat) k t, ks[p]? = some k → l[p]? = some t →
    t.children.map (ks[·]?) = (m.sad k).children.map some ∧
    t.parent.map (ks[·]?) = (m.sad k).parent.map some ∧
    t.alts.map (ks[·]?) = (m.sad k).alts.map some

/-- The loaded linkers are the saved ones in order: same id, same flag, ends with the same ids. -/
def LinkersKept (m : LMap) (s : LState) : Prop :=
  s.linkers.map (fun l => (l.id, l.disq, s.summits[l.summit]?.map (·.id), s.saddles[l.saddle]?.map (·.id))) =
    m.linkers.map fun i => ((m.link i).id, (m.link i).disq, some (m.sum (m.link i).summit).id,
      some (m.sad (m.link i).saddle).id)

/-- The ids of the linkers a loaded summit or saddle lists. -/
def linkIds (s : LState) (links : List Nat) : List (Option Nat) := links.map fun j => s.linkers[j]?.map (·.id)

/-- In the saved map the lists of the features agree with the list of all linkers. -/
structure LinksConsistent (m : LMap) : Prop where
  summits : ∀ D ∈ m.summits, (m.sum D).links.Perm (m.linkers.filter fun i => (m.link i).summit = D)
  saddles : ∀ k ∈ m.saddles ++ m.runoffs, (m.sad k).links.Perm (m.linkers.filter fun i => (m.link i).saddle = k)

/-- No two linkers of the list have ends that compare equal (at both ends). -/
def NoParallel (m : LMap) : Prop :=
  m.linkers.Pairwise fun i j => ¬ ((m.sum (m.link i).summit).eq (m.sum (m.link j).summit) = true ∧
    (m.sad (m.link i).saddle).eq (m.sad (m.link j).saddle) = true)

/-- All objects of the map have different ids, the summits and the saddles are listed once (a runoff may be
listed several times, as after runs), and everything that is referred to is in a container. -/
structure Closed (m : LMap) : Prop where
  summitIds : (m.summits.map fun D => (m.sum D).id).Nodup
  saddleIds : (m.saddles.map fun k => (m.sad k).id).Nodup
  sameId : ∀ k ∈ m.saddles ++ m.runoffs, ∀ k' ∈ m.saddles ++ m.runoffs, (m.sad k).id = (m.sad k').id → k = k'
  family : ∀ k ∈ m.saddles, (∀ c ∈ (m.sad k).children, c ∈ m.saddles) ∧
    (∀ c, (m.sad k).parent = some c → c ∈ m.saddles) ∧ ∀ c ∈ (m.sad k).alts, c ∈ m.saddles
  linkers : ∀ i ∈ m.linkers, (m.link i).summit ∈ m.summits ∧ (m.link i).saddle ∈ m.saddles ++ m.runoffs
  domains : ∀ i ∈ m.domains, (m.dom i).summit ∈ m.summits ∧ ∀ k ∈ (m.dom i).saddles, k ∈ m.saddles ++ m.runoffs
  summitAreas : ∀ D ∈ m.summits, ∀ a, (m.sum D).mp = some a → AreaSound a
  saddleAreas : ∀ k ∈ m.saddles ++ m.runoffs, ∀ a, (m.sad k).mp = some a → AreaSound a

/-- The loaded domains are the saved ones in order, with the same ids and points. -/
def DomainsKept (m : LMap) (s : LState) : Prop :=
  s.domains.map (fun d => (s.summits[d.summit]?.map (·.id), d.saddles.map (fun k => s.saddles[k]?.map (·.id)), d.points)) =
    m.domains.map fun i => (some (m.sum (m.dom i).summit).id, (m.dom i).saddles.map (fun k => some (m.sad k).id),
      (m.dom i).points)

end PyProm.Spec
