import Verif.Model.Closest
import Verif.Model.Discovery

/-
Model of /repo/pyprom/lib/logic/internal_saddle_network.py,
lib/containers/feature_verticies.py, lib/locations/vertex_link.py,
MultiPoint.closestPoint and Saddle.high_perimeter_neighborhood_shortest_path
-/
namespace PyProm

/-- `Vertex_Link` (vertex_link.py:26-46). `ends = none` stands for `None, None`. `holder` is the
index of the `Feature_Verticies` whose list the link is in; Python does not store it. -/
structure VLink where
  ends : Option (P3 × P3)
  dist : Rat
  holder : Nat
  remote : Nat
deriving DecidableEq, Repr

/-- `Feature_Verticies.shortest_link`, feature_verticies.py:44-66. -/
def shortestLink (links : List VLink) (ignored : Nat → Bool) : Option VLink :=
  (links.foldl (fun best l => if ignored l.remote then best else minStep VLink.dist best l)
    (none, maxsize)).1

/-- Result of `find_closest_points` for the two lists, or `None, None` when it raised; the
network is only reached with nonempty lists, for which it does not raise. -/
abbrev PairSearch := List P3 → List P3 → Option (P3 × P3) × Rat

/-- `find_closest_points` (shortest_path_by_points.py:172-193, see Closest) as the pair search of
the network. Its only exception, for empty lists, is turned into `None`. -/
def realSearch (query : KdQuery) (dist : P3 → P3 → Rat) : PairSearch := fun us them =>
  match findClosestPoints query dist us them with
  | .ok r => r
  | .error _ => (none, maxsize)

/-- `find_shortest_paths_between_high_perimeter_neighborhoods`,
internal_saddle_network.py:234-277: the `vertex_linkers` of neighbourhood `k`. The entry of
the pair `o < i` is `find_closest_points(hpn[i], hpn[o])` (line 263), stored as is under
`[o][i]` and swapped under `[i][o]`. Dict insertion order makes the list of `k` ascend in the
remote index. -/
def vertexLinkers (fc : PairSearch) (hpn : List (List P3)) (k : Nat) : List VLink :=
  ((List.range hpn.length).filter (· ≠ k)).map fun r =>
    if k < r then
      let c := fc (hpn.getD r []) (hpn.getD k [])
      ⟨c.1, c.2, k, r⟩
    else
      let c := fc (hpn.getD k []) (hpn.getD r [])
      ⟨c.1.map Prod.swap, c.2, k, r⟩

/-- Locals of `treeExploration` / `build_internal_tree`. `explored` lists the keys of
`explored_nodes_index` (only ever set to True); `tbe` is `toBeExploredIndex`. -/
structure NetSt where
  queue : List Nat
  tbe : Nat → Bool
  explored : List Nat
  links : List VLink
  first : Bool

/-- `dict[i] = b`. -/
def setIdx (f : Nat → Bool) (i : Nat) (b : Bool) : Nat → Bool := fun j => if j = i then b else f j

/-- Body of `for link in node.vertex_linkers`, internal_saddle_network.py:80-101; the Bool is
`gotOne`. -/
def exploreLink (tab : Nat → List VLink) (node : Nat) (s : NetSt × Bool) (link : VLink) :
    NetSt × Bool :=
  if s.1.explored.contains link.remote || s.1.tbe link.remote then s
  else
    match shortestLink (tab link.remote) (fun i => s.1.explored.contains i) with
    | some rev =>
      if rev.remote = node then
        ({ s.1 with queue := s.1.queue ++ [link.remote]
                    tbe := setIdx s.1.tbe link.remote true
                    links := s.1.links ++ [link] }, true)
      else s
    | none => s

/-- `treeExploration`, internal_saddle_network.py:51-113. -/
def treeExploration (tab : Nat → List VLink) : Nat → NetSt → Except PyErr NetSt
  | 0, _ => .error .fuel
  | n + 1, s =>
    match s.queue with
    | [] => .ok s
    | node :: rest =>
      let r := (tab node).foldl (exploreLink tab node)
        ({ s with queue := rest, tbe := setIdx s.tbe node false }, false)
      if !r.2 && s.first then
        match shortestLink (tab node) (fun i => r.1.explored.contains i) with
        | none => .error .attributeError
        | some sh =>
          treeExploration tab n
            { queue := r.1.queue ++ [sh.remote]
              tbe := setIdx r.1.tbe sh.remote true
              links := r.1.links ++ [sh]
              explored := setAdd r.1.explored node
              first := false }
      else
        treeExploration tab n { r.1 with explored := setAdd r.1.explored node, first := false }

/-- The loop over the unexplored nodes, internal_saddle_network.py:157-172. -/
def reseed (tab : Nat → List VLink) (unexplored : List Nat) :
    List Nat → Option (VLink × Nat) × Rat → Except PyErr (Option (VLink × Nat) × Rat)
  | [], best => .ok best
  | node :: ns, best =>
    match shortestLink (tab node) (fun i => unexplored.contains i) with
    | none => .error .attributeError
    | some l => reseed tab unexplored ns (if l.dist < best.2 then (some (l, node), l.dist) else best)

/-- `build_internal_tree`, internal_saddle_network.py:131-176, from the `while True` on. -/
def buildLoop (tab : Nat → List VLink) (N fuel : Nat) : Nat → NetSt → Except PyErr (List VLink)
  | 0, _ => .error .fuel
  | n + 1, s => do
    let s' ← treeExploration tab fuel s
    if N > s'.explored.length then
      let unexplored := (List.range N).filter (fun i => !s'.explored.contains i)
      let best ← reseed tab unexplored unexplored (none, maxsize)
      match best.1 with
      | none => .error .attributeError
      | some (l, start) =>
        buildLoop tab N fuel n { s' with links := s'.links ++ [l], queue := s'.queue ++ [start] }
    else .ok s'.links

/-- `build_internal_tree`, internal_saddle_network.py:115-176. -/
def buildInternalTree (tab : Nat → List VLink) (N : Nat) : Except PyErr (List VLink) :=
  if N = 0 then .error .indexError
  else buildLoop tab N (N + 1) (N + 1)
    { queue := [0], tbe := fun _ => false, explored := [], links := [], first := true }

/-- `MultiPoint.closestPoint`, multipoint.py:139-171, for a query with rational coordinates.
Distances are compared squared (`hypot` is monotone in it). The first entry is unpacked into
the parameters of a lambda, so a 3-tuple there is a TypeError. The early exit at distance 0
does not change the result except that it needs a point at distance 0: nothing is smaller. -/
def multiClosest (x y : Rat) : List MPt → Except PyErr MPt
  | [] => .error .indexError
  | a :: as =>
    if a.e.isSome then .error .typeError
    else
      let sq := fun (m : MPt) => (x - m.x) * (x - m.x) + (y - m.y) * (y - m.y)
      .ok (go sq a as)
where
  /-- The loop over `self.points[1:]`. -/
  go (sq : MPt → Rat) (best : MPt) : List MPt → MPt
    | [] => best
    | b :: bs => if sq b = 0 then b else if sq b < sq best then go sq b bs else go sq best bs

/-- Body of the loop of `generate_child_saddles`, internal_saddle_network.py:205-230, without
the parent/children bookkeeping (added in the walk model). The elevation of the multipoint is
the elevation of its saddle. -/
def childSaddle (d : DataMap) (f : Feature) (link : VLink) : Except PyErr Feature :=
  match link.ends with
  | none => .error .typeError
  | some (l, r) =>
    match f.multipoint with
    | some (p :: ps) => do
      let m ← multiClosest (((l.x + r.x : Int) : Rat) / 2) (((l.y + r.y : Int) : Rat) / 2) (p :: ps)
      .ok (mkSaddle (d.xyToLatLon m.x m.y) f.elevation none false [] [[l], [r]])
    | _ => .ok (mkSaddle (f.lat, f.lon) f.elevation none false [] [[l], [r]])

/-- `generate_child_saddles`, internal_saddle_network.py:178-232. -/
def generateChildSaddles (d : DataMap) (fc : PairSearch) (f : Feature) :
    Except PyErr (List Feature) := do
  let links ← buildInternalTree (vertexLinkers fc f.hpn) f.hpn.length
  links.mapM (childSaddle d f)

/-- What `dijkstar.find_path` returns: total cost and nodes. -/
structure PathInfo where
  cost : Rat
  nodes : List MPt
deriving DecidableEq, Repr

/-- First strictly cheaper path of a list (saddle.py:216-225). -/
def cheapest (best : Option PathInfo) (p : PathInfo) : Option PathInfo :=
  match best with
  | none => some p
  | some b => if p.cost < b.cost then some p else some b

/-- Body of the loop over `all_shortest`, saddle.py:228-233. The first round stores `path`, the
variable left over from the loops above. -/
def overallStep (path : PathInfo) (o l : Option PathInfo) : Option PathInfo :=
  match o, l with
  | some b, some p => if p.cost < b.cost then some p else some b
  | some b, none => some b
  | none, _ => some path

/-- `Saddle.high_perimeter_neighborhood_shortest_path`, saddle.py:187-239, after the graph is
built. `find` is `find_path` on that graph. `path` is left
over from the loops, i.e. the path between the last points. An empty
neighbourhood ends in NameError or AttributeError (both `attributeError` here). -/
def saddleHighPath (find : P3 → P3 → PathInfo) (hpn : List (List P3)) :
    Except PyErr (MPt × MPt × MPt) :=
  match hpn with
  | us :: them :: _ =>
    let allShortest := us.map fun u => them.foldl (fun b t => cheapest b (find u t)) none
    match us.getLast?, them.getLast? with
    | some u, some t =>
      let path := find u t
      match allShortest.foldl (overallStep path) none with
      | some o =>
        match o.nodes.head?, o.nodes.getLast?, o.nodes[o.nodes.length / 2]? with
        | some a, some b, some m => .ok (a, b, m)
        | _, _, _ => .error .indexError
      | none => .error .attributeError
    | _, _ => .error .attributeError
  | _ => .error .indexError

end PyProm
