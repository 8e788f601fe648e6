import Verif.Model.Neighbors

/-
Model of the nearest point searches of /repo/pyprom/lib/logic/shortest_path_by_points.py
-/
namespace PyProm

/-- `sys.maxsize` on a 64 bit CPython. -/
def maxsize : Rat := 9223372036854775807

/-- One round of the loops `if distance < closest_distance: closest = …;
closest_distance = distance`. -/
def minStep {α : Type} (f : α → Rat) (best : Option α × Rat) (a : α) : Option α × Rat :=
  if f a < best.2 then (some a, f a) else best

/-- `closest_points_between_sets_brute_force`, shortest_path_by_points.py:68-97. `dist` is
`datamap.distance`. The pair is `none` when Python returns `None, None`. -/
def closestPairBrute (dist : P3 → P3 → Rat) (us them : List P3) : Option (P3 × P3) × Rat :=
  us.foldl (fun best m =>
    them.foldl (fun best t => minStep (fun q : P3 × P3 => dist q.1 q.2) best (m, t)) best)
    (none, maxsize)

/-- `closest_point_by_distance_brute_force`, shortest_path_by_points.py:100-123. The dict is
a function; `hyp` is the plain `hypot` of the coordinate differences. -/
def closestMapBrute (hyp : P3 → P3 → Rat) (us them : List P3) : P3 → Option P3 :=
  us.foldl (fun closest m =>
    match (them.foldl (minStep (hyp m)) (none, maxsize)).1 with
    | some t => fun q => if q = m then some t else closest q
    | none => closest) (fun _ => none)

/-- What `KDTree(tree).query(points)` returns: for every query point the distance and the
index of a nearest tree point. External library, so a parameter. -/
abbrev KdQuery := List Pt → List Pt → List (Rat × Nat)

/-- `np.argmin`: index of the first smallest entry; ValueError on an empty list. -/
def argmin (l : List Rat) : Except PyErr Nat :=
  match l with
  | [] => .error .valueError
  | a :: as =>
    .ok ((as.foldl (fun (s : Nat × Rat × Nat) b =>
      if b < s.2.1 then (s.2.2, b, s.2.2 + 1) else (s.1, s.2.1, s.2.2 + 1)) (0, a, 1)).1)

/-- `closest_points_between_sets_kdtree`, shortest_path_by_points.py:125-148. -/
def closestPairKd (query : KdQuery) (dist : P3 → P3 → Rat) (us them : List P3) :
    Except PyErr (P3 × P3 × Rat) := do
  let dists := query (us.map P3.xy) (them.map P3.xy)
  let idx ← argmin (dists.map Prod.fst)
  match them[idx]?, dists[idx]? with
  | some theirs, some di =>
    match us[di.2]? with
    | some ours => .ok (ours, theirs, dist ours theirs)
    | none => .error .indexError
  | _, _ => .error .indexError

/-- Loop of `closest_point_by_distance_kdtree`, shortest_path_by_points.py:167-168. -/
def kdAssign (us them : List P3) : List (P3 × (Rat × Nat)) → (P3 → Option P3) →
    Except PyErr (P3 → Option P3)
  | [], m => .ok m
  | (u, di) :: rest, m =>
    match them[di.2]? with
    | some t => kdAssign us them rest (fun q => if q = u then some t else m q)
    | none => .error .indexError

/-- `closest_point_by_distance_kdtree`, shortest_path_by_points.py:150-169. The loop runs over
`range(len(dists[0]))`, which is the number of query points. -/
def closestMapKd (query : KdQuery) (us them : List P3) : Except PyErr (P3 → Option P3) :=
  kdAssign us them (us.zip (query (them.map P3.xy) (us.map P3.xy))) (fun _ => none)

/-- `find_closest_points`, shortest_path_by_points.py:172-193. -/
def findClosestPoints (query : KdQuery) (dist : P3 → P3 → Rat) (us them : List P3) :
    Except PyErr (Option (P3 × P3) × Rat) :=
  if us.length + them.length < 100 then .ok (closestPairBrute dist us them)
  else
    match closestPairKd query dist us them with
    | .ok (a, b, v) => .ok (some (a, b), v)
    | .error e => .error e

/-- `find_closest_point_by_distance_map`, shortest_path_by_points.py:195-215. -/
def findClosestMap (query : KdQuery) (hyp : P3 → P3 → Rat) (us them : List P3) :
    Except PyErr (P3 → Option P3) :=
  if us.length + them.length < 100 then .ok (closestMapBrute hyp us them)
  else closestMapKd query us them

end PyProm
