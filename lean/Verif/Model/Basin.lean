import Verif.Model.DomainMap

/-
Model of /repo/pyprom/lib/logic/basin_saddle_finder.py, of the feature network it works on
(feature_neighbors of Summit and Saddle) and of DomainMap.detect_basin_saddles
-/
namespace PyProm

/-- A Summit or Saddle object. Ids are random strings; objects and ids are identified. -/
inductive Node
  | summit (k : Nat)
  | saddle (k : Nat)
deriving DecidableEq, Repr

/-- The part of the feature network that basin detection only reads. `link i` are the summit and the
saddle of Linker `i`; `eq` is `SpotElevation.__eq__`, `setEq` says whether two Summits count as one
in a Python set. -/
structure FNet where
  nSummits : Nat
  nSaddles : Nat
  elev : Node → Rat
  edge : Node → Bool
  eq : Node → Node → Bool
  setEq : Nat → Nat → Bool
  link : Nat → Nat × Nat
  sumLinks : Nat → List Nat
  sadLinks : Nat → List Nat
  sumDisq : Nat → Bool

/-- The attributes that are written: `basinSaddle`, `singleSummit`, `_disqualified` of the saddles,
`disqualified` of the linkers, `basinSaddleAlternatives`. -/
structure Flags where
  basin : Nat → Bool
  single : Nat → Bool
  over : Nat → Option Bool
  linkDisq : Nat → Bool
  alts : Node → List Node

/-- `feature_neighbors` of Saddle (saddle.py:134-140) and Summit (summit.py:93-99). -/
def FNet.nbrs (N : FNet) : Node → List Node
  | .summit D => (N.sumLinks D).map fun i => .saddle (N.link i).2
  | .saddle k => (N.sadLinks k).map fun i => .summit (N.link i).1

/-- `Saddle.disqualified`, saddle.py:250-260. -/
def Flags.saddleDisq (f : Flags) (k : Nat) : Bool :=
  match f.over k with
  | some b => b
  | none => f.single k || f.basin k

/-- `disqualified` of either kind of feature. -/
def FNet.disq (N : FNet) (f : Flags) : Node → Bool
  | .summit D => N.sumDisq D
  | .saddle k => f.saddleDisq k

/-- The test `x.disqualified or x.edgeEffect`. -/
def FNet.dead (N : FNet) (f : Flags) (n : Node) : Bool := N.disq f n || N.edge n

/-- `Saddle.disqualify_self_and_linkers`, saddle.py:269-287. -/
def disqualifySelf (N : FNet) (f : Flags) (k : Nat) (basin single : Bool) : Flags where
  basin j := if basin && decide (j = k) then true else f.basin j
  single j := if single && decide (j = k) then true else f.single j
  over j := if !(basin || single) && decide (j = k) then some true else f.over j
  linkDisq i := decide (i ∈ N.sadLinks k) || f.linkDisq i
  alts := f.alts

/-- `set([...])` of summits as a list. -/
def uniqueSummits (N : FNet) (l : List Nat) : List Nat :=
  l.foldl (fun acc x => if acc.any (fun y => N.setEq x y) then acc else acc ++ [x]) []

/-- `_disqualify_single_source_saddles`, basin_saddle_finder.py:158-176. -/
def singleSource (N : FNet) (f : Flags) (k : Nat) : Flags :=
  if (uniqueSummits N ((N.sadLinks k).map fun i => (N.link i).1)).length ≤ 1 then
    disqualifySelf N f k false true
  else f

/-- Insertion into a list sorted by elevation, before the first element that is not lower. -/
def insertElev (elev : Nat → Rat) (k : Nat) : List Nat → List Nat
  | [] => [k]
  | j :: js => if elev k ≤ elev j then k :: j :: js else j :: insertElev elev k js

/-- `sorted(…, key=elevation)`, a stable sort. -/
def sortElev (elev : Nat → Rat) : List Nat → List Nat
  | [] => []
  | k :: ks => insertElev elev k (sortElev elev ks)

/-- The OrderedDict `features`, basin_saddle_finder.py:52-54, as the list of its keys. A dict holds
each id once, in the order of first insertion. -/
def basinFeatures (N : FNet) (saddles : List Nat) : List Nat :=
  sortElev (fun k => N.elev (.saddle k)) (toSet saddles)

/-- The loop over all features that finds stub saddles, basin_saddle_finder.py:57-60. -/
def stubPass (N : FNet) (features : List Nat) (f : Flags) : Flags :=
  features.foldl (fun f k => if f.saddleDisq k then f else singleSource N f k) f

/-- Loop body of `find_lowest_cycle_members`, basin_saddle_finder.py:147-155. -/
def lowestStep (elev : Node → Rat) (lowest : List Node) (n : Node) : List Node :=
  match lowest with
  | [] => []
  | l :: _ =>
    if elev n = elev l ∧ n ≠ l then lowest ++ [n]
    else if elev n < elev l then [n]
    else lowest

/-- `find_lowest_cycle_members`, basin_saddle_finder.py:137-156. -/
def findLowest (elev : Node → Rat) (cycle : List Node) : List Node :=
  cycle.foldl (lowestStep elev) (cycle.take 1)

/-- `list.remove`: drops the first element that is or equals the argument. -/
def removeFirst (p : Node → Bool) : List Node → List Node
  | [] => []
  | x :: xs => if p x then xs else x :: removeFirst p xs

/-- A Saddle or Runoff. -/
def Node.isSaddle : Node → Bool
  | .saddle _ => true
  | .summit _ => false

/-- `_disqualify_and_label`, basin_saddle_finder.py:122-135. A Summit has no
`disqualify_self_and_linkers` and no slot `basinSaddleAlternatives`. -/
def disqualifyAndLabel (N : FNet) (f : Flags) (lowest : List Node) : Except PyErr Flags :=
  match lowest with
  | [] => .error .indexError
  | .summit _ :: _ => .error .attributeError
  | .saddle k :: _ =>
    let f := disqualifySelf N f k true false
    if lowest.length > 1 then
      if !lowest.all Node.isSaddle then .error .attributeError
      else .ok { f with alts := lowest.foldl (fun (a : Node → List Node) n m =>
        if m = n then removeFirst (fun x => decide (x = n) || N.eq x n) lowest else a m) f.alts }
    else .ok f

/-- `features.pop(x.id, None)`. -/
def popFeature (feats : List Nat) (n : Node) : List Nat :=
  feats.filter fun k => decide (Node.saddle k ≠ n)

/-- Local variables of the inner search, basin_saddle_finder.py:74-77. `keys` are the keys of
`lookback`, `cyc` those of `cycleMembers`. -/
structure DSt where
  stack : List Node
  look : Node → Option Node
  keys : List Node
  used : Node → Option (List Node)
  cyc : List Node
  flags : Flags
  feats : List Nat

/-- The loop that follows `lookback`, basin_saddle_finder.py:100-106. -/
def climbBack (look : Node → Option Node) (root : Node) (pn : List Node) :
    Nat → List Node → Node → Except PyErr (List Node)
  | 0, _, _ => .error .fuel
  | n + 1, cycle, p =>
    if p ∈ pn then .ok (cycle ++ [p])
    else
      match look p with
      | none => .error .keyError
      | some q =>
        if q = root then .ok (cycle ++ [p] ++ [q])
        else climbBack look root pn n (cycle ++ [p]) q

/-- Body of `for nbr in z.feature_neighbors()`, basin_saddle_finder.py:84-111. -/
def exploreNbr (N : FNet) (root z : Node) (s : DSt) (nbr : Node) : Except PyErr DSt :=
  if N.dead s.flags nbr then .ok { s with feats := popFeature s.feats nbr }
  else
    match s.used nbr with
    | none => .ok { s with
        look := fun n => if n = nbr then some z else s.look n
        keys := s.keys ++ [nbr]
        stack := nbr :: s.stack
        used := fun n => if n = nbr then some [z] else s.used n }
    | some pn =>
      if N.eq nbr z then .ok s
      else if nbr ∈ (s.used z).getD [] then .ok s
      else
        match s.look z with
        | none => .error .keyError
        | some p => do
          let cycle ← climbBack s.look root pn (s.keys.length + 1) [nbr, z] p
          let flags ← disqualifyAndLabel N s.flags (findLowest N.elev cycle)
          pure { s with
            cyc := cycle.dropLast
            flags := flags
            used := fun n => if n = nbr then some (pn ++ [z]) else s.used n }

/-- The loop `while stack`, basin_saddle_finder.py:78-111. -/
def exploreLoop (N : FNet) (root : Node) : Nat → DSt → Except PyErr DSt
  | 0, _ => .error .fuel
  | n + 1, s =>
    match s.stack with
    | [] => .ok s
    | z :: rest =>
      if N.dead s.flags z then
        exploreLoop N root n { s with stack := rest, feats := popFeature s.feats z }
      else
        match (N.nbrs z).foldlM (exploreNbr N root z) { s with stack := rest } with
        | .error e => .error e
        | .ok s' => exploreLoop N root n s'

/-- State at the start of a search from `root`. -/
def DSt.start (root : Node) (f : Flags) (feats : List Nat) : DSt where
  stack := [root]
  look n := if n = root then some root else none
  keys := [root]
  used n := if n = root then some [] else none
  cyc := []
  flags := f
  feats := feats

/-- The loop `while features`, basin_saddle_finder.py:67-117. -/
def basinLoop (N : FNet) : Nat → Flags → List Nat → Except PyErr Flags
  | 0, _, _ => .error .fuel
  | n + 1, f, feats =>
    match feats.getLast? with
    | none => .ok f
    | some r =>
      if N.dead f (.saddle r) then basinLoop N n f feats.dropLast
      else
        match exploreLoop N (.saddle r) (N.nSummits + N.nSaddles + 2)
            (.start (.saddle r) f feats.dropLast) with
        | .error e => .error e
        | .ok s =>
          let feats := s.feats.filter fun k => !(decide (Node.saddle k ∈ s.keys) && !decide (Node.saddle k ∈ s.cyc))
          let feats := if s.cyc = [] then feats else if r ∈ feats then feats else feats ++ [r]
          basinLoop N n s.flags feats

/-- `disqualify_basin_saddles`, basin_saddle_finder.py:39-120, on the saddles with the given
numbers. -/
def disqualifyBasinSaddles (N : FNet) (fuel : Nat) (saddles : List Nat) (f : Flags) :
    Except PyErr Flags :=
  let features := basinFeatures N saddles
  basinLoop N fuel (stubPass N features f) features

/-- `SpotElevation.__eq__` on features of the two collections. -/
def featEq (a b : Option Feature) : Bool :=
  match a, b with
  | some s, some t => seEq s.lat s.lon s.elevation t.lat t.lon t.elevation
  | _, _ => false

/-- Whether a Python set holds two Summits as one: equal hashes (spot_elevation.py:195-206; the tuple
that is hashed stands for the hash) and equality. -/
def sumSetEq (a b : Option Feature) : Bool :=
  match a, b with
  | some s, some t => !seNe s.lat s.lon s.elevation t.lat t.lon t.elevation &&
      seEq s.lat s.lon s.elevation t.lat t.lon t.elevation
  | _, _ => false

/-- The feature behind a node of the network. -/
def DMap.feature (m : DMap) : Node → Option Feature
  | .summit D => m.summits[D]?
  | .saddle k => m.st.objs[k]?.map (·.f)

/-- The feature network of a DomainMap. `Summit.disqualified` is `False` from `__init__`
(summit.py:75) and written nowhere else. -/
def DMap.net (m : DMap) : FNet where
  nSummits := m.summits.length
  nSaddles := m.st.objs.length
  elev n := ((m.feature n).map (·.elevation)).getD 0
  edge n := ((m.feature n).map (·.edge)).getD true
  eq a b := featEq (m.feature a) (m.feature b)
  setEq a b := sumSetEq m.summits[a]? m.summits[b]?
  link i := (m.st.store[i]?.map fun l => (l.summit, l.saddle)).getD (0, 0)
  sumLinks := m.st.sumLinks
  sadLinks := m.st.sadLinks
  sumDisq _ := false

/-- The flags as the constructors set them (saddle.py:97-116, linker.py:46-50) and the walk leaves
them. -/
def DMap.flags (m : DMap) : Flags where
  basin _ := false
  single _ := false
  over k := (m.st.objs[k]?.map (·.disq)).getD none
  linkDisq _ := false
  alts _ := []

/-- `DomainMap.detect_basin_saddles`, domain_map.py:352-358. -/
def DMap.detectBasins (m : DMap) (fuel : Nat) (f : Flags) : Except PyErr Flags :=
  disqualifyBasinSaddles m.net fuel m.saddles f

/-- `DomainMap.run()`, domain_map.py:91-131. -/
def DMap.run (E : SaddleEnv) (o : Pt → Oracle) (order : List Pt) (rebuild : Bool) (fuel : Nat) :
    Except PyErr (DMap × Flags) := do
  let m ← DMap.runSparse E o order rebuild
  let f ← m.detectBasins fuel m.flags
  pure (m, f)

end PyProm
