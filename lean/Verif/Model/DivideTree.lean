import Verif.Model.Graph
import Verif.Model.Containers

/-
Model of the divide tree.
Python source: /repo/pyprom/dividetree.py
-/
namespace PyProm

/-- `LPRpath`, dividetree.py:180-187: the linkers and the saddle it ends at. -/
structure LprPath where
  path : List Nat
  saddle : Nat
deriving DecidableEq, Repr

/-- What `branchChaser` writes: the dict `exempt` (its keys), the paths and the flag `edge` of the `LPRPaths` object,
`lprBoundary` of the summit it was started at and of the saddles, and the list `busted`. -/
structure ChaseSt where
  exempt : List Nat
  paths : List LprPath
  edge : Bool
  sumBnd : List Nat
  sadBnd : Nat → List Nat
  busted : List Nat

/-- `if x not in l: l.append(x)`, membership by identity or `==`. -/
def addNew (eq : Nat → Nat → Bool) (x : Nat) (l : List Nat) : List Nat :=
  if l.any (fun y => decide (y = x) || eq y x) then l else l ++ [x]

/-- Append a path; `edge` is set if it ends at the edge of the map (dividetree.py:123-126, 137-140). -/
def ChaseSt.report (s : ChaseSt) (path : List Nat) (saddle : Nat) (edge : Bool) : ChaseSt :=
  { s with paths := s.paths ++ [⟨path, saddle⟩], edge := s.edge || edge }

/-- Record that saddle `k` bounds the region of `master`, dividetree.py:155-158. -/
def ChaseSt.mark (N : FNet) (s : ChaseSt) (master k : Nat) : ChaseSt :=
  { s with
    sadBnd := fun k' => if k' = k then addNew (fun a b => N.eq (.summit a) (.summit b)) master (s.sadBnd k) else s.sadBnd k'
    sumBnd := addNew (fun a b => N.eq (.saddle a) (.saddle b)) k s.sumBnd }

/-- Body of the inner loop, dividetree.py:130-158: from summit `branch` over linker `i` to the summit of linker `j`. `go`
is the recursive call. -/
def chaseNext (N : FNet) (f : Flags) (go : Nat → List Nat → ChaseSt → ChaseSt) (master branch i : Nat) (path : List Nat)
    (s : ChaseSt) (j : Nat) : ChaseSt :=
  if j ∈ s.exempt || f.linkDisq i then s
  else
    let next := (N.link j).1
    if N.elev (.summit next) ≤ N.elev (.summit branch) ∧ N.edge (.summit next) = true then
      s.report (path ++ [i]) (N.link i).2 true
    else if N.elev (.summit next) ≤ N.elev (.summit branch) then go next (path ++ [i, j]) s
    else if N.elev (.summit next) > N.elev (.summit branch) then
      (s.report (path ++ [i]) (N.link i).2 false).mark N master (N.link i).2
    else s

/-- Body of the main loop, dividetree.py:105-158. -/
def chaseLinker (N : FNet) (f : Flags) (go : Nat → List Nat → ChaseSt → ChaseSt) (master branch : Nat) (path : List Nat)
    (s : ChaseSt) (i : Nat) : ChaseSt :=
  if f.linkDisq i then s
  else if i ∈ s.exempt then s
  else
    let s := { s with exempt := s.exempt ++ [i] }
    if f.saddleDisq (N.link i).2 then s
    else if N.edge (.saddle (N.link i).2) then s.report (path ++ [i]) (N.link i).2 true
    else (N.linkersViaSaddle f true true i).foldl (chaseNext N f go master branch i path) s

/-- `branchChaser`, dividetree.py:78-158. `left` is how deep the recursion may still go; at depth 401 the call only records
that it gave up. -/
def chase (N : FNet) (f : Flags) (master : Nat) : (left : Nat) → Nat → List Nat → ChaseSt → ChaseSt
  | 0, _, _, s => { s with busted := addNew (fun a b => N.eq (.summit a) (.summit b)) master s.busted }
  | left + 1, branch, path, s => (N.sumLinks branch).foldl (chaseLinker N f (chase N f master left) master branch path) s

/-- What `run` writes: `lprBoundary` of summits and saddles, `lprPaths` of the summits, `busted`. -/
structure TreeSt where
  sumBnd : Nat → List Nat
  sadBnd : Nat → List Nat
  lprPaths : Nat → Option (List LprPath × Bool)
  busted : List Nat

/-- `localProminentRegion`, dividetree.py:67-74. -/
def localProminentRegion (N : FNet) (f : Flags) (s : TreeSt) (D : Nat) : TreeSt :=
  let c := chase N f D 400 D [] ⟨[], [], false, s.sumBnd D, s.sadBnd, s.busted⟩
  { sumBnd := fun D' => if D' = D then c.sumBnd else s.sumBnd D'
    sadBnd := c.sadBnd
    lprPaths := fun D' => if D' = D then some (c.paths, c.edge) else s.lprPaths D'
    busted := c.busted }

/-- `run`, dividetree.py:49-63, on the summits `sums`: IndexError from `highest` if there are none. `localHighest` and `parent`
of the highest summit, which nothing reads, are left out, and so is logging. -/
def divideRun (N : FNet) (f : Flags) (sums : List Nat) (s : TreeSt) : Except PyErr TreeSt := do
  let _ ← highestOf (fun D => N.elev (.summit D)) sums
  pure (sums.foldl (localProminentRegion N f) s)

/-- `LPRpath.decline`, dividetree.py:187, in metres: from the summit of the first linker down to the saddle. -/
def LprPath.decline (N : FNet) (p : LprPath) : Except PyErr Rat :=
  match p.path with
  | [] => .error .indexError
  | i :: _ => .ok (N.elev (.summit (N.link i).1) - N.elev (.saddle p.saddle))

end PyProm
