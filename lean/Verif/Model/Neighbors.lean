import Verif.Model.Grid

/-
Model of /repo/pyprom/lib/logic/contiguous_neighbors.py and tuple_funcs.py
-/
namespace PyProm

/-- Failures a modelled Python function can end with. `fuel` is the model's own
"has not finished yet". -/
inductive PyErr
  | keyError | indexError | typeError | attributeError | valueError | fuel
deriving DecidableEq, Repr

/-- Local state of the inner `while stack` loop of `contiguous_neighbors`
(contiguous_neighbors.py:31-60). The nested dict `lookup` is a function from
coordinates; a missing key and a stored `None` both read as `none`, exactly as
`x_axis.get(y_val, None)` treats them. -/
structure CnSt where
  points : List P3
  lookup : Pt → Option Rat
  stack : List P3
  neighbors : List P3

/-- `lookup[x][y] = v`. -/
def lookupSet (f : Pt → Option Rat) (p : Pt) (v : Option Rat) : Pt → Option Rat :=
  fun q => if q = p then v else f q

/-- Body of the offset loops, contiguous_neighbors.py:44-59. `points.remove` raises
KeyError on a missing element. -/
def cnVisit (s : CnSt) (q : Pt) : Except PyErr CnSt :=
  if q.1 < 0 then .ok s
  else if q.2 < 0 then .ok s
  else match s.lookup q with
    | none => .ok s
    | some e =>
      let pt : P3 := ⟨q.1, q.2, e⟩
      if pt ∈ s.points then
        .ok { stack := pt :: s.stack
              points := s.points.erase pt
              lookup := lookupSet s.lookup q none
              neighbors := s.neighbors ++ [pt] }
      else .error .keyError

/-- Coordinates looked at from `p`, in `OFFSETS` order (contiguous_neighbors.py:14,
44-50). -/
def cnAround (p : P3) : List Pt :=
  ([-1, 0, 1] : List Int).flatMap fun ox => ([-1, 0, 1] : List Int).map fun oy =>
    (p.x + ox, p.y + oy)

/-- Inner loop `while stack`, contiguous_neighbors.py:41-59. Top of stack at head. -/
def cnInner : Nat → CnSt → Except PyErr CnSt
  | 0, _ => .error .fuel
  | n + 1, s =>
    match s.stack with
    | [] => .ok s
    | p :: rest => do
      let s' ← (cnAround p).foldlM cnVisit { s with stack := rest }
      cnInner n s'

/-- Outer loop `while points`, contiguous_neighbors.py:36-59. `points.pop()` removes
an arbitrary element: `pop` names its position. The list of neighbourhoods is
returned in creation order. -/
def cnOuter (pop : List P3 → Nat) : Nat → List P3 → (Pt → Option Rat) →
    Except PyErr (List (List P3))
  | 0, _, _ => .error .fuel
  | n + 1, points, lookup =>
    match points[pop points % points.length]? with
    | none => .ok []
    | some seed => do
      let s ← cnInner (points.length + 1)
        { points := points.erase seed
          lookup := lookupSet lookup seed.xy none
          stack := [seed]
          neighbors := [seed] }
      let rest ← cnOuter pop n s.points s.lookup
      pure (s.neighbors :: rest)

/-- `contiguous_neighbors`, contiguous_neighbors.py:17-60. -/
def contiguousNeighbors (pop : List P3 → Nat) (points : List P3) :
    Except PyErr (List (List P3)) :=
  let pts := toSet points
  let lookup := pts.foldl (fun f p => lookupSet f p.xy (some p.e)) (fun _ => none)
  cnOuter pop (pts.length + 1) pts lookup

/-- State of `touching_neighborhoods`: the ordered result dict and `tracker`. -/
structure TnSt where
  result : List (Nat × List Nat)
  tracker : List (Nat × Nat)
deriving DecidableEq, Repr

/-- `touching_neighborhoods[us].append(them)` on an insertion ordered defaultdict. -/
def ddAppend (m : List (Nat × List Nat)) (k v : Nat) : List (Nat × List Nat) :=
  if m.any (fun kv => kv.1 == k) then
    m.map fun kv => if kv.1 == k then (kv.1, kv.2 ++ [v]) else kv
  else m ++ [(k, [v])]

/-- The `lookup` of contiguous_neighbors.py:82-85: index of the last list which holds
the coordinate. -/
def tnLookup (ls : List (List P3)) : Pt → Option Nat :=
  ls.zipIdx.foldl (fun f li => li.1.foldl (fun f p => fun q => if q = p.xy then some li.2 else f q) f)
    (fun _ => none)

/-- Body of the neighbour loop, contiguous_neighbors.py:88-94. `if lookup[x].get(y)`
is false for index 0 as well. -/
def tnVisit (lookup : Pt → Option Nat) (us : Nat) (s : TnSt) (n : Nbr) : TnSt :=
  match lookup (n.1, n.2.1) with
  | none => s
  | some them =>
    if them = 0 then s
    else if us = them then s
    else if (us, them) ∈ s.tracker then s
    else { tracker := s.tracker ++ [(them, us), (us, them)], result := ddAppend s.result us them }

/-- `touching_neighborhoods`, contiguous_neighbors.py:62-95. -/
def touchingNeighborhoods (d : DataMap) (ls : List (List P3)) : List (Nat × List Nat) :=
  (ls.zipIdx.foldl (fun (s : TnSt) li =>
    li.1.foldl (fun s p => (d.iterateFull p.x p.y).foldl (tnVisit (tnLookup ls) li.2) s) s)
    (⟨[], []⟩ : TnSt)).result

/-- Loop of `highest`, tuple_funcs.py:20-26. -/
def highestLoop : List P3 → Rat × List P3 → Rat × List P3
  | [], a => a
  | p :: ps, (h, acc) =>
    if p.e > h then highestLoop ps (p.e, [p])
    else if p.e = h then highestLoop ps (h, acc ++ [p])
    else highestLoop ps (h, acc)

/-- `highest`, tuple_funcs.py:11-27; an empty list raises IndexError. -/
def highestP3 (ps : List P3) : Except PyErr (List P3) :=
  match ps with
  | [] => .error .indexError
  | p :: _ => .ok (highestLoop ps (p.e, [])).2

end PyProm
