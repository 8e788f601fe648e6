import Verif.Model.Grid

/-
Model of /repo/pyprom/lib/logic/equalheight.py
-/
namespace PyProm

/-- Local variables of `equalHeightBlob` (equalheight.py:43-58).
`explored`/`perimHash`/`perimEdge` are Python sets or dict keys, kept as lists.
The stack `toBeAnalyzed` has its top at the head and drops the elevation component,
which is never read (only indices 0 and 1 are, line 58). -/
structure BlobSt where
  explored : List Pt
  members : List Pt
  perimHash : List Pt
  perim : List P3
  stack : List Pt
  perimEdge : List P3
  mpEdges : List P3
  edge : Bool
deriving DecidableEq, Repr

/-- Body of the neighbour loop, equalheight.py:65-85. -/
def blobVisit (d : DataMap) (h : Rat) (s : BlobSt) : Nbr → BlobSt
  | (_, _, none) => s
  | (x, y, some e) =>
    if some e = d.nodata then s
    else if e = h ∧ (x, y) ∉ s.explored then
      { s with
        explored := s.explored ++ [(x, y)]
        members := s.members ++ [(x, y)]
        mpEdges := if d.isMapEdge x y then s.mpEdges ++ [⟨x, y, e⟩] else s.mpEdges
        stack := (x, y) :: s.stack }
    else if e ≠ h then
      if (x, y) ∈ s.perimHash then s
      else
        let s1 := if e > h then
          { s with perimHash := s.perimHash ++ [(x, y)], perim := s.perim ++ [⟨x, y, e⟩] }
          else s
        if d.isMapEdge x y then { s1 with perimEdge := setAdd s1.perimEdge ⟨x, y, e⟩ } else s1
    else s

/-- One turn of the `while toBeAnalyzed` loop after popping `p`, equalheight.py:57-85. -/
def blobStep (d : DataMap) (h : Rat) (p : Pt) (rest : List Pt) (s : BlobSt) : BlobSt :=
  (d.iterateFull p.1 p.2).foldl (blobVisit d h)
    { s with stack := rest, edge := s.edge || d.isMapEdge p.1 p.2 }

/-- The `while toBeAnalyzed` loop, equalheight.py:56-85; `none` = out of fuel. -/
def blobLoop (d : DataMap) (h : Rat) : Nat → BlobSt → Option BlobSt
  | 0, _ => none
  | n + 1, s =>
    match s.stack with
    | [] => some s
    | p :: rest => blobLoop d h n (blobStep d h p rest s)

/-- Initial state, equalheight.py:41-53. -/
def blobInit (d : DataMap) (x y : Int) (h : Rat) : BlobSt where
  explored := [(x, y)]
  members := [(x, y)]
  perimHash := []
  perim := []
  stack := [(x, y)]
  perimEdge := []
  mpEdges := if d.isMapEdge x y then [⟨x, y, h⟩] else []
  edge := false

/-- The result of `equalHeightBlob`: the MultiPoint's points and elevation, its
Perimeter's points, map edge flag and map edge points, and the list of edge points of
the area (equalheight.py:86-99). -/
structure Blob where
  points : List Pt
  elevation : Rat
  perim : List P3
  mapEdge : Bool
  mapEdgePoints : List P3
  edgePoints : List P3
deriving DecidableEq, Repr

/-- `equalHeightBlob`, equalheight.py:24-99. `none` stands for a loop that has not
finished after `size + 1` turns; `C03` shows that this does not happen. -/
def equalHeightBlob (d : DataMap) (x y : Int) (h : Rat) : Option Blob :=
  (blobLoop d h (d.size + 1) (blobInit d x y h)).map fun s =>
    { points := s.members, elevation := h, perim := s.perim, mapEdge := s.edge,
      mapEdgePoints := s.perimEdge, edgePoints := s.mpEdges }

end PyProm
