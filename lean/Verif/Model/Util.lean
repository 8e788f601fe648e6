import Verif.Model.Location
import Verif.Model.Neighbors

/-
Model of /repo/pyprom/lib/util.py and /repo/pyprom/lib/fastlookup/fastlookup.py. Not modelled:
randomString. Numbers are rationals, no rounding of floats.
-/
namespace PyProm

/-! ### Degrees -/

/-- `int(r)`: truncation towards zero. -/
def truncRat (r : Rat) : Int := if r < 0 then -(-r).floor else r.floor

/-- `abs(r)`. -/
def absRat (r : Rat) : Rat := if r < 0 then -r else r

/-- `dottedDecimaltoDegrees`, util.py:19-31: degrees, minutes, seconds. -/
def toDms (c : Rat) : Int × Int × Rat :=
  let degrees := truncRat c
  let md := absRat (c - degrees) * 60
  let minutes := truncRat md
  (degrees, minutes, (md - minutes) * 60)

/-- `degreesToDottedDecimal`, util.py:34-46: rounded to six digits. -/
def ofDms (deg mnt sec : Rat) : Rat := round6 (deg + mnt / 60 + sec / 3600) / 1000000

/-! ### Coordinate hashes -/

/-- `coordinateHashToXYTupleList`, util.py:76-87; coordinateHashToList and coordinateHashToGridPointList
(util.py:49-73) differ in the type of the points only. A dict is a list of keys with values in order
of insertion. -/
def hashToList {α : Type} (h : List (Int × List (Int × α))) : List (Int × Int) :=
  h.flatMap fun r => r.2.map fun c => (r.1, c.1)

/-! ### Repeated characters -/

/-- `itertools.groupby`: keys with their runs. -/
def groupby {α : Type} [DecidableEq α] : List α → List (α × List α)
  | [] => []
  | a :: l => match groupby l with
    | [] => [(a, [a])]
    | (b, g) :: gs => if a = b then (a, a :: g) :: gs else (a, [a]) :: (b, g) :: gs

/-- `compressRepetetiveChars`, util.py:90-98. -/
def compressChars {α : Type} [DecidableEq α] (s : List α) : List α := (groupby s).map (·.1)

/-! ### Checksum -/

/-- The loop of `checksum`, util.py:133-149: chunks of at most `n` bytes are read until nothing is read. `upd`
is the `update` method of the hash object. Reading zero bytes ends the loop at once. -/
def checksumLoop {H B : Type} (upd : H → List B → H) (n : Nat) : Nat → H → List B → H
  | 0, h, _ => h
  | fuel + 1, h, file =>
    let chunk := file.take n
    if chunk.isEmpty then h else checksumLoop upd n fuel (upd h chunk) (file.drop n)

/-- `checksum`, util.py:133-149; every round but the last consumes a byte. -/
def checksum {H B D : Type} (init : H) (upd : H → List B → H) (digest : H → D) (blockSize chunkBlocks : Nat)
    (file : List B) : D :=
  digest (checksumLoop upd (chunkBlocks * blockSize) (file.length + 1) init file)

/-! ### FastLookup -/

/-- A dict in order of insertion. -/
abbrev PyDict (K β : Type) := List (K × β)

/-- `d[k] = g(d.get(k))`. -/
def PyDict.upd {K β : Type} [DecidableEq K] (k : K) (g : Option β → β) : PyDict K β → PyDict K β
  | [] => [(k, g none)]
  | (k', b) :: l => if k' = k then (k', g (some b)) :: l else (k', b) :: PyDict.upd k g l

/-- `d.get(k)`. -/
def PyDict.get {K β : Type} [DecidableEq K] (d : PyDict K β) (k : K) : Option β :=
  (d.find? fun e => e.1 = k).map (·.2)

/-- A value in a lookup: `None` (removed or stored), `True`, or another one. -/
inductive FVal (V : Type)
  | none
  | true
  | val (v : V)
deriving DecidableEq, Repr

/-- A FastLookup, fastlookup.py:14-28. `auto` says whether the hash is a `defaultdict(dict)`; one that
is passed in need not be. -/
structure FastLookup (K V : Type) where
  hash : PyDict K (PyDict K (FVal V))
  auto : Bool
  default : FVal V
deriving DecidableEq, Repr

variable {K V : Type} [DecidableEq K]

/-- `lookup_hash[x]`: a `defaultdict` enters an empty dict for a missing key. -/
def FastLookup.row (s : FastLookup K V) (x : K) : Except PyErr (FastLookup K V × PyDict K (FVal V)) :=
  match PyDict.get s.hash x with
  | some r => .ok (s, r)
  | .none => if s.auto then .ok ({ s with hash := s.hash ++ [(x, [])] }, []) else .error .keyError

/-- `set`, fastlookup.py:66-72. -/
def FastLookup.set (s : FastLookup K V) (x y : K) (v : FVal V) : Except PyErr (FastLookup K V) := do
  let (s, r) ← s.row x
  pure { s with hash := PyDict.upd x (fun _ => PyDict.upd y (fun _ => v) r) s.hash }

/-- `get`, fastlookup.py:74-80. -/
def FastLookup.get (s : FastLookup K V) (x y : K) : Except PyErr (FastLookup K V × FVal V) := do
  let (s, r) ← s.row x
  pure (s, (PyDict.get r y).getD s.default)

/-- `remove`, fastlookup.py:82-87: stores None. -/
def FastLookup.remove (s : FastLookup K V) (x y : K) : Except PyErr (FastLookup K V) := s.set x y .none

/-- A point given to the constructor: tuples of two or three, GridPoint, BaseGridPoint, SpotElevation,
BaseCoordinate. GridPoint is a BaseGridPoint, SpotElevation a BaseCoordinate. -/
inductive FPt (K V : Type)
  | tup2 (x y : K)
  | tup3 (x y : K) (v : V)
  | grid (x y : K) (e : V)
  | base (x y : K)
  | spot (lat lon : K) (e : V)
  | coord (lat lon : K)
deriving DecidableEq, Repr

/-- `pt[0], pt[1]`. -/
def FPt.items : FPt K V → Except PyErr (K × K)
  | .tup2 x y => .ok (x, y)
  | .tup3 x y _ => .ok (x, y)
  | _ => .error .typeError

/-- `pt[2]`. -/
def FPt.item2 : FPt K V → Except PyErr V
  | .tup2 _ _ => .error .indexError
  | .tup3 _ _ v => .ok v
  | _ => .error .typeError

/-- `pt.x, pt.y`. -/
def FPt.xy : FPt K V → Except PyErr (K × K)
  | .grid x y _ => .ok (x, y)
  | .base x y => .ok (x, y)
  | _ => .error .attributeError

/-- `pt.latitude, pt.longitude`. -/
def FPt.latLon : FPt K V → Except PyErr (K × K)
  | .spot x y _ => .ok (x, y)
  | .coord x y => .ok (x, y)
  | _ => .error .attributeError

/-- `pt.elevation`. -/
def FPt.elevation : FPt K V → Except PyErr V
  | .grid _ _ e => .ok e
  | .spot _ _ e => .ok e
  | _ => .error .attributeError

/-- Coordinates and value entered for a point; the type of the first point decides
(fastlookup.py:37-64). -/
def FPt.entry (first : FPt K V) (onlyExistence : Bool) (p : FPt K V) : Except PyErr ((K × K) × FVal V) :=
  let val := fun (v : Except PyErr V) => (if onlyExistence then .ok .true else v.map .val : Except PyErr (FVal V))
  match first with
  | .tup2 _ _ => do pure (← p.items, .true)
  | .tup3 _ _ _ => do
    let v ← val p.item2
    pure (← p.items, v)
  | .grid _ _ _ => do
    let v ← val p.elevation
    pure (← p.xy, v)
  | .base _ _ => do pure (← p.xy, .true)
  | .spot _ _ _ => do
    let v ← val p.elevation
    pure (← p.latLon, v)
  | .coord _ _ => do pure (← p.latLon, .true)

/-- `FastLookup.__init__`, fastlookup.py:21-64. An empty or missing hash is replaced by a new
`defaultdict(dict)`; points are read only then. -/
def FastLookup.new (points : List (FPt K V)) (hash : Option (PyDict K (PyDict K (FVal V)) × Bool))
    (default : FVal V) (onlyExistence : Bool) : Except PyErr (FastLookup K V) :=
  match hash with
  | some (e :: h, auto) => .ok ⟨e :: h, auto, default⟩
  | _ =>
    match points with
    | [] => .ok ⟨[], true, default⟩
    | first :: _ => points.foldlM (fun s p => do
        let (xy, v) ← first.entry onlyExistence p
        s.set xy.1 xy.2 v) ⟨[], true, default⟩

/-- `slice`, fastlookup.py:89-104. The keys `x` are numbers, so that `x.keys()` (line 101) raises
AttributeError as soon as one is within the bounds. -/
def FastLookup.slice [LE K] [DecidableRel (α := K) (· ≤ ·)] (s : FastLookup K V) (lowerx _lowery upperx _uppery : K) :
    Except PyErr (FastLookup K V) :=
  if s.hash.any fun r => decide (r.1 ≤ upperx) && decide (lowerx ≤ r.1) then .error .attributeError
  else .ok ⟨[], true, s.default⟩

/-- One call on a lookup. -/
inductive FOp (K V : Type)
  | set (x y : K) (v : FVal V)
  | remove (x y : K)
  | get (x y : K)

/-- The lookup after a call. -/
def FOp.run (s : FastLookup K V) : FOp K V → Except PyErr (FastLookup K V)
  | .set x y v => s.set x y v
  | .remove x y => s.remove x y
  | .get x y => do
    let (s, _) ← s.get x y
    pure s

end PyProm
