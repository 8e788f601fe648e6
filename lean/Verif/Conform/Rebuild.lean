import Verif.Model.DomainMap
import Verif.Model.Closest
import Verif.Model.Coords
import Verif.Conform.Raster

/-
The cases of /repo/pyprom/tests/containers/testSaddlesContainer.py:157-316 evaluated on the model: `rebuildSaddles` for
a multipoint saddle with islands. These are tests of the model against results the authors state for the code, not
proofs of properties.
-/
namespace PyProm

/-- `generate_multipoint_saddle(100, 200, 10, 10, datamap, 1000, islands, n)`, tests/util/helpers.py:12-84: the block
of equal points without the islands, one high neighbourhood per island and `n` along the upper side. -/
def tSaddle (islands : List Pt) (n : Nat) : Feature where
  kind := .saddle
  lat := 100
  lon := 200
  elevation := 1000
  multipoint := some (((List.range 10).flatMap fun (x : Nat) => (List.range 10).map fun (y : Nat) =>
    ((100 + (x : Int), 200 + (y : Int)) : Pt)).filter (!islands.contains ·) |>.map MPt.ofPt)
  edge := false
  edgePoints := []
  hpn := islands.map (fun p => [⟨p.1, p.2, 1001⟩]) ++ (List.range n).map fun i => [⟨99, 199 + (i : Int), 1001⟩]

/-- `find_closest_points` over the raster of the tests. Squared distances give the same order. -/
def tSearch : PairSearch := closestPairBrute fun a b => hgt.distanceSq a.xy b.xy

/-- `rebuildSaddles` of a container with that saddle gives saddles equal (`==`) to the stated ones, in that order. -/
def rebuildTest (f : Feature) (want : List (Rat × Rat)) : Bool :=
  match rebuildSaddles hgt tSearch [0] [{ f := f }] with
  | .error _ => false
  | .ok (objs, ids) =>
    let got := ids.filterMap (objs[·]?)
    got.length == want.length && (got.zip want).all fun p => seEq p.1.f.lat p.1.f.lon p.1.f.elevation p.2.1 p.2.2 1000

/-- `testSaddlesContainerRebuildTwoIslandsTwoPerimeter`, testSaddlesContainer.py:182-209. -/
example : rebuildTest (tSaddle [(103, 203), (107, 207)] 2) [(44.97097222222222, -71.94319444444444),
    (44.97208333333334, -71.94430555555554), (44.97236111111111, -71.94458333333333)] := by decide +kernel

/-- `testSaddlesContainerRebuildOneIslandTwoPerimeter`, testSaddlesContainer.py:211-233. -/
example : rebuildTest (tSaddle [(105, 205)] 2) [(44.971805555555555, -71.94402777777778),
    (44.97236111111111, -71.94458333333333)] := by decide +kernel

/-- `testSaddlesContainerRebuildNoIslandTwoPerimeter`, testSaddlesContainer.py:235-252. -/
example : rebuildTest (tSaddle [] 2) [(44.97236111111111, -71.94458333333333)] := by decide +kernel

/-- `testSaddlesContainerRebuildOneIslandOnePerimeter`, testSaddlesContainer.py:254-273. -/
example : rebuildTest (tSaddle [(105, 205)] 1) [(44.971805555555555, -71.94402777777778)] := by decide +kernel

/-- `testSaddlesContainerRebuildOnePerimeter`, testSaddlesContainer.py:275-289: the same object. -/
example : rebuildTest (tSaddle [] 1) [(100, 200)] ∧
    (rebuildSaddles hgt tSearch [0] [{ f := tSaddle [] 1 }]).toOption.map (·.2) = some [0] := by decide +kernel

/-- `testSaddlesContainerRebuildThreeHSNoMultiPoint`, testSaddlesContainer.py:291-316. -/
example : rebuildTest (mkSaddle (44.97236111111111, -71.94458333333333) 1000 none false []
      [[⟨99, 199, 1001⟩], [⟨99, 201, 1001⟩], [⟨101, 199, 1001⟩]])
    [(44.97236111111111, -71.94458333333333), (44.97236111111111, -71.94458333333333)] := by decide +kernel

end PyProm
