import Verif.Model.Kml

/-
The cases of /repo/pyprom/tests/testKMLWriter.py evaluated on the model. These are tests of the model against results
the authors state for the code, not proofs of properties.
-/
namespace PyProm

/-- The object at `(1, 1)` or `(2, 2)` of testKMLWriter.py:30-48; the number is its identity. -/
def kSpot (k : Nat) (i : Nat) : KSpot := ⟨k, i, i, 100 * i⟩

/-- The texts of the places that occur: testKMLWriter.py:64-70. A line whose ends coincide is written with one point.
Others do not occur. -/
def kWkt : Wkt where
  point x _ := if x = 1 then "POINT (1.0 1.0)".toList else "POINT (2.0 2.0)".toList
  line p _ := if p.1 = 1 then "LINESTRING (1.0 1.0)".toList else "LINESTRING (2.0 2.0)".toList
  area _ := []

/-- The objects of the tests. -/
def kSaddle (i : Nat) : KLeaf := .saddle (kSpot i i) false
/-- See `kSaddle`. -/
def kSummit (i : Nat) : KLeaf := .summit (kSpot (2 + i) i)
/-- See `kSaddle`. -/
def kRunoff (i : Nat) : KLeaf := .runoff (kSpot (4 + i) i)
/-- See `kSaddle`. -/
def kElev (i : Nat) : KLeaf := .spot (kSpot (6 + i) i)
/-- See `kSaddle`. -/
def kLinker (i : Nat) : KLeaf := .linker i (kSpot i i) (kSpot (2 + i) i)

/-- The keys of the two tables and the number of entries of the folders for linkers, saddles, summits, runoffs, spot
elevations and domains after `extend` with the items; `none` if it raises. -/
def kRun (l : List KItem) : Option (List String × List String × List Nat) :=
  let r := KmlSt.extend kWkt {} l
  if r.2 then some (r.1.spotKeys.map String.ofList, r.1.lineKeys.map String.ofList,
    [r.1.linkers.length, r.1.saddles.length, r.1.summits.length, r.1.runoffs.length, r.1.spots.length,
      r.1.domains.length]) else none

/-- `testDomainAppendKML`, testKMLWriter.py:50-78. -/
example : kRun [.map [kLinker 1] [kSaddle 1, kSaddle 2] [kSummit 1, kSummit 2] [kRunoff 1, kRunoff 2]
      [.domain 0 (kSpot 3 1)]] =
    some (["SaddlePOINT (1.0 1.0)", "SaddlePOINT (2.0 2.0)", "SummitPOINT (1.0 1.0)", "SummitPOINT (2.0 2.0)",
      "RunOffPOINT (1.0 1.0)", "RunOffPOINT (2.0 2.0)"], ["LINESTRING (1.0 1.0)"], [1, 2, 2, 2, 0, 1]) := by
  decide +kernel

/-- `testSaddlesAppendKML` to `testSaddleContainerExtendKML`, testKMLWriter.py:80-133: two saddles one after the other or
in a container, the same one twice. -/
example : kRun [.leaf (kSaddle 1), .leaf (kSaddle 2)] =
      some (["SaddlePOINT (1.0 1.0)", "SaddlePOINT (2.0 2.0)"], [], [0, 2, 0, 0, 0, 0]) ∧
    kRun [.leaf (kSaddle 1), .leaf (kSaddle 1)] = some (["SaddlePOINT (1.0 1.0)"], [], [0, 1, 0, 0, 0, 0]) ∧
    kRun [.container [kSaddle 1, kSaddle 2]] =
      some (["SaddlePOINT (1.0 1.0)", "SaddlePOINT (2.0 2.0)"], [], [0, 2, 0, 0, 0, 0]) := by decide +kernel

/-- `testSummitsAppendKML` to `testSummitsContainerExtendKML`, testKMLWriter.py:135-188. -/
example : kRun [.leaf (kSummit 1), .leaf (kSummit 2)] =
      some (["SummitPOINT (1.0 1.0)", "SummitPOINT (2.0 2.0)"], [], [0, 0, 2, 0, 0, 0]) ∧
    kRun [.leaf (kSummit 1), .leaf (kSummit 1)] = some (["SummitPOINT (1.0 1.0)"], [], [0, 0, 1, 0, 0, 0]) ∧
    kRun [.container [kSummit 1, kSummit 2]] =
      some (["SummitPOINT (1.0 1.0)", "SummitPOINT (2.0 2.0)"], [], [0, 0, 2, 0, 0, 0]) := by decide +kernel

/-- `testRunoffsAppendKML` to `testRunoffsContainerExtendKML`, testKMLWriter.py:190-243. -/
example : kRun [.leaf (kRunoff 1), .leaf (kRunoff 2)] =
      some (["RunOffPOINT (1.0 1.0)", "RunOffPOINT (2.0 2.0)"], [], [0, 0, 0, 2, 0, 0]) ∧
    kRun [.leaf (kRunoff 1), .leaf (kRunoff 1)] = some (["RunOffPOINT (1.0 1.0)"], [], [0, 0, 0, 1, 0, 0]) ∧
    kRun [.container [kRunoff 1, kRunoff 2]] =
      some (["RunOffPOINT (1.0 1.0)", "RunOffPOINT (2.0 2.0)"], [], [0, 0, 0, 2, 0, 0]) := by decide +kernel

/-- `testSpotElevationAppendKML` to `testSpotElevationContainerExtendKML`, testKMLWriter.py:245-299. -/
example : kRun [.leaf (kElev 1), .leaf (kElev 2)] =
      some (["SpotElevationPOINT (1.0 1.0)", "SpotElevationPOINT (2.0 2.0)"], [], [0, 0, 0, 0, 2, 0]) ∧
    kRun [.leaf (kElev 1), .leaf (kElev 1)] = some (["SpotElevationPOINT (1.0 1.0)"], [], [0, 0, 0, 0, 1, 0]) ∧
    kRun [.container [kElev 1, kElev 2]] =
      some (["SpotElevationPOINT (1.0 1.0)", "SpotElevationPOINT (2.0 2.0)"], [], [0, 0, 0, 0, 2, 0]) := by
  decide +kernel

/-- `testLinkersAppendKML` to `testLinkersExtendKML`, testKMLWriter.py:301-331. -/
example : kRun [.leaf (kLinker 1), .leaf (kLinker 2)] =
      some ([], ["LINESTRING (1.0 1.0)", "LINESTRING (2.0 2.0)"], [2, 0, 0, 0, 0, 0]) ∧
    kRun [.leaf (kLinker 1), .leaf (kLinker 1)] = some ([], ["LINESTRING (1.0 1.0)"], [1, 0, 0, 0, 0, 0]) := by
  decide +kernel

/-- `testSameLocationDifferentTypeAppendKML`, testKMLWriter.py:333-349. -/
example : kRun [.leaf (kSaddle 1), .leaf (kSummit 1), .leaf (kRunoff 1), .leaf (kElev 1)] =
    some (["SaddlePOINT (1.0 1.0)", "SummitPOINT (1.0 1.0)", "RunOffPOINT (1.0 1.0)", "SpotElevationPOINT (1.0 1.0)"],
      [], [0, 1, 1, 1, 1, 0]) := by decide +kernel

/-- `testCreateWithListOfLocations` to `testCreateWithContainersAndLocations`, testKMLWriter.py:351-389. -/
example : kRun [.leaf (kSaddle 1), .leaf (kSummit 1)] =
      some (["SaddlePOINT (1.0 1.0)", "SummitPOINT (1.0 1.0)"], [], [0, 1, 1, 0, 0, 0]) ∧
    kRun [.container [kSaddle 1, kSaddle 2], .leaf (kSummit 1)] =
      some (["SaddlePOINT (1.0 1.0)", "SaddlePOINT (2.0 2.0)", "SummitPOINT (1.0 1.0)"], [], [0, 2, 1, 0, 0, 0]) := by
  decide +kernel

/-- `testRaisesErrorOnInvalidElement`, testKMLWriter.py:391-396. -/
example : kRun [.leaf .other] = none := by decide +kernel

end PyProm
