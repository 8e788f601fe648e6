import Verif.Model.Measure
import Verif.Model.Points
import Verif.Model.SaddleNet

/-
Cases of /repo/pyprom/tests/containers/testPerimeter.py, testGridPointContainer.py, testMultipointContainer.py,
testSpotElevationContainer.py, testSummitsContainer.py, testSaddlesContainer.py and testRunoffsContainer.py evaluated
on the model. These are tests of the model against results the authors state for the code, not proofs of properties.
Left out are the cases that need the heights of the file N44W072.hgt or geopy.
-/
namespace PyProm

/-! ### Perimeter and GridPointContainer -/

/-- The points of testPerimeter.py:28-34 and testGridPointContainer.py:22-28. -/
def tp11 : P3 := ⟨1, 1, 553⟩
/-- See `tp11`. -/
def tp12 : P3 := ⟨1, 2, 554⟩
/-- See `tp11`. -/
def tp13 : P3 := ⟨1, 3, 554⟩
/-- See `tp11`. -/
def tp14 : P3 := ⟨1, 4, 553⟩
/-- See `tp11`. -/
def tp24 : P3 := ⟨2, 4, 555⟩
/-- See `tp11`. -/
def tp25 : P3 := ⟨2, 5, 554⟩
/-- See `tp11`. -/
def tp26 : P3 := ⟨2, 6, 553⟩

/-- All of them. -/
def tpAll : List P3 := [tp11, tp12, tp13, tp14, tp24, tp25, tp26]

/-- The index given to the constructor, testPerimeter.py:26-36. -/
def tpPerim : Perim := .ofIndex (tpAll.foldl indexPut []) false none

/-- The same members in any order. -/
def sameMembers {α} [DecidableEq α] (a b : List α) : Bool :=
  a.length == b.length && a.all (b.contains ·) && b.all (a.contains ·)

/-- `testPerimeterListBuildsIndex`, `testPerimeterIndexBuildsList`, `testPerimeterLen`,
testPerimeter.py:38-51 and 174-184. -/
example : tpPerim.points = tpAll ∧ tpPerim.points.length = 7 ∧
    (Perim.ofList tpPerim.points false none).index = tpPerim.index := by decide +kernel

/-- `testPerimeterIterNeighborFull`, testPerimeter.py:53-87. -/
example : [(tp12, [tp11, tp13]), (tp11, [tp12]), (tp24, [tp14, tp25, tp13]), (tp13, [tp12, tp14, tp24])].all
    (fun c => (tpPerim.nbrsFull c.1.xy).toOption.any (sameMembers · c.2)) := by decide +kernel

/-- `testPerimeterIterNeighborOrthogonal`, testPerimeter.py:89-121. -/
example : [(tp12, [tp11, tp13]), (tp11, [tp12]), (tp24, [tp14, tp25]), (tp13, [tp12, tp14])].all
    (fun c => (tpPerim.nbrsOrthogonal c.1.xy).toOption.any (sameMembers · c.2)) := by decide +kernel

/-- `testPerimeterFindHighEdges`, testPerimeter.py:123-141. The stated result is the one where `set.pop` yields
`(2, 4, 555)` first. -/
example : (contiguousNeighbors (fun l => l.findIdx (· == tp24))
      ([tp11, tp12, tp14, tp24, tp25, tp26].filter fun p => p.e > 552)).toOption =
    some [[tp24, tp14, tp25, tp26], [tp11, tp12]] := by decide +kernel

/-- `testPerimeterFindHighEdgesOrthogonallyDiscontigous`, testPerimeter.py:143-159. -/
example : (contiguousNeighbors (fun _ => 0)
      ([tp11, tp12, tp13, tp24, tp25, tp26].filter fun p => p.e > 552)).toOption.map List.length = some 1 := by
  decide +kernel

/-- `testPerimeterfindHighPerimeter`, testPerimeter.py:161-172. -/
example : [554, 553, 552].map (fun h : Rat => (tpAll.filter fun p => p.e > h).length) = [1, 4, 7] := by decide +kernel

/-- `testPerimeterSetItem` to `testPerimeterGoodAppend`, testPerimeter.py:186-236. -/
example : (setPoint perimIncoming [[1, 1, 553]] 0 (.tuple [1, 2, 554])).toOption = some [[1, 2, 554]] ∧
    setPoint perimIncoming [[1, 1, 553]] 0 .other matches .error .typeError ∧
    appendPoint perimIncoming [[1, 1, 553]] .other matches .error .typeError ∧
    (appendPoint perimIncoming [[1, 1, 553]] (.tuple [1, 2, 554])).toOption.map List.length = some 2 := by
  decide +kernel

/-- `testPerimeterEq`, `testPerimeterNe`, testPerimeter.py:238-272. -/
example : perimEq [tp11] [tp11] ∧ ¬perimEq [tp11] [tp12] := by decide +kernel

/-- `testPerimeterFromDict`, testPerimeter.py:281-296. -/
example : let p := { tpPerim with mapEdge := true, mapEdgePoints := some [tp11] }
    (Perim.fromDict p.toDict).toOption = some p := by decide +kernel

/-- `testGridPointContainerIterNeighborFull`, testGridPointContainer.py:55-89. -/
example : [(tp12, [tp11, tp13]), (tp11, [tp12]), (tp24, [tp14, tp25, tp13]), (tp13, [tp12, tp14, tp24])].all
    (fun c => sameMembers ((GPC.mk' tpAll).nbrs fullShift c.1.xy) c.2) := by decide +kernel

/-- `testGridPointContainerIterNeighborOrthogonal`, testGridPointContainer.py:91-123. -/
example : [(tp12, [tp11, tp13]), (tp11, [tp12]), (tp24, [tp14, tp25]), (tp13, [tp12, tp14])].all
    (fun c => sameMembers ((GPC.mk' tpAll).nbrs orthogonalShift c.1.xy) c.2) := by decide +kernel

/-- `testGridPointContainerFindPseudoSummits`, testGridPointContainer.py:125-130. -/
example : (findPseudoSummits tpAll).toOption = some [tp12, tp24] := by decide +kernel

/-- `testGridPointContainerFindClosestPoints`, testGridPointContainer.py:132-140, with squared distances: the
stated distance is the root of two. -/
example : GPC.findClosest (fun a b => gridDistanceSq a b) (GPC.mk' tpAll) (GPC.mk' [⟨5, 5, 5⟩, ⟨3, 3, 3⟩]) =
    (some tp24, some ⟨3, 3, 3⟩, 2) := by decide +kernel

/-- `testGridPointContainerAppend`, testGridPointContainer.py:162-172. -/
example : let c := (GPC.mk' [tp11, tp12]).append tp13
    [(1, 1), (1, 2), (1, 3), (1, 4)].map c.lookup = [some tp11, some tp12, some tp13, none] := by decide +kernel

/-- `testGridPointContainerLowest`, `testGridPointContainerlHighest`, testGridPointContainer.py:278-290. -/
example : (lowestOf P3.e tpAll).toOption = some [tp11, tp14, tp26] ∧
    (highestOf P3.e tpAll).toOption = some [tp24] := by decide +kernel

/-! ### MultiPoint -/

/-- `testMultiPointClosest`, testMultipointContainer.py:201-263. -/
example : let mp := (List.range 10).flatMap fun (x : Nat) => (List.range 10).map fun (y : Nat) =>
      MPt.ofPt (100 + (x : Int), 200 + (y : Int))
    [(((105, 205), (105, 205)) : (Int × Int) × (Int × Int)), ((1, 1), (100, 200)), ((1, 205), (100, 205)),
      ((1, 500), (100, 209)), ((105, 500), (105, 209)), ((200, 500), (109, 209)), ((200, 205), (109, 205)),
      ((200, 0), (109, 200)), ((105, 0), (105, 200))].all
    (fun c => (multiClosest c.1.1 c.1.2 mp).toOption == some (MPt.ofPt c.2)) := by decide +kernel

/-- `testMultipointSetItem` to `testMultipointGoodAppend`, testMultipointContainer.py:75-120. -/
example : (appendPoint multiIncoming [] (.base 1 1)).toOption = some [[1, 1]] ∧
    (setPoint multiIncoming [[1, 1]] 0 (.base 2 2)).toOption = some [[2, 2]] ∧
    setPoint multiIncoming [[1, 1]] 0 .other matches .error .typeError ∧
    appendPoint multiIncoming [[1, 1]] .other matches .error .typeError ∧
    (appendPoint multiIncoming [[1, 1]] (.base 2 2)).toOption.map List.length = some 2 := by decide +kernel

/-! ### Containers of features -/

/-- An object at the given place; the number is its id. -/
def tSpot (k : Nat) (a b c : Rat) : Spot := ⟨a, b, c, k⟩

/-- `testSpotElevationContainerEquals`, `testSpotElevationContainerNotEquals`, testSpotElevationContainer.py:223-235. -/
example : spotsEq [tSpot 0 1 2 3] [tSpot 1 1 2 3] ∧ ¬spotsEq [tSpot 0 1 2 3] [tSpot 1 2 2 3] := by decide +kernel

/-- `testSpotElevationContainerIndex`, testSpotElevationContainer.py:237-248. -/
example : let c := SContainer.mk' [tSpot 0 1 2 3, tSpot 1 4 5 6]
    c.index (tSpot 0 1 2 3) = some 0 ∧ c.index (tSpot 1 4 5 6) = some 1 ∧ c.index (tSpot 2 7 8 9) = none := by
  decide +kernel

/-- `testSpotElevationContainerByIDinit`, `…append`, `…extend`, testSpotElevationContainer.py:258-282. -/
example : let s := tSpot 7 1 2 3
    ((SContainer.mk' [s]).byId 7).toOption = some s ∧ (((SContainer.mk' []).append s).byId 7).toOption = some s ∧
    (((SContainer.mk' []).extend [s]).byId 7).toOption = some s := by decide +kernel

/-- `testSpotElevationContainerSetItem`, `testSpotElevationContainerGetItem`, testSpotElevationContainer.py:191-200,
212-221. -/
example : ((SContainer.mk' [tSpot 0 1 2 3, tSpot 1 1 2 3]).setItem 1 (tSpot 2 2 3 4)).toOption.map
      (fun c => (c.getItem 1).toOption) = some (some (tSpot 2 2 3 4)) ∧
    ((SContainer.mk' [tSpot 0 1 2 3, tSpot 1 1 2 3]).getItem 0).toOption = some (tSpot 0 1 2 3) := by decide +kernel

/-- A location object of a class. -/
def tObj (c : Cls) : TObj := ⟨c, ⟨1, 2, 3, 0⟩⟩

/-- Whether a call on a container with the given members raises a TypeError. -/
def tRaises (c : CCls) (l : List Cls) (op : TOp) : Bool :=
  (TContainer.call ⟨c, l.map tObj⟩ op) matches .error .typeError

/-- Constructors: `testSaddlesContainerBadInitiation` to `testSaddlesContainerGoodInitiation`,
testSaddlesContainer.py:23-45, testSummitsContainer.py:20-42, testRunoffsContainer.py:24-46. -/
example : TContainer.new .saddles [tObj .summit] matches .error .typeError ∧
    (TContainer.new .saddles []).toOption.map (fun c => c.items.length) = some 0 ∧
    (TContainer.new .saddles [tObj .saddle]).toOption.map (fun c => c.items.length) = some 1 ∧
    TContainer.new .summits [tObj .saddle] matches .error .typeError ∧
    (TContainer.new .summits []).toOption.map (fun c => c.items.length) = some 0 ∧
    (TContainer.new .summits [tObj .summit]).toOption.map (fun c => c.items.length) = some 1 ∧
    TContainer.new .runoffs [tObj .summit] matches .error .typeError ∧
    (TContainer.new .runoffs []).toOption.map (fun c => c.items.length) = some 0 ∧
    (TContainer.new .runoffs [tObj .runoff]).toOption.map (fun c => c.items.length) = some 1 := by decide +kernel

/-- `append`: `testSaddlesContainerBadAppend`, `…GoodAppend` and the same for the other classes,
testSaddlesContainer.py:47-61, testSummitsContainer.py:44-58, testRunoffsContainer.py:48-62,
testSpotElevationContainer.py:165-172. -/
example : tRaises .saddles [.saddle] (.append (tObj .summit)) ∧ !tRaises .saddles [] (.append (tObj .saddle)) ∧
    tRaises .summits [.summit] (.append (tObj .saddle)) ∧ !tRaises .summits [] (.append (tObj .summit)) ∧
    tRaises .runoffs [.runoff] (.append (tObj .summit)) ∧ !tRaises .runoffs [] (.append (tObj .runoff)) ∧
    !tRaises .spots [] (.append (tObj .summit)) ∧ !tRaises .spots [.summit] (.append (tObj .saddle)) := by
  decide +kernel

/-- `extend` and `__setitem__`: testSaddlesContainer.py:63-80, 90-108, testSummitsContainer.py:60-77, 87-105,
testRunoffsContainer.py:64-81, 91-109, testSpotElevationContainer.py:174-189, 202-210. -/
example : !tRaises .saddles [] (.extend [tObj .saddle]) ∧ tRaises .saddles [] (.extend [tObj .summit]) ∧
    !tRaises .saddles [.saddle, .saddle] (.setItem 1 (tObj .saddle)) ∧
    tRaises .saddles [.saddle, .saddle] (.setItem 1 (tObj .summit)) ∧
    !tRaises .summits [] (.extend [tObj .summit]) ∧ tRaises .summits [] (.extend [tObj .saddle]) ∧
    !tRaises .summits [.summit, .summit] (.setItem 1 (tObj .summit)) ∧
    tRaises .summits [.summit, .summit] (.setItem 1 (tObj .saddle)) ∧
    !tRaises .runoffs [] (.extend [tObj .runoff]) ∧ tRaises .runoffs [] (.extend [tObj .summit]) ∧
    !tRaises .runoffs [.runoff, .runoff] (.setItem 1 (tObj .runoff)) ∧
    tRaises .runoffs [.runoff, .runoff] (.setItem 1 (tObj .summit)) ∧
    !tRaises .spots [] (.extend [tObj .summit, tObj .saddle]) ∧ tRaises .spots [] (.extend [tObj .other]) ∧
    tRaises .spots [.summit, .saddle] (.setItem 1 (tObj .other)) := by decide +kernel

end PyProm
