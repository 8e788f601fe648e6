import Verif.Model.Basin

/-
The cases of /repo/pyprom/tests/testBasinSaddleFinder.py evaluated on the model. These are tests of the model
against results the authors state for the code, not proofs of properties.
-/
namespace PyProm

/-- `_build_and_validate`, testBasinSaddleFinder.py:532-564. The saddles are listed as they are handed to the
finder: those that must be disqualified (the first `nd`) and the others. The linkers are listed as they are
added: those that must be kept (the first `no`) and those that must be disqualified. `edge` lists the saddles with
`edgeEffect`, `alts` the expected `basinSaddleAlternatives`. -/
def basinTest (summits saddles : List (Rat × Rat × Rat)) (edge : List Nat) (links : List (Nat × Nat)) (nd no : Nat)
    (alts : List (Nat × List Nat)) : Bool :=
  let at' := fun (n : Node) => match n with
    | .summit k => summits.getD k (0, 0, 0)
    | .saddle k => saddles.getD k (0, 0, 0)
  let N : FNet :=
    { nSummits := summits.length
      nSaddles := saddles.length
      elev := fun n => (at' n).2.2
      edge := fun n => match n with
        | .summit _ => false
        | .saddle k => edge.contains k
      eq := fun a b => seEq (at' a).1 (at' a).2.1 (at' a).2.2 (at' b).1 (at' b).2.1 (at' b).2.2
      setEq := fun a b =>
        let s := summits.getD a (0, 0, 0)
        let t := summits.getD b (0, 0, 0)
        !seNe s.1 s.2.1 s.2.2 t.1 t.2.1 t.2.2 && seEq s.1 s.2.1 s.2.2 t.1 t.2.1 t.2.2
      link := fun i => links.getD i (0, 0)
      sumLinks := fun D => (List.range links.length).filter fun i => (links.getD i (0, 0)).1 = D
      sadLinks := fun k => (List.range links.length).filter fun i => (links.getD i (0, 0)).2 = k
      sumDisq := fun _ => false }
  let f : Flags := ⟨fun _ => false, fun _ => false, fun _ => none, fun _ => false, fun _ => []⟩
  match disqualifyBasinSaddles N 200 (List.range saddles.length) f with
  | .error _ => false
  | .ok r =>
    ((List.range saddles.length).all fun k => r.saddleDisq k == decide (k < nd)) &&
    ((List.range links.length).all fun i => r.linkDisq i == decide (no ≤ i)) &&
    alts.all fun a => decide (r.alts (.saddle a.1) = a.2.map .saddle)

/-- `testBasinSaddleFinderSingleSummit`, lines 20-42. -/
example : basinTest
    [(1, 1, 10000)]
    [(2, 2, 1000)] []
    [(0, 0), (0, 0)] 1 0 [] := by
  decide +kernel

/-- `testBasinSaddleFinderDiamond`, lines 44-67. -/
example : basinTest
    [(1, 1, 10000), (2, 2, 20000)]
    [(2, 2, 100), (1, 1, 1000)] []
    [(0, 1), (1, 1), (0, 0), (1, 0)] 1 2 [] := by
  decide +kernel

/-- `testBasinSaddleFinderDoubleDiamond`, lines 69-93. -/
example : basinTest
    [(1, 1, 10000), (2, 2, 20000)]
    [(100, 100, 100), (1, 1, 1), (1000, 1000, 1000)] []
    [(0, 2), (1, 2), (0, 0), (1, 0), (0, 1), (1, 1)] 2 2 [] := by
  decide +kernel

/-- `testBasinSaddleFinderEightWayDiamond`, lines 95-157. -/
example : basinTest
    [(1, 1, 10000), (2, 2, 20000)]
    [(1, 1, 1), (100, 100, 100), (200, 200, 200), (300, 300, 300), (400, 400, 400), (500, 500, 500), (600, 600, 600), (700, 700, 700), (1000, 1000, 1000)] []
    [(0, 8), (1, 8), (0, 1), (1, 1), (0, 2), (1, 2), (0, 3), (1, 3), (0, 4), (1, 4), (0, 5), (1, 5), (0, 6), (1, 6), (0, 7), (1, 7), (0, 0), (1, 0)] 8 2 [] := by
  decide +kernel

/-- `testBasinSaddleFinderDoubleDiamondWithStubs`, lines 159-199. -/
example : basinTest
    [(1, 1, 10000), (2, 2, 20000)]
    [(100, 100, 100), (200, 200, 200), (300, 300, 300), (400, 400, 400), (500, 500, 500), (1000, 1000, 1000)] []
    [(0, 5), (1, 5), (0, 0), (1, 0), (0, 1), (1, 1), (1, 2), (1, 3), (1, 4)] 5 2 [] := by
  decide +kernel

/-- `testBasinSaddleFinderDoubleDiamondWithStubsOnBothSides`, lines 201-242. -/
example : basinTest
    [(1, 1, 10000), (2, 2, 20000)]
    [(100, 100, 100), (200, 200, 200), (300, 300, 300), (400, 400, 400), (500, 500, 500), (1000, 1000, 1000)] []
    [(0, 5), (1, 5), (0, 0), (1, 0), (0, 1), (1, 1), (1, 2), (0, 3), (1, 4)] 5 2 [] := by
  decide +kernel

/-- `testBasinSaddleFinderDoubleDiamondWithLongStub`, lines 244-284. -/
example : basinTest
    [(1, 1, 10000), (2, 2, 20000), (100, 100, 100000)]
    [(100, 100, 100), (200, 200, 200), (300, 300, 300), (1000, 1000, 1000), (1, 1, 1)] []
    [(0, 3), (1, 3), (1, 4), (2, 4), (0, 0), (1, 0), (0, 1), (1, 1), (2, 2)] 3 4 [] := by
  decide +kernel

/-- `testBasinSaddleFinderTransitive`, lines 286-323. -/
example : basinTest
    [(1, 1, 10000), (2, 2, 20000), (3, 3, 30000)]
    [(1, 1, 1), (100, 100, 100), (1000, 1000, 1000)] []
    [(0, 2), (1, 2), (0, 1), (2, 1), (2, 0), (1, 0)] 1 4 [] := by
  decide +kernel

/-- `testBasinSaddleFinderMultiTransitive`, lines 325-394. -/
example : basinTest
    [(1, 1, 10000), (2, 2, 20000), (210, 210, 21000), (310, 310, 31000), (410, 410, 41000), (510, 510, 51000), (1010, 1010, 101000)]
    [(200, 200, 200), (300, 300, 300), (400, 400, 400), (500, 500, 500), (201, 201, 201), (301, 301, 301), (401, 401, 401), (501, 501, 501), (1000, 1000, 1000), (601, 601, 601)] []
    [(0, 8), (6, 8), (6, 9), (1, 9), (2, 4), (1, 4), (3, 5), (1, 5), (4, 6), (1, 6), (5, 7), (1, 7), (0, 0), (2, 0), (0, 1), (3, 1), (0, 2), (4, 2), (0, 3), (5, 3)] 4 12 [] := by
  decide +kernel

/-- `testBasinSaddleFinderMultiTransitiveWithEqualHeight`, lines 396-473. -/
example : basinTest
    [(1, 1, 10000), (2, 2, 20000), (210, 210, 21000), (310, 310, 31000), (410, 410, 41000), (510, 510, 51000), (1010, 1010, 101000)]
    [(200, 200, 200), (300, 300, 300), (400, 400, 400), (500, 500, 500), (201, 201, 200), (301, 301, 301), (401, 401, 400), (501, 501, 501), (1000, 1000, 1000), (601, 601, 601)] []
    [(0, 8), (6, 8), (6, 9), (1, 9), (2, 4), (1, 4), (3, 5), (1, 5), (4, 6), (1, 6), (5, 7), (1, 7), (0, 0), (2, 0), (0, 1), (3, 1), (0, 2), (4, 2), (0, 3), (5, 3)] 4 12 [(4, [0]), (0, [4]), (6, [2]), (2, [6])] := by
  decide +kernel

/-- `testBasinSaddleFinderIgnoreEdgeEffectSaddle`, lines 475-500. -/
example : basinTest
    [(1, 1, 10000), (2, 2, 20000)]
    [(1000, 1000, 1000), (100, 100, 100)] [1]
    [(0, 0), (1, 0), (0, 1), (1, 1)] 0 4 [] := by
  decide +kernel

/-- `testBasinSaddleFinderDiamondWithStub`, lines 502-531. -/
example : basinTest
    [(1, 1, 10000), (2, 2, 20000)]
    [(1, 1, 1), (100, 100, 100), (1000, 1000, 1000)] []
    [(0, 2), (1, 2), (0, 0), (1, 0), (0, 1), (0, 1)] 2 2 [] := by
  decide +kernel

end PyProm
