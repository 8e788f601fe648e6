import Verif.Model.Graph
import Verif.Model.Points

/-
Cases of /repo/pyprom/tests/containers/testLinker.py, locations/testSaddle.py and locations/testSummit.py evaluated on
the model. These are tests of the model against results the authors state for the code, not proofs of properties.
Left out are the cases that need the heights of the file N44W072.hgt.
-/
namespace PyProm

/-- A feature at a place. -/
def tFeat (k : Kind) (p : Rat × Rat × Rat) : Feature := ⟨k, p.1, p.2.1, p.2.2, none, false, [], []⟩

/-- A network of summits, saddles and linkers (summit, saddle), each added to both ends. -/
def tMap (summits saddles : List (Rat × Rat × Rat)) (links : List (Nat × Nat)) : DMap :=
  let st := CSt.start (saddles.map fun p => { f := tFeat .saddle p })
  { summits := summits.map (tFeat .summit)
    st := { st with
      store := links.map fun l => ⟨l.1, l.2⟩
      sumLinks := fun D => (List.range links.length).filter fun i => (links.getD i (0, 0)).1 = D
      sadLinks := fun k => (List.range links.length).filter fun i => (links.getD i (0, 0)).2 = k }
    domPoints := fun _ => none
    saddles := List.range saddles.length
    runoffs := []
    linkers := List.range links.length
    domains := [] }

/-- Flags with the given disqualified linkers. -/
def tFlags (dead : List Nat) : Flags := ⟨fun _ => false, fun _ => false, fun _ => none, dead.contains, fun _ => []⟩

/-! ### testLinker.py -/

/-- The topology of testLinker.py:19-67: summits 0 to 2 (`summit1`, `summit2`, `locallyDeadSummit`), saddles 0 to 2
(`saddle1`, `saddle2`, `disqualifiedSaddle1`), linkers 0 to 4 (`linker1` to `linker3` and the two disqualified ones).
`more` are linkers added by a test; `disqualifiedSaddle1` has no linkers entered. -/
def tLinks (more : List (Nat × Nat)) : FNet :=
  { (tMap [(1, 1, 1000), (10, 10, 1000), (100, 100, 1000), (1, 2, 3)]
      [(5, 5, 100), (15, 15, 100), (100, 100, 1000), (1, 2, 3)]
      ([(0, 0), (0, 1), (1, 1), (0, 2), (2, 1)] ++ more)).net with
    sadLinks := fun k => if k = 2 then [] else
      (tMap [] [] ([(0, 0), (0, 1), (1, 1), (0, 2), (2, 1)] ++ more)).net.sadLinks k }

/-- No exemptions. -/
def noExempt : Nat → Bool := fun _ => false

/-- `testLinkerProminence`, `testLinkerProminenceFeet`, testLinker.py:69-79. -/
example : let summit : Spot := ⟨1, 1, 1000, 0⟩
    let saddle : Spot := ⟨5, 5, 100, 1⟩
    linkProm saddle summit = 900 ∧ linkPromFt saddle summit - 2952.755905511811 < 1 / 1000000000 ∧
    2952.755905511811 - linkPromFt saddle summit < 1 / 1000000000 := by decide +kernel

/-- `testLinkerSaddlesConnectedViaSummit` to `testLinkerSaddlesConnectedViaSmtSlfDsqlfidSkpDsqalfidFls`,
testLinker.py:81-139. -/
example : (tLinks []).saddlesVia (tFlags [3, 4]) true noExempt 0 = [0, 1] ∧
    (tLinks []).saddlesVia (tFlags [3, 4]) true (· == 0) 0 = [] ∧
    (tLinks []).saddlesVia (tFlags [3, 4]) false noExempt 0 = [0, 1, 2] ∧
    (tLinks []).saddlesVia (tFlags [0, 3, 4]) true noExempt 0 = [] ∧
    (tLinks []).saddlesVia (tFlags [0, 3, 4]) false noExempt 0 = [0, 1, 2] := by decide +kernel

/-- `testLinkerSaddlesCnectdViaSmtWthExmptnAnSkpDsqlfd`, `testLinkerSaddlesCnectedVaSmtWthExmptnBtNSkipDsqlfed`,
testLinker.py:141-195. -/
example : (tLinks [(0, 3)]).saddlesVia (tFlags [3, 4]) true noExempt 0 = [0, 1, 3] ∧
    (tLinks [(0, 3)]).saddlesVia (tFlags [3, 4]) true (· == 5) 0 = [0, 1] ∧
    (tLinks [(0, 3)]).saddlesVia (tFlags [3, 4]) false noExempt 0 = [0, 1, 2, 3] ∧
    (tLinks [(0, 3)]).saddlesVia (tFlags [3, 4]) false (· == 5) 0 = [0, 1, 2] := by decide +kernel

/-- `testLinkerSummitsConnectedViaSaddle` to `testLinkerSummitsConnectedViaSaddleSelfDsqlfdSkpDsqlfedFse`,
testLinker.py:197-255. -/
example : (tLinks []).summitsVia (tFlags [3, 4]) true noExempt 1 = [0, 1] ∧
    (tLinks []).summitsVia (tFlags [3, 4]) true (· == 2) 2 = [] ∧
    (tLinks []).summitsVia (tFlags [3, 4]) false noExempt 1 = [0, 1, 2] ∧
    (tLinks []).summitsVia (tFlags [0, 3, 4]) true noExempt 0 = [] ∧
    (tLinks []).summitsVia (tFlags [1, 3, 4]) false noExempt 1 = [0, 1, 2] := by decide +kernel

/-- `testLinkerSummitsConnectedViaSdleWthExmptnAnSkpDqalfed`, `testLinkerSummitsCnnctdSaddleWhExemnBtNSkpDsqalfid`,
testLinker.py:257-311. -/
example : (tLinks [(3, 1)]).summitsVia (tFlags [3, 4]) true noExempt 1 = [0, 1, 3] ∧
    (tLinks [(3, 1)]).summitsVia (tFlags [3, 4]) true (· == 5) 1 = [0, 1] ∧
    (tLinks [(3, 1)]).summitsVia (tFlags [3, 4]) false noExempt 1 = [0, 1, 2, 3] ∧
    (tLinks [(3, 1)]).summitsVia (tFlags [3, 4]) false (· == 5) 1 = [0, 1, 2] := by decide +kernel

/-- `testLinkerLinkersToSaddlesConnectedViaSummit` to `…NoSkipSelfOrDQ`, testLinker.py:313-362. -/
example : (tLinks []).linkersViaSummit (tFlags [3, 4]) true true 0 = [1] ∧
    (tLinks []).linkersViaSummit (tFlags [3, 4]) true false 0 = [1, 3] ∧
    (tLinks []).linkersViaSummit (tFlags [3, 4]) false true 0 = [0, 1] ∧
    (tLinks []).linkersViaSummit (tFlags [3, 4]) false false 0 = [0, 1, 3] := by decide +kernel

/-- `testLinkerLinkersToSummitsConnectedViaSaddle` to `…NoSkipSelfOrDQ`, testLinker.py:364-413. -/
example : (tLinks []).linkersViaSaddle (tFlags [3, 4]) true true 1 = [2] ∧
    (tLinks []).linkersViaSaddle (tFlags [3, 4]) true false 1 = [2, 4] ∧
    (tLinks []).linkersViaSaddle (tFlags [3, 4]) false true 1 = [1, 2] ∧
    (tLinks []).linkersViaSaddle (tFlags [3, 4]) false false 1 = [1, 2, 4] := by decide +kernel

/-- `testLinkerEq`, `testLinkerNe`, testLinker.py:433-445. -/
example : let a : Spot × Spot := (⟨1, 1, 1000, 0⟩, ⟨5, 5, 100, 1⟩)
    let b : Spot × Spot := (⟨1, 1, 1000, 0⟩, ⟨15, 15, 100, 2⟩)
    linkObjEq a a ∧ !linkObjNe a a ∧ linkObjNe a b := by decide +kernel

/-! ### testSaddle.py, testSummit.py -/

/-- The topology of testSaddle.py:315-349 and, without the last saddle and linker, testSummit.py:21-50: summits
`masterSummit`, `summit1`, `summit2`, `summit_locally_dead`; linkers `linker_m1`, `linker_m2`, `linker1`, `linker2`,
`linker3`, `linker_dead`. -/
def tStar : DMap :=
  tMap [(0, 0, 0), (1, 1, 1), (2, 2, 2), (3, 3, 3)] [(1, 1, 1), (2, 2, 2), (3, 3, 3)]
    [(0, 0), (0, 1), (1, 0), (2, 1), (3, 2), (3, 1)]

/-- `testSaddleAllNeighbors`, `testSaddleAllNeighborsNoFilter`, `testSaddleNeighbors`, testSaddle.py:351-377. -/
example : tStar.net.saddleAllNbrs (tFlags [5]) true 1 = [0, 1, 1] ∧
    tStar.net.saddleAllNbrs (tFlags [5]) false 1 = [0, 1, 1, 2, 1] ∧
    (tStar.saddleNbrs (tFlags [5]) 1).toOption = some [0] := by decide +kernel

/-- The topology of testSummit.py:21-50. -/
def tStar' : DMap :=
  tMap [(0, 0, 0), (1, 1, 1), (2, 2, 2), (3, 3, 3)] [(1, 1, 1), (2, 2, 2)] [(0, 0), (0, 1), (1, 0), (2, 1), (3, 1)]

/-- `testSummitAllNeighbors`, `testSummitAllNeighborsNoFilter`, `testSummitNeighbors`, testSummit.py:78-106. -/
example : tStar'.net.summitAllNbrs (tFlags [4]) true 0 = [0, 1, 0, 2] ∧
    tStar'.net.summitAllNbrs (tFlags [4]) false 0 = [0, 1, 0, 2, 3] ∧
    tStar'.net.summitNbrs (tFlags [4]) 0 = [1, 2] := by decide +kernel

/-- `testSummitFeatureNeighbors`, testSummit.py:120-132. -/
example : (tMap [(2, 2, 20000)] [(1000, 1000, 1000), (100, 100, 100)] [(0, 1), (0, 0)]).net.nbrs (.summit 0) =
    [.saddle 1, .saddle 0] := by decide +kernel

/-- `testSaddleFeatureNeighbors` (the second of that name), testSaddle.py:142-157. -/
example : { tMap [(1, 1, 10000), (2, 2, 20000)] [(1000, 1000, 1000)] [(0, 0), (1, 0)] with
    domPoints := fun _ => some [] }.domainsOf 0 = [0, 1] := by decide +kernel

/-- Saddles `child` (0) and `parent` (1) of `make_em`, testSaddle.py:19-27, with further saddles (place, parent) and
the list of children of the parent. -/
def tFamily (more : List ((Rat × Rat × Rat) × Option Nat)) (children : List Nat) (links : List (Nat × Nat)) : DMap :=
  let m := tMap [] ([(1, 1, 1), (2, 2, 2)] ++ more.map (·.1)) links
  { m with st := { m.st with objs := (m.st.objs.zipIdx).map fun oi =>
      { oi.1 with
        parent := if oi.2 = 0 then some 1 else if oi.2 = 1 then none else (more[oi.2 - 2]?).bind (·.2)
        children := if oi.2 = 1 then children else [] } } }

/-- Parent and children of the saddles. -/
def tKin (m : DMap) : List (Option Nat × List Nat) := m.st.objs.map fun o => (o.parent, o.children)

/-- `testSaddleEmancipate`, testSaddle.py:159-198. -/
example : tKin ((tFamily [] [0] []).emancipate 0) = [(none, []), (none, [])] ∧
    tKin ((tFamily [] [] []).emancipate 0) = [(none, []), (none, [])] ∧
    tKin ((tFamily [((3, 3, 3), none)] [0, 2] []).emancipate 0) = [(none, []), (none, [2]), (none, [])] ∧
    tKin ((tFamily [((2, 2, 2), none)] [0, 2] []).emancipate 0) = [(none, []), (none, [2]), (none, [])] ∧
    tKin ((tFamily [] [0, 0] []).emancipate 0) = [(none, []), (none, [])] := by decide +kernel

/-- `testSaddleDisownChildren`, testSaddle.py:200-235. -/
example : tKin ((tFamily [] [0] []).disown 1) = [(none, []), (none, [])] ∧
    tKin ((tFamily [((3, 3, 3), some 1)] [0, 2] []).disown 1) = [(none, []), (none, []), (none, [])] ∧
    tKin ((tFamily [((3, 3, 3), none)] [0, 2] []).disown 1) = [(none, []), (none, []), (none, [])] ∧
    tKin ((tFamily [] [0, 0] []).disown 1) = [(none, []), (none, [])] := by decide +kernel

/-- Flags with the given alternatives of the saddles. -/
def tAlts (l : List (List Nat)) : Flags where
  basin _ := false
  single _ := false
  over _ := none
  linkDisq _ := false
  alts
    | .saddle k => (l.getD k []).map Node.saddle
    | .summit _ => []

/-- `testSaddleSoftDelete`, testSaddle.py:237-267, first case. -/
example : let r := (tFamily [((3, 3, 1), none)] [0] []).softDelete (tAlts [[2], [], [0]]) 0
    tKin r.1 = [(none, []), (none, []), (none, [])] ∧ r.2.alts (.saddle 0) = [] ∧ r.2.alts (.saddle 2) = [] ∧
    r.2.saddleDisq 0 := by decide +kernel

/-- `testSaddleSoftDelete`, second case. -/
example : let f := tAlts [[2, 3], [], [0, 3], [0, 2]]
    let r := (tFamily [((3, 3, 1), none), ((4, 4, 1), none)] [0] [(0, 0)]).softDelete f 0
    tKin r.1 = [(none, []), (none, []), (none, []), (none, [])] ∧ r.2.alts (.saddle 0) = [] ∧
    r.2.alts (.saddle 2) = [.saddle 3] ∧ r.2.alts (.saddle 3) = [.saddle 2] ∧ r.2.linkDisq 0 := by decide +kernel

end PyProm
