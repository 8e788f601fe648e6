import Verif.Spec.Elsewhere
import Verif.Proof.RunHeightsBasin
import Verif.Props.Grid
import Verif.Proof.Equality
import Mathlib.Tactic.FieldSimp

/-
Runs on the same raster at another place
-/
namespace PyProm
open Spec

/-! ### Functions that only read cells -/

theorem blobLoop_laid (g d : DataMap) (h : Rat) : ∀ (n : Nat) (s : BlobSt), blobLoop (laid g d) h n s = blobLoop d h n s
  | 0, _ => rfl
  | n + 1, s => by
    unfold blobLoop
    cases s.stack with
    | nil => rfl
    | cons p rest => exact blobLoop_laid g d h n _

theorem equalHeightBlob_laid (g d : DataMap) (x y : Int) (h : Rat) :
    equalHeightBlob (laid g d) x y h = equalHeightBlob d x y h := by
  unfold equalHeightBlob
  rw [blobLoop_laid]
  rfl

theorem ssLoop_laid (g d : DataMap) (h : Rat) : ∀ (ns : List Nbr) (acc : SsAcc),
    ssLoop (laid g d) h ns acc = ssLoop d h ns acc
  | [], _ => rfl
  | (x, y, oe) :: ns, acc => by
    unfold ssLoop
    have e1 : (laid g d).nodata = d.nodata := rfl
    have e2 : (laid g d).isMapEdge x y = d.isMapEdge x y := rfl
    rw [e1, e2]
    simp only [ssLoop_laid g d h ns]

theorem climbAll_congr {loop loop' : WSt → List Pt → P3 → Except PyErr (Option Nat × WSt)}
    (h : ∀ s l p, loop' s l p = loop s l p) (ps : List P3) (s : WSt) : climbAll loop' ps s = climbAll loop ps s := by
  rw [show loop' = loop from funext fun s => funext fun l => funext fun p => h s l p]

theorem climbLoop_laid {g : DataMap} {E E' : WalkEnv} (h1 : E'.d = laid g E.d) (h2 : E'.w = E.w)
    (h3 : E'.near = E.near) : ∀ (n : Nat) (s : WSt) (l : List Pt) (p : P3), climbLoop E' n s l p = climbLoop E n s l p
  | 0, _, _, _ => rfl
  | n + 1, s, l, p => by
    unfold climbLoop
    have e : climbLoop E' n = climbLoop E n :=
      funext fun s => funext fun l => funext fun p => climbLoop_laid h1 h2 h3 n s l p
    rw [h1, h2, h3, e, show steepestNeighbor (laid g E.d) = steepestNeighbor E.d from rfl]
    simp only [equalHeightBlob_laid]

/-! ### Discovery -/

section
variable {g d : DataMap} {L M : Rat → Rat} (hout : ∀ x y, (laid g d).xyToLatLon x y =
  (L (d.xyToLatLon x y).1, M (d.xyToLatLon x y).2))

/-- The state of the runoff loop with features moved. -/
def placeRunoffSt (L M : Rat → Rat) (s : RunoffSt) : RunoffSt := { s with runoffs := s.runoffs.map (placeF L M) }

include hout

theorem runoffBody_laid (o : Oracle) (h : Rat) (nbs high : List (List P3)) (s : RunoffSt) (it : Nat × List Nat) :
    runoffBody (laid g d) o h nbs high (placeRunoffSt L M s) it =
      (runoffBody d o h nbs high s it).map (placeRunoffSt L M) := by
  unfold runoffBody
  split
  · rfl
  split
  · cases nbs[it.1]? with
    | none => rfl
    | some nb =>
      dsimp only
      cases nb[nb.length / 2]? with
      | none => rfl
      | some mid =>
        dsimp only
        rw [show (placeRunoffSt L M s).mp = s.mp from rfl, show (placeRunoffSt L M s).remaining = s.remaining from rfl,
          show (placeRunoffSt L M s).runoffs = s.runoffs.map (placeF L M) from rfl,
          show (placeRunoffSt L M s).converted = s.converted from rfl, hout]
        have fin : ∀ (hpn : List (List P3)) (mp : Option (List MPt)) (rem : List P3),
            (⟨s.runoffs.map (placeF L M) ++
                [mkRunoff (L (d.xyToLatLon mid.x mid.y).1, M (d.xyToLatLon mid.x mid.y).2) h none nb hpn],
              s.converted ++ [nb], rem, mp⟩ : RunoffSt) =
            placeRunoffSt L M ⟨s.runoffs ++ [mkRunoff (d.xyToLatLon mid.x mid.y) h none nb hpn],
              s.converted ++ [nb], rem, mp⟩ := by
          intro hpn mp rem
          unfold placeRunoffSt
          rw [List.map_append]
          rfl
        cases s.mp with
        | none =>
          dsimp only [bind, Except.bind, pure, Except.pure]
          cases removeAll nb s.remaining with
          | error e => rfl
          | ok rem => exact congrArg Except.ok (fin _ _ _)
        | some pts =>
          dsimp only [bind, Except.bind, pure, Except.pure]
          cases hpnShortestPath o.cost mid pts high with
          | error e => rfl
          | ok r =>
            dsimp only
            cases removeAll nb s.remaining with
            | error e => rfl
            | ok rem => exact congrArg Except.ok (fin _ _ _)
  · rfl

theorem edgeFeature_laid (o : Oracle) (x y : Int) (h : Rat) (mep : List P3) (mp : Option (List MPt)) (edge : Bool)
    (eps : List P3) (high : List (List P3)) :
    edgeFeatureAnalysis (laid g d) o x y h mep mp edge eps high =
      (edgeFeatureAnalysis d o x y h mep mp edge eps high).map (List.map (placeF L M)) := by
  unfold edgeFeatureAnalysis
  split
  · rfl
  dsimp only
  rw [hout]
  split
  · rfl
  dsimp only [bind, Except.bind]
  cases contiguousNeighbors (o.pop 1) mep with
  | error e => rfl
  | ok nbs =>
    dsimp only
    cases lowerNbhds h nbs with
    | error e => rfl
    | ok lower =>
      dsimp only
      split
      · split <;> rfl
      · cases contiguousNeighbors (o.pop 2) eps with
        | error e => rfl
        | ok enb =>
          dsimp only
          rw [show touchingNeighborhoods (laid g d) (enb ++ lower) = touchingNeighborhoods d (enb ++ lower) from rfl]
          have := foldlM_comm (placeRunoffSt L M) id (f := runoffBody d o h enb high)
            (fun s a => runoffBody_laid hout o h enb high s a) (touchingNeighborhoods d (enb ++ lower))
            { runoffs := [], converted := [], remaining := eps, mp := mp }
          rw [List.map_id] at this
          rw [show (⟨[], [], eps, mp⟩ : RunoffSt) = placeRunoffSt L M ⟨[], [], eps, mp⟩ from rfl, this]
          rw [show placeRunoffSt L M ⟨[], [], eps, mp⟩ = ⟨[], [], eps, mp⟩ from rfl]
          cases (touchingNeighborhoods d (enb ++ lower)).foldlM (runoffBody d o h enb high)
            { runoffs := [], converted := [], remaining := eps, mp := mp } with
          | error e => rfl
          | ok s =>
            simp only [Except.map]
            rw [show (placeRunoffSt L M s).converted.length = s.converted.length from rfl]
            split
            · split
              · refine congrArg Except.ok ?_
                rw [List.map_append]
                rfl
              · refine congrArg Except.ok ?_
                rw [List.map_append]
                rfl
            · rfl

theorem consolidated_laid (o : Oracle) (x y : Int) (h : Rat) (perim mep : List P3) (mp : Option (List MPt))
    (edge : Bool) (eps : List P3) :
    consolidatedFeatureLogic (laid g d) o x y h perim mep mp edge eps =
      (consolidatedFeatureLogic d o x y h perim mep mp edge eps).map (List.map (placeF L M)) := by
  unfold consolidatedFeatureLogic
  dsimp only [bind, Except.bind]
  cases contiguousNeighbors (o.pop 0) (perim.filter fun p => decide (p.e > h)) with
  | error e => rfl
  | ok high =>
    dsimp only
    rw [hout, edgeFeature_laid hout]
    have hfirst : (if high.isEmpty = true then
          [mkSummit (L (d.xyToLatLon x y).1, M (d.xyToLatLon x y).2) h mp edge eps]
        else if high.length > 1 ∧ edge = false then
          [mkSaddle (L (d.xyToLatLon x y).1, M (d.xyToLatLon x y).2) h mp edge eps high]
        else []) = (if high.isEmpty = true then [mkSummit (d.xyToLatLon x y) h mp edge eps]
        else if high.length > 1 ∧ edge = false then [mkSaddle (d.xyToLatLon x y) h mp edge eps high]
        else []).map (placeF L M) := by
      split
      · rfl
      split <;> rfl
    rw [hfirst]
    split
    · cases edgeFeatureAnalysis d o x y h mep mp edge eps high with
      | error e => rfl
      | ok more =>
        refine congrArg Except.ok ?_
        simp only [List.map_append]
    · rfl

theorem analyzeMultipoint_laid (o : Oracle) (x y : Int) (h : Rat) :
    analyzeMultipoint (laid g d) o x y h =
      (analyzeMultipoint d o x y h).map fun r => (r.1.map (placeF L M), r.2) := by
  unfold analyzeMultipoint
  rw [equalHeightBlob_laid]
  cases equalHeightBlob d x y h with
  | none => rfl
  | some b =>
    dsimp only
    rw [consolidated_laid hout]
    cases consolidatedFeatureLogic d o x y h b.perim b.mapEdgePoints (some (b.points.map MPt.ofPt)) b.mapEdge
      b.edgePoints <;> rfl

theorem summitAndSaddle_laid (o : Oracle) (visited : List Pt) (p : Pt) (h : Rat) :
    summitAndSaddle (laid g d) o visited p h =
      (summitAndSaddle d o visited p h).map fun r => (r.1.map (placeF L M), r.2) := by
  unfold summitAndSaddle
  split
  · rfl
  dsimp only
  rw [show (laid g d).iterateFull p.1 p.2 = d.iterateFull p.1 p.2 from rfl,
    show (laid g d).isMapEdge p.1 p.2 = d.isMapEdge p.1 p.2 from rfl, ssLoop_laid]
  dsimp only [bind, Except.bind]
  cases ssLoop d h (d.iterateFull p.1 p.2) ⟨[], []⟩ with
  | error e => rfl
  | ok r =>
    cases r with
    | inl q =>
      dsimp only
      rw [analyzeMultipoint_laid hout]
      cases analyzeMultipoint d o q.x q.y q.e <;> rfl
    | inr acc =>
      dsimp only
      rw [consolidated_laid hout]
      cases consolidatedFeatureLogic d o p.1 p.2 h acc.perim acc.mapEdge none (d.isMapEdge p.1 p.2)
        (if d.isMapEdge p.1 p.2 = true then [⟨p.1, p.2, h⟩] else []) <;> rfl

theorem analyzeLoop_laid (o : Pt → Oracle) : ∀ (ps visited : List Pt), analyzeLoop (laid g d) o ps visited =
      (analyzeLoop d o ps visited).map (List.map (placeF L M))
  | [], _ => rfl
  | p :: ps, visited => by
    unfold analyzeLoop
    rw [show (laid g d).cell = d.cell from rfl, show (laid g d).nodata = d.nodata from rfl]
    split
    · exact analyzeLoop_laid o ps visited
    rw [summitAndSaddle_laid hout]
    dsimp only [bind, Except.bind]
    cases summitAndSaddle d (o p) visited p (d.cell p.1 p.2) with
    | error e => rfl
    | ok r =>
      simp only [Except.map]
      rw [analyzeLoop_laid o ps r.2]
      cases analyzeLoop d o ps r.2 with
      | error e => rfl
      | ok rest =>
        refine congrArg Except.ok ?_
        simp only [List.map_append]

theorem analyze_laid (o : Pt → Oracle) (order : List Pt) :
    analyze (laid g d) o order = (analyze d o order).map fun D =>
      { summits := D.summits.map (placeF L M), saddles := D.saddles.map (placeF L M),
        runoffs := D.runoffs.map (placeF L M) } := by
  unfold analyze
  rw [analyzeLoop_laid hout]
  dsimp only [bind, Except.bind]
  cases analyzeLoop d o order [] with
  | error e => rfl
  | ok fs =>
    refine congrArg Except.ok ?_
    simp only [List.filter_map]
    rfl

theorem corner_laid (x y x' y' : Int) : cornerRunoff (laid g d) ((laid g d).xyToLatLon x y) x' y' =
    (cornerRunoff d (d.xyToLatLon x y) x' y').map (placeF L M) := by
  unfold cornerRunoff
  rw [show (laid g d).get x' y' = d.get x' y' from rfl, hout]
  cases d.get x' y' <;> rfl

theorem corners_laid : makeCornerRunoffs (laid g d) = (makeCornerRunoffs d).map (List.map (placeF L M)) := by
  unfold makeCornerRunoffs DataMap.lowerLeft DataMap.lowerRight DataMap.upperLeft DataMap.upperRight
  simp only [corner_laid hout]
  dsimp only [bind, Except.bind]
  rw [show (laid g d).maxX = d.maxX from rfl, show (laid g d).maxY = d.maxY from rfl]
  cases cornerRunoff d (d.xyToLatLon d.maxX 0) d.maxX 0 with
  | error e => rfl
  | ok a =>
    cases cornerRunoff d (d.xyToLatLon d.maxX d.maxY) d.maxX d.maxY with
    | error e => rfl
    | ok b =>
      cases cornerRunoff d (d.xyToLatLon 0 0) 0 0 with
      | error e => rfl
      | ok c => cases cornerRunoff d (d.xyToLatLon 0 d.maxY) 0 d.maxY <;> rfl

theorem childSaddle_laid (f : Feature) (l : VLink) :
    childSaddle (laid g d) (placeF L M f) l = (childSaddle d f l).map (placeF L M) := by
  unfold childSaddle
  rw [show (placeF L M f).multipoint = f.multipoint from rfl]
  cases l.ends with
  | none => rfl
  | some lr =>
    obtain ⟨a, b⟩ := lr
    dsimp only
    cases f.multipoint with
    | none => rfl
    | some ps =>
      cases ps with
      | nil => rfl
      | cons p ps =>
        dsimp only [bind, Except.bind]
        cases multiClosest (((a.x + b.x : Int) : Rat) / 2) (((a.y + b.y : Int) : Rat) / 2) (p :: ps) with
        | error e => rfl
        | ok m =>
          dsimp only
          rw [hout]
          rfl

theorem children_laid (fc : PairSearch) (f : Feature) : generateChildSaddles (laid g d) fc (placeF L M f) =
      (generateChildSaddles d fc f).map (List.map (placeF L M)) := by
  unfold generateChildSaddles
  rw [show (placeF L M f).hpn = f.hpn from rfl]
  dsimp only [bind, Except.bind]
  cases buildInternalTree (vertexLinkers fc f.hpn) f.hpn.length with
  | error e => rfl
  | ok links =>
    have := mapM_comm id (placeF L M) (f := childSaddle d f) (fun l => childSaddle_laid hout f l) links
    rw [List.map_id] at this
    exact this

theorem rebuildTwo_laid (fc : PairSearch) (f : Feature) :
    rebuildTwo (laid g d) fc (placeF L M f) = (rebuildTwo d fc f).map (placeF L M) := by
  unfold rebuildTwo
  rw [show (placeF L M f).hpn = f.hpn from rfl, show (placeF L M f).multipoint = f.multipoint from rfl]
  dsimp only [bind, Except.bind]
  cases f.hpn.mapM highestP3 with
  | error e => rfl
  | ok hs =>
    cases f.multipoint with
    | none => rfl
    | some ms =>
      cases ms with
      | nil => rfl
      | cons m ms =>
        dsimp only
        cases (fc (f.hpn.getD 0 []) (f.hpn.getD 1 [])).1 with
        | none => rfl
        | some ab =>
          dsimp only
          cases multiClosest (((ab.1.x + ab.2.x).tdiv 2 : Int) : Rat) (((ab.1.y + ab.2.y).tdiv 2 : Int) : Rat)
            (m :: ms) with
          | error e => rfl
          | ok c =>
            dsimp only
            rw [hout]
            rfl

omit hout in
/-- An object at another place. -/
def placeO (L M : Rat → Rat) (o : SObj) : SObj := { o with f := placeF L M o.f }

omit hout in
theorem modObj_laid (objs : List SObj) (k : Nat) {u u' : SObj → SObj}
    (h : ∀ o, u' (placeO L M o) = placeO L M (u o)) :
    modObj (objs.map (placeO L M)) k u' = (modObj objs k u).map (placeO L M) := by
  unfold modObj
  refine List.ext_getElem? fun i => ?_
  rw [List.getElem?_modify, List.getElem?_map, List.getElem?_map, List.getElem?_modify]
  by_cases hk : k = i
  · simp only [if_pos hk]
    cases objs[i]? with
    | none => rfl
    | some o => exact congrArg some (h o)
  · simp only [if_neg hk]
    cases objs[i]? <;> rfl

theorem rebuildOne_laid (fc : PairSearch) (objs : List SObj) (k : Nat) :
    rebuildOne (laid g d) fc (objs.map (placeO L M)) k =
      (rebuildOne d fc objs k).map fun r => (r.1.map (placeO L M), r.2) := by
  unfold rebuildOne
  rw [List.getElem?_map]
  cases objs[k]? with
  | none => rfl
  | some o =>
    simp only [Option.map_some]
    rw [show (placeO L M o).f = placeF L M o.f from rfl, show (placeF L M o.f).edge = o.f.edge from rfl,
      show (placeF L M o.f).hpn.length = o.f.hpn.length from rfl]
    split
    · rfl
    have e : (if o.f.hpn.length > 2 then generateChildSaddles (laid g d) fc (placeF L M o.f)
        else do
          let f ← rebuildTwo (laid g d) fc (placeF L M o.f)
          pure [f] : Except PyErr (List Feature)) =
        (if o.f.hpn.length > 2 then generateChildSaddles d fc o.f
        else do
          let f ← rebuildTwo d fc o.f
          pure [f] : Except PyErr (List Feature)).map (List.map (placeF L M)) := by
      split
      · exact children_laid hout fc o.f
      · rw [rebuildTwo_laid hout]
        cases rebuildTwo d fc o.f <;> rfl
    rw [e]
    generalize (if o.f.hpn.length > 2 then generateChildSaddles d fc o.f
        else do
          let f ← rebuildTwo d fc o.f
          pure [f] : Except PyErr (List Feature)) = R
    cases R with
    | error e => rfl
    | ok fs =>
      simp only [bind, Except.bind, Except.map, List.length_map]
      split
      · refine congrArg Except.ok (Prod.ext ?_ rfl)
        dsimp only
        rw [← modObj_laid (u' := fun o => { o with
          children := o.children ++ (List.range fs.length).map (objs.length + ·), disq := some true }) _ _
          fun o => rfl]
        refine congrArg (fun L => modObj L k _) ?_
        rw [List.map_append, List.map_map, List.map_map]
        rfl
      · refine congrArg Except.ok (Prod.ext ?_ rfl)
        dsimp only
        rw [List.map_append, List.map_map, List.map_map]
        rfl

theorem rebuildSaddles_laid (fc : PairSearch) : ∀ (ks : List Nat) (objs : List SObj),
    rebuildSaddles (laid g d) fc ks (objs.map (placeO L M)) =
      (rebuildSaddles d fc ks objs).map fun r => (r.1.map (placeO L M), r.2)
  | [], _ => rfl
  | k :: ks, objs => by
    unfold rebuildSaddles
    rw [rebuildOne_laid hout]
    simp only [bind, Except.bind]
    cases rebuildOne d fc objs k with
    | error e => rfl
    | ok r =>
      simp only [Except.map]
      rw [rebuildSaddles_laid fc ks r.1]
      cases rebuildSaddles d fc ks r.1 <;> rfl

theorem discover_laid (fc : PairSearch) (o : Pt → Oracle) (order : List Pt) (rebuild : Bool) :
    DMap.discover (laid g d) fc o order rebuild = (DMap.discover d fc o order rebuild).map (placeMap L M) := by
  unfold DMap.discover
  rw [analyze_laid hout, corners_laid hout]
  simp only [bind, Except.bind]
  cases analyze d o order with
  | error e => rfl
  | ok D =>
    simp only [Except.map]
    cases makeCornerRunoffs d with
    | error e => rfl
    | ok corners =>
      simp only [List.length_map]
      rw [← List.map_append, ← List.map_append, List.length_map, List.map_map]
      have e : (D.saddles ++ (D.runoffs ++ corners)).map ((fun f => ({ f := f } : SObj)) ∘ placeF L M) =
          ((D.saddles ++ (D.runoffs ++ corners)).map fun f => ({ f := f } : SObj)).map (placeO L M) := by
        rw [List.map_map]
        rfl
      rw [e]
      cases rebuild with
      | false => rfl
      | true =>
        simp only [if_true]
        rw [rebuildSaddles_laid hout]
        cases rebuildSaddles d fc (List.range D.saddles.length)
          ((D.saddles ++ (D.runoffs ++ corners)).map fun f => ({ f := f } : SObj)) <;> rfl

end

/-! ### The walk -/

theorem summitCells_laid {g d : DataMap} {L M : Rat → Rat} {f : Feature}
    (hback : (laid g d).latLongToXY (L f.lat) (M f.lon) = d.latLongToXY f.lat f.lon) :
    summitCells (laid g d) (placeF L M f) = summitCells d f := by
  unfold summitCells
  rw [show (placeF L M f).multipoint = f.multipoint from rfl, show (placeF L M f).lat = L f.lat from rfl,
    show (placeF L M f).lon = M f.lon from rfl, hback]

theorem prepopulate_laid {g d : DataMap} {L M : Rat → Rat} (old : Nat → Option (List Pt)) :
    ∀ (k : Nat) (fs : List Feature) (s : WSt),
      (∀ f ∈ fs, (laid g d).latLongToXY (L f.lat) (M f.lon) = d.latLongToXY f.lat f.lon) →
      prepopulate (laid g d) old k (fs.map (placeF L M)) s = prepopulate d old k fs s
  | _, [], _, _ => rfl
  | k, f :: fs, s, hback => by
    rw [List.map_cons]
    unfold prepopulate
    rw [summitCells_laid (hback f (List.mem_cons_self ..))]
    have hback' := fun g hg => hback g (List.mem_cons_of_mem _ hg)
    cases old k with
    | some _ => exact prepopulate_laid old (k + 1) fs s hback'
    | none =>
      dsimp only [bind, Except.bind]
      cases summitCells d f with
      | error e => rfl
      | ok cells => exact prepopulate_laid old (k + 1) fs _ hback'

/-- Everything the walk depends on, for the moved raster. Features with the property `K` compare alike before and after
the move, and splitting them gives features of the same sort. -/
structure EnvLaid (g : DataMap) (L M : Rat → Rat) (K : Feature → Prop) (E E' : SaddleEnv) : Prop where
  raster : E'.d = laid g E.d
  slopes : E'.w = E.w
  near : E'.near = E.near
  pairs : E'.fc = E.fc
  paths : ∀ f, E'.find (placeF L M f) = E.find f
  fuel : E'.fuel = E.fuel
  summits : E'.summits = E.summits.map (placeF L M)
  out : ∀ x y, (laid g E.d).xyToLatLon x y = (L (E.d.xyToLatLon x y).1, M (E.d.xyToLatLon x y).2)
  back : ∀ f, K f → (laid g E.d).latLongToXY (L f.lat) (M f.lon) = E.d.latLongToXY f.lat f.lon
  eq : ∀ f f', K f → K f' → seEq (L f.lat) (M f.lon) f.elevation (L f'.lat) (M f'.lon) f'.elevation =
    seEq f.lat f.lon f.elevation f'.lat f'.lon f'.elevation
  tops : ∀ f ∈ E.summits, K f
  split : ∀ f fs, K f → generateSynthetic E f = .ok (some fs) → ∀ f' ∈ fs, K f'

/-- The state of the walk with features moved. -/
def placeC (L M : Rat → Rat) (s : CSt) : CSt := { s with objs := s.objs.map (placeO L M) }

theorem generateSynthetic_laid {g : DataMap} {L M : Rat → Rat} {E E' : SaddleEnv} (h1 : E'.d = laid g E.d)
    (hout : ∀ x y, (laid g E.d).xyToLatLon x y = (L (E.d.xyToLatLon x y).1, M (E.d.xyToLatLon x y).2))
    (h2 : E'.fc = E.fc) (f : Feature) (h3 : E'.find (placeF L M f) = E.find f) :
    generateSynthetic E' (placeF L M f) = (generateSynthetic E f).map (Option.map (List.map (placeF L M))) := by
  unfold generateSynthetic
  rw [h1, h2, h3, show (placeF L M f).hpn = f.hpn from rfl, show (placeF L M f).multipoint = f.multipoint from rfl,
    children_laid hout]
  split
  · rfl
  split
  · cases generateChildSaddles E.d E.fc f <;> rfl
  · have hplain : (do
          let hs ← f.hpn.mapM highestP3
          pure (some [mkSaddle ((placeF L M f).lat, (placeF L M f).lon) (placeF L M f).elevation none false [] hs]) :
          Except PyErr (Option (List Feature))) = (do
          let hs ← f.hpn.mapM highestP3
          pure (some [mkSaddle (f.lat, f.lon) f.elevation none false [] hs]) :
          Except PyErr (Option (List Feature))).map (Option.map (List.map (placeF L M))) := by
      cases f.hpn.mapM highestP3 <;> rfl
    cases f.multipoint with
    | none => exact hplain
    | some ms =>
      cases ms with
      | nil => exact hplain
      | cons m ms =>
        dsimp only [bind, Except.bind]
        cases saddleHighPath (E.find f) f.hpn with
        | error e => rfl
        | ok r =>
          obtain ⟨p, q, r⟩ := r
          dsimp only
          cases p.toP3 with
          | error e => rfl
          | ok p =>
            dsimp only
            cases q.toP3 with
            | error e => rfl
            | ok q =>
              dsimp only
              rw [hout]
              rfl

theorem alloc_laid {L M : Rat → Rat} (s : CSt) (fs : List Feature) :
    alloc (placeC L M s) (fs.map (placeF L M)) = (placeC L M (alloc s fs).1, (alloc s fs).2) := by
  unfold alloc placeC
  simp only [List.map_append, List.map_map, List.length_map]
  rfl

theorem adopt_laid {L M : Rat → Rat} (s : CSt) (base : Nat) (sids : List Nat) :
    adoptChildren (placeC L M s) base sids = placeC L M (adoptChildren s base sids) := by
  unfold adoptChildren placeC
  dsimp only
  have e := foldl_comm (List.map (placeO L M)) id
    (f := fun objs k => modObj objs k (fun o => { o with parent := some base }))
    (f' := fun objs k => modObj objs k (fun o => { o with parent := some base }))
    (fun objs k => modObj_laid objs k fun o => rfl) sids s.objs
  rw [List.map_id] at e
  rw [e, modObj_laid (u := fun o => { o with children := o.children ++ sids }) _ _ fun o => rfl]

section
variable {g : DataMap} {L M : Rat → Rat} {K : Feature → Prop} {E E' : SaddleEnv} (hE : EnvLaid g L M K E E')
include hE

theorem linkEq_laid {objs : List SObj} (ho : ∀ o ∈ objs, K o.f) (k l : LinkRec) :
    linkEq E' (objs.map (placeO L M)) k l = linkEq E objs k l := by
  unfold linkEq
  rw [hE.summits]
  simp only [List.getElem?_map]
  cases h1 : E.summits[k.summit]? with
  | none => rfl
  | some s =>
    cases h2 : E.summits[l.summit]? with
    | none => rfl
    | some s' =>
      cases h3 : objs[k.saddle]? with
      | none => rfl
      | some t =>
        cases h4 : objs[l.saddle]? with
        | none => rfl
        | some t' =>
          have e1 := hE.eq s s' (hE.tops _ (List.mem_of_getElem? h1)) (hE.tops _ (List.mem_of_getElem? h2))
          have e2 := hE.eq t.f t'.f (ho _ (List.mem_of_getElem? h3)) (ho _ (List.mem_of_getElem? h4))
          dsimp only
          rw [← e1, ← e2]
          rfl

theorem linkIn_laid {s : CSt} (hs : AllK K s) (l : LinkRec) (ids : List Nat) :
    linkIn E' (placeC L M s) l ids = linkIn E s l ids := by
  unfold linkIn
  rw [show (placeC L M s).store = s.store from rfl]
  refine congrArg (List.any ids) (funext fun i => ?_)
  cases s.store[i]? with
  | none => rfl
  | some l' => exact linkEq_laid hE hs l' l

theorem addLinker_laid (b : Bool) {s : CSt} (hs : AllK K s) (D sid : Nat) :
    addLinker E' b (placeC L M s) D sid = placeC L M (addLinker E b s D sid) := by
  unfold addLinker
  simp only [linkIn_laid hE hs]
  rfl

theorem linkEdges_laid (b : Bool) (sid : Nat) :
    ∀ (es : List (List P3)) (s : CSt), AllK K s → linkEdges E' b sid es (placeC L M s) =
      (linkEdges E b sid es s).map (placeC L M)
  | [], _, _ => rfl
  | [] :: _, _, _ => rfl
  | (h0 :: t) :: es, s, hs => by
    unfold linkEdges
    rw [show (placeC L M s).w = s.w from rfl]
    cases s.w.lookup h0.xy with
    | none => exact linkEdges_laid b sid es s hs
    | some D =>
      dsimp only
      rw [addLinker_laid hE b hs]
      exact linkEdges_laid b sid es _ hs

theorem synthetic_laid (f : Feature) :
    generateSynthetic E' (placeF L M f) = (generateSynthetic E f).map (Option.map (List.map (placeF L M))) :=
  generateSynthetic_laid hE.raster hE.out hE.pairs f (hE.paths f)

theorem firm_laid : Firm E (fun _ => True) K := ⟨fun _ _ _ _ _ _ _ _ => trivial, hE.split⟩

theorem edgeSynthetic_laid (s : CSt) (base : Nat) (f : Feature) :
    edgeSynthetic E' (placeC L M s) base (placeF L M f) =
      (edgeSynthetic E s base f).map fun r => (placeC L M r.1, r.2) := by
  unfold edgeSynthetic
  rw [synthetic_laid hE]
  simp only [bind, Except.bind]
  cases generateSynthetic E f with
  | error e => rfl
  | ok r =>
    cases r with
    | none => rfl
    | some fs =>
      simp only [Except.map, Option.map_some, alloc_laid]
      rw [show (placeF L M f).hpn.length = f.hpn.length from rfl, show (placeF L M f).edge = f.edge from rfl]
      split
      · rw [adopt_laid]
        rfl
      · rfl

theorem walkEdgeSaddle_laid (base : Nat) (s : CSt) (sid : Nat) (hs : AllK K s) :
    walkEdgeSaddle E' base (placeC L M s) sid = (walkEdgeSaddle E base s sid).map (placeC L M) := by
  unfold walkEdgeSaddle
  rw [show (placeC L M s).objs[sid]? = s.objs[sid]?.map (placeO L M) from List.getElem?_map]
  cases s.objs[sid]? with
  | none => rfl
  | some o =>
    simp only [Option.map_some]
    rw [show (placeO L M o).f.hpn = o.f.hpn from rfl, linkEdges_laid hE true sid _ s hs]
    simp only [bind, Except.bind]
    cases linkEdges E true sid o.f.hpn s with
    | error e => rfl
    | ok s' =>
      refine congrArg Except.ok ?_
      unfold placeC
      dsimp only
      rw [← modObj_laid (u' := fun o => { o with children := o.children ++ [sid], disq := some true }) _ _
        fun o => rfl, ← modObj_laid (u' := fun o => { o with parent := some base }) _ _ fun o => rfl]

theorem finishEdge_laid (s : CSt) (base : Nat) (sids : List Nat) (hs : AllK K s) :
    finishEdge E' (placeC L M s) base sids = (finishEdge E s base sids).map (placeC L M) := by
  unfold finishEdge
  rw [foldlM_comm_allK (placeC L M) (f' := walkEdgeSaddle E' base) (fun s k s' hs h => walkEdgeSaddle_allK hs h)
    (fun s k hs => walkEdgeSaddle_laid hE base s k hs) sids s hs]
  simp only [bind, Except.bind]
  cases sids.foldlM (walkEdgeSaddle E base) s with
  | error e => rfl
  | ok s' =>
    refine congrArg Except.ok ?_
    unfold placeC
    dsimp only
    rw [← modObj_laid (u' := fun o => { o with disq := some true }) _ _ fun o => rfl]

theorem climbEdges_laid : ∀ (es : List (List P3)) (s : WSt), climbEdges E' es s = climbEdges E es s
  | [], _ => rfl
  | e :: es, s => by
    unfold climbEdges climbPoints
    rw [hE.fuel, climbAll_congr (climbLoop_laid hE.raster hE.slopes hE.near E.fuel)]
    cases climbAll (climbLoop E.toWalkEnv E.fuel) e s with
    | error e => rfl
    | ok s' => exact climbEdges_laid es s'

theorem walkSynthetic_laid (s : CSt) (sid : Nat) (hs : AllK K s) :
    walkSynthetic E' (placeC L M s) sid = (walkSynthetic E s sid).map (placeC L M) := by
  unfold walkSynthetic
  rw [show (placeC L M s).objs[sid]? = s.objs[sid]?.map (placeO L M) from List.getElem?_map]
  cases s.objs[sid]? with
  | none => rfl
  | some o =>
    simp only [Option.map_some]
    rw [show (placeO L M o).f.hpn = o.f.hpn from rfl, climbEdges_laid hE, show (placeC L M s).w = s.w from rfl]
    simp only [bind, Except.bind]
    cases climbEdges E o.f.hpn s.w with
    | error e => rfl
    | ok w =>
      dsimp only
      rw [show ({ placeC L M s with w := w } : CSt) = placeC L M { s with w := w } from rfl,
        linkEdges_laid hE false sid _ { s with w := w } hs]
      cases linkEdges E false sid o.f.hpn { s with w := w } <;> rfl

theorem walkFeature_laid (s : CSt) (base : Nat) (hs : AllK K s) :
    walkFeature E' (placeC L M s) base = (walkFeature E s base).map (placeC L M) := by
  have hK := firm_laid hE
  unfold walkFeature
  rw [show (placeC L M s).objs[base]? = s.objs[base]?.map (placeO L M) from List.getElem?_map]
  cases ho : s.objs[base]? with
  | none => rfl
  | some o =>
    have hf := hs o (List.mem_of_getElem? ho)
    simp only [Option.map_some]
    rw [show (placeO L M o).f = placeF L M o.f from rfl, show (placeF L M o.f).edge = o.f.edge from rfl,
      show (placeF L M o.f).kind = o.f.kind from rfl, show (placeF L M o.f).lat = L o.f.lat from rfl,
      show (placeF L M o.f).lon = M o.f.lon from rfl, show (placeC L M s).w = s.w from rfl,
      show (placeF L M o.f).hpn = o.f.hpn from rfl, climbEdges_laid hE, synthetic_laid hE]
    split
    · simp only [bind, Except.bind]
      cases hg : generateSynthetic E o.f with
      | error e => rfl
      | ok r =>
        cases r with
        | none => exact walkSynthetic_laid hE s base hs
        | some fs =>
          simp only [Except.map, Option.map_some, alloc_laid]
          exact foldlM_comm_allK (placeC L M) (fun s k s' hs h => walkSynthetic_allK hs h)
            (walkSynthetic_laid hE) (alloc s fs).2 (alloc s fs).1 (alloc_allK hs (hE.split _ fs hf hg))
    · simp only [bind, Except.bind]
      cases climbEdges E o.f.hpn s.w with
      | error e => rfl
      | ok w =>
        have hs' : AllK K { s with w := w } := hs
        dsimp only
        rw [show ({ placeC L M s with w := w } : CSt) = placeC L M { s with w := w } from rfl]
        split
        · split
          · rw [hE.raster, hE.back _ hf]
            cases E.d.latLongToXY o.f.lat o.f.lon with
            | none => rfl
            | some p =>
              dsimp only
              cases w.lookup p with
              | none => rfl
              | some D =>
                dsimp only
                rw [addLinker_laid hE true hs', edgeSynthetic_laid hE]
                cases he : edgeSynthetic E (addLinker E true { s with w := w } D base) base o.f with
                | error e => rfl
                | ok r =>
                  refine finishEdge_laid hE r.1 base r.2 (edgeSynthetic_allK hK ?_ hf he)
                  exact hs
          · exact finishEdge_laid hE _ base [base] hs'
        · rw [edgeSynthetic_laid hE]
          cases he : edgeSynthetic E { s with w := w } base o.f with
          | error e => rfl
          | ok r => exact finishEdge_laid hE r.1 base r.2 (edgeSynthetic_allK hK hs' hf he)

omit hE in
theorem sortWalked_laid (s : CSt) : sortWalked (placeC L M s) = sortWalked s := by
  unfold sortWalked
  dsimp only
  rw [show (placeC L M s).walked = s.walked from rfl]
  have e : ∀ i, (placeC L M s).objs[i]? = s.objs[i]?.map (placeO L M) := fun i => List.getElem?_map
  have f1 : ∀ (p q : Nat → Bool) (l : List Nat), (∀ i, p i = q i) → l.filter p = l.filter q := fun p q l h => by
    rw [funext h]
  refine Walked.mk.injEq .. |>.mpr ⟨f1 _ _ _ fun i => ?_, f1 _ _ _ fun i => ?_, rfl, rfl⟩ <;>
    rw [e] <;> cases s.objs[i]? <;> rfl

theorem climbFromSaddles_laid (bases : List Nat) (s : CSt) (hs : AllK K s) :
    climbFromSaddles E' bases (placeC L M s) =
      (climbFromSaddles E bases s).map fun r => (r.1, placeC L M r.2) := by
  unfold climbFromSaddles
  rw [foldlM_comm_allK (placeC L M) (f' := walkFeature E') (fun s k s' hs h => walkFeature_allK (firm_laid hE) hs h)
    (walkFeature_laid hE) bases s hs]
  simp only [bind, Except.bind]
  cases bases.foldlM (walkFeature E) s with
  | error e => rfl
  | ok s' =>
    simp only [Except.map, sortWalked_laid]
    rfl

end

theorem walk_laid {g : DataMap} {L M : Rat → Rat} {K : Feature → Prop} {E E' : SaddleEnv} (m : DMap)
    (hE : EnvLaid g L M K { E with summits := m.summits } { E' with summits := (placeMap L M m).summits })
    (hm : AllK K m.st) (sel : List Nat) :
    DMap.walk E' (placeMap L M m) sel = (DMap.walk E m sel).map fun r => (placeMap L M r.1, r.2) := by
  unfold DMap.walk
  dsimp only
  rw [show E'.d = laid g E.d from hE.raster, show (placeMap L M m).summits = m.summits.map (placeF L M) from rfl,
    show walkInit (laid g E.d) (placeMap L M m).domPoints (m.summits.map (placeF L M)) =
      walkInit E.d m.domPoints m.summits from prepopulate_laid _ 0 m.summits _ fun f hf => hE.back f (hE.tops f hf)]
  simp only [bind, Except.bind]
  cases walkInit E.d m.domPoints m.summits with
  | error e => rfl
  | ok w =>
    dsimp only
    have e : climbFromSaddles { E' with summits := m.summits.map (placeF L M) }
        (if sel.isEmpty = true then (placeMap L M m).saddles ++ (placeMap L M m).runoffs else sel)
        { (placeMap L M m).st with w := w, walked := [], linkers := [], doms := [] } = _ :=
      climbFromSaddles_laid hE (if sel.isEmpty = true then m.saddles ++ m.runoffs else sel)
        { m.st with w := w, walked := [], linkers := [], doms := [] } hm
    rw [e]
    cases climbFromSaddles { E with summits := m.summits }
      (if sel.isEmpty = true then m.saddles ++ m.runoffs else sel)
      { m.st with w := w, walked := [], linkers := [], doms := [] } with
    | error e => rfl
    | ok r =>
      simp only [Except.map, List.length_map]
      split <;> rfl

/-! ### Features on the grid -/

/-- The feature is at a cell of the grid, inside the raster or not. -/
def OnGrid (d : DataMap) (f : Feature) : Prop :=
  (∃ x : Int, f.lat = d.gt3 + x * d.gt5) ∧ ∃ y : Int, f.lon = d.gt0 + y * d.gt1

/-- Leaves latitudes on the grid and changes all others. -/
noncomputable def offLat (d : DataMap) (a : Rat) : Rat :=
  open Classical in if ∃ x : Int, a = d.gt3 + x * d.gt5 then a else a + 1

/-- Leaves longitudes on the grid and changes all others. -/
noncomputable def offLon (d : DataMap) (a : Rat) : Rat :=
  open Classical in if ∃ y : Int, a = d.gt0 + y * d.gt1 then a else a + 1

theorem onGrid_iff (d : DataMap) (f : Feature) : OnGrid d f ↔ placeF (offLat d) (offLon d) f = f := by
  constructor
  · rintro ⟨h1, h2⟩
    unfold placeF offLat offLon
    rw [if_pos h1, if_pos h2]
  · intro h
    have e1 : offLat d f.lat = f.lat := congrArg Feature.lat h
    have e2 : offLon d f.lon = f.lon := congrArg Feature.lon h
    refine ⟨?_, ?_⟩
    · by_contra hn
      unfold offLat at e1
      rw [if_neg hn] at e1
      linarith
    · by_contra hn
      unfold offLon at e2
      rw [if_neg hn] at e2
      linarith

theorem out_off {d : DataMap} (hd : Unrotated d) (x y : Int) : (laid d d).xyToLatLon x y =
    (offLat d (d.xyToLatLon x y).1, offLon d (d.xyToLatLon x y).2) := by
  unfold DataMap.xyToLatLon offLat offLon
  dsimp only
  rw [if_pos ⟨x, by rw [hd.gt4]; simp only [hd.exact]; ring⟩, if_pos ⟨y, by rw [hd.gt2]; simp only [hd.exact]; ring⟩]
  rfl

theorem fixed_of_map {α : Type} {u : α → α} {l : List α} (h : l.map u = l) : ∀ a ∈ l, u a = a := by
  intro a ha
  obtain ⟨i, hi⟩ := List.mem_iff_getElem?.1 ha
  have e : (l.map u)[i]? = l[i]? := by rw [h]
  rw [List.getElem?_map, hi] at e
  exact Option.some.inj e

theorem discover_onGrid {d : DataMap} (hd : Unrotated d) {fc : PairSearch} {o : Pt → Oracle} {order : List Pt}
    {rebuild : Bool} {m : DMap} (h : DMap.discover d fc o order rebuild = .ok m) :
    (∀ f ∈ m.summits, OnGrid d f) ∧ AllK (OnGrid d) m.st := by
  have e := discover_laid (out_off hd) fc o order rebuild
  rw [show laid d d = d from rfl, h] at e
  have e' : m = placeMap (offLat d) (offLon d) m := Except.ok.inj e
  refine ⟨fun f hf => (onGrid_iff d f).2 (fixed_of_map (congrArg DMap.summits e').symm f hf), fun o ho => ?_⟩
  have e2 : placeO (offLat d) (offLon d) o = o := fixed_of_map (congrArg (fun m => m.st.objs) e').symm o ho
  exact (onGrid_iff d o.f).2 (congrArg SObj.f e2)

theorem synthetic_onGrid {E : SaddleEnv} (hd : Unrotated E.d) {f : Feature} {fs : List Feature} (hf : OnGrid E.d f)
    (h : generateSynthetic E f = .ok (some fs)) : ∀ f' ∈ fs, OnGrid E.d f' := by
  have e0 := (onGrid_iff E.d f).1 hf
  have e := generateSynthetic_laid (E' := E) (g := E.d) rfl (out_off hd) rfl f (by rw [e0])
  rw [e0, h] at e
  have e1 : fs = fs.map (placeF (offLat E.d) (offLon E.d)) := Option.some.inj (Except.ok.inj e)
  exact fun f' hf' => (onGrid_iff E.d f').2 (fixed_of_map e1.symm f' hf')

/-! ### Moving to another place -/

section
variable {d g : DataMap}

theorem newLat_grid (hd : Unrotated d) (x : Int) : newLat d g (d.gt3 + x * d.gt5) = g.gt3 + x * g.gt5 := by
  unfold newLat
  have := hd.gt5
  field_simp
  ring

theorem newLon_grid (hd : Unrotated d) (y : Int) : newLon d g (d.gt0 + y * d.gt1) = g.gt0 + y * g.gt1 := by
  unfold newLon
  have := hd.gt1
  field_simp
  ring

theorem out_new (hd : Unrotated d) (hg : Unrotated g) (x y : Int) : (laid g d).xyToLatLon x y =
    (newLat d g (d.xyToLatLon x y).1, newLon d g (d.xyToLatLon x y).2) := by
  unfold DataMap.xyToLatLon laid
  dsimp only
  rw [hd.gt4, hd.gt2, hg.gt4, hg.gt2]
  simp only [mul_zero, add_zero, hd.exact, hg.exact]
  rw [newLat_grid hd, newLon_grid hd]

theorem back_new (hd : Unrotated d) (hg : Unrotated g) (a b : Rat) :
    (laid g d).latLongToXY (newLat d g a) (newLon d g b) = d.latLongToXY a b := by
  unfold DataMap.latLongToXY newLat newLon laid
  dsimp only
  rw [if_neg (by simp only [hg.gt1, hg.gt5, or_self, not_false_eq_true]),
    if_neg (by simp only [hd.gt1, hd.gt5, or_self, not_false_eq_true])]
  have h1 : (g.gt0 + (b - d.gt0) / d.gt1 * g.gt1 - g.gt0) / g.gt1 = (b - d.gt0) / d.gt1 := by
    rw [add_sub_cancel_left, mul_div_assoc, div_self hg.gt1, mul_one]
  have h2 : (g.gt3 + (a - d.gt3) / d.gt5 * g.gt5 - g.gt3) / g.gt5 = (a - d.gt3) / d.gt5 := by
    rw [add_sub_cancel_left, mul_div_assoc, div_self hg.gt5, mul_one]
  simp only [hd.exact, hg.exact]
  rw [h1, h2]

theorem round6_grid {c t : Rat} (ht : 1 / 1000000 < |t|) (x x' : Int) :
    round6 (c + x * t) = round6 (c + x' * t) ↔ x = x' := by
  refine ⟨fun h => ?_, fun h => by rw [h]⟩
  by_contra hne
  unfold round6 at h
  have h1 := (pyRound_spec ((c + x * t) * 1000000)).1
  have h2 := (pyRound_spec ((c + x' * t) * 1000000)).1
  rw [h] at h1
  have h3 : |((x : Rat) - x')| ≥ 1 := by
    rw [← Int.cast_sub, ← Int.cast_abs]
    exact_mod_cast Int.one_le_abs (sub_ne_zero.2 hne)
  have h4 : |((x : Rat) - x') * t| > 1 / 1000000 := by
    rw [abs_mul]
    nlinarith [abs_nonneg t]
  have h5 : ((x : Rat) - x') * t * 1000000 = (c + x * t) * 1000000 - (c + x' * t) * 1000000 := by ring
  rw [abs_le] at h1 h2
  rcases abs_cases (((x : Rat) - x') * t) with ⟨h6, _⟩ | ⟨h6, _⟩ <;> rw [h6] at h4 <;> linarith [h1.1, h1.2, h2.1, h2.2]

theorem eqCoord_grid {c t : Rat} (ht : 1 / 1000000 < |t|) (x x' : Int) :
    eqCoord (c + x * t) = eqCoord (c + x' * t) ↔ x = x' := by
  rw [eqCoord_iff, round6_grid ht]
  exact ⟨And.left, fun h => ⟨h, by rw [h]⟩⟩

theorem seEq_new (hd : Coarse d) (hg : Coarse g) {f f' : Feature} (h : OnGrid d f) (h' : OnGrid d f') :
    seEq (newLat d g f.lat) (newLon d g f.lon) f.elevation (newLat d g f'.lat) (newLon d g f'.lon) f'.elevation =
      seEq f.lat f.lon f.elevation f'.lat f'.lon f'.elevation := by
  obtain ⟨⟨x, hx⟩, y, hy⟩ := h
  obtain ⟨⟨x', hx'⟩, y', hy'⟩ := h'
  rw [hx, hy, hx', hy', newLat_grid hd.geo, newLat_grid hd.geo, newLon_grid hd.geo, newLon_grid hd.geo]
  unfold seEq
  simp only [eqCoord_grid hd.lat, eqCoord_grid hd.lon, eqCoord_grid hg.lat, eqCoord_grid hg.lon]

theorem seNe_new (hd : Coarse d) (hg : Coarse g) {f f' : Feature} (h : OnGrid d f) (h' : OnGrid d f') :
    seNe (newLat d g f.lat) (newLon d g f.lon) f.elevation (newLat d g f'.lat) (newLon d g f'.lon) f'.elevation =
      seNe f.lat f.lon f.elevation f'.lat f'.lon f'.elevation := by
  obtain ⟨⟨x, hx⟩, y, hy⟩ := h
  obtain ⟨⟨x', hx'⟩, y', hy'⟩ := h'
  rw [hx, hy, hx', hy', newLat_grid hd.geo, newLat_grid hd.geo, newLon_grid hd.geo, newLon_grid hd.geo]
  unfold seNe
  simp only [round6_grid hd.lat, round6_grid hd.lon, round6_grid hg.lat, round6_grid hg.lon]

end

theorem envLaid_new {g : DataMap} {E E' : SaddleEnv} (hE : SameElsewhere g E E') (hd : Coarse E.d) (hg : Coarse g)
    {m : DMap} (hm : ∀ f ∈ m.summits, OnGrid E.d f) :
    EnvLaid g (newLat E.d g) (newLon E.d g) (OnGrid E.d) { E with summits := m.summits }
      { E' with summits := (placeMap (newLat E.d g) (newLon E.d g) m).summits } where
  raster := hE.raster
  slopes := hE.slopes
  near := hE.near
  pairs := hE.pairs
  paths := hE.paths
  fuel := hE.fuel
  summits := rfl
  out := out_new hd.geo hg.geo
  back := fun f _ => back_new hd.geo hg.geo f.lat f.lon
  eq := fun _ _ h h' => seEq_new hd hg h h'
  tops := hm
  split := fun _ _ hf h => synthetic_onGrid (E := { E with summits := m.summits }) hd.geo hf h

/-- All features of the map are on the grid. -/
structure MapOnGrid (d : DataMap) (m : DMap) : Prop where
  tops : ∀ f ∈ m.summits, OnGrid d f
  objs : AllK (OnGrid d) m.st

theorem walk_onGrid {E : SaddleEnv} (hd : Unrotated E.d) {m : DMap} (hm : MapOnGrid E.d m) {sel : List Nat}
    {r : DMap × Option (List Nat × List Nat)} (h : DMap.walk E m sel = .ok r) : MapOnGrid E.d r.1 := by
  unfold DMap.walk at h
  obtain ⟨w, _, h5⟩ := bind_ok h
  obtain ⟨⟨q, s⟩, h6, h7⟩ := bind_ok h5
  have hs : AllK (OnGrid E.d) s := by
    unfold climbFromSaddles at h6
    obtain ⟨s', h8, h9⟩ := bind_ok h6
    cases h9
    refine foldlM_allK (fun s k s' hs h => walkFeature_allK (A := fun _ => True) ?_ hs h) _ _ _ ?_ h8
    · exact ⟨fun _ _ _ _ _ _ _ _ => trivial, fun _ _ hf h => synthetic_onGrid (E := { E with summits := m.summits }) hd hf h⟩
    · exact hm.objs
  dsimp only at h7
  split at h7 <;> cases h7 <;> exact ⟨hm.tops, hs⟩

theorem walk_new {g : DataMap} {E E' : SaddleEnv} (hE : SameElsewhere g E E') (hd : Coarse E.d) (hg : Coarse g) {m : DMap}
    (hm : MapOnGrid E.d m) (sel : List Nat) :
    DMap.walk E' (placeMap (newLat E.d g) (newLon E.d g) m) sel =
      (DMap.walk E m sel).map fun r => (placeMap (newLat E.d g) (newLon E.d g) r.1, r.2) :=
  walk_laid m (envLaid_new hE hd hg hm.tops) hm.objs sel

theorem runSparse_onGrid {E : SaddleEnv} (hd : Unrotated E.d) {o : Pt → Oracle} {order : List Pt} {rebuild : Bool}
    {m : DMap} (h : DMap.runSparse E o order rebuild = .ok m) : MapOnGrid E.d m := by
  unfold DMap.runSparse at h
  obtain ⟨m0, h1, h2⟩ := bind_ok h
  obtain ⟨r, h3, h4⟩ := bind_ok h2
  cases h4
  have := discover_onGrid hd h1
  exact walk_onGrid hd ⟨this.1, this.2⟩ h3

theorem runSparse_new {g : DataMap} {E E' : SaddleEnv} (hE : SameElsewhere g E E') (hd : Coarse E.d) (hg : Coarse g)
    (o : Pt → Oracle) (order : List Pt) (rebuild : Bool) :
    DMap.runSparse E' o order rebuild =
      (DMap.runSparse E o order rebuild).map (placeMap (newLat E.d g) (newLon E.d g)) := by
  unfold DMap.runSparse
  rw [hE.raster, hE.pairs, discover_laid (out_new hd.geo hg.geo)]
  simp only [bind, Except.bind]
  cases hm : DMap.discover E.d E.fc o order rebuild with
  | error e => rfl
  | ok m =>
    have := discover_onGrid hd.geo hm
    simp only [Except.map]
    rw [walk_new hE hd hg ⟨this.1, this.2⟩]
    cases m.walk E [] <;> rfl

/-! ### Networks of moved maps -/

theorem feature_laid (L M : Rat → Rat) (m : DMap) (n : Node) :
    (placeMap L M m).feature n = (m.feature n).map (placeF L M) := by
  cases n with
  | summit D => exact List.getElem?_map
  | saddle k =>
    show ((m.st.objs.map fun o => { o with f := placeF L M o.f })[k]?).map (·.f) = (m.st.objs[k]?.map (·.f)).map _
    rw [List.getElem?_map]
    cases m.st.objs[k]? <;> rfl

theorem net_laid {L M : Rat → Rat} {K : Feature → Prop} (heq : ∀ f f', K f → K f' →
      seEq (L f.lat) (M f.lon) f.elevation (L f'.lat) (M f'.lon) f'.elevation =
        seEq f.lat f.lon f.elevation f'.lat f'.lon f'.elevation)
    (hne : ∀ f f', K f → K f' → seNe (L f.lat) (M f.lon) f.elevation (L f'.lat) (M f'.lon) f'.elevation =
      seNe f.lat f.lon f.elevation f'.lat f'.lon f'.elevation)
    {m : DMap} (tops : ∀ f ∈ m.summits, K f) (objs : AllK K m.st) : (placeMap L M m).net = m.net := by
  have hfeat : ∀ n f, m.feature n = some f → K f := by
    intro n f h
    cases n with
    | summit D => exact tops f (List.mem_of_getElem? h)
    | saddle k =>
      obtain ⟨o, h1, rfl⟩ := Option.map_eq_some_iff.1 h
      exact objs o (List.mem_of_getElem? h1)
  have h0 : (placeMap L M m).net.elev = m.net.elev := funext fun n => by
    show ((((placeMap L M m).feature n).map (·.elevation)).getD 0) =
      ((m.feature n).map (·.elevation)).getD 0
    rw [feature_laid]
    cases m.feature n <;> rfl
  have h1 : (placeMap L M m).net.edge = m.net.edge := funext fun n => by
    show ((((placeMap L M m).feature n).map (·.edge)).getD true) =
      ((m.feature n).map (·.edge)).getD true
    rw [feature_laid]
    cases m.feature n <;> rfl
  have h2 : (placeMap L M m).net.eq = m.net.eq := funext fun n => funext fun n' => by
    show featEq ((placeMap L M m).feature n) ((placeMap L M m).feature n') =
      featEq (m.feature n) (m.feature n')
    rw [feature_laid, feature_laid]
    cases e1 : m.feature n with
    | none => rfl
    | some s =>
      cases e2 : m.feature n' with
      | none => rfl
      | some t => exact heq s t (hfeat _ _ e1) (hfeat _ _ e2)
  have h3 : (placeMap L M m).net.setEq = m.net.setEq := funext fun n => funext fun n' => by
    show sumSetEq (m.summits.map (placeF L M))[n]?
      (m.summits.map (placeF L M))[n']? = sumSetEq m.summits[n]? m.summits[n']?
    rw [List.getElem?_map, List.getElem?_map]
    cases e1 : m.summits[n]? with
    | none => rfl
    | some s =>
      cases e2 : m.summits[n']? with
      | none => rfl
      | some t =>
        have k1 := tops s (List.mem_of_getElem? e1)
        have k2 := tops t (List.mem_of_getElem? e2)
        show (!seNe (L s.lat) (M s.lon) s.elevation (L t.lat) (M t.lon) t.elevation &&
          seEq (L s.lat) (M s.lon) s.elevation (L t.lat) (M t.lon) t.elevation) = _
        rw [heq s t k1 k2, hne s t k1 k2]
        rfl
  have h4 : (placeMap L M m).net.nSummits = m.net.nSummits := List.length_map _
  have h5 : (placeMap L M m).net.nSaddles = m.net.nSaddles := List.length_map _
  have e : ∀ N : FNet, N = ⟨N.nSummits, N.nSaddles, N.elev, N.edge, N.eq, N.setEq, N.link, N.sumLinks, N.sadLinks,
    N.sumDisq⟩ := fun _ => rfl
  rw [e (placeMap L M m).net, h0, h1, h2, h3, h4, h5]
  rfl

theorem net_new {d g : DataMap} (hd : Coarse d) (hg : Coarse g) {m : DMap} (hm : MapOnGrid d m) :
    (placeMap (newLat d g) (newLon d g) m).net = m.net :=
  net_laid (fun _ _ h h' => seEq_new hd hg h h') (fun _ _ h h' => seNe_new hd hg h h') hm.tops hm.objs

theorem flags_laid (L M : Rat → Rat) (m : DMap) : (placeMap L M m).flags = m.flags := by
  unfold DMap.flags
  have : (fun k : Nat => ((placeMap L M m).st.objs[k]?.map SObj.disq).getD none) =
      fun k : Nat => (m.st.objs[k]?.map SObj.disq).getD none := funext fun k => by
    show ((m.st.objs.map fun o => { o with f := placeF L M o.f })[k]?.map SObj.disq).getD none = _
    rw [List.getElem?_map]
    cases m.st.objs[k]? <;> rfl
  rw [this]

theorem run_new {g : DataMap} {E E' : SaddleEnv} (hE : SameElsewhere g E E') (hd : Coarse E.d) (hg : Coarse g)
    (o : Pt → Oracle) (order : List Pt) (rebuild : Bool) (fuel : Nat) :
    DMap.run E' o order rebuild fuel =
      (DMap.run E o order rebuild fuel).map fun r => (placeMap (newLat E.d g) (newLon E.d g) r.1, r.2) := by
  unfold DMap.run
  rw [runSparse_new hE hd hg]
  simp only [bind, Except.bind]
  cases hm : DMap.runSparse E o order rebuild with
  | error e => rfl
  | ok m =>
    simp only [Except.map]
    unfold DMap.detectBasins
    rw [flags_laid, net_new hd hg (runSparse_onGrid hd.geo hm)]
    rw [show (placeMap (newLat E.d g) (newLon E.d g) m).saddles = m.saddles from rfl]
    cases disqualifyBasinSaddles m.net fuel m.saddles m.flags <;> rfl

end PyProm
