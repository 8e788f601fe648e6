import Verif.Proof.RunHeightsBasin
import Verif.Props.Run

/-! C107: a complete run with heights in another unit or above another datum. -/
namespace PyProm
open Spec

/-! ### The searches of the package -/

section
variable {φ : Rat → Rat}

theorem closestPair_scaled (dist : Pt → Pt → Rat) (us them : List P3) :
    closestPairBrute (fun p q => dist p.xy q.xy) (us.map (scale3 φ)) (them.map (scale3 φ)) =
      ((closestPairBrute (fun p q => dist p.xy q.xy) us them).1.map (Prod.map (scale3 φ) (scale3 φ)),
        (closestPairBrute (fun p q => dist p.xy q.xy) us them).2) := by
  unfold closestPairBrute
  refine foldl_comm (fun b : Option (P3 × P3) × Rat => (b.1.map (Prod.map (scale3 φ) (scale3 φ)), b.2)) (scale3 φ)
    ?_ us (none, maxsize)
  intro s m
  refine foldl_comm (fun b : Option (P3 × P3) × Rat => (b.1.map (Prod.map (scale3 φ) (scale3 φ)), b.2)) (scale3 φ)
    ?_ them s
  intro s t
  unfold minStep
  show (if dist m.xy t.xy < s.2 then _ else _) = _
  dsimp only
  split <;> rfl

theorem closestPairKd_scaled (query : KdQuery) (dist : Pt → Pt → Rat) (us them : List P3) :
    closestPairKd query (fun p q => dist p.xy q.xy) (us.map (scale3 φ)) (them.map (scale3 φ)) =
      (closestPairKd query (fun p q => dist p.xy q.xy) us them).map fun r =>
        (scale3 φ r.1, scale3 φ r.2.1, r.2.2) := by
  unfold closestPairKd
  have e : ∀ l : List P3, (l.map (scale3 φ)).map P3.xy = l.map P3.xy := fun l => by
    rw [List.map_map]
    rfl
  rw [e, e]
  dsimp only [bind, Except.bind]
  cases argmin ((query (us.map P3.xy) (them.map P3.xy)).map Prod.fst) with
  | error x => rfl
  | ok idx =>
    dsimp only
    rw [List.getElem?_map]
    cases them[idx]? with
    | none => rfl
    | some t =>
      cases (query (us.map P3.xy) (them.map P3.xy))[idx]? with
      | none => rfl
      | some di =>
        simp only [Option.map_some, List.getElem?_map]
        cases us[di.2]? <;> rfl

/-- The search for closest pairs picks the same pairs on converted heights. -/
theorem realSearch_same (query : KdQuery) (dist : Pt → Pt → Rat) :
    SamePairs φ (realSearch query fun p q => dist p.xy q.xy) (realSearch query fun p q => dist p.xy q.xy) := by
  intro us them
  unfold realSearch findClosestPoints
  rw [List.length_map, List.length_map, closestPair_scaled, closestPairKd_scaled]
  by_cases h : us.length + them.length < 100
  · simp only [if_pos h]
  · simp only [if_neg h]
    cases closestPairKd query (fun p q => dist p.xy q.xy) us them <;> rfl

theorem scale3_iff (hφ : Increasing φ) {p q : P3} : scale3 φ p = scale3 φ q ↔ p = q :=
  ⟨fun h => scale3_inj hφ h, congrArg _⟩

theorem closestMap_scaled (hφ : Increasing φ) (hyp : Pt → Pt → Rat) (us them : List P3) (p : P3) :
    closestMapBrute (fun p q => hyp p.xy q.xy) (us.map (scale3 φ)) (them.map (scale3 φ)) (scale3 φ p) =
      (closestMapBrute (fun p q => hyp p.xy q.xy) us them p).map (scale3 φ) := by
  unfold closestMapBrute
  have key : ∀ (us : List P3) (g g' : P3 → Option P3), (∀ p, g' (scale3 φ p) = (g p).map (scale3 φ)) → ∀ p,
      ((us.map (scale3 φ)).foldl (fun closest m =>
        match ((them.map (scale3 φ)).foldl (minStep fun q => hyp m.xy q.xy) (none, maxsize)).1 with
        | some t => fun q => if q = m then some t else closest q
        | none => closest) g') (scale3 φ p) =
      ((us.foldl (fun closest m =>
        match (them.foldl (minStep fun q => hyp m.xy q.xy) (none, maxsize)).1 with
        | some t => fun q => if q = m then some t else closest q
        | none => closest) g) p).map (scale3 φ) := by
    intro us
    induction us with
    | nil => exact fun g g' h p => h p
    | cons m us ih =>
      intro g g' h p
      rw [List.map_cons, List.foldl_cons, List.foldl_cons]
      refine ih _ _ (fun p => ?_) p
      have e := foldl_comm (fun b : Option P3 × Rat => (b.1.map (scale3 φ), b.2)) (scale3 φ)
        (f := minStep fun q : P3 => hyp m.xy q.xy) (f' := minStep fun q : P3 => hyp m.xy q.xy)
        (fun s t => by
          unfold minStep
          show (if hyp m.xy t.xy < s.2 then _ else _) = _
          split <;> rfl) them (none, maxsize)
      rw [Option.map_none] at e
      rw [show (scale3 φ m).xy = m.xy from rfl, e]
      cases (them.foldl (minStep fun q : P3 => hyp m.xy q.xy) (none, maxsize)).1 with
      | none => exact h p
      | some t =>
        simp only [Option.map_some, scale3_iff hφ]
        split
        · rfl
        · exact h p
  exact key us _ _ (fun _ => rfl) p

theorem kdAssign_scaled (hφ : Increasing φ) (us them : List P3) : ∀ (l : List (P3 × (Rat × Nat))) (g g' : P3 → Option P3),
    (∀ p, g' (scale3 φ p) = (g p).map (scale3 φ)) →
    (∃ e, kdAssign us them l g = .error e ∧ kdAssign (us.map (scale3 φ)) (them.map (scale3 φ))
      (l.map fun x => (scale3 φ x.1, x.2)) g' = .error e) ∨
    ∃ m m', kdAssign us them l g = .ok m ∧ kdAssign (us.map (scale3 φ)) (them.map (scale3 φ))
      (l.map fun x => (scale3 φ x.1, x.2)) g' = .ok m' ∧ ∀ p, m' (scale3 φ p) = (m p).map (scale3 φ)
  | [], g, g', h => .inr ⟨g, g', rfl, rfl, h⟩
  | (u, di) :: l, g, g', h => by
    rw [List.map_cons]
    unfold kdAssign
    dsimp only
    rw [List.getElem?_map]
    cases them[di.2]? with
    | none => exact .inl ⟨_, rfl, rfl⟩
    | some t =>
      refine kdAssign_scaled hφ us them l _ _ fun p => ?_
      simp only [scale3_iff hφ]
      split
      · rfl
      · exact h p

/-- The search for nearest points picks the same points on converted heights. -/
theorem findClosestMap_same (hφ : Increasing φ) (query : KdQuery) (hyp : Pt → Pt → Rat) :
    SameNear φ (findClosestMap query fun p q => hyp p.xy q.xy) (findClosestMap query fun p q => hyp p.xy q.xy) := by
  intro us them
  unfold findClosestMap
  rw [List.length_map, List.length_map]
  split
  · exact .inr ⟨_, _, rfl, rfl, closestMap_scaled hφ hyp us them⟩
  · unfold closestMapKd
    have e : ∀ l : List P3, (l.map (scale3 φ)).map P3.xy = l.map P3.xy := fun l => by
      rw [List.map_map]
      rfl
    rw [e, e]
    have e2 : (us.map (scale3 φ)).zip (query (them.map P3.xy) (us.map P3.xy)) =
        (us.zip (query (them.map P3.xy) (us.map P3.xy))).map fun x => (scale3 φ x.1, x.2) := by
      rw [List.zip_map_left]
      rfl
    rw [e2]
    exact kdAssign_scaled hφ us them _ _ _ fun _ => rfl

end

/-! ### C107 -/

/-- C107: a complete run on a raster whose heights (and nodata marker) are given in another unit and above another
datum ends as the run on the raster itself: with the same exception, or with the same map in which all heights are
converted, and with the same saddles and linkers disqualified. Both runs are to take elements out of sets in the
same order and to find the same cheapest paths. All that is needed of the conversion is that heights and slopes compare
alike, see `C107_slopes`. -/
theorem C107_run (φ : Rat → Rat) (hφ : Increasing φ) (E E' : SaddleEnv) (hE : SameChoices φ E E')
    (hw : SameSlopes φ (Occurs E.d) E.w E'.w)
    (o o' : Pt → Oracle) (ho : ∀ p, SameOrders φ (o p) (o' p)) (order : List Pt) (rebuild : Bool) (fuel : Nat) :
    DMap.run E' o' order rebuild fuel =
      (DMap.run E o order rebuild fuel).map fun r => (scaleMap φ r.1, r.2) :=
  run_scaled hφ hE hw ho order rebuild fuel

/-- C107, further walks: what happens when a converted map is walked again, from all or from some saddles. -/
theorem C107_walk (φ : Rat → Rat) (hφ : Increasing φ) (E E' : SaddleEnv) (hE : SameChoices φ E E')
    (hw : SameSlopes φ (Occurs E.d) E.w E'.w) (m : DMap) (sel : List Nat) :
    DMap.walk E' (scaleMap φ m) sel = (DMap.walk E m sel).map fun r => (scaleMap φ r.1, r.2) :=
  walk_scaled hφ hE hw m sel

theorem slopes_convert {φ : Rat → Rat} {A : Rat → Prop} {a b c : Rat} (ha : ∀ h, A h → φ h = a * h + b) (hc : 0 < c)
    {w w' : Int → Int → Rat → Rat} (hw : ∀ s r, Adj (0, 0) s → 0 ≤ r → w' s.1 s.2 (a * r) = c * w s.1 s.2 r) :
    SameSlopes φ A w w' := by
  have key : ∀ s p e, Adj (0, 0) s → A p → A e → p ≤ e → w' s.1 s.2 (φ e - φ p) = c * w s.1 s.2 (e - p) := by
    intro s p e hs hp he hle
    rw [← hw s _ hs (sub_nonneg.2 hle), ha p hp, ha e he]
    congr 1
    ring
  refine ⟨fun s p e hs hp he hle => ?_, fun s t p e e' hs ht hp he he' hle hle' => ?_⟩
  · rw [key s p e hs hp he hle]
    refine ⟨fun h => ?_, fun h => mul_neg_of_pos_of_neg hc h⟩
    by_contra hv
    exact absurd (mul_nonneg hc.le (not_lt.mp hv)) (not_le.mpr h)
  · rw [key s p e hs hp he hle, key t p e' ht hp he' hle']
    exact mul_lt_mul_iff_right₀ hc

/-- C107, slopes compare alike: without rounding, whatever the units and the datum of heights and whatever the unit of
lengths. -/
theorem C107_slopes (φ : Rat → Rat) (a b c : Rat) (hc : Converts φ a b) (hl : 0 < c) (A : Rat → Prop)
    (len len' : Int → Int → Rat) (h : ∀ x y, len' x y = c * len x y) :
    SameSlopes φ A (exactSlope len) (exactSlope len') := by
  refine slopes_convert (c := a / c) (fun h _ => hc.2 h) (div_pos hc.1 hl) fun s r _ _ => ?_
  unfold exactSlope
  rw [h, mul_div_mul_comm]

/-- C107, the searches of the package are no obstacle: distances do not depend on heights, so nearest points and
closest pairs are the same. What is left are the cheapest paths across flat saddles. -/
theorem C107_searches (φ : Rat → Rat) (hφ : Increasing φ) (query query' : KdQuery) (hyp dist : Pt → Pt → Rat) (E E' : SaddleEnv)
    (h1 : E'.d = rescaled φ E.d) (h3 : E'.fuel = E.fuel)
    (h4 : E.near = findClosestMap query fun p q => hyp p.xy q.xy) (h5 : E'.near = E.near)
    (h6 : E.fc = realSearch query' fun p q => dist p.xy q.xy) (h7 : E'.fc = E.fc)
    (h8 : ∀ f x y, E'.find (scaleF φ f) (scale3 φ x) (scale3 φ y) =
      { cost := (E.find f x y).cost, nodes := (E.find f x y).nodes.map (scaleM φ) }) : SameChoices φ E E' where
  raster := h1
  near := by
    rw [h5, h4]
    exact findClosestMap_same hφ query hyp
  pairs := by
    rw [h7, h6]
    exact realSearch_same query' dist
  paths := h8
  fuel := h3

/-- C107, what a user reads off the two maps: summits, saddles and runoffs at the same places with heights
converted, the same linkers, domains and families, and prominences multiplied by the ratio of the units. -/
theorem C107_read (φ : Rat → Rat) (a b : Rat) (hc : Converts φ a b) (m : DMap) :
    (scaleMap φ m).st.store = m.st.store ∧ (scaleMap φ m).domPoints = m.domPoints ∧
    (scaleMap φ m).saddles = m.saddles ∧ (scaleMap φ m).runoffs = m.runoffs ∧ (scaleMap φ m).linkers = m.linkers ∧
    (∀ n, ((scaleMap φ m).feature n).map (fun f => (f.kind, f.lat, f.lon, f.edge)) =
      (m.feature n).map fun f => (f.kind, f.lat, f.lon, f.edge)) ∧
    (∀ n, ((scaleMap φ m).feature n).map (·.elevation) = (m.feature n).map fun f => φ f.elevation) ∧
    ∀ s k f g, m.feature (.summit s) = some f → m.feature (.saddle k) = some g →
      ∃ f' g', (scaleMap φ m).feature (.summit s) = some f' ∧ (scaleMap φ m).feature (.saddle k) = some g' ∧
        f'.elevation - g'.elevation = a * (f.elevation - g.elevation) := by
  refine ⟨rfl, rfl, rfl, rfl, rfl, fun n => ?_, fun n => ?_, fun s k f g hf hg => ?_⟩
  · rw [feature_scaled]
    cases m.feature n <;> rfl
  · rw [feature_scaled]
    cases m.feature n <;> rfl
  · refine ⟨scaleF φ f, scaleF φ g, by rw [feature_scaled, hf]; rfl, by rw [feature_scaled, hg]; rfl, ?_⟩
    show φ f.elevation - φ g.elevation = _
    rw [hc.2, hc.2]
    linarith

/-- Metres to feet, from a datum 50 m higher. -/
def exInFeet (h : Rat) : Rat := 3.28084 * h + 164.042

theorem exInFeet_converts : Converts exInFeet 3.28084 164.042 := ⟨by norm_num, fun _ => rfl⟩

theorem exRun_same {φ : Rat → Rat} (hφ : Increasing φ) (d : DataMap) : SameChoices φ (exRun d) (exRun (rescaled φ d)) :=
  C107_searches φ hφ _ _ _ sqDist _ _ rfl rfl rfl rfl rfl rfl fun _ _ _ => rfl

/-- Instance of `C107_run`: a ridge with two summits and a saddle in metres and in feet. -/
example : DMap.run (exRun (rescaled exInFeet (DataMap.ofRows exRows))) (fun _ => exOracle) (DataMap.ofRows exRows).cells
    true 100 = (DMap.run (exRun (DataMap.ofRows exRows)) (fun _ => exOracle) (DataMap.ofRows exRows).cells true
      100).map fun r => (scaleMap exInFeet r.1, r.2) :=
  C107_run exInFeet exInFeet_converts.increasing _ _ (exRun_same exInFeet_converts.increasing _)
    (C107_slopes _ _ _ 1 exInFeet_converts one_pos _ _ _ fun _ _ => (one_mul _).symm) _ _
    (fun _ => ⟨fun _ _ => rfl, fun _ _ _ => rfl⟩) _ _ _

/-- A raster on which the steepest way up depends on the scale of heights. -/
def exSteep : List (List Rat) := [[0, 0, 0, 0, 0], [0, 7, 3, 2, 0], [0, 8, 1, 2, 0], [0, 7, 6, 7, 0], [0, 0, 0, 0, 0]]

/-- The limits of C107: for an increasing function that is no change of unit and datum the linkers can differ, since
ways up are chosen by slope. (Discovery does not depend on this, see `C95_heights`.) -/
theorem C107_only_units : ∃ (φ : Rat → Rat) (E E' : SaddleEnv) (o : Pt → Oracle) (order : List Pt) (m m' : DMap),
    Increasing φ ∧ RunOk E ∧ SameChoices φ E E' ∧ E'.w = E.w ∧ SameOrders φ (o (0, 0)) (o (0, 0)) ∧ IsScan E.d order ∧
    DMap.runSparse E o order false = .ok m ∧ DMap.runSparse E' o order false = .ok m' ∧
    m'.linkers = m.linkers ∧ m'.st.store ≠ m.st.store := by
  have hφ : Increasing (fun h : Rat => h * h * h) := by
    intro a b h
    show a * a * a < b * b * b
    nlinarith [sq_nonneg (a + b), sq_nonneg a, sq_nonneg b, mul_pos (sub_pos.2 h) (sub_pos.2 h)]
  have h1 : (exMap exSteep false).toOption.map (fun m => (m.linkers, m.st.store)) =
      some ([0, 1, 2, 3], [⟨1, 6⟩, ⟨0, 6⟩, ⟨1, 7⟩, ⟨0, 7⟩]) := by decide +kernel
  have h2 : (DMap.runSparse (exRun (rescaled (fun h : Rat => h * h * h) (DataMap.ofRows exSteep))) (fun _ => exOracle)
      (DataMap.ofRows exSteep).cells false).toOption.map (fun m => (m.linkers, m.st.store)) =
      some ([0, 1, 2, 3], [⟨0, 6⟩, ⟨0, 6⟩, ⟨1, 7⟩, ⟨0, 7⟩]) := by decide +kernel
  cases hr : exMap exSteep false with
  | error e =>
    rw [hr] at h1
    cases h1
  | ok m =>
    cases hr' : DMap.runSparse (exRun (rescaled (fun h : Rat => h * h * h) (DataMap.ofRows exSteep)))
        (fun _ => exOracle) (DataMap.ofRows exSteep).cells false with
    | error e =>
      rw [hr'] at h2
      cases h2
    | ok m' =>
      rw [hr] at h1
      rw [hr'] at h2
      simp only [Except.toOption, Option.map_some, Option.some.injEq, Prod.mk.injEq] at h1 h2
      exact ⟨_, exRun (DataMap.ofRows exSteep), _, fun _ => exOracle, (DataMap.ofRows exSteep).cells, m, m', hφ,
        exRun_plain _ (by unfold maxsize; decide +kernel), exRun_same hφ _, rfl, ⟨fun _ _ => rfl, fun _ _ _ => rfl⟩,
        isScan_cells _, hr, hr', h2.1.trans h1.1.symm, by rw [h1.2, h2.2]; decide⟩

end PyProm
