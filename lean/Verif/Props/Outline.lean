import Verif.Model.Outline
import Verif.Spec.Outline
import Verif.Props.Grid
import Verif.Props.History
import Verif.Props.Piece
import Mathlib.Tactic.Linarith
import Mathlib.Tactic.Ring
import Mathlib.Tactic.FieldSimp

/-
Properties of the outlines of cells and domains (C111)
-/
namespace PyProm
open Spec

/-- The area a geotransform gives to a cell, with sign. -/
def DataMap.det (d : DataMap) : Rat := d.gt1 * d.gt5 - d.gt2 * d.gt4

/-- The column of a position, as a number between those of the grid. -/
def DataMap.colOf (d : DataMap) (q : Rat × Rat) : Rat := ((q.1 - d.gt0) * d.gt5 - (q.2 - d.gt3) * d.gt2) / d.det

/-- The row of a position, as a number between those of the grid. -/
def DataMap.rowOf (d : DataMap) (q : Rat × Rat) : Rat := ((q.2 - d.gt3) * d.gt1 - (q.1 - d.gt0) * d.gt4) / d.det

theorem geom_turns (d : DataMap) (hx : ∀ r, d.fl r = r) (hd : d.det ≠ 0) (x y : Int) (q : Rat × Rat) :
    (edges (d.pointGeom x y)).map (fun e => turn e.1 e.2 q) =
      [d.det * (y + 1 / 2 - d.colOf q), d.det * (x + 1 / 2 - d.rowOf q), d.det * (d.colOf q - (y - 1 / 2)),
        d.det * (d.rowOf q - (x - 1 / 2))] := by
  have e1 : d.det * d.colOf q = (q.1 - d.gt0) * d.gt5 - (q.2 - d.gt3) * d.gt2 := by
    unfold DataMap.colOf
    field_simp
  have e2 : d.det * d.rowOf q = (q.2 - d.gt3) * d.gt1 - (q.1 - d.gt0) * d.gt4 := by
    unfold DataMap.rowOf
    field_simp
  rw [C58_corners d hx]
  simp only [edges, List.tail_cons, List.take, List.cons_append, List.nil_append, List.zip_cons_cons, List.zip_nil_right,
    List.map_cons, List.map_nil, turn, mul_sub, List.cons.injEq, and_true]
  rw [e1, e2]
  unfold DataMap.det
  refine ⟨?_, ?_, ?_, ?_⟩ <;> ring

theorem forall_turns {d : DataMap} {x y : Int} {q : Rat × Rat} (P : Rat → Prop) :
    (∀ e ∈ edges (d.pointGeom x y), P (turn e.1 e.2 q)) ↔
      ∀ t ∈ (edges (d.pointGeom x y)).map (fun e => turn e.1 e.2 q), P t := by
  rw [List.forall_mem_map]

theorem geom_ne (d : DataMap) (hx : ∀ r, d.fl r = r) (x y : Int) : d.pointGeom x y ≠ [] := by
  rw [C58_corners d hx]
  simp

/-- The interior of the polygon of a cell, in coordinates of the grid. -/
theorem inside_iff (d : DataMap) (hx : ∀ r, d.fl r = r) (hd : d.det ≠ 0) (x y : Int) (q : Rat × Rat) : Inside (d.pointGeom x y) q ↔
    |d.rowOf q - x| < 1 / 2 ∧ |d.colOf q - y| < 1 / 2 := by
  unfold Inside
  rw [forall_turns (0 < ·), forall_turns (· < 0), geom_turns d hx hd]
  simp only [List.forall_mem_cons, List.not_mem_nil, false_implies, implies_true, and_true, geom_ne d hx, ne_eq, not_false_eq_true,
    true_and, abs_lt]
  rcases lt_or_gt_of_ne hd with h | h
  · constructor
    · rintro (⟨a, b, c, e⟩ | ⟨a, b, c, e⟩)
      · exact absurd (add_pos a c) (by
          rw [← mul_add]
          linarith)
      · have f : ∀ t, d.det * t < 0 → 0 < t := fun t ht => by
          by_contra hn
          exact absurd (mul_nonneg_of_nonpos_of_nonpos (le_of_lt h) (not_lt.1 hn)) (not_le.2 ht)
        have := f _ a; have := f _ b; have := f _ c; have := f _ e
        refine ⟨⟨?_, ?_⟩, ?_, ?_⟩ <;> linarith
    · rintro ⟨⟨a, b⟩, c, e⟩
      right
      refine ⟨?_, ?_, ?_, ?_⟩ <;> exact mul_neg_of_neg_of_pos h (by linarith)
  · constructor
    · rintro (⟨a, b, c, e⟩ | ⟨a, b, c, e⟩)
      · have f : ∀ t, 0 < d.det * t → 0 < t := fun t ht => (mul_pos_iff_of_pos_left h).1 ht
        have := f _ a; have := f _ b; have := f _ c; have := f _ e
        refine ⟨⟨?_, ?_⟩, ?_, ?_⟩ <;> linarith
      · exact absurd (add_neg a c) (by
          rw [← mul_add]
          linarith)
    · rintro ⟨⟨a, b⟩, c, e⟩
      left
      refine ⟨?_, ?_, ?_, ?_⟩ <;> exact mul_pos h (by linarith)

/-- The polygon of a cell with its border, in coordinates of the grid. -/
theorem insideOrOn_iff (d : DataMap) (hx : ∀ r, d.fl r = r) (hd : d.det ≠ 0) (x y : Int) (q : Rat × Rat) : InsideOrOn (d.pointGeom x y) q ↔
    |d.rowOf q - x| ≤ 1 / 2 ∧ |d.colOf q - y| ≤ 1 / 2 := by
  unfold InsideOrOn
  rw [forall_turns (0 ≤ ·), forall_turns (· ≤ 0), geom_turns d hx hd]
  simp only [List.forall_mem_cons, List.not_mem_nil, false_implies, implies_true, and_true, geom_ne d hx, ne_eq, not_false_eq_true,
    true_and, abs_le]
  rcases lt_or_gt_of_ne hd with h | h
  · constructor
    · rintro (⟨a, b, c, e⟩ | ⟨a, b, c, e⟩)
      · exact absurd (add_nonneg a c) (by
          rw [← mul_add]
          linarith)
      · have f : ∀ t, d.det * t ≤ 0 → 0 ≤ t := fun t ht => by
          by_contra hn
          exact absurd (mul_pos_of_neg_of_neg h (not_le.1 hn)) (not_lt.2 ht)
        have := f _ a; have := f _ b; have := f _ c; have := f _ e
        refine ⟨⟨?_, ?_⟩, ?_, ?_⟩ <;> linarith
    · rintro ⟨⟨a, b⟩, c, e⟩
      right
      refine ⟨?_, ?_, ?_, ?_⟩ <;> exact mul_nonpos_of_nonpos_of_nonneg (le_of_lt h) (by linarith)
  · constructor
    · rintro (⟨a, b, c, e⟩ | ⟨a, b, c, e⟩)
      · have f : ∀ t, 0 ≤ d.det * t → 0 ≤ t := fun t ht => (mul_nonneg_iff_of_pos_left h).1 ht
        have := f _ a; have := f _ b; have := f _ c; have := f _ e
        refine ⟨⟨?_, ?_⟩, ?_, ?_⟩ <;> linarith
      · exact absurd (add_nonpos a c) (by
          rw [← mul_add]
          linarith)
    · rintro ⟨⟨a, b⟩, c, e⟩
      left
      refine ⟨?_, ?_, ?_, ?_⟩ <;> exact mul_nonneg (le_of_lt h) (by linarith)

theorem int_near {r : Rat} {i j : Int} (h1 : |r - i| ≤ 1 / 2) (h2 : |r - j| < 1 / 2) : i = j := by
  rw [abs_le] at h1
  rw [abs_lt] at h2
  have a : (i : Rat) - j < 1 := by linarith
  have b : (-1 : Rat) < i - j := by linarith
  have a' : i - j < 1 := by exact_mod_cast a
  have b' : -1 < i - j := by exact_mod_cast b
  omega

/-- Different cells do not overlap: a position in the interior of the polygon of one cell is neither in nor on the polygon of
another one. -/
theorem C111_cells (d : DataMap) (hx : ∀ r, d.fl r = r) (hd : d.gt1 * d.gt5 - d.gt2 * d.gt4 ≠ 0) (p p' : Pt) (q : Rat × Rat)
    (h : InsideOrOn (d.pointGeom p.1 p.2) q) (h' : Inside (d.pointGeom p'.1 p'.2) q) : p = p' := by
  rw [insideOrOn_iff d hx hd] at h
  rw [inside_iff d hx hd] at h'
  exact Prod.ext (int_near h.1 h'.1) (int_near h.2 h'.2)

/-- The polygons leave no gaps: every position is in or on the polygon of some place of the grid, and the position of a place
itself is in the interior of its polygon. All have the same area. -/
theorem C111_cover (d : DataMap) (hx : ∀ r, d.fl r = r) (hd : d.gt1 * d.gt5 - d.gt2 * d.gt4 ≠ 0) :
    (∀ q, ∃ p : Pt, InsideOrOn (d.pointGeom p.1 p.2) q) ∧
    ∀ p : Pt, Inside (d.pointGeom p.1 p.2) ((d.xyToLatLon p.1 p.2).2, (d.xyToLatLon p.1 p.2).1) ∧
      area (d.pointGeom p.1 p.2) = |d.gt1 * d.gt5 - d.gt2 * d.gt4| := by
  refine ⟨fun q => ⟨(pyRound (d.rowOf q), pyRound (d.colOf q)), ?_⟩, fun p => ⟨?_, ?_⟩⟩
  · rw [insideOrOn_iff d hx hd]
    exact ⟨(pyRound_spec _).1, (pyRound_spec _).1⟩
  · rw [inside_iff d hx hd]
    have e1 : d.rowOf ((d.xyToLatLon p.1 p.2).2, (d.xyToLatLon p.1 p.2).1) = p.1 := by
      unfold DataMap.rowOf DataMap.xyToLatLon DataMap.det
      rw [div_eq_iff hd]
      simp only [hx]
      ring
    have e2 : d.colOf ((d.xyToLatLon p.1 p.2).2, (d.xyToLatLon p.1 p.2).1) = p.2 := by
      unfold DataMap.colOf DataMap.xyToLatLon DataMap.det
      rw [div_eq_iff hd]
      simp only [hx]
      ring
    rw [e1, e2, sub_self, sub_self, abs_zero]
    norm_num
  · rw [C58_corners d hx]
    simp only [area, edges, List.tail_cons, List.take, List.cons_append, List.nil_append, List.zip_cons_cons, List.zip_nil_right,
      List.map_cons, List.map_nil, List.sum_cons, List.sum_nil]
    rw [div_eq_iff two_ne_zero, show (2 : Rat) = |2| from (abs_of_pos two_pos).symm, ← abs_mul]
    rw [abs_of_pos (two_pos : (0 : Rat) < 2)]
    congr 1
    ring

/-! ### Domains -/

theorem Unrotated.det {d : DataMap} (h : Unrotated d) : d.gt1 * d.gt5 - d.gt2 * d.gt4 ≠ 0 := by
  rw [h.gt2, zero_mul, sub_zero]
  exact mul_ne_zero h.gt1 h.gt5

theorem pyRound_of_near {r : Rat} {i : Int} (h : |r - i| < 1 / 2) : pyRound r = i := int_near (pyRound_spec r).1 h

/-- Looking up a position of an unrotated map. -/
theorem latLong_grid {d : DataMap} (h : Unrotated d) (q : Rat × Rat) :
    d.latLongToXY q.2 q.1 = some (pyRound (d.rowOf q), pyRound (d.colOf q)) := by
  unfold DataMap.latLongToXY
  rw [if_neg (fun c => c.elim h.gt1 h.gt5)]
  have e1 : d.rowOf q = (q.2 - d.gt3) / d.gt5 := by
    unfold DataMap.rowOf DataMap.det
    rw [h.gt2, h.gt4, mul_zero, mul_zero, sub_zero, sub_zero, mul_comm d.gt1 d.gt5, mul_div_mul_right _ _ h.gt1]
  have e2 : d.colOf q = (q.1 - d.gt0) / d.gt1 := by
    unfold DataMap.colOf DataMap.det
    rw [h.gt2, h.gt4, mul_zero, mul_zero, sub_zero, sub_zero, mul_div_mul_right _ _ h.gt5]
  simp only [h.exact]
  rw [e1, e2]

/-- The outlines of domains without common points do not overlap. -/
theorem shape_apart {d : DataMap} (hx : ∀ r, d.fl r = r) (hd : d.gt1 * d.gt5 - d.gt2 * d.gt4 ≠ 0) {pts pts' : List Pt}
    (h : ∀ p ∈ pts, p ∉ pts') (q : Rat × Rat) (h1 : Covered (domainShape d pts) q) : ¬ Within (domainShape d pts') q := by
  rintro ⟨poly', hp', h2⟩
  obtain ⟨poly, hp, h1⟩ := h1
  obtain ⟨p, hm, rfl⟩ := List.mem_map.1 hp
  obtain ⟨p', hm', rfl⟩ := List.mem_map.1 hp'
  exact h p hm (C111_cells d hx hd p p' q h1 h2 ▸ hm')

theorem calls_points {m : DMap} {fl : Flags} {fuel : Nat} (cs : List MapCall) {m1 : DMap} {f1 : Flags}
    (h : DMap.calls fuel (m, fl) cs = .ok (m1, f1)) : m1.domPoints = m.domPoints ∧ m1.domains = m.domains := by
  induction cs generalizing m fl with
  | nil =>
    cases h
    exact ⟨rfl, rfl⟩
  | cons c cs ih =>
    unfold DMap.calls at h
    cases c with
    | detect =>
      unfold DMap.call at h
      cases hf : DMap.detectBasins m fuel fl with
      | error e => rw [hf] at h; cases h
      | ok f2 =>
        rw [hf] at h
        exact ih h
    | purge a b c =>
      have hs := culls_same (m.saddles.filter (purgeSelects fl a b c)) (m, fl)
      unfold DMap.call at h
      dsimp only at h
      obtain ⟨h1, h2⟩ := ih h
      exact ⟨h1.trans hs.pts, h2.trans hs.domains⟩

/-- On the map of a run, also after detection and purging: no position is in the interior of a cell of one domain and covered
by the outline of another; the coordinates of a domain's points are in its outline; its area is that of as many cells as it has
points; and looking up a position in the data map tells whether the outline covers it: positions inside a cell of the
domain are looked up as one of its points, with the height of that point, and a position that is looked up as one of its points is
covered by its outline. -/
theorem C111_domains (E : SaddleEnv) (hE : RunOk E) (hg : Unrotated E.d) (o : Pt → Oracle) (order : List Pt) (ho : IsScan E.d order) (rebuild : Bool) :
    ∃ m, DMap.runSparse E o order rebuild = .ok m ∧ ∀ fuel fl cs m1 f1, DMap.calls fuel (m, fl) cs = .ok (m1, f1) →
      (∀ D D' pts pts', D ≠ D' → m1.domPoints D = some pts → m1.domPoints D' = some pts' →
        ∀ q, Covered (domainShape E.d pts) q → ¬ Within (domainShape E.d pts') q) ∧
      ∀ D ∈ m1.domains, ∃ pts, m1.domPoints D = some pts ∧ pts.Nodup ∧
        (∀ p ∈ pts, Within (domainShape E.d pts) ((E.d.xyToLatLon p.1 p.2).2, (E.d.xyToLatLon p.1 p.2).1)) ∧
        ((domainShape E.d pts).map area).sum = pts.length * |E.d.gt1 * E.d.gt5| ∧
        (∀ q, Within (domainShape E.d pts) q → ∃ p ∈ pts, E.d.latLongToXY q.2 q.1 = some p ∧
          E.d.elevation q.2 q.1 = some (el E.d p)) ∧
        ∀ q, ∀ p ∈ pts, E.d.latLongToXY q.2 q.1 = some p → Covered (domainShape E.d pts) q := by
  obtain ⟨_, _, m0, m, _, _, _, _, _, _, _, _, _, h8, h9⟩ := run_spec hE o order ho rebuild
  have hdet := hg.det
  refine ⟨m, h8, fun fuel fl cs m1 f1 hc => ?_⟩
  obtain ⟨g1, g2⟩ := calls_points cs hc
  rw [g1, g2]
  have hpts : ∀ D pts, m.domPoints D = some pts → pts = m.st.w.points D := by
    intro D pts h
    rw [h9.points] at h
    split at h
    · exact (Option.some.inj h).symm
    · cases h
  refine ⟨fun D D' pts pts' hne h1 h2 q hq => ?_, fun D hD => ?_⟩
  · rw [hpts D pts h1] at hq
    rw [hpts D' pts' h2]
    exact shape_apart hg.exact hdet (fun p hp hp' => hne (h9.inv.w.disj D D' p hp hp')) q hq
  have hlt : D < m0.summits.length := by
    rw [h9.domains] at hD
    obtain ⟨l, hl, rfl⟩ := (h9.inv.doms.2 D).1 hD
    obtain ⟨sf, _, e1, _⟩ := h9.inv.links l hl
    exact lt_of_getElem? e1
  refine ⟨_, by rw [h9.points, if_pos hlt], h9.inv.w.nodup D, fun p hp => ?_, ?_, fun q hq => ?_, fun q p hp hq => ?_⟩
  · exact ⟨_, List.mem_map_of_mem hp, ((C111_cover E.d hg.exact hdet).2 p).1⟩
  · have : (domainShape E.d (m.st.w.points D)).map area = (m.st.w.points D).map fun _ => |E.d.gt1 * E.d.gt5| := by
      unfold domainShape
      rw [List.map_map]
      refine List.map_congr_left fun p _ => ?_
      have := ((C111_cover E.d hg.exact hdet).2 p).2
      rw [hg.gt2, zero_mul, sub_zero] at this
      exact this
    rw [this, List.map_const', List.sum_replicate, nsmul_eq_mul]
  · obtain ⟨poly, hp, hq⟩ := hq
    obtain ⟨p, hm, rfl⟩ := List.mem_map.1 hp
    rw [inside_iff E.d hg.exact hdet] at hq
    have e : E.d.latLongToXY q.2 q.1 = some p := by
      rw [latLong_grid hg, pyRound_of_near hq.1, pyRound_of_near hq.2]
    refine ⟨p, hm, e, ?_⟩
    unfold DataMap.elevation
    rw [e]
    obtain ⟨⟨a, b, c, f⟩, _⟩ := (h9.inv.w.asc D p hm).1
    simp only [Option.bind_some, DataMap.get, npIndex]
    rw [if_pos ⟨a, b⟩, if_pos ⟨c, f⟩]
    rfl
  · rw [latLong_grid hg] at hq
    have hq := Option.some.inj hq
    refine ⟨_, List.mem_map_of_mem hp, ?_⟩
    rw [insideOrOn_iff E.d hg.exact hdet, ← hq]
    exact ⟨(pyRound_spec _).1, (pyRound_spec _).1⟩

/-- Instance: rotated cells. -/
example : ∃ d : DataMap, d.gt1 * d.gt5 - d.gt2 * d.gt4 ≠ 0 ∧ d.gt2 ≠ 0 ∧ Inside (d.pointGeom 2 1) (4, -4) ∧
    ¬ InsideOrOn (d.pointGeom 2 2) (4, -4) ∧ area (d.pointGeom 0 0) = 5 :=
  ⟨{ DataMap.ofRows [[1, 2], [3, 4]] with gt1 := 2, gt2 := 1, gt4 := 1, gt5 := -2 }, by
    unfold Inside InsideOrOn; decide +kernel⟩

/-- Instance: the two domains of `exSpine`, three cells each, and a position where they meet. -/
example : RunOk (exRun (DataMap.ofRows exSpine)) ∧ Unrotated (DataMap.ofRows exSpine) ∧
    (exMap exSpine false).toOption.map (fun m => [0, 1].map fun D => (m.domPoints D).map (domainShape (DataMap.ofRows exSpine))) =
      some ([[(1, 1), (1, 2), (1, 3)], [(1, 6), (1, 5), (1, 4)]].map fun l => some (domainShape (DataMap.ofRows exSpine) l)) ∧
    Covered (domainShape (DataMap.ofRows exSpine) [(1, 1), (1, 2), (1, 3)]) (7 / 2, -1) ∧
    Covered (domainShape (DataMap.ofRows exSpine) [(1, 6), (1, 5), (1, 4)]) (7 / 2, -1) ∧
    Within (domainShape (DataMap.ofRows exSpine) [(1, 1), (1, 2), (1, 3)]) (13 / 4, -3 / 4) := by
  refine ⟨exRun_plain _ (by unfold maxsize; decide +kernel), ⟨by decide +kernel, by decide +kernel, rfl, rfl, fun _ => rfl⟩,
    by decide +kernel, ?_, ?_, ?_⟩
  · unfold Covered InsideOrOn; decide +kernel
  · unfold Covered InsideOrOn; decide +kernel
  · unfold Within Inside; decide +kernel

end PyProm
