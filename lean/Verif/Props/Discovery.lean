import Verif.Proof.Discovery
import Mathlib.Tactic.Linarith

/-
Properties C08-C16: what feature discovery reports.
-/
namespace PyProm
open Spec

/-- Every set pop takes the first element, every cost is the number of steps along the longer
axis. Used in examples. -/
def exOracle : Oracle where
  pop _ _ := 0
  cost _ a b := (max (a.x - b.x).natAbs (a.y - b.y).natAbs : Nat)

/-! ### C08, C09 -/

/-- C08: whatever the scan order, discovery terminates without an error and each summit it
reports stands for a flat area of data cells without a higher data neighbour, has its location
and elevation, and records exactly the cells of the area. -/
theorem C08_summit_sound (d : DataMap) (o : Pt → Oracle) (order : List Pt) (ho : IsScan d order) :
    ∃ D, analyze d o order = .ok D ∧
      ∀ f ∈ D.summits, ∃ q, Data d q ∧ IsTop d q ∧ SummitFor d q f := by
  obtain ⟨regs, h1, h2, h3⟩ := analyze_spec d o order ho
  refine ⟨_, h3, ?_⟩
  intro f hf
  rw [List.mem_filter, List.mem_flatMap, decide_eq_true_eq] at hf
  obtain ⟨⟨r, hr, hf⟩, hk⟩ := hf
  obtain ⟨hd, mp, high, lower, str, bps, hm, t⟩ := h2 r hr
  have hmem : f ∈ r.features.filter fun f => decide (f.kind = .summit) := by
    rw [List.mem_filter, decide_eq_true_eq]; exact ⟨hf, hk⟩
  by_cases ht : IsTop d r.site
  · obtain ⟨g, hg, hs⟩ := (table_summits hm t).1 ht
    rw [hg, List.mem_singleton] at hmem
    subst hmem
    exact ⟨r.site, hd, ht, hs⟩
  · rw [(table_summits hm t).2 ht] at hmem
    simp at hmem

theorem pairwise_sites {d : DataMap} {regs : List Region} (h : Covers d regs) {sites : List Pt}
    (hs : sites.Sublist (regs.map Region.site)) : sites.Pairwise fun a b => ¬ Flat d a b := by
  refine List.Pairwise.sublist hs ?_
  rw [List.pairwise_map]
  exact h.once

/-- C09: the reported summits correspond one to one to the flat areas without a higher
neighbour. -/
theorem C09_summit_complete (d : DataMap) (o : Pt → Oracle) (order : List Pt)
    (ho : IsScan d order) :
    ∃ D sites, analyze d o order = .ok D ∧ List.Forall₂ (SummitFor d) sites D.summits ∧
      (∀ q ∈ sites, Data d q ∧ IsTop d q) ∧ sites.Pairwise (fun a b => ¬ Flat d a b) ∧
      (∀ p, Data d p → IsTop d p → ∃ q ∈ sites, Flat d q p) := by
  obtain ⟨regs, h1, h2, h3⟩ := analyze_spec d o order ho
  obtain ⟨sites, s1, s2, s3⟩ := pick_features regs .summit (IsTop d) (SummitFor d) (by
    intro r hr
    obtain ⟨_, mp, high, lower, str, bps, hm, t⟩ := h2 r hr
    exact table_summits hm t)
  refine ⟨_, sites, h3, s3, ?_, pairwise_sites h1 s1, ?_⟩
  · intro q hq
    obtain ⟨a, b⟩ := (s2 q).1 hq
    obtain ⟨r, hr, rfl⟩ := List.mem_map.1 a
    exact ⟨h1.data r hr, b⟩
  · intro p hp ht
    obtain ⟨r, hr, hfl⟩ := h1.all p hp
    exact ⟨r.site, (s2 _).2 ⟨List.mem_map.2 ⟨r, hr, rfl⟩, (isTop_congr (h1.data r hr) hfl).2 ht⟩, hfl⟩

/-- Instance: a raster with a plateau summit, a single summit and a saddle between them, scanned
row by row and backwards. -/
def exRaster : DataMap := DataMap.ofRows
  [[1, 1, 1, 1, 1, 1], [1, 9, 3, 8, 8, 1], [1, 1, 2, 1, 1, 1], [1, 1, 1, 0, 1, 1]]

example : IsScan exRaster exRaster.cells.reverse :=
  ⟨List.nodup_reverse.2 (nodup_cells _), fun p => by rw [List.mem_reverse, mem_cells]⟩

example : (analyze exRaster (fun _ => exOracle) exRaster.cells).toOption.map
    (fun D => (D.summits.map (·.elevation), D.saddles.map fun f => (f.elevation, f.hpn.length),
      D.runoffs.length)) = some ([9, 8], [(3, 2)], 0) := by decide +kernel

/-! ### C10 -/

/-- C10: saddles are reported exactly for the flat areas whose higher rim is disconnected, one
saddle per area, with the components as its high neighbourhoods. Off the border the saddle has no
edge effect and records the cells of the area. -/
theorem C10_saddles (d : DataMap) (o : Pt → Oracle) (order : List Pt) (ho : IsScan d order) :
    ∃ D sites, analyze d o order = .ok D ∧
      List.Forall₂ (fun q f => SaddleFor d q f ∧ 2 ≤ f.hpn.length ∧
        (¬ OnBorder d q → f.edge = false ∧ f.edgePoints = [] ∧ RecordsArea d q f.multipoint))
        sites D.saddles ∧
      (∀ q ∈ sites, Data d q ∧ TwoHigh d q) ∧ sites.Pairwise (fun a b => ¬ Flat d a b) ∧
      (∀ p, Data d p → TwoHigh d p → ∃ q ∈ sites, Flat d q p) := by
  obtain ⟨regs, h1, h2, h3⟩ := analyze_spec d o order ho
  obtain ⟨sites, s1, s2, s3⟩ := pick_features regs .saddle (TwoHigh d) (fun q f => SaddleFor d q f ∧
      2 ≤ f.hpn.length ∧
        (¬ OnBorder d q → f.edge = false ∧ f.edgePoints = [] ∧ RecordsArea d q f.multipoint)) (by
    intro r hr
    obtain ⟨_, mp, high, lower, str, bps, hm, t⟩ := h2 r hr
    refine ⟨fun h => ?_, (table_saddles t).2⟩
    obtain ⟨f, a, b, c⟩ := (table_saddles t).1 h
    refine ⟨f, a, b, (two_high_iff b.high).2 h, fun hb => ?_⟩
    obtain ⟨c1, c2, c3⟩ := c hb
    exact ⟨c1, c2, c3 ▸ hm⟩)
  refine ⟨_, sites, h3, s3, ?_, pairwise_sites h1 s1, ?_⟩
  · intro q hq
    obtain ⟨a, b⟩ := (s2 q).1 hq
    obtain ⟨r, hr, rfl⟩ := List.mem_map.1 a
    exact ⟨h1.data r hr, b⟩
  · intro p hp ht
    obtain ⟨r, hr, hfl⟩ := h1.all p hp
    exact ⟨r.site, (s2 _).2 ⟨List.mem_map.2 ⟨r, hr, rfl⟩, (twoHigh_congr (h1.data r hr) hfl).2 ht⟩,
      hfl⟩

/-! ### C11 -/

/-- C11: the features found are those of the flat areas, each area contributing once, and for an
area that reaches the border and has higher ground they follow the edge table. -/
theorem C11_edge_table (d : DataMap) (o : Pt → Oracle) (order : List Pt) (ho : IsScan d order) :
    ∃ D regs, analyze d o order = .ok D ∧ Covers d regs ∧
      D.summits = (regs.flatMap Region.features).filter (fun f => f.kind = .summit) ∧
      D.saddles = (regs.flatMap Region.features).filter (fun f => f.kind = .saddle) ∧
      D.runoffs = (regs.flatMap Region.features).filter (fun f => f.kind = .runoff) ∧
      ∀ r ∈ regs, OnBorder d r.site → ¬ IsTop d r.site →
        ∃ high lower str, EdgeTable d r.site r.features high lower str := by
  obtain ⟨regs, h1, h2, h3⟩ := analyze_spec d o order ho
  refine ⟨_, regs, h3, h1, rfl, rfl, rfl, ?_⟩
  intro r hr hb ht
  obtain ⟨_, mp, high, lower, str, bps, hm, t⟩ := h2 r hr
  exact ⟨high, lower, str, table_edge t hb ht⟩

/-- Instances: an edge saddle, a runoff with a saddle, and a runoff alone. -/
example : (analyze (DataMap.ofRows [[9, 5, 9], [9, 5, 9], [9, 1, 9]]) (fun _ => exOracle)
    (DataMap.ofRows [[9, 5, 9], [9, 5, 9], [9, 1, 9]]).cells).toOption.map
    (fun D => D.saddles.map fun f => (f.elevation, f.edge, f.edgePoints)) =
    some [(5, true, [⟨0, 1, 5⟩])] := by decide +kernel

example : (analyze (DataMap.ofRows [[1, 1, 5, 1, 1], [1, 9, 1, 9, 1], [1, 1, 1, 1, 1]]) (fun _ => exOracle)
    (DataMap.ofRows [[1, 1, 5, 1, 1], [1, 9, 1, 9, 1], [1, 1, 1, 1, 1]]).cells).toOption.map
    (fun D => (D.saddles.filter (fun f => f.elevation = 5), D.runoffs.filter fun f => f.elevation = 5)) =
    some ([⟨.saddle, 0, 2, 5, none, false, [], [[⟨1, 3, 9⟩], [⟨1, 1, 9⟩]]⟩],
      [⟨.runoff, 0, 2, 5, none, true, [⟨0, 2, 5⟩], [[⟨1, 3, 9⟩], [⟨1, 1, 9⟩]]⟩]) := by
  decide +kernel

example : (analyze (DataMap.ofRows [[1, 5, 1], [1, 9, 1], [1, 1, 1]]) (fun _ => exOracle)
    (DataMap.ofRows [[1, 5, 1], [1, 9, 1], [1, 1, 1]]).cells).toOption.map
    (fun D => (D.saddles.length, D.runoffs.map fun f => (f.elevation, f.edgePoints))) =
    some (0, [(5, [⟨0, 1, 5⟩])]) := by decide +kernel

/-! ### C12 -/

/-- C12, the part that holds: every edge runoff belongs to a flat area on the border, has its
elevation and is flagged as edge feature; its edge points are border cells of the area. Unless
the area has no higher ground, they form one border stretch, and the runoff is located at the
middle element of that stretch. Missing: the runoff of an area without higher ground is located at
the cell where the area was first met, which need not be on the border
(`C12_top_runoff_refuted`). -/
theorem C12_runoff_placement_partial (d : DataMap) (o : Pt → Oracle) (order : List Pt)
    (ho : IsScan d order) :
    ∃ D, analyze d o order = .ok D ∧
      ∀ f ∈ D.runoffs, ∃ q, Data d q ∧ OnBorder d q ∧ f.elevation = el d q ∧ f.edge = true ∧
        (∀ p ∈ f.edgePoints, Flat d q p.xy ∧ Border d p.xy ∧ p.e = el d p.xy) ∧
        ((IsTop d q ∧ LocatedAt d q f) ∨
         (¬ IsTop d q ∧ (∃ str, IsStretches d q str ∧ f.edgePoints ∈ str) ∧
          ∃ mid, f.edgePoints[f.edgePoints.length / 2]? = some mid ∧ LocatedAt d mid.xy f)) := by
  obtain ⟨regs, h1, h2, h3⟩ := analyze_spec d o order ho
  refine ⟨_, h3, ?_⟩
  intro f hf
  rw [List.mem_filter, List.mem_flatMap, decide_eq_true_eq] at hf
  obtain ⟨⟨r, hr, hf⟩, hk⟩ := hf
  obtain ⟨hd, mp, high, lower, str, bps, hm, t⟩ := h2 r hr
  obtain ⟨_, a2, _, a4, _⟩ := table_all hm t f hf
  obtain ⟨b1, b2⟩ := table_runoffs t f hf hk
  refine ⟨r.site, hd, b1, a2, ?_, a4, ?_⟩
  · rcases b2 with b2 | ⟨_, c, _, _, b2, _⟩
    · exact b2.2.2.1
    · exact b2.2.2.1
  · rcases b2 with b2 | ⟨b0, c, hc, _, b2, _⟩
    · exact Or.inl ⟨b2.1, b2.2.1⟩
    · obtain ⟨_, r2, r3, r4, r5, mid, r6, r7, r8⟩ := b2
      refine Or.inr ⟨b0, ⟨str, t.isStr, by rw [r4]; exact hc⟩, mid, by rw [r4]; exact r6, r7, r8, ?_⟩
      have : mid ∈ f.edgePoints := by rw [r4]; exact List.mem_of_getElem? r6
      rw [a2, (flat_data hd (a4 mid this).1).2]

/-! ### C13 -/

/-- C13: every reported feature is located at a data cell, and its high neighbourhoods, edge points
and multipoint consist of data cells. -/
theorem C13_no_nodata (d : DataMap) (o : Pt → Oracle) (order : List Pt) (ho : IsScan d order) :
    ∃ D, analyze d o order = .ok D ∧
      ∀ f ∈ D.summits ++ D.saddles ++ D.runoffs,
        (∃ m, Data d m ∧ LocatedAt d m f) ∧ (∀ p ∈ f.hpn.flatten, Data d p.xy ∧ p.e = el d p.xy) ∧
        (∀ p ∈ f.edgePoints, Data d p.xy ∧ p.e = el d p.xy) ∧
        (∀ pts, f.multipoint = some pts → ∀ m ∈ pts, Data d (m.x, m.y)) := by
  obtain ⟨regs, h1, h2, h3⟩ := analyze_spec d o order ho
  refine ⟨_, h3, ?_⟩
  intro f hf
  have hf' : ∃ r ∈ regs, f ∈ r.features := by
    rw [← List.mem_flatMap]
    rcases List.mem_append.1 hf with hf | hf
    · rcases List.mem_append.1 hf with hf | hf
      · exact (List.mem_filter.1 hf).1
      · exact (List.mem_filter.1 hf).1
    · exact (List.mem_filter.1 hf).1
  obtain ⟨r, hr, hfr⟩ := hf'
  obtain ⟨hd, mp, high, lower, str, bps, hm, t⟩ := h2 r hr
  obtain ⟨⟨m, a1, a1', a1''⟩, a2, a3, a4, a5⟩ := table_all hm t f hfr
  refine ⟨⟨m, (flat_data hd a1).1, a1', a1'', ?_⟩, ?_, ?_, ?_⟩
  · rw [a2, (flat_data hd a1).2]
  · exact fun p hp => ⟨(a3 p hp).1.1.1, (a3 p hp).2⟩
  · exact fun p hp => ⟨(flat_data hd (a4 p hp).1).1, (a4 p hp).2.2⟩
  · intro pts hpts m hm
    rcases a5 pts hpts m hm with c | ⟨_, _, c⟩
    · exact (flat_data hd c).1
    · exact c.1.1

/-- Instance: with nodata at the saddle cell there is no saddle, and a nodata spike of 99 is no
summit. -/
example : (analyze (DataMap.ofRows [[1, 1, 1, 1, 1], [1, 5, 99, 5, 1], [1, 1, 1, 1, 1]] (some 99))
    (fun _ => exOracle)
    (DataMap.ofRows [[1, 1, 1, 1, 1], [1, 5, 99, 5, 1], [1, 1, 1, 1, 1]] (some 99)).cells).toOption.map
    (fun D => (D.summits.map (·.elevation), D.saddles.map (·.elevation))) =
    some ([5, 5], [1]) := by decide +kernel

/-! ### C14 -/

/-- C14, the part that holds: one runoff per corner in the order lower left, lower right, upper
left, upper right, each located at its corner with the elevation stored there and that cell as its
only edge point. Missing: corners without data (`C14_nodata_refuted`), and on a one-row or
one-column raster corners coincide and get several runoffs (`C14_one_row_refuted`). -/
theorem C14_corners_partial (d : DataMap) :
    ∃ ll lr ul ur, makeCornerRunoffs d = .ok [ll, lr, ul, ur] ∧
      (∀ fm ∈ [(ll, ((d.maxX, 0) : Pt)), (lr, (d.maxX, d.maxY)), (ul, (0, 0)), (ur, (0, d.maxY))],
        fm.1.kind = .runoff ∧ LocatedAt d fm.2 fm.1 ∧ fm.1.edge = true ∧
        fm.1.edgePoints = [⟨fm.2.1, fm.2.2, el d fm.2⟩]) ∧
      (0 < d.maxX → 0 < d.maxY → [((d.maxX, 0) : Pt), (d.maxX, d.maxY), (0, 0), (0, d.maxY)].Nodup) := by
  have hget : ∀ x y : Int, 0 ≤ x → x ≤ d.maxX → 0 ≤ y → y ≤ d.maxY →
      d.get x y = some (d.cell x y) := by
    intro x y h1 h2 h3 h4
    unfold DataMap.get npIndex
    rw [if_pos ⟨h1, by omega⟩, if_pos ⟨h3, by omega⟩]
  unfold makeCornerRunoffs cornerRunoff
  rw [hget _ _ (by omega) (by omega) (by omega) (by omega),
    hget _ _ (by omega) (by omega) (by omega) (by omega),
    hget _ _ (by omega) (by omega) (by omega) (by omega),
    hget _ _ (by omega) (by omega) (by omega) (by omega)]
  refine ⟨_, _, _, _, rfl, ?_, ?_⟩
  · intro fm hfm
    simp only [List.mem_cons, List.not_mem_nil, or_false] at hfm
    rcases hfm with rfl | rfl | rfl | rfl <;>
      exact ⟨rfl, ⟨rfl, rfl, rfl⟩, rfl, rfl⟩
  · intro h1 h2
    simp only [List.nodup_cons, List.mem_cons, Prod.mk.injEq, List.not_mem_nil, or_false,
      not_or, not_and, List.nodup_nil, and_true, not_false_eq_true]
    omega

/-- C14 fails: every corner without data gets a corner runoff, with the nodata value as elevation. -/
theorem C14_nodata_refuted (d : DataMap) (c : Pt) (hc : c ∈ [((d.maxX, 0) : Pt), (d.maxX, d.maxY), (0, 0), (0, d.maxY)]) (h : ¬ Data d c) :
    ∃ fs, makeCornerRunoffs d = .ok fs ∧ ∃ f ∈ fs, f.edgePoints = [⟨c.1, c.2, el d c⟩] ∧ LocatedAt d c f ∧
      some f.elevation = d.nodata := by
  obtain ⟨ll, lr, ul, ur, h1, h2, _⟩ := C14_corners_partial d
  have hb : InB d c := by
    simp only [List.mem_cons, List.not_mem_nil, or_false] at hc
    unfold InB
    rcases hc with rfl | rfl | rfl | rfl <;> dsimp only <;> omega
  have hn : some (el d c) = d.nodata := by
    by_contra hn
    exact h ⟨hb, hn⟩
  refine ⟨_, h1, ?_⟩
  simp only [List.mem_cons, List.not_mem_nil, or_false] at hc
  rcases hc with rfl | rfl | rfl | rfl
  · obtain ⟨_, g, _, k⟩ := h2 (ll, (d.maxX, 0)) (by simp)
    exact ⟨ll, by simp, k, g, by rw [g.2.2]; exact hn⟩
  · obtain ⟨_, g, _, k⟩ := h2 (lr, (d.maxX, d.maxY)) (by simp)
    exact ⟨lr, by simp, k, g, by rw [g.2.2]; exact hn⟩
  · obtain ⟨_, g, _, k⟩ := h2 (ul, (0, 0)) (by simp)
    exact ⟨ul, by simp, k, g, by rw [g.2.2]; exact hn⟩
  · obtain ⟨_, g, _, k⟩ := h2 (ur, (0, d.maxY)) (by simp)
    exact ⟨ur, by simp, k, g, by rw [g.2.2]; exact hn⟩

example : ¬ Data (DataMap.ofRows [[-99, 1], [1, 1]] (some (-99))) (0, 0) := by unfold Data InB; decide +kernel

/-- C14 fails: on every raster of one row, and on every raster of one column, each corner gets two runoffs. -/
theorem C14_one_row_refuted (d : DataMap) :
    (d.maxX = 0 → ∃ a b, makeCornerRunoffs d = .ok [a, b, a, b]) ∧ (d.maxY = 0 → ∃ a b, makeCornerRunoffs d = .ok [a, a, b, b]) := by
  have hget : ∀ x y : Int, 0 ≤ x → x ≤ d.maxX → 0 ≤ y → y ≤ d.maxY →
      d.get x y = some (d.cell x y) := by
    intro x y h1 h2 h3 h4
    unfold DataMap.get npIndex
    rw [if_pos ⟨h1, by omega⟩, if_pos ⟨h3, by omega⟩]
  have h : makeCornerRunoffs d = .ok [mkRunoff (d.xyToLatLon d.maxX 0) (d.cell d.maxX 0) none [⟨d.maxX, 0, d.cell d.maxX 0⟩] [],
      mkRunoff (d.xyToLatLon d.maxX d.maxY) (d.cell d.maxX d.maxY) none [⟨d.maxX, d.maxY, d.cell d.maxX d.maxY⟩] [],
      mkRunoff (d.xyToLatLon 0 0) (d.cell 0 0) none [⟨0, 0, d.cell 0 0⟩] [],
      mkRunoff (d.xyToLatLon 0 d.maxY) (d.cell 0 d.maxY) none [⟨0, d.maxY, d.cell 0 d.maxY⟩] []] := by
    unfold makeCornerRunoffs cornerRunoff
    rw [hget _ _ (by omega) (by omega) (by omega) (by omega),
      hget _ _ (by omega) (by omega) (by omega) (by omega),
      hget _ _ (by omega) (by omega) (by omega) (by omega),
      hget _ _ (by omega) (by omega) (by omega) (by omega)]
    rfl
  constructor
  · intro e
    rw [h, e]
    exact ⟨_, _, rfl⟩
  · intro e
    rw [h, e]
    exact ⟨_, _, rfl⟩

/-! ### C15 -/

/-- C15, the part that holds: the points recorded for a summit, a runoff or a saddle off the border
lie at the elevation of the feature. Missing: border saddles (`C15_border_saddle_refuted`). -/
theorem C15_level_partial (d : DataMap) (o : Pt → Oracle) (order : List Pt) (ho : IsScan d order) :
    ∃ D, analyze d o order = .ok D ∧
      (∀ f ∈ D.summits ++ D.runoffs, ∀ pts, f.multipoint = some pts →
        ∀ m ∈ pts, Data d (m.x, m.y) ∧ el d (m.x, m.y) = f.elevation) ∧
      (∀ f ∈ D.saddles, (∀ q, Data d q → LocatedAt d q f → ¬ OnBorder d q) →
        ∀ pts, f.multipoint = some pts →
        ∀ m ∈ pts, Data d (m.x, m.y) ∧ el d (m.x, m.y) = f.elevation) := by
  obtain ⟨regs, h1, h2, h3⟩ := analyze_spec d o order ho
  refine ⟨_, h3, ?_, ?_⟩
  · intro f hf pts hpts m hmm
    have hf' : (∃ r ∈ regs, f ∈ r.features) ∧ f.kind ≠ .saddle := by
      rw [← List.mem_flatMap]
      rcases List.mem_append.1 hf with hf | hf <;> rw [List.mem_filter, decide_eq_true_eq] at hf
      · exact ⟨hf.1, by rw [hf.2]; simp⟩
      · exact ⟨hf.1, by rw [hf.2]; simp⟩
    obtain ⟨⟨r, hr, hfr⟩, hk⟩ := hf'
    obtain ⟨hd, mp, high, lower, str, bps, hm, t⟩ := h2 r hr
    obtain ⟨_, a2, _, _, a5⟩ := table_all hm t f hfr
    rcases a5 pts hpts m hmm with c | ⟨c, _⟩
    · exact ⟨(flat_data hd c).1, by rw [a2, (flat_data hd c).2]⟩
    · exact absurd c hk
  · intro f hf hb pts hpts m hmm
    rw [List.mem_filter, List.mem_flatMap, decide_eq_true_eq] at hf
    obtain ⟨⟨r, hr, hfr⟩, hk⟩ := hf
    obtain ⟨hd, mp, high, lower, str, bps, hm, t⟩ := h2 r hr
    obtain ⟨⟨m', b1, b2, b3⟩, a2, _, _, a5⟩ := table_all hm t f hfr
    rcases a5 pts hpts m hmm with c | ⟨_, c, _⟩
    · exact ⟨(flat_data hd c).1, by rw [a2, (flat_data hd c).2]⟩
    · exact absurd ((onBorder_congr hd b1).1 c) (hb m' (flat_data hd b1).1
        ⟨b2, b3, by rw [a2, (flat_data hd b1).2]⟩)

/-! ### C16 -/

/-- C16 fails: for every cost that is zero from a point to itself and positive otherwise, the
selected high point is the last point of the last non-empty neighbourhood, whatever runoff point
the caller asks about. -/
theorem C16_ignores_runoff_refuted (cost : List MPt → MPt → MPt → Rat)
    (h0 : ∀ pts s, cost pts s s = 0) (hpos : ∀ pts s t, s ≠ t → 0 < cost pts s t)
    (runoff : P3) (flat : List MPt) (high : List (List P3)) (last : P3)
    (hl : high.flatten.getLast? = some last) :
    ∃ pts, hpnShortestPath cost runoff flat high = .ok (last, pts) := by
  unfold hpnShortestPath
  have hmem : last ∈ high.flatten := List.mem_of_getLast? hl
  have hlast : (flat ++ high.flatten.map MPt.ofP3).getLastD (MPt.ofP3 runoff) = MPt.ofP3 last := by
    rw [List.getLastD_eq_getLast?, List.getLast?_append, List.getLast?_map, hl]
    rfl
  dsimp only
  rw [hlast]
  cases hf : high.flatten with
  | nil => rw [hf] at hl; simp at hl
  | cons t ts =>
    rw [hpnSelect]
    obtain ⟨r, h1, _⟩ := hpnSelect_some (cost (flat ++ (t :: ts).map MPt.ofP3)) (MPt.ofP3 last) ts
      (t, cost (flat ++ (t :: ts).map MPt.ofP3) (MPt.ofP3 last) (MPt.ofP3 t))
    obtain ⟨g1, g2, g3⟩ := hpnSelect_min _ _ _ _ _ h1
    rw [h1]
    have hle : r.2 ≤ 0 := by
      rw [hf] at hmem
      rw [← h0 (flat ++ (t :: ts).map MPt.ofP3) (MPt.ofP3 last)]
      rcases List.mem_cons.1 hmem with e | e
      · rw [e] at g2 ⊢
        exact g2
      · exact g3 last e
    have : r.1 = last := by
      by_contra hne
      have hne' : MPt.ofP3 last ≠ MPt.ofP3 r.1 := by
        intro c
        apply hne
        cases hr : r.1
        cases last
        rw [hr] at c
        simp only [MPt.ofP3, MPt.mk.injEq, Option.some.injEq] at c
        simp only [P3.mk.injEq]
        exact ⟨c.1.symm, c.2.1.symm, c.2.2.symm⟩
      have := hpos (flat ++ (t :: ts).map MPt.ofP3) _ _ hne'
      rw [← g1] at this
      grind
    exact ⟨flat ++ (t :: ts).map MPt.ofP3, by rw [← this]⟩

/-- Instance of C16 with a wrong answer: the runoff touches the high point (1, 0), but the far end
(1, 9) of the flat strip is attached. -/
theorem C16_wrong_point_refuted :
    ∃ pts, hpnShortestPath exOracle.cost ⟨0, 0, 5⟩
      ((List.range 10).map fun y : Nat => (⟨0, y, none⟩ : MPt)) [[⟨1, 0, 9⟩], [⟨1, 9, 9⟩]] =
      .ok (⟨1, 9, 9⟩, pts) ∧
    exOracle.cost pts ⟨0, 0, none⟩ ⟨1, 0, some 9⟩ < exOracle.cost pts ⟨0, 0, none⟩ ⟨1, 9, some 9⟩ :=
  ⟨_, rfl, by decide +kernel⟩

/-- C16, the part that holds: the attached point is a high neighbourhood point of the area.
Missing: that it is the nearest one. -/
theorem C16_member_partial (cost : List MPt → MPt → MPt → Rat) (runoff : P3) (flat : List MPt)
    (high : List (List P3)) (h : high.flatten ≠ []) :
    ∃ c ∈ high.flatten, ∃ pts, hpnShortestPath cost runoff flat high = .ok (c, pts) := by
  obtain ⟨c, hc, e⟩ := hpnShortestPath_ok cost runoff flat high h
  exact ⟨c, hc, _, e⟩

end PyProm
