import Verif.Proof.Tiles
import Verif.Props.Discovery

/-! C94: the analysis of a tile agrees with the analysis of the whole map. -/
namespace PyProm
open Spec

theorem regions_tile {d : DataMap} {x y : Int} {xs ys : Nat} (t : TileOf d x y xs ys)
    {regs regsw : List Region} (hc : Covers d regs)
    (hm : ∀ r ∈ regs, MetAt d d.cells r.site)
    (hmw : ∀ r ∈ regsw, MetAt (d.subset x y xs ys) (d.subset x y xs ys).cells r.site)
    {rt : Region} (hrt : rt ∈ regsw) (hd : Data (d.subset x y xs ys) rt.site)
    (ho : OffRing (d.subset x y xs ys) rt.site) :
    ∃ r ∈ regs, r.site = moved x y rt.site := by
  obtain ⟨r, hr, hf⟩ := hc.all _ ((data_tile t hd.1).1 hd)
  exact ⟨r, hr, site_tile t ho (hmw rt hrt) (hm r hr) hf⟩

theorem mem_kind {regs : List Region} {k : Kind} {f : Feature}
    (h : f ∈ (regs.flatMap Region.features).filter fun f => decide (f.kind = k)) :
    ∃ r ∈ regs, f ∈ r.features.filter fun f => decide (f.kind = k) := by
  rw [List.mem_filter, List.mem_flatMap] at h
  obtain ⟨⟨r, hr, hf⟩, hk⟩ := h
  exact ⟨r, hr, List.mem_filter.2 ⟨hf, hk⟩⟩

theorem mem_kind' {regs : List Region} {k : Kind} {f : Feature} {r : Region} (hr : r ∈ regs)
    (h : f ∈ r.features.filter fun f => decide (f.kind = k)) :
    f ∈ (regs.flatMap Region.features).filter fun f => decide (f.kind = k) := by
  rw [List.mem_filter] at h ⊢
  exact ⟨List.mem_flatMap.2 ⟨r, hr, h.1⟩, h.2⟩

theorem offBorder_map {d : DataMap} {x y : Int} {xs ys : Nat} (t : TileOf d x y xs ys) {q : Pt}
    (ho : OffRing (d.subset x y xs ys) q) : ¬ OnBorder d (moved x y q) := by
  rintro ⟨m, hmf, hb⟩
  obtain ⟨m', rfl⟩ := flat_moved m hmf
  obtain ⟨i1, i2, i3, i4⟩ := (tileInner_iff t m').1 (ho m' ((flat_tile t ho).2 hmf))
  have := t.x0; have := t.y0; have := t.x1; have := t.y1
  unfold Border at hb
  omega

/-- The features of one area in tile and map. -/
theorem features_tile {d : DataMap} {x y : Int} {xs ys : Nat} (t : TileOf d x y xs ys) {r rt : Region}
    (hok : RegOk d r) (hokw : RegOk (d.subset x y xs ys) rt) (e : r.site = moved x y rt.site)
    (ho : OffRing (d.subset x y xs ys) rt.site) :
    (rt.features = [] ∧ r.features = [] ∧ ¬ IsTop d r.site ∧ ¬ TwoHigh d r.site) ∨
    (∃ f g, rt.features = [f] ∧ r.features = [g] ∧ SameInTile d x y xs ys f g ∧ f.edge = false ∧
      ((f.kind = .summit ∧ IsTop d r.site ∧ ¬ TwoHigh d r.site) ∨
       (f.kind = .saddle ∧ TwoHigh d r.site ∧ ¬ IsTop d r.site))) := by
  obtain ⟨hd, mp, high, lower, str, bps, hm, tab⟩ := hok
  obtain ⟨hdw, mpw, highw, lowerw, strw, bpsw, hmw, tabw⟩ := hokw
  have iw := tabw.interior ((offRing_iff hdw).1 ho)
  have im := tab.interior (e ▸ offBorder_map t ho)
  have ha := area_tile t ho hmw (e ▸ hm)
  have hh := high_tile t ho tabw.isHigh (e ▸ tab.isHigh)
  have top := (high_nil_iff tabw.isHigh).trans ((isTop_tile t ho).trans (e ▸ (high_nil_iff tab.isHigh).symm))
  have two := (two_high_iff tabw.isHigh).trans ((twoHigh_tile t ho).trans (e ▸ (two_high_iff tab.isHigh).symm))
  have he : el (d.subset x y xs ys) rt.site = el d r.site := by rw [e]; rfl
  by_cases h1 : high = []
  · rw [if_pos h1] at im
    rw [if_pos (top.2 h1)] at iw
    have n2 : ¬ TwoHigh d r.site := by
      rw [← two_high_iff tab.isHigh, h1]
      simp
    refine Or.inr ⟨_, _, iw, im, ⟨rfl, ⟨rt.site, hdw, ⟨rfl, rfl, rfl⟩, by rw [← e]; exact ⟨rfl, rfl, rfl⟩⟩, he, rfl, ha, ?_⟩, rfl,
      Or.inl ⟨rfl, (high_nil_iff tab.isHigh).1 h1, n2⟩⟩
    constructor <;> (intro c hc; exact nomatch hc)
  · rw [if_neg h1] at im
    rw [if_neg (fun c => h1 (top.1 c))] at iw
    have n1 : ¬ IsTop d r.site := fun c => h1 ((high_nil_iff tab.isHigh).2 c)
    by_cases h2 : 2 ≤ high.length
    · rw [if_pos h2] at im
      rw [if_pos (two.2 h2)] at iw
      exact Or.inr ⟨_, _, iw, im, ⟨rfl, ⟨rt.site, hdw, ⟨rfl, rfl, rfl⟩, by rw [← e]; exact ⟨rfl, rfl, rfl⟩⟩, he, rfl, ha, hh⟩, rfl,
        Or.inr ⟨rfl, (two_high_iff tab.isHigh).1 h2, n1⟩⟩
    · rw [if_neg h2] at im
      rw [if_neg (fun c => h2 (two.1 c))] at iw
      exact Or.inl ⟨iw, im, n1, fun c => h2 ((two_high_iff tab.isHigh).2 c)⟩

/-- C94, the part that holds: whatever the sets and path searches do in the two analyses, every summit of a
tile that is not flagged as an edge feature, and every saddle of the tile whose flat area keeps off the
outermost ring of the tile, is reported for the whole map too: same cell, height, cells and higher
neighbourhoods. Conversely every summit and saddle of the map whose flat area keeps off the ring of the tile
is found in the tile. Missing: saddles whose area reaches the ring, flagged or not
(`C94_unflagged_saddle_refuted`). -/
theorem C94_tiles_partial (d : DataMap) (o ow : Pt → Oracle) (x y : Int) (xs ys : Nat) (hx : 0 < xs) (hy : 0 < ys)
    (h0 : 0 ≤ x) (h1 : 0 ≤ y) (h2 : x + xs ≤ d.maxX + 1) (h3 : y + ys ≤ d.maxY + 1) :
    ∃ D Dw, analyze d o d.cells = .ok D ∧
      analyze (d.subset x y xs ys) ow (d.subset x y xs ys).cells = .ok Dw ∧
      (∀ f ∈ Dw.summits, f.edge = false → ∃ g ∈ D.summits, SameInTile d x y xs ys f g) ∧
      (∀ f ∈ Dw.saddles, (∀ s, Data (d.subset x y xs ys) s → LocatedAt (d.subset x y xs ys) s f →
        ¬ OnBorder (d.subset x y xs ys) s) → ∃ g ∈ D.saddles, SameInTile d x y xs ys f g) ∧
      (∀ q, Data d q → (∀ m, Flat d q m → InnerCell x y xs ys m) →
        (IsTop d q → ∃ f ∈ Dw.summits, ∃ g ∈ D.summits, SameInTile d x y xs ys f g ∧ f.edge = false ∧
          ∃ s, Flat d q s ∧ LocatedAt d s g) ∧
        (TwoHigh d q → ∃ f ∈ Dw.saddles, ∃ g ∈ D.saddles, SameInTile d x y xs ys f g ∧ f.edge = false ∧
          ∃ s, Flat d q s ∧ LocatedAt d s g)) := by
  have t : TileOf d x y xs ys := ⟨hx, hy, h0, h1, h2, h3⟩
  obtain ⟨regs, _, c1, c2, _, _, c3', c4⟩ := analyze_met d o d.cells (isScan_cells d)
  obtain ⟨regsw, _, w1, w2, _, _, w3', w4⟩ := analyze_met (d.subset x y xs ys) ow _ (isScan_cells _)
  have c3 := metAt_of c3'
  have w3 := metAt_of w3'
  refine ⟨_, _, c4, w4, ?_, ?_, ?_⟩
  · intro f hf hfe
    obtain ⟨rt, hrt, hm⟩ := mem_kind hf
    obtain ⟨hdw, mpw, highw, lowerw, strw, bpsw, hmw, tabw⟩ := w2 rt hrt
    have hs : SummitFor (d.subset x y xs ys) rt.site f := by
      by_cases ht : IsTop (d.subset x y xs ys) rt.site
      · obtain ⟨g, hg, sg⟩ := (table_summits hmw tabw).1 ht
        rw [hg, List.mem_singleton] at hm
        rw [hm]
        exact sg
      · rw [(table_summits hmw tabw).2 ht] at hm
        simp at hm
    have ho : OffRing (d.subset x y xs ys) rt.site := by
      rw [offRing_iff hdw, ← hs.edge, hfe]
      simp
    obtain ⟨r, hr, e⟩ := regions_tile t c1 c3 w3 hrt hdw ho
    rcases features_tile t (c2 r hr) (w2 rt hrt) e ho with ⟨a, _⟩ | ⟨f', g, a, b, c, _⟩
    · rw [a] at hm
      simp at hm
    · rw [a, List.mem_filter, List.mem_singleton] at hm
      obtain ⟨rfl, hk⟩ := hm
      refine ⟨g, mem_kind' hr ?_, c⟩
      rw [b, List.mem_filter]
      exact ⟨by simp, by rw [← c.kind]; exact hk⟩
  · intro f hf hoff
    obtain ⟨rt, hrt, hm⟩ := mem_kind hf
    obtain ⟨hdw, mpw, highw, lowerw, strw, bpsw, hmw, tabw⟩ := w2 rt hrt
    have hs : SaddleFor (d.subset x y xs ys) rt.site f := by
      by_cases ht : TwoHigh (d.subset x y xs ys) rt.site
      · obtain ⟨g, hg, sg, _⟩ := (table_saddles tabw).1 ht
        rw [hg, List.mem_singleton] at hm
        rw [hm]
        exact sg
      · rw [(table_saddles tabw).2 ht] at hm
        simp at hm
    have ho : OffRing (d.subset x y xs ys) rt.site := (offRing_iff hdw).2 (hoff _ hdw hs.located)
    obtain ⟨r, hr, e⟩ := regions_tile t c1 c3 w3 hrt hdw ho
    rcases features_tile t (c2 r hr) (w2 rt hrt) e ho with ⟨a, _⟩ | ⟨f', g, a, b, c, _⟩
    · rw [a] at hm
      simp at hm
    · rw [a, List.mem_filter, List.mem_singleton] at hm
      obtain ⟨rfl, hk⟩ := hm
      refine ⟨g, mem_kind' hr ?_, c⟩
      rw [b, List.mem_filter]
      exact ⟨by simp, by rw [← c.kind]; exact hk⟩
  · intro q hq hin
    have hmv := moved_back x y q
    have oq : OffRing (d.subset x y xs ys) (q.1 - x, q.2 - y) := offRing_of_map t (by rw [hmv]; exact hin)
    have dq : Data (d.subset x y xs ys) (q.1 - x, q.2 - y) :=
      (data_tile t (oq _ .refl).1).2 (by rw [hmv]; exact hq)
    obtain ⟨rt, hrt, hf⟩ := w1.all _ dq
    have hdw := (w2 rt hrt).1
    have ho : OffRing (d.subset x y xs ys) rt.site := fun m hm => oq m ((hf.symm hdw).trans hm)
    obtain ⟨r, hr, e⟩ := regions_tile t c1 c3 w3 hrt hdw ho
    have hfd : Flat d r.site q := by
      rw [e, ← hmv]
      exact (flat_tile t ho).1 hf
    have hdr := (c2 r hr).1
    obtain ⟨_, mp, high, lower, str, bps, hmr, tab⟩ := c2 r hr
    constructor
    · intro ht
      have ht' : IsTop d r.site := (isTop_congr hdr hfd).2 ht
      rcases features_tile t (c2 r hr) (w2 rt hrt) e ho with ⟨_, _, c, _⟩ | ⟨f, g, a, b, c, c', hk⟩
      · exact absurd ht' c
      · have hk' : f.kind = .summit := by
          rcases hk with hk | hk
          · exact hk.1
          · exact absurd ht' hk.2.2
        have hg : g ∈ r.features.filter fun f => decide (f.kind = .summit) := by
          rw [b, List.mem_filter]
          exact ⟨by simp, by rw [← c.kind, hk']; rfl⟩
        refine ⟨f, mem_kind' hrt ?_, g, mem_kind' hr hg, c, c', r.site, hfd.symm hdr, ?_⟩
        · rw [a, List.mem_filter]
          exact ⟨by simp, by rw [hk']; rfl⟩
        · obtain ⟨g', hg', sg⟩ := (table_summits hmr tab).1 ht'
          rw [hg', List.mem_singleton] at hg
          rw [hg]
          exact sg.located
    · intro ht
      have ht' : TwoHigh d r.site := (twoHigh_congr hdr hfd).2 ht
      rcases features_tile t (c2 r hr) (w2 rt hrt) e ho with ⟨_, _, _, c⟩ | ⟨f, g, a, b, c, c', hk⟩
      · exact absurd ht' c
      · have hk' : f.kind = .saddle := by
          rcases hk with hk | hk
          · exact absurd ht' hk.2.2
          · exact hk.1
        have hg : g ∈ r.features.filter fun f => decide (f.kind = .saddle) := by
          rw [b, List.mem_filter]
          exact ⟨by simp, by rw [← c.kind, hk']; rfl⟩
        refine ⟨f, mem_kind' hrt ?_, g, mem_kind' hr hg, c, c', r.site, hfd.symm hdr, ?_⟩
        · rw [a, List.mem_filter]
          exact ⟨by simp, by rw [hk']; rfl⟩
        · obtain ⟨g', hg', sg, _⟩ := (table_saddles tab).1 ht'
          rw [hg', List.mem_singleton] at hg
          rw [hg]
          exact sg.located

/-- C94: without rounding the same feature has the same coordinates in tile and map. With rounding: C94_rounded. -/
theorem C94_coordinates (d : DataMap) (he : ∀ r, d.fl r = r) (x y : Int) (xs ys : Nat) (f g : Feature)
    (h : SameInTile d x y xs ys f g) : f.lat = g.lat ∧ f.lon = g.lon := by
  obtain ⟨s, _, ⟨a1, a2, _⟩, b1, b2, _⟩ := h.place
  rw [a1, a2, b1, b2]
  simp only [DataMap.subset, gdalTranslateWin, latOf, lonOf, moved, he]
  push_cast
  constructor <;> ring

/-- A map and a tile of it: the tile starts in row 2 and column 1 and has four rows and five columns. -/
def exWhole : DataMap := DataMap.ofRows
  [[1, 1, 1, 1, 1, 1], [5, 5, 5, 5, 1, 1], [5, 1, 1, 5, 1, 1], [5, 1, 9, 1, 9, 1], [5, 1, 9, 9, 9, 1],
    [5, 5, 5, 5, 1, 1], [1, 1, 1, 1, 1, 1]]

/-- Instance of `C94_tiles_partial`: the summit, a plateau of five cells, is reported at the same place. -/
example : ((analyze exWhole (fun _ => exOracle) exWhole.cells).toOption.map fun D =>
      D.summits.map fun f => (f.lat, f.lon, f.elevation, f.edge)) = some [(-4, 3, 9, false)] ∧
    ((analyze (exWhole.subset 2 1 4 5) (fun _ => exOracle) (exWhole.subset 2 1 4 5).cells).toOption.map fun D =>
      D.summits.map fun f => (f.lat, f.lon, f.elevation, f.edge)) = some [(-4, 3, 9, false)] := by
  decide +kernel

/-- C94 fails for saddles: a tile can report a saddle that is not flagged as an edge feature although the map
has no saddle at all. All border stretches of its area were turned into runoffs. -/
theorem C94_unflagged_saddle_refuted :
    ∃ (d : DataMap) (x y : Int) (xs ys : Nat) (o : Pt → Oracle) (D Dw : Discovered) (f : Feature),
      0 ≤ x ∧ 0 ≤ y ∧ x + xs ≤ d.maxX + 1 ∧ y + ys ≤ d.maxY + 1 ∧ analyze d o d.cells = .ok D ∧
      analyze (d.subset x y xs ys) o (d.subset x y xs ys).cells = .ok Dw ∧
      f ∈ Dw.saddles ∧ f.edge = false ∧ D.saddles = [] := by
  have h : ((analyze exWhole (fun _ => exOracle) exWhole.cells).toOption.map fun D => D.saddles) =
      some [] := by decide +kernel
  have hw : ((analyze (exWhole.subset 2 1 4 5) (fun _ => exOracle)
      (exWhole.subset 2 1 4 5).cells).toOption.map fun D => D.saddles.map (·.edge)) = some [false] := by
    decide +kernel
  cases hD : analyze exWhole (fun _ => exOracle) exWhole.cells with
  | error e => rw [hD] at h; simp [Except.toOption] at h
  | ok D =>
    cases hDw : analyze (exWhole.subset 2 1 4 5) (fun _ => exOracle) (exWhole.subset 2 1 4 5).cells with
    | error e => rw [hDw] at hw; simp [Except.toOption] at hw
    | ok Dw =>
      rw [hD] at h
      rw [hDw] at hw
      simp only [Except.toOption, Option.map_some, Option.some.injEq] at h hw
      obtain ⟨f, l, e, e1, _⟩ := List.map_eq_cons_iff.1 hw
      exact ⟨exWhole, 2, 1, 4, 5, _, D, Dw, f, by decide, by decide, by decide, by decide, hD, hDw,
        by rw [e]; simp, e1, h⟩

end PyProm
