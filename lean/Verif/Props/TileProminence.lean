import Verif.Props.Inland
import Verif.Props.Above

/-
C128: prominences read off the map of a part of a terrain.
-/
namespace PyProm
open Spec

namespace Spec

/-- `c` is the height of the key saddle of summit `a` according to a map after basin detection: over saddles that are not
disqualified and not lower than `c`, but not over higher ones only, `a` is connected with a higher summit. -/
def KeyRead (m : DMap) (f : Flags) (a : Nat) (c : Rat) : Prop :=
  (∃ b, HigherSummit m a b ∧
    ConnectedBy m.net (fun _ => True) (fun k => ¬ SaddleOut f k ∧ c ≤ m.net.elev (.saddle k)) a b) ∧
  ∀ h b, HigherSummit m a b →
    ConnectedBy m.net (fun _ => True) (fun k => ¬ SaddleOut f k ∧ h ≤ m.net.elev (.saddle k)) a b → h ≤ c

/-- The ground around `p` down to the height `h` does not reach the border of the raster. -/
def InlandAt (d : DataMap) (h : Rat) (p : Pt) : Prop := ∀ x, Passable d h p x → ¬ Border d x

end Spec

/-- What one can read off the map of a complete run on ground clear of edge saddles is the key col. -/
theorem run_keyRead (E : SaddleEnv) (hE : RunOk E) (o : Pt → Oracle) (order : List Pt) (ho : IsScan E.d order) (rebuild : Bool) :
    ∃ D m sites, analyze E.d o order = .ok D ∧ DMap.runSparse E o order rebuild = .ok m ∧
      SummitsAt E.d sites m.summits ∧ (SummitsApart m.summits →
        ∀ fuel, m.saddles.length + m.st.objs.length < fuel → ∃ f, DMap.run E o order rebuild fuel = .ok (m, f) ∧
          ∀ (a : Nat) (p : Pt) (c : Rat), sites[a]? = some p → ClearOfEdge E.d D.saddles c p →
            (KeyRead m f a c ↔ KeyCol E.d p c)) := by
  obtain ⟨D, m, sites, h1, h2, h3, h4⟩ := C127_clear_ground E hE o order ho rebuild
  refine ⟨D, m, sites, h1, h2, h3, fun hS fuel hfuel => ?_⟩
  obtain ⟨f, f1, f2⟩ := h4 hS fuel hfuel
  refine ⟨f, f1, fun a p c ha hcl => ?_⟩
  have hat : ∀ {b : Nat} {q : Pt}, sites[b]? = some q → ∃ s, m.summits[b]? = some s ∧ s.elevation = el E.d q := by
    intro b q hb
    obtain ⟨s, e1, e2⟩ := forall₂_getElem? h3.each hb
    exact ⟨s, e1, e2.located.2.2⟩
  have hup : ∀ h, c ≤ h → Escapes E.d p h → ∃ b, HigherSummit m a b ∧
      ConnectedBy m.net (fun _ => True) (fun k => ¬ SaddleOut f k ∧ h ≤ m.net.elev (.saddle k)) a b := by
    rintro h hh ⟨q, hq, hp⟩
    obtain ⟨b, q', hb, hpass⟩ := summit_of_cell h3 hp.symm.1
    refine ⟨b, ?_, (f2 h a b p q' ha hb hp.2.1 ?_).2 (hp.trans (hpass.mono hp.symm.2.1))⟩
    · obtain ⟨s, s1, s2⟩ := hat hb
      obtain ⟨t, u1, u2⟩ := hat ha
      refine ⟨t, s, u1, s1, ?_⟩
      rw [u2, s2]
      exact lt_of_lt_of_le hq hpass.symm.2.1
    · exact fun g hg he hl k hk x hx hx' => hcl g hg he (le_trans hh hl) k hk x hx (hx'.mono hh)
  constructor
  · rintro ⟨⟨b, k1, k2⟩, k3⟩
    refine ⟨run_escapes hE ho f1 h3 ha k1 k2, fun h' he => ?_⟩
    by_contra hlt
    obtain ⟨b', g1, g2⟩ := hup h' (le_of_lt (not_le.1 hlt)) he
    exact hlt (k3 h' b' g1 g2)
  · rintro ⟨k1, k2⟩
    exact ⟨hup c (le_refl _) k1, fun h b hb hc => k2 h (run_escapes hE ho f1 h3 ha hb hc)⟩

section
variable {d : DataMap} {x y : Int} {xs ys : Nat} (t : TileOf d x y xs ys)
include t

/-- A way on the tile is one on the whole. -/
theorem passable_tile {h : Rat} {p q : Pt} (hp : Passable (d.subset x y xs ys) h p q) : Passable d h (moved x y p) (moved x y q) := by
  obtain ⟨h1, h2, h3⟩ := hp
  refine ⟨(data_tile t h1.1).1 h1, h2, ?_⟩
  induction h3 with
  | refl => exact .refl
  | tail _ g ih => exact ih.tail ⟨(adj_moved _ _).2 g.1, (data_tile t g.2.1.1).1 g.2.1, g.2.2⟩

theorem escapes_tile {h : Rat} {p : Pt} (hp : Escapes (d.subset x y xs ys) p h) : Escapes d (moved x y p) h := by
  obtain ⟨q, h1, h2⟩ := hp
  exact ⟨moved x y q, h1, passable_tile t h2⟩

/-- If the ground on the tile does not reach its border, there is no more of it on the whole. -/
theorem passable_inland {h : Rat} {p : Pt} (hb : InB (d.subset x y xs ys) p) (hi : InlandAt (d.subset x y xs ys) h p) {q : Pt}
    (hq : Passable d h (moved x y p) q) : ∃ q', q = moved x y q' ∧ Passable (d.subset x y xs ys) h p q' := by
  obtain ⟨h1, h2, h3⟩ := hq
  induction h3 with
  | refl => exact ⟨p, rfl, (data_tile t hb).2 h1, h2, .refl⟩
  | @tail u v _ g ih =>
    obtain ⟨u', rfl, hu⟩ := ih
    refine ⟨(v.1 - x, v.2 - y), (moved_back x y v).symm, ?_⟩
    rw [← moved_back x y v] at g
    have ha := (adj_moved _ _).1 g.1
    have hv := TileInner.step ⟨hu.symm.1.1, hi _ hu⟩ ha
    exact ⟨hu.1, hu.2.1, hu.2.2.tail ⟨ha, (data_tile t hv).2 g.2.1, g.2.2⟩⟩

theorem escapes_inland {h : Rat} {p : Pt} (hb : InB (d.subset x y xs ys) p) (hi : InlandAt (d.subset x y xs ys) h p) :
    Escapes d (moved x y p) h ↔ Escapes (d.subset x y xs ys) p h := by
  refine ⟨?_, escapes_tile t⟩
  rintro ⟨q, h1, h2⟩
  obtain ⟨q', rfl, h3⟩ := passable_inland t hb hi h2
  exact ⟨q', h1, h3⟩

theorem keyCol_inland {c : Rat} {p : Pt} (hb : InB (d.subset x y xs ys) p) (hi : InlandAt (d.subset x y xs ys) c p) :
    KeyCol d (moved x y p) c ↔ KeyCol (d.subset x y xs ys) p c := by
  unfold KeyCol
  rw [escapes_inland t hb hi]
  refine and_congr_right fun _ => ?_
  constructor
  · exact fun g h' he => g h' (escapes_tile t he)
  · intro g h' he
    by_contra hlt
    have hi' : InlandAt (d.subset x y xs ys) h' p := fun z hz => hi z (hz.mono (le_of_lt (not_le.1 hlt)))
    exact hlt (g h' ((escapes_inland t hb hi').1 he))

/-- Ground that stays off the border of the tile stays off the border of the whole. -/
theorem inlandAt_whole {h : Rat} {p : Pt} (hb : InB (d.subset x y xs ys) p) (hi : InlandAt (d.subset x y xs ys) h p) :
    InlandAt d h (moved x y p) := by
  intro q hq
  obtain ⟨q', rfl, h3⟩ := passable_inland t hb hi hq
  have hin := (tileInner_iff t q').1 ⟨h3.symm.1.1, hi _ h3⟩
  have := t.x0; have := t.y0; have := t.x1; have := t.y1
  unfold InnerCell at hin
  unfold Border
  omega

end

/-- C128, never short: on any part of a terrain, whatever lies on its edge, the key saddle read off the map of a complete run is not
higher than the key col in the whole terrain: the prominence read off is never too small. -/
theorem C128_never_short (E : SaddleEnv) (hE : RunOk E) (W : DataMap) (x y : Int) (xs ys : Nat) (hx : 0 < xs) (hy : 0 < ys)
    (h0 : 0 ≤ x) (h1 : 0 ≤ y) (h2 : x + xs ≤ W.maxX + 1) (h3 : y + ys ≤ W.maxY + 1) (hd : E.d = W.subset x y xs ys)
    (o : Pt → Oracle) (order : List Pt) (ho : IsScan E.d order) (rebuild : Bool) (fuel : Nat) (m : DMap) (f : Flags)
    (hr : DMap.run E o order rebuild fuel = .ok (m, f)) :
    ∃ sites, SummitsAt E.d sites m.summits ∧ ∀ (a : Nat) (p : Pt) (c : Rat), sites[a]? = some p → KeyRead m f a c →
      Escapes W (moved x y p) c ∧ ∀ c', KeyCol W (moved x y p) c' → c ≤ c' := by
  obtain ⟨sites, s1, _⟩ := C78_nothing_false E hE o order ho rebuild fuel m f hr
  refine ⟨sites, s1, fun a p c ha hk => ?_⟩
  obtain ⟨⟨b, k1, k2⟩, _⟩ := hk
  have he := run_escapes hE ho hr s1 ha k1 k2
  rw [hd] at he
  have := escapes_tile ⟨hx, hy, h0, h1, h2, h3⟩ he
  exact ⟨this, fun c' hc' => hc'.2 c this⟩

/-- C128, exact: where the ground around a summit of the part, down to the height `c`, does not reach the border of the part, `c` is
the key saddle read off the map of the part exactly if it is the key col in the whole terrain. -/
theorem C128_exact (E : SaddleEnv) (hE : RunOk E) (W : DataMap) (x y : Int) (xs ys : Nat) (hx : 0 < xs) (hy : 0 < ys)
    (h0 : 0 ≤ x) (h1 : 0 ≤ y) (h2 : x + xs ≤ W.maxX + 1) (h3 : y + ys ≤ W.maxY + 1) (hd : E.d = W.subset x y xs ys)
    (o : Pt → Oracle) (order : List Pt) (ho : IsScan E.d order) (rebuild : Bool) :
    ∃ m sites, DMap.runSparse E o order rebuild = .ok m ∧ SummitsAt E.d sites m.summits ∧ (SummitsApart m.summits →
      ∀ fuel, m.saddles.length + m.st.objs.length < fuel → ∃ f, DMap.run E o order rebuild fuel = .ok (m, f) ∧
        ∀ (a : Nat) (p : Pt) (c : Rat), sites[a]? = some p → InlandAt E.d c p →
          (KeyRead m f a c ↔ KeyCol W (moved x y p) c)) := by
  obtain ⟨D, m, sites, k1, k2, k3, k4⟩ := run_keyRead E hE o order ho rebuild
  refine ⟨m, sites, k2, k3, fun hS fuel hfuel => ?_⟩
  obtain ⟨f, f1, f2⟩ := k4 hS fuel hfuel
  refine ⟨f, f1, fun a p c ha hi => ?_⟩
  rw [f2 a p c ha (clear_inland ho k1 hi)]
  have hb := (k3.top p (List.mem_of_getElem? ha)).1.1
  rw [hd] at hi hb ⊢
  exact (keyCol_inland ⟨hx, hy, h0, h1, h2, h3⟩ hb hi).symm

/-- C128, two runs: complete runs on a part and on the whole, in any order and with or without rebuilding, read off the same key
saddle for the same hill, as far down as the ground does not reach the border of the part; and every summit of the part whose
ground does not reach its border is a summit of the whole. -/
theorem C128_agree (E E' : SaddleEnv) (hE : RunOk E) (hE' : RunOk E') (x y : Int) (xs ys : Nat) (hx : 0 < xs) (hy : 0 < ys)
    (h0 : 0 ≤ x) (h1 : 0 ≤ y) (h2 : x + xs ≤ E'.d.maxX + 1) (h3 : y + ys ≤ E'.d.maxY + 1) (hd : E.d = E'.d.subset x y xs ys)
    (o o' : Pt → Oracle) (order order' : List Pt) (ho : IsScan E.d order) (ho' : IsScan E'.d order') (rebuild rebuild' : Bool) :
    ∃ m m' sites sites', DMap.runSparse E o order rebuild = .ok m ∧ DMap.runSparse E' o' order' rebuild' = .ok m' ∧
      SummitsAt E.d sites m.summits ∧ SummitsAt E'.d sites' m'.summits ∧
      (SummitsApart m.summits → SummitsApart m'.summits → ∀ fuel fuel', m.saddles.length + m.st.objs.length < fuel →
        m'.saddles.length + m'.st.objs.length < fuel' → ∃ f f', DMap.run E o order rebuild fuel = .ok (m, f) ∧
          DMap.run E' o' order' rebuild' fuel' = .ok (m', f') ∧
          ∀ (a : Nat) (p : Pt) (c : Rat), sites[a]? = some p → c ≤ el E.d p → InlandAt E.d c p →
            ∃ (b : Nat) (q : Pt), sites'[b]? = some q ∧ Flat E'.d (moved x y p) q ∧ (KeyRead m f a c ↔ KeyRead m' f' b c)) := by
  have t : TileOf E'.d x y xs ys := ⟨hx, hy, h0, h1, h2, h3⟩
  obtain ⟨m, sites, k2, k3, k4⟩ := C128_exact E hE E'.d x y xs ys hx hy h0 h1 h2 h3 hd o order ho rebuild
  obtain ⟨D, m', sites', g1, g2, g3, g4⟩ := run_keyRead E' hE' o' order' ho' rebuild'
  refine ⟨m, m', sites, sites', k2, g2, k3, g3, fun hS hS' fuel fuel' hf hf' => ?_⟩
  obtain ⟨f, f1, f2⟩ := k4 hS fuel hf
  obtain ⟨f', f1', f2'⟩ := g4 hS' fuel' hf'
  refine ⟨f, f', f1, f1', fun a p c ha hc hi => ?_⟩
  rw [f2 a p c ha hi]
  obtain ⟨dp, tp⟩ := k3.top p (List.mem_of_getElem? ha)
  have hoff : OffRing E.d p := (offRing_iff dp).2 (by
    rintro ⟨z, z1, z2⟩
    exact hi z (flat_way dp hc z1) z2)
  rw [hd] at dp tp hoff hi
  have dq := (data_tile t dp.1).1 dp
  obtain ⟨q, hq, hqf⟩ := g3.all _ dq ((isTop_tile t hoff).1 tp)
  obtain ⟨b, hb, rfl⟩ := List.getElem_of_mem hq
  have dq' := (g3.top _ hq).1
  have fq := hqf.symm dq'
  refine ⟨b, _, List.getElem?_eq_getElem hb, fq, ?_⟩
  have hin := inlandAt_whole t dp.1 hi
  have hin' : InlandAt E'.d c sites'[b] := fun z hz => hin z ((passable_flat dq fq).1 hz)
  rw [f2' b _ c (List.getElem?_eq_getElem hb) (clear_inland ho' g1 hin')]
  have e := (flat_data dq fq).2
  have hesc : ∀ h, Escapes E'.d (moved x y p) h ↔ Escapes E'.d sites'[b] h := by
    intro h
    unfold Escapes
    simp only [passable_flat dq fq, e]
  unfold KeyCol
  simp only [hesc]

/-! ### Instances -/

/-- Two hills with a pass between them, and a mountain further off. -/
def exFarOff : DataMap := DataMap.ofRows [[12, 0, 0, 0, 0, 0, 0], [0, 0, 0, 0, 0, 0, 0], [0, 0, 5, 3, 9, 0, 0], [0, 0, 0, 0, 0, 0, 0], [0, 0, 0, 0, 0, 0, 0]]

/-- The hills without the mountain. -/
def exNearBy : DataMap := exFarOff.subset 1 1 3 5

theorem exFarOff_ok : RunOk (exRun exFarOff) ∧ RunOk (exRun exNearBy) :=
  ⟨exRun_plain _ (by unfold maxsize; decide +kernel),
    exRun_ok _ (by intro v hv; simp [exNearBy, exFarOff, DataMap.subset, gdalTranslateWin, DataMap.ofRows] at hv)
      ⟨by simp [exNearBy, exFarOff, DataMap.subset, gdalTranslateWin, DataMap.ofRows],
        by simp [exNearBy, exFarOff, DataMap.subset, gdalTranslateWin, DataMap.ofRows],
        by simp [exNearBy, exFarOff, DataMap.subset, gdalTranslateWin, DataMap.ofRows],
        by simp [exNearBy, exFarOff, DataMap.subset, gdalTranslateWin, DataMap.ofRows], fun _ => rfl⟩ (by unfold maxsize; decide +kernel)⟩

/-- The ground around the lower hill down to the pass. -/
theorem exNearBy_ground (h : Rat) (hh : 3 ≤ h) (z : Pt) (hz : Passable exNearBy h (1, 1) z) : z ∈ [((1, 1) : Pt), (1, 2), (1, 3)] := by
  obtain ⟨_, _, hx⟩ := hz
  induction hx with
  | refl => simp
  | @tail a b _ h1 ih =>
    have fin : ∀ a ∈ [((1, 1) : Pt), (1, 2), (1, 3)], ∀ x ∈ [(-1 : Int), 0, 1], ∀ y ∈ [(-1 : Int), 0, 1],
        3 ≤ el exNearBy (a.1 + x, a.2 + y) → (a.1 + x, a.2 + y) ∈ [((1, 1) : Pt), (1, 2), (1, 3)] := by
      decide +kernel
    obtain ⟨b1, b2⟩ := b
    have hb := h1.1
    unfold Adj at hb
    have := fin a ih (b1 - a.1) (by simp only [List.mem_cons, List.not_mem_nil, or_false]; omega) (b2 - a.2)
      (by simp only [List.mem_cons, List.not_mem_nil, or_false]; omega)
    simp only [add_sub_cancel] at this
    exact this (le_trans hh h1.2.2)

theorem exNearBy_inland : InlandAt exNearBy 3 (1, 1) := by
  intro z hz
  have fin : ∀ z ∈ [((1, 1) : Pt), (1, 2), (1, 3)], ¬ Border exNearBy z := by unfold Border; decide +kernel
  exact fin z (exNearBy_ground 3 (le_refl _) z hz)

theorem exNearBy_key : KeyCol exNearBy (1, 1) 3 := by
  refine ⟨⟨(1, 3), by decide +kernel, by unfold Spec.Data Spec.InB; decide +kernel, by decide +kernel, ?_⟩, ?_⟩
  · refine .tail (b := (1, 2)) (.single ?_) ?_
    all_goals exact ⟨by decide +kernel, by unfold Spec.Data Spec.InB; decide +kernel, by decide +kernel⟩
  · rintro h' ⟨q, hq, hp⟩
    by_contra hlt
    have h3 : (3 : Rat) ≤ h' := le_of_lt (not_le.1 hlt)
    -- the only way leads over the pass
    have : ∀ x, Passable exNearBy h' (1, 1) x → x = (1, 1) := by
      rintro x ⟨g1, g2, hx⟩
      induction hx with
      | refl => rfl
      | @tail b c k1 k2 ih =>
        subst ih
        have hc := exNearBy_ground h' h3 c ⟨g1, g2, k1.tail k2⟩
        simp only [List.mem_cons, List.not_mem_nil, or_false] at hc
        rcases hc with rfl | rfl | rfl
        · rfl
        · exact absurd k2.2.2 (by rw [show el exNearBy (1, 2) = 3 by decide +kernel]; exact hlt)
        · exact absurd k2.1 (by decide +kernel)
    rw [this q hp] at hq
    exact lt_irrefl _ hq

/-- Instance of C128: the key saddle of the lower hill, of height 3, is read off the map of the part. The higher hill has none there: in
the part nothing is higher, in the whole the mountain is. -/
example : ∃ (m : DMap) (f : Flags) (a : Nat), DMap.run (exRun exNearBy) (fun _ => exOracle) exNearBy.cells false 99 = .ok (m, f) ∧
    KeyRead m f a 3 ∧ KeyCol exFarOff (2, 2) 3 ∧ Escapes exFarOff (2, 4) 0 ∧ ∀ h, ¬ Escapes exNearBy (1, 3) h := by
  obtain ⟨m, sites, h1, h2, h3⟩ := C128_exact (exRun exNearBy) exFarOff_ok.2 exFarOff 1 1 3 5 (by decide) (by decide) (by decide)
    (by decide) (by decide +kernel) (by decide +kernel) rfl (fun _ => exOracle) exNearBy.cells (isScan_cells _) false
  have t : TileOf exFarOff 1 1 3 5 := ⟨by decide, by decide, by decide, by decide, by decide +kernel, by decide +kernel⟩
  have hv : (DMap.runSparse (exRun exNearBy) (fun _ => exOracle) exNearBy.cells false).toOption.map (fun m =>
      (decide (m.summits.map fun s => (round6 s.lat, round6 s.lon, s.elevation)).Nodup,
        decide (m.saddles.length + m.st.objs.length < 99))) = some (true, true) := by decide +kernel
  rw [h1] at hv
  simp only [Except.toOption, Option.map_some, Option.some.injEq, Prod.mk.injEq, decide_eq_true_eq] at hv
  obtain ⟨f, f1, f2⟩ := h3 (summitsApart_of_nodup hv.1) 99 hv.2
  have dp : Data exNearBy (1, 1) := by unfold Spec.Data Spec.InB; decide +kernel
  have hkey : KeyCol exFarOff (2, 2) 3 := (keyCol_inland (p := (1, 1)) t dp.1 exNearBy_inland).2 exNearBy_key
  have htop : IsTop exNearBy (1, 1) := by
    rintro r ⟨⟨r1, _, u, r3, r4⟩, r5⟩
    have hu : u = (1, 1) := by
      clear r4
      induction r3 with
      | refl => rfl
      | @tail b c _ k2 ih =>
        subst ih
        have := exNearBy_ground 3 (le_refl _) c ⟨dp, by decide +kernel, .single ⟨k2.1, k2.2.1, by rw [k2.2.2]; decide +kernel⟩⟩
        simp only [List.mem_cons, List.not_mem_nil, or_false] at this
        rcases this with rfl | rfl | rfl
        · rfl
        · exact absurd k2.2.2 (by decide +kernel)
        · exact absurd k2.2.2 (by decide +kernel)
    subst hu
    have := exNearBy_ground 3 (le_refl _) r ⟨dp, by decide +kernel, .single ⟨r4, r1,
      le_trans (by decide +kernel : (3 : Rat) ≤ el exNearBy (1, 1)) (le_of_lt r5)⟩⟩
    simp only [List.mem_cons, List.not_mem_nil, or_false] at this
    rcases this with rfl | rfl | rfl
    · exact lt_irrefl _ r5
    · exact absurd r5 (by decide +kernel)
    · exact absurd r4 (by decide +kernel)
  obtain ⟨q, hq, hqf⟩ := h2.all _ dp htop
  have hq1 : q = (1, 1) := by
    have := exNearBy_ground 3 (le_refl _) q (flat_way dp (by decide +kernel) (hqf.symm (h2.top q hq).1))
    have e := (flat_data (h2.top q hq).1 hqf).2
    simp only [List.mem_cons, List.not_mem_nil, or_false] at this
    rcases this with rfl | rfl | rfl
    · rfl
    · exact absurd e (by decide +kernel)
    · exact absurd e (by decide +kernel)
  subst hq1
  obtain ⟨a, ha, ea⟩ := List.getElem_of_mem hq
  refine ⟨m, f, a, f1, (f2 a (1, 1) 3 (by rw [List.getElem?_eq_getElem ha, ea]) exNearBy_inland).2 hkey, hkey, ?_, ?_⟩
  · refine ⟨(0, 0), by decide +kernel, by unfold Spec.Data Spec.InB; decide +kernel, by decide +kernel, ?_⟩
    refine .tail (b := (1, 1)) (.tail (b := (1, 2)) (.tail (b := (1, 3)) (.single ?_) ?_) ?_) ?_
    all_goals exact ⟨by decide +kernel, by unfold Spec.Data Spec.InB; decide +kernel, by decide +kernel⟩
  · rintro h ⟨q, hq, hp⟩
    have fin : ∀ q ∈ exNearBy.cells, ¬ el exNearBy (1, 3) < el exNearBy q := by decide +kernel
    exact fin q ((mem_cells _ q).2 hp.symm.1.1) hq

end PyProm
