import Verif.Proof.DivideUnits
import Verif.Props.DivideLoaded
import Verif.Props.RunHeights
import Verif.Props.Marker
import Verif.Props.Elsewhere
import Verif.Props.FloatRun

/-
C136: the divide tree does not depend on units, datum and place
-/
namespace PyProm
open Spec

/-- The divide tree of the map of a run with heights passed through an increasing function, and the declines of its paths. -/
theorem tree_scaled {φ : Rat → Rat} (hφ : Increasing φ) {E : SaddleEnv} (hR : RunOk E) {o : Pt → Oracle} {order : List Pt}
    (hs : IsScan E.d order) {rebuild : Bool} {m : DMap} (r1 : DMap.runSparse E o order rebuild = .ok m) (f : Flags) {sums : List Nat}
    (hD : ∀ D ∈ sums, D < m.summits.length) (s : TreeSt) :
    divideRun (scaleMap φ m).net f sums s = divideRun m.net f sums s ∧
      ∀ t, divideRun m.net f sums s = .ok t → ∀ D ∈ sums, m.feature (.summit D) ≠ none ∧ ∃ ps e, t.lprPaths D = some (ps, e) ∧
        ∀ q ∈ ps, m.feature (.saddle q.saddle) ≠ none ∧
          q.decline m.net = .ok (m.net.elev (.summit D) - m.net.elev (.saddle q.saddle)) ∧
          q.decline (scaleMap φ m).net = .ok (φ (m.net.elev (.summit D)) - φ (m.net.elev (.saddle q.saddle))) := by
  obtain ⟨_, _, sites, m0, news, hwk, hL⟩ := run_areas hR o order hs rebuild r1
  have hsum : ∀ D, D < m.summits.length → m.feature (.summit D) ≠ none := by
    intro D hD
    show m.summits[D]? ≠ none
    rw [List.getElem?_eq_getElem hD]
    exact Option.some_ne_none _
  have hend : ∀ k, ∀ j ∈ m.net.sadLinks k, (m.net.link j).1 < m.summits.length := by
    intro k j hj
    obtain ⟨l, hl, _⟩ := hwk.inv.sad k j hj
    obtain ⟨sf, _, e1, _⟩ := hwk.inv.links l (List.mem_of_getElem? hl)
    rw [← hwk.summits] at e1
    rw [net_link hl]
    exact lt_of_getElem? e1
  have htree : divideRun (scaleMap φ m).net f sums s = divideRun m.net f sums s := by
    rw [net_scaled hφ]
    refine divide_elev (P := (· < m.summits.length)) (fun x y hx hy => ?_) hend sums hD s
    rw [elev_scaled (hsum x hx), elev_scaled (hsum y hy), ← not_lt, ← not_lt, inc_lt hφ]
  refine ⟨htree, fun t ht D hDs => ⟨hsum D (hD D hDs), ?_⟩⟩
  have hN : OwnLinkers m.net := fun D i hi => by
    obtain ⟨l, hl, hD⟩ := hwk.inv.sum D i hi
    rw [net_link hl]
    exact hD
  have hN' : OwnLinkers (scaleMap φ m).net := by
    rw [net_scaled hφ]
    exact hN
  obtain ⟨ps, e, k1, k2, _⟩ := C53_paths_partial m.net f _ s t ht D hDs
  obtain ⟨ps2, e2, l1, l2⟩ := C53_decline_partial m.net hN f _ s t ht D hDs
  obtain ⟨ps3, e3, n1, n2⟩ := C53_decline_partial (scaleMap φ m).net hN' f _ s t (htree.trans ht) D hDs
  rw [k1] at l1 n1
  cases l1
  cases n1
  refine ⟨ps, e, k1, fun q hq => ?_⟩
  have hq' : m.feature (.saddle q.saddle) ≠ none := by
    have hlist : ∀ (b i : Nat), i ∈ m.net.sumLinks b → m.feature (.saddle (m.net.link i).2) ≠ none := by
      intro b i hi
      obtain ⟨l, hl, _⟩ := hwk.inv.sum b i hi
      have hb := hL.bound l (List.mem_of_getElem? hl)
      rw [net_link hl]
      show m.st.objs[l.saddle]?.map (·.f) ≠ none
      rw [List.getElem?_eq_getElem (by simpa [CSt.feats] using hb)]
      exact Option.some_ne_none _
    rcases k2 q hq with ⟨p, b, i, _, e2, _, h | ⟨j, h⟩⟩ | ⟨p, b, i, _, e2, _, j, h⟩
    · rw [e2]
      exact hlist b i h.1
    · rw [e2]
      exact hlist b i h.1.1.first
    · rw [e2]
      exact hlist b i h.1.first
  refine ⟨hq', (l2 q hq).1, ?_⟩
  rw [(n2 q hq).1, elev_scaled (hsum D (hD D hDs)), elev_scaled hq']

/-- C136, heights: take a complete run on a raster and the run on the same raster with heights in another unit and above another datum.
The divide tree of the second map is that of the first: the same boundaries, regions and paths, the same summits given up, whatever was
noted on the features before. The declines of the paths are multiplied by the ratio of the units. -/
theorem C136_units (φ : Rat → Rat) (a b : Rat) (hc : Converts φ a b) (E E' : SaddleEnv) (hR : RunOk E) (hE : SameChoices φ E E')
    (hw : SameSlopes φ (Occurs E.d) E.w E'.w) (o o' : Pt → Oracle) (ho : ∀ p, SameOrders φ (o p) (o' p)) (order : List Pt)
    (hs : IsScan E.d order) (rebuild : Bool) (fuel : Nat) (m : DMap) (f : Flags) (hm : DMap.run E o order rebuild fuel = .ok (m, f)) :
    ∃ m', DMap.run E' o' order rebuild fuel = .ok (m', f) ∧ m'.summits.length = m.summits.length ∧
      ∀ sums, (∀ D ∈ sums, D < m.summits.length) → ∀ s, divideRun m'.net f sums s = divideRun m.net f sums s ∧
        ∀ t, divideRun m.net f sums s = .ok t → ∀ D ∈ sums, ∃ ps e, t.lprPaths D = some (ps, e) ∧
          ∀ q ∈ ps, ∃ x, q.decline m.net = .ok x ∧ q.decline m'.net = .ok (a * x) := by
  have hφ := hc.increasing
  have hr := C107_run φ hφ E E' hE hw o o' ho order rebuild fuel
  rw [hm] at hr
  obtain ⟨m1, r1, hm'⟩ := bind_ok hm
  obtain ⟨f1, r2, hm'⟩ := bind_ok hm'
  cases hm'
  refine ⟨scaleMap φ m, hr, List.length_map _, fun sums hD s => ?_⟩
  obtain ⟨h1, h2⟩ := tree_scaled hφ hR hs r1 f hD s
  refine ⟨h1, fun t ht D hDs => ?_⟩
  obtain ⟨_, ps, e, k1, k2⟩ := h2 t ht D hDs
  refine ⟨ps, e, k1, fun q hq => ⟨_, (k2 q hq).2.1, ?_⟩⟩
  rw [(k2 q hq).2.2, hc.2, hc.2]
  congr 1
  ring

/-- C136, nodata: take a complete run on a raster and the run on the same raster with another marker for cells without data, the data
perhaps in another unit and above another datum. The divide trees are the same, and declines of paths to saddles and runoffs that have
data are multiplied by the ratio of the units. -/
theorem C136_marker (φ : Rat → Rat) (a b : Rat) (E E' : SaddleEnv) (hc : ConvertsData φ a b E.d) (hR : RunOk E) (hE : SameChoices φ E E')
    (hw : SameSlopes φ (Ground E.d) E.w E'.w) (o o' : Pt → Oracle) (ho : ∀ p, SameOrders φ (o p) (o' p)) (order : List Pt)
    (hs : IsScan E.d order) (rebuild : Bool) (fuel : Nat) (m : DMap) (f : Flags) (hm : DMap.run E o order rebuild fuel = .ok (m, f)) :
    ∃ m', DMap.run E' o' order rebuild fuel = .ok (m', f) ∧ m'.summits.length = m.summits.length ∧
      ∀ sums, (∀ D ∈ sums, D < m.summits.length) → ∀ s, divideRun m'.net f sums s = divideRun m.net f sums s ∧
        ∀ t, divideRun m.net f sums s = .ok t → ∀ D ∈ sums, ∃ ps e, t.lprPaths D = some (ps, e) ∧
          ∀ q ∈ ps, some (m.net.elev (.saddle q.saddle)) ≠ E.d.nodata →
            ∃ x, q.decline m.net = .ok x ∧ q.decline m'.net = .ok (a * x) := by
  have hr := C108_run φ E E' hR hc.inc hE hw o o' ho order hs rebuild fuel
  rw [hm] at hr
  obtain ⟨m1, r1, hm'⟩ := bind_ok hm
  obtain ⟨f1, r2, hm'⟩ := bind_ok hm'
  cases hm'
  refine ⟨scaleMap φ m, hr, List.length_map _, fun sums hD s => ?_⟩
  obtain ⟨h1, h2⟩ := tree_scaled hc.inc hR hs r1 f hD s
  refine ⟨h1, fun t ht D hDs => ?_⟩
  obtain ⟨k0, ps, e, k1, k2⟩ := h2 t ht D hDs
  have hel : ∀ n x, m.feature n = some x → m.net.elev n = x.elevation := fun n x hx => by simp [DMap.net, hx]
  refine ⟨ps, e, k1, fun q hq hn => ⟨_, (k2 q hq).2.1, ?_⟩⟩
  obtain ⟨x, hx⟩ := Option.ne_none_iff_exists'.1 k0
  obtain ⟨y, hy⟩ := Option.ne_none_iff_exists'.1 (k2 q hq).1
  have ex : φ x.elevation = a * x.elevation + b := by
    obtain ⟨_, _, _, m', _, _, _, _, _, h4, _, _, _, h8, h9⟩ := run_spec hR o order hs rebuild
    cases (r1.symm.trans h8 : Except.ok _ = Except.ok _)
    have hk : m.summits[D]? = some x := hx
    rw [h9.summits] at hk
    obtain ⟨p, hp, hp'⟩ := forall₂_getElem? (List.Forall₂.flip h4.tops.each) hk
    exact hc.data _ ⟨p, (h4.tops.top p (List.mem_of_getElem? hp)).1, hp'.located.2.2.symm⟩
  have ey : φ y.elevation = a * y.elevation + b := by
    rcases (run_heights hR hs r1 hy).2 with ⟨p, h1, h2⟩ | ⟨h1, p, _, h3, h4⟩
    · exact hc.data _ ⟨p, h1, h2.symm⟩
    · exact absurd (by rw [hel _ _ hy, h4.2.2]; exact h3) hn
  rw [(k2 q hq).2.2, hel _ _ hx, hel _ _ hy, ex, ey]
  congr 1
  ring

/-- C136, place: the divide tree of the run on the moved raster is that of the run on the raster itself. -/
theorem C136_place (g : DataMap) (E E' : SaddleEnv) (hE : SameElsewhere g E E') (hd : Coarse E.d) (hg : Coarse g)
    (o : Pt → Oracle) (order : List Pt) (rebuild : Bool) (fuel : Nat) (m : DMap) (f : Flags)
    (hm : DMap.run E o order rebuild fuel = .ok (m, f)) :
    ∃ m', DMap.run E' o order rebuild fuel = .ok (m', f) ∧ m'.summits.length = m.summits.length ∧
      (∀ sums s, divideRun m'.net f sums s = divideRun m.net f sums s) ∧ ∀ q : LprPath, q.decline m'.net = q.decline m.net := by
  have hr := C114_run g E E' hE hd hg o order rebuild fuel
  rw [hm] at hr
  obtain ⟨m1, r1, hm'⟩ := bind_ok hm
  obtain ⟨f1, r2, hm'⟩ := bind_ok hm'
  cases hm'
  have hn := net_new hd hg (runSparse_onGrid hd.geo r1)
  exact ⟨_, hr, List.length_map _, fun sums s => by rw [hn], fun q => by rw [hn]⟩

/-- C136, rounding: the divide tree of a run with rounded coordinates is that of the exact run. -/
theorem C136_rounding (u : Rat) (g : DataMap) (E E' : SaddleEnv) (hE : SameRounded g E E') (hd : Unrotated E.d) (ht : Told E.d)
    (hf : FineFloats u E'.d) (ht' : Told E'.d) (hfc : PairOk E.d E.fc) (hp : PathsInside E) (o : Pt → Oracle)
    (order : List Pt) (ho : IsScan E.d order) (rebuild : Bool) (fuel : Nat) (m : DMap) (f : Flags)
    (hm : DMap.run E o order rebuild fuel = .ok (m, f)) :
    ∃ m', DMap.run E' o order rebuild fuel = .ok (m', f) ∧ m'.summits.length = m.summits.length ∧
      (∀ sums s, divideRun m'.net f sums s = divideRun m.net f sums s) ∧ ∀ q : LprPath, q.decline m'.net = q.decline m.net := by
  have hr := C130_run u g E E' hE hd ht hf ht' hfc hp o order ho rebuild fuel
  rw [hm] at hr
  rw [hE.raster] at hf ht'
  have h : RoundedPair g E.d := ⟨hd, ht, hf.gt2, hf.gt4, roundedBy_zero hf.rounded, C129_back u _ hf, ht'⟩
  obtain ⟨m1, r1, hm'⟩ := bind_ok hm
  obtain ⟨f1, r2, hm'⟩ := bind_ok hm'
  cases hm'
  have k := runSparse_housed hfc hp ho r1
  have hn : (placeMap (roundLat E.d g) (roundLon E.d g) m).net = m.net :=
    net_laid (K := Housed E.d) (fun _ _ hf hf' => seEq_rounded h hf.1.1 hf'.1.1) (fun _ _ hf hf' => seNe_rounded h hf.1.1 hf'.1.1) k.1 k.2
  exact ⟨_, hr, List.length_map _, fun sums s => by rw [hn], fun q => by rw [hn]⟩

/-- Instance of `C136_units`: the crater in metres and in feet, above another datum; the hypotheses hold and the run ends. -/
example : Converts exInFeet 3.28084 164.042 ∧ RunOk (exRun (DataMap.ofRows exCrater)) ∧
    SameChoices exInFeet (exRun (DataMap.ofRows exCrater)) (exRun (rescaled exInFeet (DataMap.ofRows exCrater))) ∧
    SameSlopes exInFeet (Occurs (DataMap.ofRows exCrater)) (exRun (DataMap.ofRows exCrater)).w
      (exRun (rescaled exInFeet (DataMap.ofRows exCrater))).w ∧ SameOrders exInFeet exOracle exOracle ∧
    ((exFull exCrater false 99).toOption.map fun r => r.1.summits.length) = some 4 :=
  ⟨exInFeet_converts, exRun_plain _ (by unfold maxsize; decide +kernel), exRun_same exInFeet_converts.increasing _,
    C107_slopes _ _ _ 1 exInFeet_converts one_pos _ _ _ fun _ _ => (one_mul _).symm, ⟨fun _ _ => rfl, fun _ _ _ => rfl⟩,
    by decide +kernel⟩

/-- Instance of `C136_marker`: in place of -99 the marker can be any value below the data; the run ends, with two summits. -/
example (v' : Rat) (hv' : v' < 2) : ∃ φ, ConvertsData φ 1 0 (exHole (-99)) ∧ (rescaled φ (exHole (-99))).nodata = some v' ∧
    RunOk (exRun (exHole (-99))) ∧ SameChoices φ (exRun (exHole (-99))) (exRun (rescaled φ (exHole (-99)))) ∧
    SameSlopes φ (Ground (exHole (-99))) (exRun (exHole (-99))).w (exRun (rescaled φ (exHole (-99)))).w ∧ SameOrders φ exOracle exOracle ∧
    ((DMap.run (exRun (exHole (-99))) (fun _ => exOracle) (exHole (-99)).cells true 99).toOption.map fun r =>
      r.1.summits.length) = some 2 := by
  obtain ⟨φ, h1, h2, _⟩ := C108_any_marker (exHole (-99)) (-99) v' 1 0 rfl (exHole_low (by norm_num)) one_pos (by
    intro p hp
    rcases exHole_el _ p hp.1 with ⟨_, h⟩ | ⟨_, h3, h4⟩
    · exact absurd (by rw [h]; rfl) hp.2
    · rw [h4]
      linarith)
  exact ⟨φ, h1, h2, exHole_ok (by norm_num), exRun_same h1.inc _, C108_slopes φ 1 0 _ h1 _, ⟨fun _ _ => rfl, fun _ _ _ => rfl⟩,
    by decide +kernel⟩

/-- The declines of the first summit, in metres and in feet. -/
example : (exFull exCrater false 99).toOption.bind (fun r =>
      (divideRun r.1.net r.2 (List.range r.1.summits.length) noTree).toOption.bind fun t =>
        (t.lprPaths 0).map fun p => p.1.map fun q => ((q.decline r.1.net).toOption, (q.decline (scaleMap exInFeet r.1).net).toOption)) =
    some [(some 4, some (3.28084 * 4))] := by decide +kernel

end PyProm
