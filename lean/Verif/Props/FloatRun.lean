import Verif.Proof.FloatRun
import Verif.Props.Tiles

/-! C130: the rounding of coordinates does not change the map. -/
namespace PyProm
open Spec

/-- C130: a complete run with rounded coordinates ends as the run without rounding, with the same exception or with the same map
but for the coordinates of its features: same heights, areas, linkers, domains and families, and the same saddles and linkers
disqualified. Also if the raster is at the same time at another place. Cells are to be told apart to six decimals on both. -/
theorem C130_run (u : Rat) (g : DataMap) (E E' : SaddleEnv) (hE : SameRounded g E E') (hd : Unrotated E.d) (ht : Told E.d)
    (hf : FineFloats u E'.d) (ht' : Told E'.d) (hfc : PairOk E.d E.fc) (hp : PathsInside E) (o : Pt → Oracle)
    (order : List Pt) (ho : IsScan E.d order) (rebuild : Bool) (fuel : Nat) :
    DMap.run E' o order rebuild fuel =
      (DMap.run E o order rebuild fuel).map fun r => (placeMap (roundLat E.d g) (roundLon E.d g) r.1, r.2) := by
  rw [hE.raster] at hf ht'
  exact run_rounded hE ⟨hd, ht, hf.gt2, hf.gt4, roundedBy_zero hf.rounded, C129_back u _ hf, ht'⟩ hfc hp o order ho rebuild fuel

/-- C130, same place: what is computed with rounding is what is computed without, and the coordinates of every feature are right
up to four units of rounding. -/
theorem C130_exact (u : Rat) (E : SaddleEnv) (hE : RunOk E) (hd : FineFloats u E.d)
    (h1 : 1 / 1000000 + 8 * (u * (|E.d.gt0| + E.d.maxY * |E.d.gt1|)) < |E.d.gt1|)
    (h5 : 1 / 1000000 + 8 * (u * (|E.d.gt3| + E.d.maxX * |E.d.gt5|)) < |E.d.gt5|)
    (hf : ∀ f f' : Feature, f.multipoint = f'.multipoint → f.hpn = f'.hpn → E.find f = E.find f')
    (hp : PathsInside E) (o : Pt → Oracle) (order : List Pt) (ho : IsScan E.d order) (rebuild : Bool) (fuel : Nat) :
    ∃ L M : Rat → Rat, DMap.run E o order rebuild fuel =
        (DMap.run { E with d := exactly E.d } o order rebuild fuel).map (fun r => (placeMap L M r.1, r.2)) ∧
      ∀ r, DMap.run { E with d := exactly E.d } o order rebuild fuel = .ok r →
        ∀ f ∈ r.1.summits ++ r.1.st.objs.map SObj.f,
          |L f.lat - f.lat| ≤ 4 * (u * (|E.d.gt3| + E.d.maxX * |E.d.gt5|)) ∧
          |M f.lon - f.lon| ≤ 4 * (u * (|E.d.gt0| + E.d.maxY * |E.d.gt1|)) := by
  have p1 : 0 ≤ u * (|E.d.gt0| + E.d.maxY * |E.d.gt1|) := mul_nonneg hd.nonneg (add_nonneg (abs_nonneg _)
    (mul_nonneg (Nat.cast_nonneg _) (abs_nonneg _)))
  have p5 : 0 ≤ u * (|E.d.gt3| + E.d.maxX * |E.d.gt5|) := mul_nonneg hd.nonneg (add_nonneg (abs_nonneg _)
    (mul_nonneg (Nat.cast_nonneg _) (abs_nonneg _)))
  have hgeo : Unrotated (exactly E.d) :=
    ⟨abs_pos.1 (pos_of_fine hd.nonneg hd.lon), abs_pos.1 (pos_of_fine hd.nonneg hd.lat), hd.gt2, hd.gt4, fun _ => rfl⟩
  have hc : Coarse (exactly E.d) := ⟨hgeo, by show 1 / 1000000 < |E.d.gt5|; linarith, by show 1 / 1000000 < |E.d.gt1|; linarith⟩
  have hlaid : laid E.d (exactly E.d) = E.d := rfl
  have hpair : RoundedPair E.d (exactly E.d) :=
    ⟨hgeo, hc.told, hd.gt2, hd.gt4, roundedBy_zero hd.rounded, C129_back u _ hd, C129_told u _ hd h1 h5⟩
  have hp' : PathsInside { E with d := exactly E.d } := hp
  have ho' : IsScan (exactly E.d) order := ho
  have hfc : PairOk (exactly E.d) E.fc := hE.fc
  refine ⟨roundLat (exactly E.d) E.d, roundLon (exactly E.d) E.d, ?_, fun r hr f hf => ?_⟩
  · exact C130_run u E.d { E with d := exactly E.d } E ⟨rfl, rfl, rfl, rfl, fun f => hf _ _ rfl rfl, rfl⟩ hgeo hc.told hd
      (C129_told u _ hd h1 h5) hfc hp' o order ho' rebuild fuel
  · unfold DMap.run at hr
    obtain ⟨m, hm, hr⟩ := bind_ok hr
    obtain ⟨_, _, hr⟩ := bind_ok hr
    cases hr
    have k := runSparse_housed (E := { E with d := exactly E.d }) hfc hp' ho' hm
    have hk : Housed (exactly E.d) f := by
      rcases List.mem_append.1 hf with c | c
      · exact k.1 f c
      · obtain ⟨ob, hob, rfl⟩ := List.mem_map.1 c
        exact k.2 ob hob
    obtain ⟨q, hq, e1, e2⟩ := hk.1.1
    have a1 := lat_near hd (q := q) hq
    have a2 := lon_near hd (q := q) hq
    have b1 : f.lat = E.d.gt3 + q.1 * E.d.gt5 := by
      rw [e1]
      show E.d.gt3 + q.2 * E.d.gt4 + q.1 * E.d.gt5 = _
      rw [hd.gt4, mul_zero, add_zero]
    have b2 : f.lon = E.d.gt0 + q.2 * E.d.gt1 := by
      rw [e2]
      show E.d.gt0 + q.2 * E.d.gt1 + q.1 * E.d.gt2 = _
      rw [hd.gt2, mul_zero, add_zero]
    rw [← b1, ← hlaid, ← roundLat_cell hpair, ← e1] at a1
    rw [← b2, ← hlaid, ← roundLon_cell hpair, ← e2] at a2
    exact ⟨a1, a2⟩

/-- C94 with rounding: the same feature has the same coordinates in tile and map up to thirteen units of rounding. -/
theorem C94_rounded (u : Rat) (d : DataMap) (hd : FineFloats u d) (x y : Int) (xs ys : Nat) (hx : 0 < xs) (hy : 0 < ys)
    (h0 : 0 ≤ x) (h1 : 0 ≤ y) (h2 : x + xs ≤ d.maxX + 1) (h3 : y + ys ≤ d.maxY + 1)
    (hlon : 17 * (u * (|d.gt0| + d.maxY * |d.gt1|)) < |d.gt1|)
    (hlat : 17 * (u * (|d.gt3| + d.maxX * |d.gt5|)) < |d.gt5|) (f g : Feature) (h : SameInTile d x y xs ys f g) :
    |f.lat - g.lat| ≤ 13 * (u * (|d.gt3| + d.maxX * |d.gt5|)) ∧
    |f.lon - g.lon| ≤ 13 * (u * (|d.gt0| + d.maxY * |d.gt1|)) := by
  obtain ⟨s, hs, ⟨a1, a2, _⟩, b1, b2, _⟩ := h.place
  rw [a1, a2, b1, b2]
  exact C129_subset_near u d hd x y xs ys hx hy h0 h1 h2 h3 hlon hlat s.1 s.2 hs.1

/-- The hypotheses of C130 hold for the two peaks on a grid of seconds of arc in double precision. -/
example : FineFloats (1 / 2 ^ 53) exFloat ∧
    1 / 1000000 + 8 * (1 / 2 ^ 53 * (|exFloat.gt0| + exFloat.maxY * |exFloat.gt1|)) < |exFloat.gt1| ∧
    1 / 1000000 + 8 * (1 / 2 ^ 53 * (|exFloat.gt3| + exFloat.maxX * |exFloat.gt5|)) < |exFloat.gt5| ∧
    (∀ f f' : Feature, f.multipoint = f'.multipoint → f.hpn = f'.hpn → (exRun exFloat).find f = (exRun exFloat).find f') ∧
    PathsInside (exRun exFloat) := by
  refine ⟨exFloat_fine, by unfold exFloat; decide +kernel, by unfold exFloat; decide +kernel, fun _ _ _ _ => rfl, ?_⟩
  intro f u hu t ht n hn
  simp only [exRun, exFind, List.mem_cons, List.not_mem_nil, or_false] at hn
  rcases hn with rfl | rfl
  · exact .inr ⟨u, hu, rfl⟩
  · exact .inr ⟨t, ht, rfl⟩

/-- That run, evaluated in double precision: it finishes with as many summits, saddles and linkers as the exact one. -/
example : (DMap.run (exRun exFloat) (fun _ => exOracle) exFloat.cells true 100).toOption.map
      (fun r => (r.1.summits.length, r.1.st.objs.length, r.1.linkers.length)) =
    (DMap.run (exRun (exactly exFloat)) (fun _ => exOracle) exFloat.cells true 100).toOption.map
      (fun r => (r.1.summits.length, r.1.st.objs.length, r.1.linkers.length)) := by
  decide +kernel

end PyProm
