import Verif.Proof.Ascent
import Verif.Props.Piece

/-
C109: points belong to the summit their line of steepest ascent leads to.
-/
namespace PyProm
open Spec

/-- C109 (rasters without flat shoulders, domains): after a walk every point listed by the domain of a summit is at
the beginning of a line of steepest ascent that ends in the area of this summit, and in no other. What is
missing: rasters with flat ground below a summit, see the refutation. -/
theorem C109_points_partial (E : SaddleEnv) (hE : RunOk E) (hN : NoShelves E.d) (o : Pt → Oracle)
    (order : List Pt) (ho : IsScan E.d order) (rebuild : Bool) (m : DMap)
    (hm : DMap.runSparse E o order rebuild = .ok m) :
    ∃ sites, SummitsAt E.d sites m.summits ∧ ∀ D pts, m.domPoints D = some pts → ∀ p ∈ pts, ∃ site top,
      sites[D]? = some site ∧ Flat E.d site top ∧ LeadsTo E.d E.w p top ∧
      ∀ top', LeadsTo E.d E.w p top' → IsTop E.d top' → top' = top := by
  obtain ⟨D, corners, m0, m', sites, news, h1, h2, h3, h4, h5, h6, h7, h8, h9⟩ := run_spec hE o order ho rebuild
  cases (h8.symm.trans hm : Except.ok _ = Except.ok _)
  obtain ⟨m'', news', a1, a2⟩ := walk_spec hE h4
  have hmm : m'' = m := by
    unfold DMap.runSparse at h8
    rw [h3] at h8
    dsimp only [bind, Except.bind] at h8
    rw [a1] at h8
    exact Except.ok.inj h8
  subst hmm
  obtain ⟨b1, b2⟩ := walk_explored hE h4 a1
  have hp := b1.piece hE.env hE.geo hN
  have hl := b1.led hE.env hE.geo hN
  refine ⟨sites, by rw [h9.summits]; exact h4.tops, fun D pts e p hpp => ?_⟩
  rw [b2] at e
  split at e
  · rw [← Option.some.inj e] at hpp
    obtain ⟨t, ⟨q, t1, t2⟩, t3⟩ := hl p D ((hp.tied p D).2 hpp)
    exact ⟨q, t, t1, t2, t3, fun u hu ht => hu.unique t3 ht (area_top h4.tops ⟨q, t1, t2⟩).2⟩
  · cases e

/-- C109 (rasters without flat shoulders, climbs): in any state of the exploration a climb from any cell reports
the summit to which the line of steepest ascent leads. What is missing: as before. -/
theorem C109_climb_partial (E : WalkEnv) (hE : EnvOk E) (hg : Findable E.d) (hN : NoShelves E.d) (sites : List Pt)
    (summits : List Feature) (s : WSt) (hs : Explored E sites summits s) (fuel : Nat) (hf : E.d.size < fuel) (p : P3)
    (hp : Data E.d p.xy) (he : p.e = el E.d p.xy) :
    ∃ D s' site top, climb E fuel s p = .ok (some D, s') ∧ sites[D]? = some site ∧ Flat E.d site top ∧
      LeadsTo E.d E.w p.xy top ∧ ∀ D' site' top', sites[D']? = some site' → Flat E.d site' top' →
        LeadsTo E.d E.w p.xy top' → D' = D ∧ top' = top := by
  have hinv := hs.inv hE hg
  have hl := hs.led hE hg hN
  have key : ∀ (s' : WSt) (D : Nat), Led E (SummitArea E.d sites) s' → s'.lookup p.xy = some D →
      ∃ site top, sites[D]? = some site ∧ Flat E.d site top ∧ LeadsTo E.d E.w p.xy top ∧
      ∀ D' site' top', sites[D']? = some site' → Flat E.d site' top' → LeadsTo E.d E.w p.xy top' →
        D' = D ∧ top' = top := by
    intro s' D h1 h2
    obtain ⟨t, ⟨q, t1, t2⟩, t3⟩ := h1 _ _ h2
    refine ⟨q, t, t1, t2, t3, fun D' q' t' g1 g2 g3 => ?_⟩
    have e := g3.unique t3 (area_top hs.from_discovery ⟨q', g1, g2⟩).2 (area_top hs.from_discovery ⟨q, t1, t2⟩).2
    subst e
    exact ⟨area_unique hs.from_discovery ⟨q', g1, g2⟩ ⟨q, t1, t2⟩ .refl, rfl⟩
  unfold climb
  cases hlk : s.lookup p.xy with
  | some D =>
    obtain ⟨q, t, r⟩ := key s D hl hlk
    exact ⟨D, s, q, t, rfl, r⟩
  | none =>
    obtain ⟨D, s', c1, c2⟩ := climbLoop_spec hE _ fuel s [p.xy] p hinv (.start hp he hlk)
      (lt_of_le_of_lt (above_le_size _ _) hf)
    obtain ⟨_, _, _, _, c3, _⟩ := c2.path
    obtain ⟨q, t, r⟩ := key s' D (climbLoop_led hE hN fuel hinv hl (.start hp he hlk) (by simp) c1)
      (c3 p.xy (by simp))
    exact ⟨D, s', q, t, c1, r⟩

/-- C109 (rasters without flat shoulders, linkers): every saddle of a walked map that is off the map edge and was not
split off an edge saddle has one linker for each of its high neighbourhoods, in order, to the summit at the end
of the line of steepest ascent from the first point of the neighbourhood. What is missing: as before. -/
theorem C109_linkers_partial (E : SaddleEnv) (hE : RunOk E) (hN : NoShelves E.d) (o : Pt → Oracle)
    (order : List Pt) (ho : IsScan E.d order) (rebuild : Bool) (m : DMap)
    (hm : DMap.runSparse E o order rebuild = .ok m) :
    ∃ sites, SummitsAt E.d sites m.summits ∧ ∀ k ∈ m.saddles, ∃ ob, m.st.objs[k]? = some ob ∧
      (ob.parent = none → ob.f.edge = false → 2 ≤ ob.f.hpn.length ∧
        List.Forall₂ (fun (c : List P3) (i : Nat) => i ∈ m.linkers ∧ ∃ h0 D site top, c.head? = some h0 ∧
          m.st.store[i]? = some ⟨D, k⟩ ∧ sites[D]? = some site ∧ Flat E.d site top ∧
          LeadsTo E.d E.w h0.xy top) ob.f.hpn (m.st.sadLinks k)) := by
  obtain ⟨D, corners, m0, m', sites, news, h1, h2, h3, h4, h5, h6, h7, h8, h9⟩ := run_spec hE o order ho rebuild
  cases (h8.symm.trans hm : Except.ok _ = Except.ok _)
  obtain ⟨m'', news', a1, a2⟩ := walk_spec hE h4
  have hmm : m'' = m := by
    unfold DMap.runSparse at h8
    rw [h3] at h8
    dsimp only [bind, Except.bind] at h8
    rw [a1] at h8
    exact Except.ok.inj h8
  subst hmm
  have hl := (walk_explored hE h4 a1).1.led hE.env hE.geo hN
  have ht := walk_tied hE hN h4 a1
  refine ⟨sites, by rw [h9.summits]; exact h4.tops, fun k hk => ?_⟩
  rw [h9.saddles] at hk
  have hw : k ∈ m''.st.walked := (List.mem_filter.1 hk).1
  have hlt := h9.inv.walked k hw
  refine ⟨_, List.getElem?_eq_getElem hlt, fun hp he => ?_⟩
  have hf := h9.inv.objs _ (List.getElem_mem hlt)
  refine ⟨hf.saddle (hf.inner he), (ht k hw _ (List.getElem?_eq_getElem hlt) hp he).imp ?_⟩
  rintro c i ⟨h0, D, c1, c2, c3⟩
  obtain ⟨t, ⟨q, t1, t2⟩, t3⟩ := hl _ _ c3
  exact ⟨by rw [h9.linkers, h9.inv.lk]; exact List.mem_range.2 (lt_of_getElem? c2), h0, D, q, t, c1, c2, t1, t2, t3⟩

/-- C109 (rasters without flat shoulders, several runs): a point listed in two runs over the same raster and the same
lengths of steps, whatever the order of their work and their search for nearest points, is listed by the domains
of the same summit. What is missing: as before. -/
theorem C109_agree_partial (E E' : SaddleEnv) (hE : RunOk E) (hE' : RunOk E') (hd : E'.d = E.d) (hw : E'.w = E.w)
    (hN : NoShelves E.d) (o o' : Pt → Oracle) (order order' : List Pt) (ho : IsScan E.d order)
    (ho' : IsScan E.d order') (rebuild rebuild' : Bool) (m m' : DMap)
    (hm : DMap.runSparse E o order rebuild = .ok m) (hm' : DMap.runSparse E' o' order' rebuild' = .ok m') :
    ∃ sites sites', SummitsAt E.d sites m.summits ∧ SummitsAt E.d sites' m'.summits ∧
      ∀ D D' pts pts' p, m.domPoints D = some pts → m'.domPoints D' = some pts' → p ∈ pts → p ∈ pts' →
        ∃ site site', sites[D]? = some site ∧ sites'[D']? = some site' ∧ Flat E.d site site' := by
  obtain ⟨sites, a1, a2⟩ := C109_points_partial E hE hN o order ho rebuild m hm
  obtain ⟨sites', b1, b2⟩ := C109_points_partial E' hE' (by rw [hd]; exact hN) o' order' (by rw [hd]; exact ho')
    rebuild' m' hm'
  rw [hd] at b1 b2
  rw [hw] at b2
  refine ⟨sites, sites', a1, b1, fun D D' pts pts' p e e' hp hp' => ?_⟩
  obtain ⟨q, t, c1, c2, c3, c4⟩ := a2 D pts e p hp
  obtain ⟨q', t', d1, d2, d3, _⟩ := b2 D' pts' e' p hp'
  have := c4 t' d3 (area_top b1 ⟨q', d1, d2⟩).2
  subst this
  exact ⟨q, q', c1, d1, c2.trans (d2.symm (b1.top q' (List.mem_of_getElem? d1)).1)⟩

/-- The step of the code is a step of steepest ascent. -/
theorem firstSteep_of {E : WalkEnv} (hE : EnvOk E) {p : Pt} (hp : Data E.d p) {sn : P3}
    (h : steepestNeighbor E.d E.w p.1 p.2 = .ok (some sn)) (hr : el E.d p < sn.e) : FirstSteep E.d E.w p sn.xy := by
  rcases steepest_spec hE.low hE.pos hp with ⟨h', _⟩ | ⟨sn', h', he, hst⟩
  · rw [h] at h'; cases h'
  · rw [h] at h'
    cases h'
    exact steepest_first hE.pos hp.1 h hst he (by rw [← he]; exact hr)

/-- Instance: on `exSpine`, which has no flat shoulders, each of the two domains lists three points; one line. -/
example : LeadsTo (DataMap.ofRows exSpine) (exactSlope exLen) (1, 3) (1, 1) := by
  have hE : EnvOk (exWalk (DataMap.ofRows exSpine)) :=
    (exRun_plain exSpine (by unfold maxsize; decide +kernel)).env
  exact ((Relation.ReflTransGen.refl.tail
    (firstSteep_of hE (p := (1, 3)) (sn := ⟨1, 2, 7⟩) (by unfold Spec.Data Spec.InB; decide +kernel)
      (by decide +kernel) (by decide +kernel))).tail
    (firstSteep_of hE (p := (1, 2)) (sn := ⟨1, 1, 9⟩) (by unfold Spec.Data Spec.InB; decide +kernel)
      (by decide +kernel) (by decide +kernel)))

/-- A flat shoulder between two summits, and a spur below it. -/
def exSpur : List (List Rat) := [[0, 0, 0, 0, 0, 0], [0, 20, 0, 0, 0, 0], [0, 0, 5, 6, 30, 0], [0, 4, 0, 5, 0, 0],
  [0, 2, 2, 5, 0, 0], [0, 0, 0, 0, 0, 0]]

/-- C109 fails: from `(3, 1)` the ground rises strictly and steepest to the summit of height 20, but the flat
shoulder on the way was given to the nearest higher cell before, so the point is listed for the summit of height
30 and the saddle below has two linkers to that summit and none to the other. -/
theorem C109_steepest_refuted : ∃ (E : SaddleEnv) (o : Pt → Oracle) (order : List Pt) (m : DMap) (ob : SObj)
    (pts : List Pt) (c : List P3) (h0 : P3) (top : Pt), RunOk E ∧ IsScan E.d order ∧
      DMap.runSparse E o order false = .ok m ∧ 7 ∈ m.saddles ∧ m.st.objs[7]? = some ob ∧ ob.parent = none ∧
      ob.f.edge = false ∧ ob.f.hpn[1]? = some c ∧ c.head? = some h0 ∧ LeadsTo E.d E.w h0.xy top ∧ IsTop E.d top ∧
      m.domPoints 1 = some pts ∧ h0.xy ∈ pts ∧
      ((m.st.sadLinks 7).map fun i => m.st.store[i]?) = [some ⟨1, 7⟩, some ⟨1, 7⟩] ∧
      ∀ sites, SummitsAt E.d sites m.summits → ∀ site, sites[1]? = some site → ¬ Flat E.d site top := by
  have h : (exMap exSpur false).toOption.map (fun m => (m.domPoints 1, m.summits.map (·.elevation))) =
      some (some [(2, 4), (2, 3), (4, 3), (3, 1)], [20, 30]) := by decide +kernel
  have h' : (exMap exSpur false).toOption.map (fun m => (m.saddles, (m.st.sadLinks 7).map fun i => m.st.store[i]?)) =
      some ([6, 7], [some ⟨1, 7⟩, some ⟨1, 7⟩]) := by decide +kernel
  have h'' : (exMap exSpur false).toOption.map (fun m => m.st.objs[7]?.map fun o => (o.parent, o.f.edge, o.f.hpn)) =
      some (some (none, false, [[⟨4, 3, 5⟩], [⟨3, 1, 4⟩]])) := by decide +kernel
  have hR : RunOk (exRun (DataMap.ofRows exSpur)) := exRun_plain _ (by unfold maxsize; decide +kernel)
  cases hm : exMap exSpur false with
  | error e => rw [hm] at h; simp [Except.toOption] at h
  | ok m =>
    rw [hm] at h h' h''
    simp only [Except.toOption, Option.map_some, Option.some.injEq, Prod.mk.injEq, Option.map_eq_some_iff] at h h' h''
    obtain ⟨hp, hs⟩ := h
    obtain ⟨hsad, hst⟩ := h'
    obtain ⟨ob, hob, g1, g2, g3⟩ := h''
    refine ⟨exRun (DataMap.ofRows exSpur), fun _ => exOracle, (DataMap.ofRows exSpur).cells, m, ob, _, [⟨3, 1, 4⟩],
      ⟨3, 1, 4⟩, (1, 1), hR, isScan_cells _, hm, by rw [hsad]; simp, hob, g1, g2, by rw [g3]; rfl, rfl, ?_, ?_, hp,
      by simp [P3.xy], hst, ?_⟩
    · exact ((Relation.ReflTransGen.refl.tail
        (firstSteep_of hR.env (p := (3, 1)) (sn := ⟨2, 2, 5⟩) (by unfold Spec.Data Spec.InB; decide +kernel)
          (by decide +kernel) (by decide +kernel))).tail
        (firstSteep_of hR.env (p := (2, 2)) (sn := ⟨1, 1, 20⟩) (by unfold Spec.Data Spec.InB; decide +kernel)
          (by decide +kernel) (by decide +kernel)))
    · refine isTop_of_area [(1, 1)] (by simp) fun a ha q hq _ => .inr ?_
      rw [List.mem_singleton.1 ha] at hq
      have key : ∀ q ∈ ring (1, 1), el (DataMap.ofRows exSpur) q < el (DataMap.ofRows exSpur) (1, 1) := by decide +kernel
      exact key q (mem_ring.2 hq)
    · intro sites hsites site hsite hflat
      obtain ⟨f, hf, hfs⟩ := forall₂_getElem? hsites.each hsite
      have hf9 : f.elevation = 30 := by
        have : (m.summits.map (·.elevation))[1]? = some f.elevation := by
          rw [List.getElem?_map, hf]
          rfl
        rw [hs] at this
        simpa using this.symm
      have htop := (flat_data (hsites.top site (List.mem_of_getElem? hsite)).1 hflat).2
      rw [← hfs.located.2.2, hf9, show el (exRun (DataMap.ofRows exSpur)).d (1, 1) = 20 by decide +kernel] at htop
      norm_num at htop

end PyProm
