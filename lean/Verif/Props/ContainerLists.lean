import Verif.Model.ContainerLists
import Verif.Props.Discovery
import Verif.Proof.DisqEdge
import Verif.Props.SummitsSet

/-
C137: lists of multipoints and of disqualified saddles
-/
namespace PyProm
open Spec

/-- A record of a flat area counts as true exactly if the area has more than one cell. -/
theorem records_multi {d : DataMap} {q : Pt} {f : Feature} (h : RecordsArea d q f.multipoint) :
    f.hasMulti = true ↔ ∃ r, r ≠ q ∧ Flat d q r := by
  rcases h with ⟨h1, h2⟩ | ⟨pts, h1, _, h3, h4⟩
  · simp only [Feature.hasMulti, h1, Bool.false_eq_true, false_iff]
    rintro ⟨r, hr, hf⟩
    exact hr ((h2 r).1 hf)
  · refine ⟨fun _ => h4, fun _ => ?_⟩
    obtain ⟨r, _, hr⟩ := h4
    have : pts ≠ [] := List.ne_nil_of_mem ((h3 r).2 hr)
    simpa [Feature.hasMulti, h1] using this

/-- C137, multipoints after discovery: the summits that the container lists as multipoints are exactly those whose flat area has more
than one cell, and of the saddles off the border of the raster those. -/
theorem C137_found (d : DataMap) (o : Pt → Oracle) (order : List Pt) (ho : IsScan d order) :
    ∃ D sumSites sadSites, analyze d o order = .ok D ∧ List.Forall₂ (SummitFor d) sumSites D.summits ∧
      List.Forall₂ (SaddleFor d) sadSites D.saddles ∧
      (∀ (a : Nat) p f, sumSites[a]? = some p → D.summits[a]? = some f → (f ∈ multipoints D.summits ↔ ∃ r, r ≠ p ∧ Flat d p r)) ∧
      ∀ (a : Nat) p f, sadSites[a]? = some p → D.saddles[a]? = some f → ¬ OnBorder d p →
        (f ∈ multipoints D.saddles ↔ ∃ r, r ≠ p ∧ Flat d p r) := by
  obtain ⟨D, s1, h1, h2, _⟩ := C09_summit_complete d o order ho
  obtain ⟨D', s2, g1, g2, _⟩ := C10_saddles d o order ho
  cases (h1.symm.trans g1 : Except.ok _ = Except.ok _)
  refine ⟨D, s1, s2, h1, h2, g2.imp fun _ _ h => h.1, fun a p f hp hf => ?_, fun a p f hp hf hb => ?_⟩
  · obtain ⟨f', e1, e2⟩ := forall₂_getElem? h2 hp
    cases (e1.symm.trans hf : some _ = some _)
    unfold multipoints
    rw [List.mem_filter, and_iff_right (List.mem_of_getElem? hf), records_multi e2.area]
  · obtain ⟨f', e1, e2⟩ := forall₂_getElem? g2 hp
    cases (e1.symm.trans hf : some _ = some _)
    unfold multipoints
    rw [List.mem_filter, and_iff_right (List.mem_of_getElem? hf), records_multi (e2.2.2 hb).2.2]

/-- C137, multipoints after a walk: the saddles that were made in the walk have no multipoint, so that the saddles of the map that are
listed as multipoints are on the edge of the map and disqualified. -/
theorem C137_walked (E : SaddleEnv) (hE : RunOk E) (o : Pt → Oracle) (order : List Pt) (ho : IsScan E.d order) (rebuild : Bool) :
    ∃ m, DMap.runSparse E o order rebuild = .ok m ∧ ∀ k ∈ m.saddleMultis, k ∈ m.saddles ∧
      ∃ ob, m.st.objs[k]? = some ob ∧ ob.f.edge = true ∧ ob.disq = some true ∧ ob.f.multipoint ≠ none := by
  obtain ⟨m0, m, h1, h2, made, h3, h4⟩ := C65_walked_saddles E hE o order ho rebuild
  refine ⟨m, h2, fun k hk => ?_⟩
  obtain ⟨hk1, hk2⟩ := List.mem_filter.1 hk
  refine ⟨hk1, ?_⟩
  rw [h3] at hk1
  obtain ⟨new, hn, hkn⟩ := List.mem_flatten.1 hk1
  obtain ⟨i, hi⟩ := List.getElem?_of_mem hn
  obtain ⟨b, _, ob, _, ids, _, _, e3, e4, e5⟩ := forall₂_getElem? (List.Forall₂.flip h4) hi
  have hids : k ∉ ids := fun hc => by
    obtain ⟨o', q1, q2, _⟩ := e3 k hc
    simp [q1, Feature.hasMulti, q2.mp] at hk2
  cases he : ob.f.edge with
  | false => exact absurd (e4 he ▸ hkn) hids
  | true =>
    obtain ⟨q1, o', q2, q3, q4⟩ := e5 he
    rw [q1] at hkn
    rcases List.mem_append.1 hkn with hc | hc
    · exact absurd hc hids
    · rw [List.mem_singleton.1 hc] at hk2 ⊢
      refine ⟨o', q2, q3 ▸ he, q4, fun hn => ?_⟩
      simp [q2, Feature.hasMulti, hn] at hk2

/-- Of the saddles of a run those on the edge of the map are the ones that the walk disqualified. -/
theorem run_edge_iff {E : SaddleEnv} (hE : RunOk E) {o : Pt → Oracle} {order : List Pt} (ho : IsScan E.d order) {rebuild : Bool}
    {m : DMap} (h1 : DMap.runSparse E o order rebuild = .ok m) :
    ∀ k ∈ m.saddles, m.net.edge (.saddle k) = true ↔ ∃ ob, m.st.objs[k]? = some ob ∧ ob.disq = some true := by
  obtain ⟨_, m', _, c2, made, c3, c4⟩ := C65_walked_saddles E hE o order ho rebuild
  cases (h1.symm.trans c2 : Except.ok _ = Except.ok _)
  intro k hk
  refine ⟨fun he => ?_, fun ⟨ob, e1, e2⟩ => by simpa [DMap.net, DMap.feature, e1] using run_disqEdge h1 k ob e1 e2⟩
  rw [c3] at hk
  obtain ⟨new, hn, hkn⟩ := List.mem_flatten.1 hk
  obtain ⟨i, hi⟩ := List.getElem?_of_mem hn
  obtain ⟨b, _, ob, _, ids, _, _, e3, e4, e5⟩ := forall₂_getElem? (List.Forall₂.flip c4) hi
  have hids : k ∉ ids := fun hc => by
    obtain ⟨o', q1, q2, _⟩ := e3 k hc
    simp [DMap.net, DMap.feature, q1, q2.edge] at he
  cases hb : ob.f.edge with
  | false => exact absurd (e4 hb ▸ hkn) hids
  | true =>
    obtain ⟨q1, o', q2, _, q4⟩ := e5 hb
    rw [q1] at hkn
    rcases List.mem_append.1 hkn with hc | hc
    · exact absurd hc hids
    · exact ⟨o', List.mem_singleton.1 hc ▸ q2, q4⟩

/-- C31 after a complete run, by the edge of the map: a saddle is marked as single-source exactly if it is off the edge and its set of
summits has fewer than two members. -/
theorem C31_inner (E : SaddleEnv) (hE : RunOk E) (o : Pt → Oracle) (order : List Pt) (ho : IsScan E.d order) (rebuild : Bool) :
    ∃ m, DMap.runSparse E o order rebuild = .ok m ∧ ∀ fuel, m.saddles.length + m.st.objs.length < fuel →
      ∃ f, DMap.run E o order rebuild fuel = .ok (m, f) ∧ ∀ k, f.single k = true ↔
        k ∈ m.saddles ∧ m.net.edge (.saddle k) = false ∧ (m.net.summitsSet k).length ≤ 1 := by
  obtain ⟨m, h1, h2⟩ := C31_set E hE o order ho rebuild
  refine ⟨m, h1, fun fuel hf => ?_⟩
  obtain ⟨f, h3, h4⟩ := h2 fuel hf
  refine ⟨f, h3, fun k => (h4 k).trans (and_congr_right fun hk => and_congr ?_ Iff.rfl)⟩
  have he := run_edge_iff hE ho h1 k hk
  have hd : m.flags.over k = some true ↔ ∃ ob, m.st.objs[k]? = some ob ∧ ob.disq = some true := by
    cases h : m.st.objs[k]? <;> simp [DMap.flags, h]
  rw [Ne, hd, ← he, Bool.not_eq_true]

/-- Instance of `C31_inner`: the notch in the ring is off the edge and single-source. -/
example : RunOk (exRun (DataMap.ofRows exLoopRidge)) ∧ (exFull exLoopRidge false 99).toOption.map (fun r =>
    (r.1.saddles, r.1.saddles.map fun k => r.1.net.edge (.saddle k), r.1.saddles.map fun k => (r.1.net.summitsSet k).length,
      r.1.saddles.map fun k => r.2.single k)) = some ([6, 7], [false, false], [1, 2], [true, false]) :=
  ⟨exRun_plain _ (by unfold maxsize; decide +kernel), by decide +kernel⟩

/-- C137, disqualified saddles after a complete run: the list has each once; it has the saddles on the edge of the map, the saddles
with fewer than two summits, the basin saddles, and no others; the saddles that the walk disqualified are those on the edge; and every
saddle that is listed as multipoint is in the list. -/
theorem C137_disqualified (E : SaddleEnv) (hE : RunOk E) (o : Pt → Oracle) (order : List Pt) (ho : IsScan E.d order) (rebuild : Bool) :
    ∃ m, DMap.runSparse E o order rebuild = .ok m ∧ ∀ fuel, m.saddles.length + m.st.objs.length < fuel →
      ∃ f, DMap.run E o order rebuild fuel = .ok (m, f) ∧ (m.disqualifiedSaddles f).Nodup ∧
        (∀ k, k ∈ m.disqualifiedSaddles f ↔ k ∈ m.saddles ∧
          (m.net.edge (.saddle k) = true ∨ (m.net.summitsSet k).length ≤ 1 ∨ f.basin k = true)) ∧
        (∀ k ∈ m.saddles, m.net.edge (.saddle k) = true ↔ ∃ ob, m.st.objs[k]? = some ob ∧ ob.disq = some true) ∧
        ∀ k ∈ m.saddleMultis, k ∈ m.disqualifiedSaddles f := by
  obtain ⟨m, h1, h2⟩ := C31_set E hE o order ho rebuild
  obtain ⟨_, m0, m', sites, news, _, h8, h9, _⟩ := run_links hE o order ho rebuild
  cases (h1.symm.trans h8 : Except.ok _ = Except.ok _)
  obtain ⟨m', g1, g2⟩ := C65_once E hE o order ho rebuild
  cases (h1.symm.trans g1 : Except.ok _ = Except.ok _)
  obtain ⟨m', w1, w2⟩ := C137_walked E hE o order ho rebuild
  cases (h1.symm.trans w1 : Except.ok _ = Except.ok _)
  refine ⟨m, h1, fun fuel hf => ?_⟩
  obtain ⟨f, h3, h4⟩ := h2 fuel hf
  have hover : f.over = m.flags.over := by
    obtain ⟨m', r1, h5⟩ := bind_ok h3
    obtain ⟨f', r2, h5⟩ := bind_ok h5
    cases h5
    rw [(basins_marked (show disqualifyBasinSaddles m.net fuel m.saddles m.flags = .ok f from r2)).over,
      (stubPass_spec m.net (basinFeatures m.net m.saddles) m.flags).1]
  have hdisq : ∀ k, m.flags.over k = some true ↔ ∃ ob, m.st.objs[k]? = some ob ∧ ob.disq = some true := by
    intro k
    cases h : m.st.objs[k]? <;> simp [DMap.flags, h]
  have hmem : ∀ k, k ∈ m.disqualifiedSaddles f ↔ k ∈ m.saddles ∧
      ((∃ ob, m.st.objs[k]? = some ob ∧ ob.disq = some true) ∨ (m.net.summitsSet k).length ≤ 1 ∨ f.basin k = true) := by
    intro k
    unfold DMap.disqualifiedSaddles
    rw [List.mem_filter, saddleDisq_iff, ← hdisq]
    refine and_congr_right fun hk => ?_
    have hn := h9.netFin.over k
    unfold SaddleOut
    rw [hover, h4 k]
    rcases ho : m.flags.over k with _ | _ | _
    · simp [hk]
    · exact absurd ho hn
    · simp
  have hedge := run_edge_iff hE ho h1
  refine ⟨f, h3, g2.filter _, fun k => ?_, hedge, fun k hk => ?_⟩
  · rw [hmem]
    exact and_congr_right fun hk => or_congr (hedge k hk).symm Iff.rfl
  · obtain ⟨k1, ob, k2, _, k3, _⟩ := w2 k hk
    exact (hmem k).2 ⟨k1, .inl ⟨ob, k2, k3⟩⟩

/-- A flat saddle between two summits, one of them flat, and a flat saddle on the edge. -/
def exFlats : List (List Rat) :=
  [[1, 1, 1, 1, 1, 1, 1], [1, 9, 4, 4, 8, 8, 1], [1, 1, 1, 1, 1, 1, 1], [1, 1, 1, 1, 1, 1, 1], [5, 3, 3, 6, 1, 1, 1]]

/-- Instance of `C137_found`. -/
example : (analyze (DataMap.ofRows exFlats) (fun _ => exOracle) (DataMap.ofRows exFlats).cells).toOption.map (fun D =>
    (D.summits.map (·.elevation), (multipoints D.summits).map (·.elevation), D.saddles.map (·.elevation),
      (multipoints D.saddles).map (·.elevation))) = some ([9, 8, 5, 6], [8], [1, 4, 3], [1, 4, 3]) := by
  decide +kernel

/-- Instance of `C137_walked` and `C137_disqualified`: the saddle of height 4 is not a multipoint after the walk. -/
example : RunOk (exRun (DataMap.ofRows exFlats)) ∧ (exFull exFlats false 99).toOption.map (fun r =>
    (r.1.saddles.map fun k => r.1.net.elev (.saddle k), r.1.saddles, r.1.saddleMultis, r.1.disqualifiedSaddles r.2,
      r.1.saddles.filter fun k => r.1.net.edge (.saddle k))) = some ([1, 1, 4, 3, 3], [9, 0, 10, 11, 2], [0, 2], [0, 2], [0, 2]) :=
  ⟨exRun_plain _ (by unfold maxsize; decide +kernel), by decide +kernel⟩

end PyProm
