import Verif.Proof.RunBasin
import Verif.Props.Run
import Verif.Props.Basin
import Verif.Proof.Equality
import Mathlib.Tactic.Tauto

/-
Properties of basin saddle detection at the end of complete runs: C27-C30 and C33 on networks that come
out of a raster, C41 for maps without saddles on the edge.
-/
namespace PyProm
open Spec

/-! ### Instance -/

/-- A crater: four summits in a ring around a low point, joined by the saddles 3, 2, 4 and 5. -/
def exCrater : List (List Rat) := [[0, 0, 0, 0, 0], [0, 9, 3, 8, 0], [0, 2, 1, 4, 0], [0, 7, 5, 6, 0], [0, 0, 0, 0, 0]]

/-- A complete run. -/
def exFull (rows : List (List Rat)) (rebuild : Bool) (fuel : Nat) : Except PyErr (DMap × Flags) :=
  DMap.run (exRun (DataMap.ofRows rows)) (fun _ => exOracle) (DataMap.ofRows rows).cells rebuild fuel

/-! ### C27 -/

/-- C27 for complete runs: on every raster, with and without rebuilding, discovery, walk and basin saddle
detection finish without error; the number of passes is bounded by the number of saddles. -/
theorem C27_run_terminates (E : SaddleEnv) (hE : RunOk E) (o : Pt → Oracle) (order : List Pt)
    (ho : IsScan E.d order) (rebuild : Bool) :
    ∃ m, DMap.runSparse E o order rebuild = .ok m ∧ ∀ fuel, m.saddles.length + m.st.objs.length < fuel →
      ∃ f, DMap.run E o order rebuild fuel = .ok (m, f) := by
  obtain ⟨_, m0, m, sites, news, _, h8, h9, _⟩ := run_links hE o order ho rebuild
  refine ⟨m, h8, fun fuel hf => ?_⟩
  obtain ⟨f, hf⟩ := basin_terminates h9.netFin hf
  refine ⟨f, ?_⟩
  unfold DMap.run
  rw [h8]
  dsimp only [bind, Except.bind]
  rw [show m.detectBasins fuel m.flags = .ok f from hf]
  rfl

example : RunOk (exRun (DataMap.ofRows exCrater)) := exRun_plain _ (by unfold maxsize; decide +kernel)

/-- Instance of C27: the run on the crater marks saddle 9, which is the one of elevation 2. -/
example : (exFull exCrater false 17).toOption.map (fun r =>
    (r.1.saddles, r.1.saddles.map r.2.basin, r.1.net.elev (.saddle 9))) =
    some ([8, 9, 10, 11], [false, true, false, false], 2) := by decide +kernel

/-! ### C41 -/

/-- C41 for maps without saddles on the edge: if no discovered saddle is an edge saddle then every linker of the
map that belongs to a saddle off the edge is listed by its saddle and by its summit. -/
theorem C41_no_edge_saddles_partial (E : SaddleEnv) (hE : RunOk E) (o : Pt → Oracle) (order : List Pt)
    (ho : IsScan E.d order) (rebuild : Bool) :
    ∃ D m, analyze E.d o order = .ok D ∧ DMap.runSparse E o order rebuild = .ok m ∧
      ((∀ f ∈ D.saddles, f.edge = false) → LinkersHeld m) := by
  obtain ⟨D, m0, m, sites, news, h1, h8, h9, _, hH⟩ := run_links hE o order ho rebuild
  exact ⟨D, m, h1, h8, fun he => h9.held.1 (hH he)⟩

/-- C41 for maps on which no two summits agree in location and elevation, nor a saddle that was split off another with an earlier one
that is linked with the same summit: every linker of a saddle off the edge is listed by both its summit and its saddle or by
neither, and the saddle lists one between the same two. -/
theorem C41_apart_partial (E : SaddleEnv) (hE : RunOk E) (o : Pt → Oracle) (order : List Pt)
    (ho : IsScan E.d order) (rebuild : Bool) :
    ∃ m, DMap.runSparse E o order rebuild = .ok m ∧ (SummitsApart m.summits → SaddlesApart m → LinkersPaired m) := by
  obtain ⟨_, _, m, _, _, _, h8, _⟩ := run_links hE o order ho rebuild
  exact ⟨m, h8, run_paired hE o order ho rebuild h8⟩

/-- In either case linkers are listed by both ends or by none. -/
theorem run_untwinned {E : SaddleEnv} (hE : RunOk E) (o : Pt → Oracle) (order : List Pt) (ho : IsScan E.d order)
    (rebuild : Bool) {D : Discovered} {m : DMap} (h1 : analyze E.d o order = .ok D)
    (h2 : DMap.runSparse E o order rebuild = .ok m) (hS : SummitsApart m.summits) (hU : Untwinned D m) : LinkersPaired m := by
  rcases hU with he | hA
  · obtain ⟨D', m', g1, g2, g3⟩ := C41_no_edge_saddles_partial E hE o order ho rebuild
    cases (g1.symm.trans h1 : Except.ok _ = Except.ok _)
    cases (g2.symm.trans h2 : Except.ok _ = Except.ok _)
    exact (g3 he).paired
  · exact run_paired hE o order ho rebuild h2 hS hA

/-- The crater has four saddles, none of them on the edge. -/
example : (analyze (DataMap.ofRows exCrater) (fun _ => exOracle) (DataMap.ofRows exCrater).cells).toOption.map
    (fun D => D.saddles.map (·.edge)) = some [false, false, false, false] := by decide +kernel

/-- C41 fails for saddles split off an edge saddle: linker 3 is in the map, its saddle is not on the edge, but the
summit does not list it, as an equal linker of another saddle at the same place came first. -/
theorem C41_edge_children_refuted :
    (exMap [[0, 0, 0, 2, 3, 0], [0, 0, 0, 2, 0, 0], [0, 0, 9, 0, 3, 0], [0, 7, 0, 0, 9, 0], [0, 9, 1, 1, 0, 0],
        [0, 0, 0, 0, 0, 0]] false).toOption.bind (fun m => m.st.store[3]?.map fun l =>
      ((decide (3 ∈ m.linkers), m.net.edge (.saddle l.saddle)), decide (3 ∈ m.st.sadLinks l.saddle),
        decide (3 ∈ m.st.sumLinks l.summit))) = some ((true, false), true, false) := by decide +kernel

/-! ### C40 -/

/-- C40 for complete runs: every discovered edge saddle is still in the map after the run and reports that it
is disqualified. -/
theorem C40_run_edge (E : SaddleEnv) (hE : RunOk E) (o : Pt → Oracle) (order : List Pt)
    (ho : IsScan E.d order) (rebuild : Bool) :
    ∃ m0 m, DMap.discover E.d E.fc o order rebuild = .ok m0 ∧ DMap.runSparse E o order rebuild = .ok m ∧
      ∀ fuel m' f, DMap.run E o order rebuild fuel = .ok (m', f) → m' = m ∧
        ∀ k ∈ m0.saddles, ∀ ob, m0.st.objs[k]? = some ob → ob.f.edge = true →
          k ∈ m.saddles ∧ f.saddleDisq k = true := by
  obtain ⟨m0, m, h1, h2, made, h3, h4⟩ := C65_walked_saddles E hE o order ho rebuild
  refine ⟨m0, m, h1, h2, fun fuel m' f h => ?_⟩
  unfold DMap.run at h
  rw [h2] at h
  dsimp only [bind, Except.bind] at h
  cases hd : m.detectBasins fuel m.flags with
  | error e => rw [hd] at h; cases h
  | ok f' =>
    rw [hd] at h
    cases h
    refine ⟨rfl, fun k hk ob hob he => ?_⟩
    obtain ⟨i, hi⟩ := List.mem_iff_getElem?.1 hk
    obtain ⟨new, hn, ob', hob', ids, _, _, _, _, hnew⟩ := forall₂_getElem? h4 hi
    have : ob' = ob := by simpa using hob'.symm.trans hob
    subst this
    obtain ⟨e1, o', ho', _, hdq⟩ := hnew he
    refine ⟨?_, ?_⟩
    · rw [h3]
      exact List.mem_flatten.2 ⟨new, List.mem_of_getElem? hn, by simp [e1]⟩
    · refine (C40_reported _ k).2 (.inl ?_)
      have hov := (basins_marked (show disqualifyBasinSaddles m.net fuel m.saddles m.flags = .ok f from hd)).over
      rw [hov, (stubPass_spec m.net (basinFeatures m.net m.saddles) m.flags).1]
      simp [DMap.flags, ho', hdq]

/-- A border saddle with four high neighbourhoods. -/
example : (exFull [[9, 5, 8, 5, 7], [1, 4, 1, 5, 1], [7, 5, 9, 1, 9]] false 99).toOption.map
    (fun r => (decide (1 ∈ r.1.saddles), r.1.net.edge (.saddle 1), r.2.saddleDisq 1)) =
    some (true, true, true) := by decide +kernel

/-! ### C28, C29, C30, C33 where they hold -/

/-- C28 for complete runs (where it holds): no cycle of features that are neither disqualified nor on the edge is
left, provided summits differ in location or elevation and linkers of saddles off the edge are listed by both
ends or by none; the latter is so if no saddle is on the edge, or none split off an edge saddle coincides with an earlier one (C41). -/
theorem C28_run_acyclic_partial (E : SaddleEnv) (hE : RunOk E) (o : Pt → Oracle) (order : List Pt)
    (ho : IsScan E.d order) (rebuild : Bool) :
    ∃ m, DMap.runSparse E o order rebuild = .ok m ∧ (SummitsApart m.summits → LinkersPaired m →
      ∀ fuel, m.saddles.length + m.st.objs.length < fuel → ∃ f, DMap.run E o order rebuild fuel = .ok (m, f) ∧
        ∀ c, ¬ Cycle m.net (Alive m.net f) c) := by
  obtain ⟨_, m0, m, sites, news, _, h8, h9, hL, _⟩ := run_links hE o order ho rebuild
  refine ⟨m, h8, fun hS hH fuel hf => ?_⟩
  obtain ⟨f, hf, hc⟩ := C28_acyclic_partial m.net m.saddles m.flags (h9.netOk hL hH hS) fuel hf
  refine ⟨f, ?_, hc⟩
  unfold DMap.run
  rw [h8]
  dsimp only [bind, Except.bind]
  rw [show m.detectBasins fuel m.flags = .ok f from hf]
  rfl

/-- C29 for complete runs (where it holds): two summits of the map are connected over saddles of at least some
height after detection exactly if they were before, under the conditions of C28. -/
theorem C29_run_connection_partial (E : SaddleEnv) (hE : RunOk E) (o : Pt → Oracle) (order : List Pt)
    (ho : IsScan E.d order) (rebuild : Bool) :
    ∃ m, DMap.runSparse E o order rebuild = .ok m ∧ (SummitsApart m.summits → LinkersPaired m →
      ∀ fuel, m.saddles.length + m.st.objs.length < fuel → ∃ f, DMap.run E o order rebuild fuel = .ok (m, f) ∧
        ∀ (t : Rat) (a b : Nat),
          ConnectedBy m.net (fun _ => True) (fun k => ¬ SaddleOut f k ∧ t ≤ m.net.elev (.saddle k)) a b ↔
          ConnectedBy m.net (fun _ => True) (fun k => ¬ SaddleOut m.flags k ∧ t ≤ m.net.elev (.saddle k)) a b) := by
  obtain ⟨_, m0, m, sites, news, _, h8, h9, hL, _⟩ := run_links hE o order ho rebuild
  refine ⟨m, h8, fun hS hH fuel hf => ?_⟩
  obtain ⟨f, hf, hc⟩ := C29_connection_kept_partial m.net m.saddles m.flags (h9.netOk hL hH hS)
    (fun k a b ha hb => h9.setEq hS ha hb) fuel hf
  refine ⟨f, ?_, hc⟩
  unfold DMap.run
  rw [h8]
  dsimp only [bind, Except.bind]
  rw [show m.detectBasins fuel m.flags = .ok f from hf]
  rfl

/-- C30 for complete runs (where it holds): every basin saddle is a lowest member of a cycle of features that
were live before detection, under the conditions of C28. -/
theorem C30_run_lowest_partial (E : SaddleEnv) (hE : RunOk E) (o : Pt → Oracle) (order : List Pt)
    (ho : IsScan E.d order) (rebuild : Bool) :
    ∃ m, DMap.runSparse E o order rebuild = .ok m ∧ (SummitsApart m.summits → LinkersPaired m →
      ∀ fuel, m.saddles.length + m.st.objs.length < fuel → ∃ f, DMap.run E o order rebuild fuel = .ok (m, f) ∧
        ∀ j, f.basin j = true → ∃ c, Cycle m.net (Alive m.net m.flags) c ∧ Node.saddle j ∈ c ∧
          ∀ n ∈ c, m.net.elev (.saddle j) ≤ m.net.elev n) := by
  obtain ⟨_, m0, m, sites, news, _, h8, h9, hL, _⟩ := run_links hE o order ho rebuild
  refine ⟨m, h8, fun hS hH fuel hf => ?_⟩
  obtain ⟨f, hf, hc⟩ := C30_lowest_of_cycle_partial m.net m.saddles m.flags (h9.netOk hL hH hS) fuel hf
  refine ⟨f, ?_, fun j hj => hc j hj rfl⟩
  unfold DMap.run
  rw [h8]
  dsimp only [bind, Except.bind]
  rw [show m.detectBasins fuel m.flags = .ok f from hf]
  rfl

/-- The summits of the crater are apart. -/
example : (exMap exCrater false).toOption.map (fun m => (m.summits.map fun s => (s.lat, s.lon, s.elevation))) =
    some [(-1, 1, 9), (-1, 3, 8), (-3, 1, 7), (-3, 3, 6)] := by decide +kernel

theorem summitsApart_of_nodup {fs : List Feature}
    (h : (fs.map fun s => (round6 s.lat, round6 s.lon, s.elevation)).Nodup) : SummitsApart fs := by
  intro a b s t ha hb hne hc
  refine hne ?_
  have h1 := lt_of_getElem? ha
  have h2 := lt_of_getElem? hb
  refine (List.Nodup.getElem_inj_iff h (hi := by simpa using h1) (hj := by simpa using h2)).1 ?_
  rw [List.getElem?_eq_getElem h1] at ha
  rw [List.getElem?_eq_getElem h2] at hb
  simp only [Option.some.injEq] at ha hb
  simp only [List.getElem_map, ha, hb, Prod.mk.injEq]
  exact hc

/-- The crater meets the conditions of the three theorems. -/
example : ∃ m, exMap exCrater false = .ok m ∧ SummitsApart m.summits ∧ LinkersHeld m := by
  obtain ⟨D, m, h1, h2, h3⟩ := C41_no_edge_saddles_partial (exRun (DataMap.ofRows exCrater))
    (exRun_plain _ (by unfold maxsize; decide +kernel)) (fun _ => exOracle) _ (isScan_cells _) false
  refine ⟨m, h2, ?_, h3 ?_⟩
  · have : (exMap exCrater false).toOption.map (fun m => decide (m.summits.map fun s =>
        (round6 s.lat, round6 s.lon, s.elevation)).Nodup) = some true := by decide +kernel
    rw [show exMap exCrater false = .ok m from h2] at this
    exact summitsApart_of_nodup (by simpa [Except.toOption] using this)
  · have : (analyze (DataMap.ofRows exCrater) (fun _ => exOracle) (DataMap.ofRows exCrater).cells).toOption.map
        (fun D => D.saddles.all fun f => !f.edge) = some true := by decide +kernel
    rw [show analyze (DataMap.ofRows exCrater) (fun _ => exOracle) (DataMap.ofRows exCrater).cells = .ok D from h1] at this
    simpa [Except.toOption] using this

/-- A raster with an edge saddle of height 3 between the summits 9 and 8. -/
def exSide : List (List Rat) := [[1, 1, 3, 5, 1, 1], [1, 9, 1, 1, 8, 1], [1, 1, 1, 1, 1, 1]]

theorem saddlesApart_of_nodup {m : DMap} (h : (m.linkers.map fun i => m.st.store[i]?.bind fun l => m.st.objs[l.saddle]?.map fun o =>
    (l.summit, round6 o.f.lat, round6 o.f.lon, o.f.elevation)).Nodup) : SaddlesApart m := by
  intro i hi j hj hij a b s t ha hb hab hs ht _ _ hst
  refine absurd (List.inj_on_of_nodup_map h hi hj ?_) (Nat.ne_of_lt hij)
  simp only [ha, hb, Option.bind_some, hs, ht, Option.map_some, Option.some.injEq, Prod.mk.injEq]
  exact ⟨hab, hst⟩

set_option synthInstance.maxSize 1000 in
/-- A map with an edge saddle that meets the conditions: saddle 0 is on the edge, saddle 6 was split off it and joins both summits. -/
example : ∃ m, exMap exSide false = .ok m ∧ SummitsApart m.summits ∧ SaddlesApart m ∧
    ((m.st.objs[0]?.map fun o => o.f.edge) = some true ∧ m.st.objs[6]?.bind (·.parent) = some 0 ∧
      (m.st.sadLinks 6).map m.net.link = [(1, 6), (0, 6)]) := by
  have h : (exMap exSide false).toOption.map (fun m =>
      (decide (m.summits.map fun s => (round6 s.lat, round6 s.lon, s.elevation)).Nodup,
       decide (m.linkers.map fun i => m.st.store[i]?.bind fun l => m.st.objs[l.saddle]?.map fun o =>
        (l.summit, round6 o.f.lat, round6 o.f.lon, o.f.elevation)).Nodup,
       (m.st.objs[0]?.map fun o => o.f.edge), m.st.objs[6]?.bind (·.parent), (m.st.sadLinks 6).map m.net.link)) =
      some (true, true, some true, some 0, [(1, 6), (0, 6)]) := by decide +kernel
  cases hm : exMap exSide false with
  | error e => rw [hm] at h; cases h
  | ok m =>
    rw [hm] at h
    simp only [Except.toOption, Option.map_some, Option.some.injEq, Prod.mk.injEq, decide_eq_true_eq] at h
    exact ⟨m, rfl, summitsApart_of_nodup h.1, saddlesApart_of_nodup h.2.1, h.2.2⟩

/-! ### C28, C29, C30 fail for saddles on the edge -/

/-- C28 fails on complete runs with rebuilding: the saddles 16 and 21 (split off edge saddles) both join the summits
0 and 1, nothing on this cycle is disqualified or on the edge. -/
theorem C28_run_refuted : ∃ m f,
    exFull [[2, 8, 2, 8, 2], [1, 9, 1, 9, 8], [2, 2, 2, 2, 8], [2, 8, 8, 2, 9]] true 99 = .ok (m, f) ∧
    Cycle m.net (Alive m.net f) [.saddle 16, .summit 0, .saddle 21, .summit 1] := by
  have h : (exFull [[2, 8, 2, 8, 2], [1, 9, 1, 9, 8], [2, 2, 2, 2, 8], [2, 8, 8, 2, 9]] true 99).toOption.map
      (fun r => ((r.1.st.sadLinks 16, r.1.st.sadLinks 21), [2, 3, 12, 13].map r.1.net.link,
        [16, 21].map r.2.saddleDisq, [Node.saddle 16, .saddle 21, .summit 0, .summit 1].map r.1.net.edge)) =
      some (([2, 3], [12, 13]), [(1, 16), (0, 16), (1, 21), (0, 21)], [false, false],
        [false, false, false, false]) := by decide +kernel
  cases hr : exFull [[2, 8, 2, 8, 2], [1, 9, 1, 9, 8], [2, 2, 2, 2, 8], [2, 8, 8, 2, 9]] true 99 with
  | error e => rw [hr] at h; cases h
  | ok r =>
    obtain ⟨m, f⟩ := r
    rw [hr] at h
    simp only [Except.toOption, Option.map_some, Option.some.injEq, Prod.mk.injEq, List.map_cons, List.map_nil,
      List.cons.injEq, and_true] at h
    obtain ⟨⟨a1, a2⟩, ⟨b1, b2, b3, b4⟩, ⟨c1, c2⟩, d1, d2, d3, d4⟩ := h
    have out : ∀ k, f.saddleDisq k = false → ¬ SaddleOut f k := fun k hk hc => by
      rw [(saddleDisq_iff f k).2 hc] at hk; cases hk
    have l1 : Linked m.net 16 1 := ⟨2, by rw [show m.net.sadLinks 16 = [2, 3] from a1]; simp, by rw [b1]⟩
    have l2 : Linked m.net 16 0 := ⟨3, by rw [show m.net.sadLinks 16 = [2, 3] from a1]; simp, by rw [b2]⟩
    have l3 : Linked m.net 21 1 := ⟨12, by rw [show m.net.sadLinks 21 = [12, 13] from a2]; simp, by rw [b3]⟩
    have l4 : Linked m.net 21 0 := ⟨13, by rw [show m.net.sadLinks 21 = [12, 13] from a2]; simp, by rw [b4]⟩
    refine ⟨m, f, rfl, by decide, by decide, ?_, ?_, ?_⟩
    · simp only [List.isChain_cons_cons, List.isChain_singleton, and_true]
      exact ⟨l2, l4, l3⟩
    · intro a ha b hb
      cases ha; cases hb
      exact l1
    · intro n hn
      simp only [List.mem_cons, List.not_mem_nil, or_false] at hn
      rcases hn with rfl | rfl | rfl | rfl
      · exact ⟨out _ c1, d1⟩
      · exact ⟨rfl, d3⟩
      · exact ⟨out _ c2, d2⟩
      · exact ⟨rfl, d4⟩

/-- A saddle of elevation 2 on the upper edge, and a ring of three summits with saddles 2, 7 and 1. -/
def exBorder : List (List Rat) := [[0, 0, 0, 2, 3, 0], [0, 0, 0, 2, 0, 0], [0, 0, 9, 0, 3, 0], [0, 7, 0, 0, 9, 0],
  [0, 9, 1, 1, 0, 0], [0, 0, 0, 0, 0, 0]]

/-- The network of this raster, and what the run makes of it. -/
theorem exBorder_facts : ∃ m f, exFull exBorder false 99 = .ok (m, f) ∧
    (∀ k D, Linked m.net k D ↔
      (k, D) ∈ [(3, 0), (8, 2), (8, 0), (9, 1), (9, 2), (10, 1), (10, 3), (11, 2), (11, 3)]) ∧
    (f.basin 9 = true ∧ f.saddleDisq 9 = true ∧ m.flags.saddleDisq 9 = false) ∧
    m.net.elev (.saddle 9) = 2 ∧ m.net.elev (.saddle 11) = 1 ∧ m.net.edge (.summit 0) = true := by
  obtain ⟨_, m0, m, _, _, _, h8, h9, hL, _⟩ := run_links (exRun_plain exBorder (by unfold maxsize; decide +kernel))
    (fun _ => exOracle) _ (isScan_cells _) false
  have hA : (exFull exBorder false 99).toOption.map (fun r => (r.1.st.objs.length,
      (List.range 12).flatMap fun k => (r.1.net.sadLinks k).map fun i => (k, (r.1.net.link i).1))) =
      some (12, [(3, 0), (8, 2), (8, 0), (9, 1), (9, 2), (10, 1), (10, 3), (11, 2), (11, 3)]) := by decide +kernel
  have hB : (exFull exBorder false 99).toOption.map (fun r => ((r.2.basin 9, r.2.saddleDisq 9,
      r.1.flags.saddleDisq 9), (r.1.net.elev (.saddle 9), r.1.net.elev (.saddle 11)), r.1.net.edge (.summit 0))) =
      some ((true, true, false), (2, 1), true) := by decide +kernel
  cases hr : exFull exBorder false 99 with
  | error e => rw [hr] at hA; cases hA
  | ok r =>
    obtain ⟨m', f⟩ := r
    have : m' = m := by
      unfold exFull DMap.run at hr
      rw [show DMap.runSparse (exRun (DataMap.ofRows exBorder)) (fun _ => exOracle)
        (DataMap.ofRows exBorder).cells false = .ok m from h8] at hr
      obtain ⟨m1, e1, e2⟩ := bind_ok hr
      obtain ⟨f', _, e2⟩ := bind_ok e2
      cases e1; cases e2; rfl
    subst this
    rw [hr] at hA hB
    simp only [Except.toOption, Option.map_some, Option.some.injEq, Prod.mk.injEq] at hA hB
    obtain ⟨hn, ht⟩ := hA
    obtain ⟨⟨h1, h2, h3⟩, ⟨h4, h5⟩, h6⟩ := hB
    refine ⟨m', f, rfl, fun k D => ?_, ⟨h1, h2, h3⟩, h4, h5, h6⟩
    rw [← ht]
    simp only [List.mem_flatMap, List.mem_range, List.mem_map, Prod.mk.injEq]
    constructor
    · rintro ⟨i, hi, hD⟩
      refine ⟨k, ?_, i, hi, rfl, hD⟩
      by_contra hk
      have := hL.fresh k (by simp only [CSt.feats, List.length_map]; omega)
      rw [show m'.net.sadLinks k = [] from this] at hi
      cases hi
    · rintro ⟨k', _, i, hi, rfl, hD⟩
      exact ⟨i, hi, hD⟩

/-- C29 fails on complete runs: before detection the summits 1 and 2 are connected over saddles of elevation at
least 2, afterwards only over one of elevation 1, so prominences change. -/
theorem C29_run_refuted : ∃ m f, exFull exBorder false 99 = .ok (m, f) ∧
    ConnectedBy m.net (fun _ => True) (fun k => ¬ SaddleOut m.flags k ∧ 2 ≤ m.net.elev (.saddle k)) 1 2 ∧
    ¬ ConnectedBy m.net (fun _ => True) (fun k => ¬ SaddleOut f k ∧ 2 ≤ m.net.elev (.saddle k)) 1 2 := by
  obtain ⟨m, f, h0, hl, ⟨_, h2, h3⟩, h4, h5, _⟩ := exBorder_facts
  refine ⟨m, f, h0, .single ⟨trivial, trivial, 9, ⟨fun hc => ?_, by rw [h4]⟩, (hl 9 1).2 (by simp),
    (hl 9 2).2 (by simp)⟩, fun hc => ?_⟩
  · rw [(saddleDisq_iff m.flags 9).2 hc] at h3; cases h3
  · have key : ∀ x, ConnectedBy m.net (fun _ => True)
        (fun k => ¬ SaddleOut f k ∧ 2 ≤ m.net.elev (.saddle k)) 1 x → x = 1 ∨ x = 3 := by
      intro x hx
      induction hx with
      | refl => exact .inl rfl
      | tail _ hs ih =>
        obtain ⟨_, _, k, ⟨hk, he⟩, l1, l2⟩ := hs
        have hk9 : k ≠ 9 := by
          rintro rfl
          exact hk ((saddleDisq_iff f 9).1 h2)
        have hk11 : k ≠ 11 := by
          rintro rfl
          rw [h5] at he
          exact absurd he (by norm_num)
        have m1 := (hl _ _).1 l1
        have m2 := (hl _ _).1 l2
        simp only [List.mem_cons, Prod.mk.injEq, List.not_mem_nil, or_false] at m1 m2
        omega
    have := key 2 hc
    omega

/-- C30 fails on complete runs: saddle 9 is marked as basin saddle, but every cycle of live features through it has
a lower member. -/
theorem C30_run_refuted : ∃ m f, exFull exBorder false 99 = .ok (m, f) ∧ f.basin 9 = true ∧
    ∀ c, Cycle m.net (Alive m.net m.flags) c → Node.saddle 9 ∈ c →
      ∃ n ∈ c, m.net.elev n < m.net.elev (.saddle 9) := by
  obtain ⟨m, f, h0, hl, ⟨h1, _, _⟩, h4, h5, h6⟩ := exBorder_facts
  refine ⟨m, f, h0, h1, fun c hc h9 => ?_⟩
  have hsad : ∀ k n, Joined m.net (.saddle k) n → ∃ D, n = .summit D ∧
      (k, D) ∈ [(3, 0), (8, 2), (8, 0), (9, 1), (9, 2), (10, 1), (10, 3), (11, 2), (11, 3)] := by
    intro k n hn
    cases n with
    | saddle j => exact absurd hn fun h => h
    | summit D => exact ⟨D, rfl, (hl k D).1 hn⟩
  have hsum : ∀ D n, Joined m.net (.summit D) n → ∃ k, n = .saddle k ∧
      (k, D) ∈ [(3, 0), (8, 2), (8, 0), (9, 1), (9, 2), (10, 1), (10, 3), (11, 2), (11, 3)] := by
    intro D n hn
    cases n with
    | summit j => exact absurd hn fun h => h
    | saddle k => exact ⟨k, rfl, (hl k D).1 hn⟩
  have hno0 : Node.summit 0 ∉ c := fun h => by
    have := (hc.mem _ h).2
    rw [h6] at this; cases this
  -- summit 2 is on the cycle
  have hs2 : Node.summit 2 ∈ c := by
    obtain ⟨a, ha, b, hb, hne, ja, jb⟩ := cycle_two hc h9
    obtain ⟨D, rfl, hD⟩ := hsad 9 a ja
    obtain ⟨D', rfl, hD'⟩ := hsad 9 b jb
    simp only [List.mem_cons, Prod.mk.injEq, List.not_mem_nil, or_false] at hD hD'
    have : D = 2 ∨ D' = 2 := by
      have : D ≠ D' := fun h => hne (by rw [h])
      omega
    rcases this with rfl | rfl
    · exact ha
    · exact hb
  -- saddle 8 is not: one of its summits is on the edge
  have hno8 : Node.saddle 8 ∉ c := by
    intro h8
    obtain ⟨a, ha, b, hb, hne, ja, jb⟩ := cycle_two hc h8
    obtain ⟨D, rfl, hD⟩ := hsad 8 a ja
    obtain ⟨D', rfl, hD'⟩ := hsad 8 b jb
    simp only [List.mem_cons, Prod.mk.injEq, List.not_mem_nil, or_false] at hD hD'
    have : D = 0 ∨ D' = 0 := by
      have : D ≠ D' := fun h => hne (by rw [h])
      omega
    rcases this with rfl | rfl
    · exact hno0 ha
    · exact hno0 hb
  -- so saddle 11 is
  obtain ⟨a, ha, b, hb, hne, ja, jb⟩ := cycle_two hc hs2
  obtain ⟨k, rfl, hk⟩ := hsum 2 a ja
  obtain ⟨k', rfl, hk'⟩ := hsum 2 b jb
  simp only [List.mem_cons, Prod.mk.injEq, List.not_mem_nil, or_false] at hk hk'
  have h8k : k ≠ 8 := by rintro rfl; exact hno8 ha
  have h8k' : k' ≠ 8 := by rintro rfl; exact hno8 hb
  have : k = 11 ∨ k' = 11 := by
    have : k ≠ k' := fun h => hne (by rw [h])
    omega
  have h11 : Node.saddle 11 ∈ c := by
    rcases this with rfl | rfl
    · exact ha
    · exact hb
  exact ⟨_, h11, by rw [h4, h5]; norm_num⟩

/-! ### C31 -/

/-- Spec: the same place to six digits, where exactly zero is only the same as exactly zero, and the same elevation. -/
def Spec.SameFeature (s t : Feature) : Prop :=
  (round6 s.lat = round6 t.lat ∧ (s.lat = 0 ↔ t.lat = 0)) ∧ (round6 s.lon = round6 t.lon ∧ (s.lon = 0 ↔ t.lon = 0)) ∧
    s.elevation = t.elevation

theorem sumSetEq_iff (s t : Feature) : sumSetEq (some s) (some t) = true ↔ SameFeature s t := by
  simp only [sumSetEq, seNe, Bool.not_not, Bool.and_eq_true, decide_eq_true_eq, seEq_iff, Prod.mk.injEq, eqCoord_iff]
  unfold SameFeature
  tauto

/-- C31 for complete runs, on every raster, with and without rebuilding: a saddle of the map is marked as single-source
saddle exactly if the walk has not disqualified it and its linkers do not lead to two summits at different places. -/
theorem C31_run (E : SaddleEnv) (hE : RunOk E) (o : Pt → Oracle) (order : List Pt)
    (ho : IsScan E.d order) (rebuild : Bool) :
    ∃ m, DMap.runSparse E o order rebuild = .ok m ∧ ∀ fuel, m.saddles.length + m.st.objs.length < fuel →
      ∃ f, DMap.run E o order rebuild fuel = .ok (m, f) ∧ ∀ k, f.single k = true ↔
        k ∈ m.saddles ∧ m.flags.over k ≠ some true ∧ ¬ ∃ D D' s t, Linked m.net k D ∧ Linked m.net k D' ∧
          m.summits[D]? = some s ∧ m.summits[D']? = some t ∧ ¬ SameFeature s t := by
  obtain ⟨_, m0, m, sites, news, _, h8, h9, _⟩ := run_links hE o order ho rebuild
  refine ⟨m, h8, fun fuel hf => ?_⟩
  obtain ⟨f, hf⟩ := basin_terminates h9.netFin hf
  refine ⟨f, ?_, fun k => ?_⟩
  · unfold DMap.run
    rw [h8]
    dsimp only [bind, Except.bind]
    rw [show m.detectBasins fuel m.flags = .ok f from hf]
    rfl
  · have hlk : ∀ D, Linked m.net k D → ∃ sf, m.summits[D]? = some sf := by
      rintro D ⟨i, hi, hD⟩
      obtain ⟨l, hl, hk⟩ := h9.inv.sad k i hi
      rw [net_link hl] at hD
      obtain ⟨sf, _, h1, _⟩ := h9.link hl
      exact ⟨sf, by rw [← hD]; exact h1⟩
    have hset : ∀ a b s t, m.summits[a]? = some s → m.summits[b]? = some t →
        (m.net.setEq a b = true ↔ SameFeature s t) := by
      intro a b s t hs ht
      rw [← sumSetEq_iff, ← hs, ← ht]
      rfl
    have hk := C31_single_source m.net m.saddles m.flags f fuel k
      (fun a ha => by
        obtain ⟨s, hs⟩ := hlk a ha
        rw [hset a a s s hs hs]
        exact ⟨⟨rfl, Iff.rfl⟩, ⟨rfl, Iff.rfl⟩, rfl⟩)
      (fun a b ha hb => by
        obtain ⟨s, hs⟩ := hlk a ha
        obtain ⟨t, ht⟩ := hlk b hb
        rw [hset a b s t hs ht, hset b a t s ht hs]
        rintro ⟨⟨h1, h2⟩, ⟨h3, h4⟩, h5⟩
        exact ⟨⟨h1.symm, h2.symm⟩, ⟨h3.symm, h4.symm⟩, h5.symm⟩)
      (fun a b c ha hb hc => by
        obtain ⟨s, hs⟩ := hlk a ha
        obtain ⟨t, ht⟩ := hlk b hb
        obtain ⟨u, hu⟩ := hlk c hc
        rw [hset a b s t hs ht, hset b c t u ht hu, hset a c s u hs hu]
        rintro ⟨⟨h1, h2⟩, ⟨h3, h4⟩, h5⟩ ⟨⟨g1, g2⟩, ⟨g3, g4⟩, g5⟩
        exact ⟨⟨h1.trans g1, h2.trans g2⟩, ⟨h3.trans g3, h4.trans g4⟩, h5.trans g5⟩) hf
    rw [hk]
    have e1 : m.flags.single k ≠ true := by simp [DMap.flags]
    have e2 : SaddleOut m.flags k ↔ m.flags.over k = some true := by
      unfold SaddleOut
      exact ⟨fun h => h.elim id fun h => by simp [DMap.flags] at h, .inl⟩
    rw [or_iff_right e1, e2]
    refine and_congr_right fun _ => and_congr_right fun _ => not_congr ⟨?_, ?_⟩
    · rintro ⟨u, v, hu, hv, hne⟩
      obtain ⟨s, hs⟩ := hlk u hu
      obtain ⟨t, ht⟩ := hlk v hv
      refine ⟨u, v, s, t, hu, hv, hs, ht, fun hc => ?_⟩
      rw [(hset u v s t hs ht).2 hc] at hne
      cases hne
    · rintro ⟨u, v, s, t, hu, hv, hs, ht, hne⟩
      refine ⟨u, v, hu, hv, ?_⟩
      rw [← Bool.not_eq_true, hset u v s t hs ht]
      exact hne

end PyProm
