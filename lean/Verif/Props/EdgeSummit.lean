import Verif.Proof.Kruskal
import Verif.Props.BasinTerrain
import Verif.Props.BasinNumber
import Verif.Props.Levels
import Verif.Props.Turned

/-
C79, C87, C120, C123: basin saddles beside summits on the edge are never found.
-/
namespace PyProm
open Spec

/-- A saddle with two linkers has no third summit. -/
theorem ends_only {N : FNet} {k u v D : Nat} (htwo : (N.sadLinks k).length ≤ 2) (hne : u ≠ v) (hu : Linked N k u)
    (hv : Linked N k v) (hD : Linked N k D) : D = u ∨ D = v := by
  obtain ⟨i, hi, rfl⟩ := hu
  obtain ⟨j, hj, rfl⟩ := hv
  obtain ⟨l, hl, rfl⟩ := hD
  have hij : i ≠ j := fun h => hne (by rw [h])
  match hs : N.sadLinks k, htwo with
  | [], _ => rw [hs] at hi; cases hi
  | [x], _ =>
    rw [hs] at hi hj
    simp only [List.mem_singleton] at hi hj
    exact absurd (hi.trans hj.symm) hij
  | [x, y], _ =>
    rw [hs] at hi hj hl
    simp only [List.mem_cons, List.not_mem_nil, or_false] at hi hj hl
    rcases hi with rfl | rfl <;> rcases hj with rfl | rfl <;> rcases hl with rfl | rfl <;> simp at hij ⊢
  | x :: y :: z :: _, h => simp at h

/-- A saddle beside a summit that is on the edge or disqualified is not marked. -/
theorem beside_edge {N : FNet} {saddles : List Nat} {f f' : Flags} (hN : NetOk N saddles f) {fuel : Nat}
    (hfuel : saddles.length + N.nSaddles < fuel) (h1 : disqualifyBasinSaddles N fuel saddles f = .ok f') {k a : Nat}
    (hk : f.basin k = false) (hl : Linked N k a) (he : ¬ Alive N f (.summit a)) : f'.basin k = false := by
  obtain ⟨f'', e1, h2⟩ := basin_spec hN hfuel
  cases (e1.symm.trans h1 : Except.ok _ = Except.ok _)
  rw [Bool.eq_false_iff]
  intro hb
  obtain ⟨ha, ⟨u, v, hne, hu, hv, lu, lv⟩, _⟩ := ((between_marks hN hfuel h1 h2 k).2 hk).1 hb
  rcases ends_only (hN.two k ha.2) hne hu hv hl with rfl | rfl
  · exact he lu
  · exact he lv

/-- Saddles beside summits on the edge that can be bypassed, after a complete run. -/
theorem run_beside_edge {E : SaddleEnv} (hE : RunOk E) (o : Pt → Oracle) (order : List Pt)
    (ho : IsScan E.d order) (rebuild : Bool) :
    ∃ m sites, DMap.runSparse E o order rebuild = .ok m ∧ SummitsAt E.d sites m.summits ∧
      (SummitsApart m.summits → LinkersPaired m → ∀ fuel, m.saddles.length + m.st.objs.length < fuel →
        ∃ f, DMap.run E o order rebuild fuel = .ok (m, f) ∧
          ∀ (k a b : Nat) (p q : Pt), Alive m.net m.flags (.saddle k) → Linked m.net k a → Linked m.net k b → a ≠ b →
            sites[a]? = some p → sites[b]? = some q → (∃ s, m.summits[a]? = some s ∧ s.edge = true) →
            (∃ t, m.net.elev (.saddle k) < t ∧ Passable E.d t p q) →
              f.basin k = false ∧ (∃ c, Cycle m.net (fun n => (∀ j, n = .saddle j → j ∈ liveSaddles m f ∧ m.net.elev (.saddle k) ≤ m.net.elev (.saddle j)) ∧
                ∀ a, n = .summit a → a < m.summits.length) c) ∧
              ∀ areas, Areas E.d areas → m.summits.length < (liveSaddles m f).length + areas.length) := by
  obtain ⟨m, h8, hp⟩ := run_parts hE o order ho rebuild
  obtain ⟨m'', sites, g1, g2, g3, g4, g5⟩ := run_joins hE o order ho rebuild
  cases (g1.symm.trans h8 : Except.ok _ = Except.ok _)
  refine ⟨m, sites, h8, g2, fun hS hH fuel hfuel => ?_⟩
  obtain ⟨f, hr, hf, hN, hacy, hnd, hA⟩ := hp hS hH fuel hfuel
  refine ⟨f, hr, fun k a b p q hk la lb hab ep eq ⟨s, es, hes⟩ ⟨t, ht, hpass⟩ => ?_⟩
  have hb : f.basin k = false := by
    refine beside_edge hN hfuel hf (by simp [DMap.flags]) la fun h => ?_
    have := h.2
    simp [DMap.net, DMap.feature, es, hes] at this
  refine ⟨hb, ?_⟩
  -- the saddle is still there
  have hkn : Alive m.net f (.saddle k) := by
    obtain ⟨f'', e1, h2⟩ := basin_spec hN hfuel
    cases (e1.symm.trans hf : Except.ok _ = Except.ok _)
    refine (alive_sum hN hfuel hf h2 k).2.2 ⟨⟨hk, fun _ h => hab (h a b la lb)⟩, fun h => ?_⟩
    rw [hb] at h; cases h
  have hkL : k ∈ liveSaddles m f := mem_liveSaddles.2 ⟨hN.listed k a hk la, hkn⟩
  have hends : ∀ j ∈ liveSaddles m f, TwoEnds m.net m.summits.length j := fun j hj =>
    live_ends hN hf (mem_liveSaddles.1 hj).1 (mem_liveSaddles.1 hj).2
  -- its summits are connected by others
  have hnet : NetConnected m (LiveSaddle m) t a b := passable_joined g2 (netConnected_level m (LiveSaddle m)) g5
    hpass a b ⟨p, ⟨p, ep, .refl⟩, .refl⟩ ⟨q, ⟨q, eq, .refl⟩, .refl⟩
  obtain ⟨f'', e1, hconn⟩ := C29_off_edge_partial m.net m.saddles m.flags hN fuel hfuel
  cases (e1.symm.trans hf : Except.ok _ = Except.ok _)
  have hc : ConnectedBy m.net (fun _ => True) (· ∈ ((liveSaddles m f).filter fun j => decide (m.net.elev (.saddle k) ≤ m.net.elev (.saddle j))).erase k) a b := by
    refine conn_bind (fun j u v hj hu hv _ _ => ?_) ((hconn t a b).2 (live_connectedBy hH hnet))
    refine conn_hop ((List.mem_erase_of_ne ?_).2 (List.mem_filter.2 ⟨mem_liveSaddles.2
      ⟨hN.listed j u ⟨fun h => hj.1.1 ((marked_out hf j).2 (.inl h)), hj.1.2⟩ hu, hj.1⟩,
      decide_eq_true (le_trans (le_of_lt ht) hj.2)⟩)) hu hv trivial trivial
    rintro rfl
    exact absurd ht (not_lt.2 hj.2)
  have hndl : (liveSaddles m f).Nodup := hnd.filter _
  obtain ⟨c, hcy⟩ := bypass_cycle (N := m.net) (n := m.summits.length)
    (L := ((liveSaddles m f).filter fun j => decide (m.net.elev (.saddle k) ≤ m.net.elev (.saddle j))).erase k)
    (fun j hj D hD => by
      obtain ⟨u, v, _, e1, e2, e3⟩ := hends j (List.mem_filter.1 (List.mem_of_mem_erase hj)).1
      rcases (e3 D).1 hD with rfl | rfl
      · exact e1
      · exact e2)
    (hN.range k a hk.2 la).2 (fun h => (hndl.filter _).not_mem_erase h) hab la lb hc
  have hmem : ∀ n ∈ c, (∀ j, n = .saddle j → j ∈ liveSaddles m f ∧ m.net.elev (.saddle k) ≤ m.net.elev (.saddle j)) ∧
      ∀ a, n = .summit a → a < m.summits.length := by
    intro n hn
    have := hcy.mem n hn
    refine ⟨fun j e => ?_, fun a e => ?_⟩
    · rw [e] at this
      rcases List.mem_cons.1 this with rfl | h
      · exact ⟨hkL, le_refl _⟩
      · have := List.mem_filter.1 (List.mem_of_mem_erase h)
        exact ⟨this.1, by simpa using this.2⟩
    · rw [e] at this
      exact this
  refine ⟨⟨c, { hcy with mem := hmem }⟩, fun areas ha => ?_⟩
  obtain ⟨reps, hl, _, _, _, hpart⟩ := hA areas ha
  have hcy' : Cycle m.net (InNet m.summits.length (liveSaddles m f)) c := by
    refine { hcy with mem := fun n hn => ?_ }
    obtain ⟨n1, n2⟩ := hmem n hn
    cases n with
    | summit D => exact n2 D rfl
    | saddle j => exact (n1 j rfl).1
  have := forest_cycle hends (fun j hj => hN.two j (mem_liveSaddles.1 hj).2.2) hndl hpart hcy'
  omega

/-- C87 fails on every raster on which a saddle beside a summit on the edge can be bypassed: one can go from the one summit
of the saddle to the other while staying above it, but it is not a basin saddle after a complete run. -/
theorem C87_every_edge_summit_refuted (E : SaddleEnv) (hE : RunOk E) (o : Pt → Oracle) (order : List Pt)
    (ho : IsScan E.d order) (rebuild : Bool) :
    ∃ m sites, DMap.runSparse E o order rebuild = .ok m ∧ SummitsAt E.d sites m.summits ∧
      (SummitsApart m.summits → LinkersPaired m → ∀ fuel, m.saddles.length + m.st.objs.length < fuel →
        ∃ f, DMap.run E o order rebuild fuel = .ok (m, f) ∧
          ∀ (k a b : Nat) (p q : Pt), Alive m.net m.flags (.saddle k) → Linked m.net k a → Linked m.net k b → a ≠ b →
            sites[a]? = some p → sites[b]? = some q → (∃ s, m.summits[a]? = some s ∧ s.edge = true) →
            (∃ t, m.net.elev (.saddle k) < t ∧ Passable E.d t p q) →
              f.basin k = false) := by
  obtain ⟨m, sites, h1, h2, h3⟩ := run_beside_edge hE o order ho rebuild
  refine ⟨m, sites, h1, h2, fun hS hH fuel hfuel => ?_⟩
  obtain ⟨f, h4, h5⟩ := h3 hS hH fuel hfuel
  exact ⟨f, h4, fun k a b p q hk la lb hab hp hq he ht => (h5 k a b p q hk la lb hab hp hq he ht).1⟩

/-- C79 fails on every such raster: more saddles are left than a tree on every area has. -/
theorem C79_every_edge_summit_refuted (E : SaddleEnv) (hE : RunOk E) (o : Pt → Oracle) (order : List Pt)
    (ho : IsScan E.d order) (rebuild : Bool) :
    ∃ m sites, DMap.runSparse E o order rebuild = .ok m ∧ SummitsAt E.d sites m.summits ∧
      (SummitsApart m.summits → LinkersPaired m → ∀ fuel, m.saddles.length + m.st.objs.length < fuel →
        ∃ f, DMap.run E o order rebuild fuel = .ok (m, f) ∧
          ∀ (k a b : Nat) (p q : Pt), Alive m.net m.flags (.saddle k) → Linked m.net k a → Linked m.net k b → a ≠ b →
            sites[a]? = some p → sites[b]? = some q → (∃ s, m.summits[a]? = some s ∧ s.edge = true) →
            (∃ t, m.net.elev (.saddle k) < t ∧ Passable E.d t p q) →
              ∀ areas, Areas E.d areas → m.summits.length < (liveSaddles m f).length + areas.length) := by
  obtain ⟨m, sites, h1, h2, h3⟩ := run_beside_edge hE o order ho rebuild
  refine ⟨m, sites, h1, h2, fun hS hH fuel hfuel => ?_⟩
  obtain ⟨f, h4, h5⟩ := h3 hS hH fuel hfuel
  exact ⟨f, h4, fun k a b p q hk la lb hab hp hq he ht => (h5 k a b p q hk la lb hab hp hq he ht).2.2⟩

/-- Summits on the edge do matter to C123 on every such raster: at every height up to that of the saddle, the saddles left and the pieces of
ground are more than the summits. -/
theorem C123_every_edge_summit (E : SaddleEnv) (hE : RunOk E) (o : Pt → Oracle) (order : List Pt)
    (ho : IsScan E.d order) (rebuild : Bool) :
    ∃ D m sites, analyze E.d o order = .ok D ∧ DMap.runSparse E o order rebuild = .ok m ∧ SummitsAt E.d sites m.summits ∧
      (Untwinned D m → SummitsApart m.summits → ∀ fuel, m.saddles.length + m.st.objs.length < fuel →
        ∃ f, DMap.run E o order rebuild fuel = .ok (m, f) ∧
          ∀ (k a b : Nat) (p q : Pt), Alive m.net m.flags (.saddle k) → Linked m.net k a → Linked m.net k b → a ≠ b →
            sites[a]? = some p → sites[b]? = some q → (∃ s, m.summits[a]? = some s ∧ s.edge = true) →
            (∃ t, m.net.elev (.saddle k) < t ∧ Passable E.d t p q) →
              ∀ h ps, h ≤ m.net.elev (.saddle k) → Pieces E.d h ps → (m.summits.filter fun s => decide (h ≤ s.elevation)).length <
                ((liveSaddles m f).filter fun k => decide (h ≤ m.net.elev (.saddle k))).length + ps.length) := by
  obtain ⟨D, m, h0, h1, g⟩ := C123_exact E hE o order ho rebuild
  obtain ⟨m', sites, h1', h2, h3⟩ := run_beside_edge hE o order ho rebuild
  cases (h1'.symm.trans h1 : Except.ok _ = Except.ok _)
  refine ⟨D, m, sites, h0, h1, h2, fun hU hS fuel hfuel => ?_⟩
  obtain ⟨f, h4, h5⟩ := h3 hS (run_untwinned hE o order ho rebuild h0 h1 hS hU) fuel hfuel
  obtain ⟨f', h4', _, _, g2⟩ := g hU hS fuel hfuel
  cases (h4'.symm.trans h4 : Except.ok _ = Except.ok _)
  refine ⟨f, h4, fun k a b p q hk la lb hab hp hq he ht h ps hh hP => ?_⟩
  obtain ⟨c, hc⟩ := (h5 k a b p q hk la lb hab hp hq he ht).2.1
  obtain ⟨g3, g4⟩ := g2 h ps hP
  refine lt_of_le_of_ne g3 fun e => g4.1 e.symm c { hc with mem := fun n hn => ⟨fun j e => ?_, (hc.mem n hn).2⟩ }
  obtain ⟨x1, x2⟩ := (hc.mem n hn).1 j e
  exact ⟨x1, le_trans hh x2⟩

/-- Summits on the edge do matter to C120 on every such raster whose summits differ in height: more saddles are left that are not lower than this
one than there are summits from which one gets to higher ground without going lower. -/
theorem C120_every_edge_summit (E : SaddleEnv) (hE : RunOk E) (o : Pt → Oracle) (order : List Pt)
    (ho : IsScan E.d order) (rebuild : Bool) :
    ∃ D m sites, analyze E.d o order = .ok D ∧ DMap.runSparse E o order rebuild = .ok m ∧ SummitsAt E.d sites m.summits ∧
      (Untwinned D m → HeightsApart m → ∀ fuel, m.saddles.length + m.st.objs.length < fuel →
        ∃ f, DMap.run E o order rebuild fuel = .ok (m, f) ∧
          ∀ (k a b : Nat) (p q : Pt), Alive m.net m.flags (.saddle k) → Linked m.net k a → Linked m.net k b → a ≠ b →
            sites[a]? = some p → sites[b]? = some q → (∃ s, m.summits[a]? = some s ∧ s.edge = true) →
            (∃ t, m.net.elev (.saddle k) < t ∧ Passable E.d t p q) →
              ∀ (h : Rat) (as : List Nat), h ≤ m.net.elev (.saddle k) → as.Nodup →
                (∀ a, a ∈ as ↔ ∃ p, sites[a]? = some p ∧ Escapes E.d p h) →
                as.length < ((liveSaddles m f).filter fun k => decide (h ≤ m.net.elev (.saddle k))).length) := by
  obtain ⟨D, m, sites, h0, h1, h2, g⟩ := C120_exact E hE o order ho rebuild
  obtain ⟨m', sites', h1', h2', h3⟩ := run_beside_edge hE o order ho rebuild
  cases (h1'.symm.trans h1 : Except.ok _ = Except.ok _)
  obtain rfl := sites_same hE.geo h2' h2
  refine ⟨D, m, _, h0, h1, h2, fun hU hA fuel hfuel => ?_⟩
  have hS : SummitsApart m.summits := fun a b s t ha hb hne hc => hne (hA a b s t ha hb hc.2.2)
  obtain ⟨f, h4, h5⟩ := h3 hS (run_untwinned hE o order ho rebuild h0 h1 hS hU) fuel hfuel
  obtain ⟨f', h4', _, g2⟩ := g hU hA fuel hfuel
  cases (h4'.symm.trans h4 : Except.ok _ = Except.ok _)
  refine ⟨f, h4, fun k a b p q hk la lb hab hp hq he ht h as hh hnd has => ?_⟩
  obtain ⟨c, hc⟩ := (h5 k a b p q hk la lb hab hp hq he ht).2.1
  obtain ⟨g3, g4⟩ := g2 h as hnd has
  refine lt_of_le_of_ne g3 fun e => g4.1 e c { hc with mem := fun n hn => ⟨fun j e => ?_, (hc.mem n hn).2⟩ }
  obtain ⟨x1, x2⟩ := (hc.mem n hn).1 j e
  exact ⟨x1, le_trans hh x2⟩

set_option synthInstance.maxSize 1000 in
/-- Instance: the raster of `C87_edge_summit_refuted`, which shows the way above saddle 10. Its summits are apart and on the edge, and no saddle is
on the edge, so that all linkers are held at both ends (C41). -/
example : RunOk (exRun (DataMap.ofRows exRimSummit)) ∧ (exFull exRimSummit false 99).toOption.map (fun r =>
    (r.1.summits.map (fun s => (round6 s.lat, round6 s.lon, s.edge)), r.1.saddles.map fun k =>
      (k, r.1.net.edge (.saddle k), r.1.net.elev (.saddle k), (r.1.net.sadLinks k).map fun i => (r.1.net.link i).1))) =
    some ([(-1000000, 1000000, true), (-2000000, 4000000, true)], [(9, false, 3, [1, 0]), (10, false, 2, [1, 0])]) :=
  ⟨exRun_plain _ (by unfold maxsize; decide +kernel), by decide +kernel⟩

set_option synthInstance.maxSize 1000 in
/-- Instance for C120 and C123: of the two summits, which are on the edge, one is higher; no saddle is on the edge. Saddle 10, of height 2, can be
bypassed over saddle 9, of height 3, which has the same summits. Both are left. -/
example : RunOk (exRun (DataMap.ofRows exRims)) ∧
    (analyze (DataMap.ofRows exRims) (fun _ => exOracle) (DataMap.ofRows exRims).cells).toOption.map (fun D => D.saddles.map (·.edge)) =
      some [false, false] ∧
    (exFull exRims false 99).toOption.map (fun r => (r.1.summits.map (fun s => (s.elevation, s.edge)), r.1.saddles.map (fun k =>
      (k, r.1.net.edge (.saddle k), r.1.net.elev (.saddle k), (r.1.net.sadLinks k).map fun i => (r.1.net.link i).1)), liveSaddles r.1 r.2)) =
    some ([(9, true), (10, true)], [(9, false, 3, [1, 0]), (10, false, 2, [1, 0])], [9, 10]) :=
  ⟨exRun_plain _ (by unfold maxsize; decide +kernel), by decide +kernel, by decide +kernel⟩

end PyProm
