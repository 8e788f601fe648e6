import Verif.Model.History
import Verif.Props.Graph
import Verif.Props.BasinTerrain

/-
C88: detecting and purging again and again.
-/
namespace PyProm
open Spec

/-- If there is no live cycle and every saddle with one summit is out already, detection changes nothing. -/
theorem detect_quiet {N : FNet} {saddles : List Nat} {f : Flags} (hN : NetOk N saddles f) {fuel : Nat}
    (hfuel : saddles.length + N.nSaddles < fuel) (hc : ∀ c, ¬ Cycle N (Alive N f) c)
    (ho : ∀ k ∈ saddles, OneSource N k → SaddleOut f k) : disqualifyBasinSaddles N fuel saddles f = .ok f := by
  obtain ⟨f', h1, h2⟩ := basin_spec hN hfuel
  have hst : stubPass N (basinFeatures N saddles) f = f := by
    obtain ⟨s1, s2, s3, s4, s5⟩ := stubPass_spec N (basinFeatures N saddles) f
    have hno : ∀ j ∈ basinFeatures N saddles, ¬ SaddleOut f j → ¬ OneSource N j := fun j hj hn h1 =>
      hn (ho j (((features_spec N saddles).2.1 j).1 hj) h1)
    have e4 : (stubPass N (basinFeatures N saddles) f).single = f.single := by
      funext j
      rw [Bool.eq_iff_iff, s4]
      exact ⟨fun h => h.elim id fun h => absurd h.2.2 (hno j h.1 h.2.1), .inl⟩
    have e5 : (stubPass N (basinFeatures N saddles) f).linkDisq = f.linkDisq := by
      funext i
      rw [Bool.eq_iff_iff, s5]
      exact ⟨fun h => h.elim id fun ⟨j, h1, h2, h3, _⟩ => absurd h3 (hno j h1 h2), .inl⟩
    cases hf : stubPass N (basinFeatures N saddles) f
    cases f
    simp_all
  have hs := h2.stub.steps
  rw [hst] at hs
  rcases Relation.ReflTransGen.cases_head hs with h | ⟨g, ⟨c, h, _⟩, _⟩
  · rw [h1, h]
  · exact absurd h (hc c)

/-- After detection every saddle with one summit is out. -/
theorem detect_single {N : FNet} {saddles : List Nat} {f f' : Flags} (hov : ∀ k, f.over k ≠ some false) {fuel : Nat}
    (h1 : disqualifyBasinSaddles N fuel saddles f = .ok f') {k : Nat} (hk : k ∈ saddles) (hone : OneSource N k) :
    SaddleOut f' k := by
  obtain ⟨s1, s2, _, s4, _⟩ := stubPass_spec N (basinFeatures N saddles) f
  have hm := basins_marked h1
  by_cases hnf : SaddleOut f k
  · exact (marked_out h1 k).2 (.inl hnf)
  · have hs : f'.single k = true := by
      rw [hm.single]
      exact (s4 k).2 (.inr ⟨((features_spec N saddles).2.1 k).2 hk, hnf, hone⟩)
    rcases hov' : f.over k with _ | _ | _
    · exact .inr ⟨by rw [hm.over, s1]; exact hov', .inl hs⟩
    · exact absurd hov' (hov k)
    · exact absurd (.inl hov') hnf

/-- C88, detection alone (where it holds): detecting basin saddles a second time changes nothing at all. Missing: networks outside
`NetOk`. -/
theorem C88_again_partial (N : FNet) (saddles : List Nat) (f : Flags) (hN : NetOk N saddles f) (fuel : Nat)
    (hfuel : saddles.length + N.nSaddles < fuel) :
    ∃ f', disqualifyBasinSaddles N fuel saddles f = .ok f' ∧ disqualifyBasinSaddles N fuel saddles f' = .ok f' := by
  obtain ⟨f', h1, h2⟩ := basin_spec hN hfuel
  have hov : ∀ k, f'.over k ≠ some false := by
    rw [(basins_marked h1).over, (stubPass_spec N (basinFeatures N saddles) f).1]
    exact hN.over
  refine ⟨f', h1, detect_quiet ⟨hN.sad, hN.sum, hN.sumOnce, hN.two, hN.above, hN.range, hN.bound, fun k D ha hD => ?_,
    hN.eqElev, hN.setEq, hov⟩ hfuel h2.acyclic fun k hk => detect_single hN.over h1 hk⟩
  exact hN.listed k D ⟨fun h => ha.1 ((marked_out h1 k).2 (.inl h)), ha.2⟩ hD

/-- What detection and purging keep, compared with the map `m` and its flags `f` after the run. -/
structure Settles (m : DMap) (f : Flags) (m1 : DMap) (f1 : Flags) : Prop where
  net : m1.net = m.net
  summits : m1.summits = m.summits
  runoffs : m1.runoffs = m.runoffs
  feat : m1.st.objs.map (·.f) = m.st.objs.map (·.f)
  store : m1.st.store = m.st.store
  sub : m1.saddles.Sublist m.saddles
  only : ∀ i ∈ m1.linkers, i ∈ m.linkers
  all : ∀ k ∈ m1.saddles, ∀ i ∈ m.st.sadLinks k, i ∈ m1.linkers
  ok : NetOk m.net m1.saddles f1
  acyclic : ∀ c, ¬ Cycle m.net (Alive m.net f1) c
  single : ∀ k ∈ m1.saddles, OneSource m.net k → SaddleOut f1 k
  live : liveSaddles m1 f1 = liveSaddles m f

theorem Settles.purge {m m1 : DMap} {f f1 : Flags} (h : Settles m f m1 f1)
    (hl : ∀ k, ∀ i ∈ m.st.sadLinks k, i ∈ m.linkers) (single basin all : Bool) :
    Settles m f (m1.purge f1 single basin all).1 (m1.purge f1 single basin all).2 := by
  rw [purge_eq]
  have hs := culls_same (m1.saddles.filter (purgeSelects f1 single basin all)) (m1, f1)
  obtain ⟨c1, c2, c3, c4⟩ := culls_flags (m1.saddles.filter (purgeSelects f1 single basin all)) (m1, f1)
  have hsad : m1.st.sadLinks = m.st.sadLinks := congrArg FNet.sadLinks h.net
  have hmem : ∀ k, k ∈ m1.saddles.filter (purgeSelects f1 single basin all) ↔
      k ∈ m1.saddles ∧ Selected f1 single basin all k := fun k => by
    rw [List.mem_filter, purgeSelects_iff]
  -- what is selected is out
  have hsel : ∀ k, Selected f1 single basin all k → SaddleOut f1 k := by
    intro k hk
    have : f1.single k = true ∨ f1.basin k = true := hk.elim (fun h => .inr h.1) fun h => .inl h.1
    rcases ho : f1.over k with _ | _ | _
    · exact .inr ⟨ho, this⟩
    · exact absurd ho (h.ok.over k)
    · exact .inl ho
  have hout : ∀ k, SaddleOut (List.foldl cull (m1, f1) (m1.saddles.filter (purgeSelects f1 single basin all))).2 k ↔
      SaddleOut f1 k := by
    intro k
    by_cases hk : k ∈ m1.saddles.filter (purgeSelects f1 single basin all)
    · exact ⟨fun _ => hsel k ((hmem k).1 hk).2, fun _ => .inl (by rw [c3, if_pos hk])⟩
    · unfold SaddleOut
      rw [c1, c2, c3, if_neg hk]
  have hal : ∀ n, Alive m.net (List.foldl cull (m1, f1) (m1.saddles.filter (purgeSelects f1 single basin all))).2 n ↔
      Alive m.net f1 n := by
    intro n
    cases n with
    | summit D => exact Iff.rfl
    | saddle k => exact and_congr_left fun _ => not_congr (hout k)
  refine ⟨hs.net.trans h.net, hs.summits.trans h.summits, hs.runoffs.trans h.runoffs, hs.feat.trans h.feat,
    hs.store.trans h.store, List.filter_sublist.trans h.sub, fun i hi => ?_, fun k hk i hi => ?_, ?_,
    fun c hc => h.acyclic c { hc with mem := fun n hn => (hal n).1 (hc.mem n hn) }, fun k hk h1 =>
      (hout k).2 (h.single k (List.mem_filter.1 hk).1 h1), ?_⟩
  · obtain ⟨k, _, hi⟩ := List.mem_flatMap.1 hi
    rw [hsad] at hi
    exact hl k i hi
  · exact List.mem_flatMap.2 ⟨k, hk, by rw [hsad]; exact hi⟩
  · refine ⟨h.ok.sad, h.ok.sum, h.ok.sumOnce, h.ok.two, h.ok.above, h.ok.range, fun k hk =>
      h.ok.bound k (List.mem_filter.1 hk).1, fun k D ha hD => ?_, h.ok.eqElev, h.ok.setEq, fun k => ?_⟩
    · have ha := (hal _).1 ha
      refine List.mem_filter.2 ⟨h.ok.listed k D ha hD, ?_⟩
      by_contra hk
      simp only [Bool.not_eq_true', Bool.not_eq_false] at hk
      exact ha.1 (hsel k ((purgeSelects_iff f1 single basin all k).1 hk))
    · rw [c3]
      split
      · simp
      · exact h.ok.over k
  · rw [← h.live]
    unfold liveSaddles
    rw [List.filter_filter]
    refine List.filter_congr fun k hk => ?_
    have hn : (List.foldl cull (m1, f1) (m1.saddles.filter (purgeSelects f1 single basin all))).1.net = m1.net := hs.net
    have e1 : (List.foldl cull (m1, f1) (m1.saddles.filter (purgeSelects f1 single basin all))).2.saddleDisq k =
        f1.saddleDisq k := by
      rw [Bool.eq_iff_iff, saddleDisq_iff, saddleDisq_iff]
      exact hout k
    change (_ && !(List.foldl cull (m1, f1) (m1.saddles.filter (purgeSelects f1 single basin all))).1.net.edge _ && _) = _
    rw [hn, e1]
    cases hp : purgeSelects f1 single basin all k with
    | false => simp
    | true =>
      have := (saddleDisq_iff f1 k).2 (hsel k ((purgeSelects_iff f1 single basin all k).1 hp))
      simp [this]

/-- Detection and purging in any order keep it up. -/
theorem Settles.calls {m m1 : DMap} {f f1 : Flags} {fuel : Nat} (hfuel : m.saddles.length + m.st.objs.length < fuel)
    (hl : ∀ k, ∀ i ∈ m.st.sadLinks k, i ∈ m.linkers) (cs : List MapCall) (h : Settles m f m1 f1) :
    ∃ m2 f2, DMap.calls fuel (m1, f1) cs = .ok (m2, f2) ∧ Settles m f m2 f2 := by
  induction cs generalizing m1 f1 with
  | nil => exact ⟨m1, f1, rfl, h⟩
  | cons c cs ih =>
    cases c with
    | purge a b c => exact ih (h.purge hl a b c)
    | detect =>
      have hd : m1.detectBasins fuel f1 = .ok f1 := by
        have hlen := h.sub.length_le
        have := detect_quiet h.ok (fuel := fuel) (lt_of_le_of_lt (Nat.add_le_add_right hlen _) hfuel) h.acyclic h.single
        rw [← h.net] at this
        exact this
      obtain ⟨m2, f2, e1, e2⟩ := ih h
      refine ⟨m2, f2, ?_, e2⟩
      unfold DMap.calls DMap.call
      rw [hd]
      exact e1

/-- C88 (where it holds), under the conditions of C28: after a complete run, detect basin saddles and purge saddles with any
options, as often and in whatever order: no call fails, the saddles that are neither disqualified nor on the edge
stay the same, and by the linkers that the map then has two summits are connected over them above a level exactly
if they are on the terrain. Detection by itself changes nothing any more. Missing: rasters with
features on the edge, see C78 and below. -/
theorem C88_history_partial (E : SaddleEnv) (hE : RunOk E) (o : Pt → Oracle) (order : List Pt)
    (ho : IsScan E.d order) (rebuild : Bool) :
    ∃ m sites, DMap.runSparse E o order rebuild = .ok m ∧ SummitsAt E.d sites m.summits ∧
      (SummitsApart m.summits → LinkersPaired m →
        ∀ fuel, m.saddles.length + m.st.objs.length < fuel → ∃ f, DMap.run E o order rebuild fuel = .ok (m, f) ∧
          ∀ cs, ∃ m1 f1, DMap.calls fuel (m, f) cs = .ok (m1, f1) ∧ m1.summits = m.summits ∧ m1.runoffs = m.runoffs ∧
            liveSaddles m1 f1 = liveSaddles m f ∧ m1.detectBasins fuel f1 = .ok f1 ∧
            ∀ (h : Rat) (a b : Nat) (p q : Pt), sites[a]? = some p → sites[b]? = some q → h ≤ el E.d p →
              (NetConnected m1 (· ∈ liveSaddles m1 f1) h a b ↔ Passable E.d h p q)) := by
  obtain ⟨_, m0, m, sites0, news, _, h8, h9, hL, _⟩ := run_links hE o order ho rebuild
  obtain ⟨m'', sites, g1, g2, g3, g4, g5⟩ := run_joins hE o order ho rebuild
  cases (g1.symm.trans h8 : Except.ok _ = Except.ok _)
  refine ⟨m, sites, h8, g2, fun hS hH fuel hfuel => ?_⟩
  have hN := h9.netOk hL hH hS
  obtain ⟨f, hf, hres⟩ := basin_spec hN hfuel
  obtain ⟨f', hf', hconn⟩ := C29_off_edge_partial m.net m.saddles m.flags hN fuel hfuel
  cases (hf'.symm.trans hf : Except.ok _ = Except.ok _)
  have hlk : ∀ k, ∀ i ∈ m.st.sadLinks k, i ∈ m.linkers := by
    intro k i hi
    obtain ⟨l, e1, e2⟩ := g3.sad k i hi
    rw [g4, g3.lk]
    exact List.mem_range.2 (lt_of_getElem? e1)
  have hset : Settles m f m f := by
    refine ⟨rfl, rfl, rfl, rfl, rfl, .refl _, fun _ h => h, fun k _ => hlk k, ⟨hN.sad, hN.sum, hN.sumOnce, hN.two, hN.above,
      hN.range, hN.bound, fun k D ha hD => ?_, hN.eqElev, hN.setEq, ?_⟩, hres.acyclic,
      fun k hk => detect_single hN.over hf hk, rfl⟩
    · exact hN.listed k D ⟨fun h => ha.1 ((marked_out hf k).2 (.inl h)), ha.2⟩ hD
    · rw [(basins_marked hf).over, (stubPass_spec m.net (basinFeatures m.net m.saddles) m.flags).1]
      exact hN.over
  refine ⟨f, ?_, fun cs => ?_⟩
  · unfold DMap.run
    rw [h8]
    dsimp only [bind, Except.bind]
    rw [show m.detectBasins fuel m.flags = .ok f from hf]
    rfl
  · obtain ⟨m1, f1, e1, e2⟩ := hset.calls hfuel hlk cs
    refine ⟨m1, f1, e1, e2.summits, e2.runoffs, e2.live, ?_, fun h a b p q hp hq hh => ⟨fun hc => ?_, fun hc => ?_⟩⟩
    · have := detect_quiet e2.ok (fuel := fuel) (lt_of_le_of_lt (Nat.add_le_add_right e2.sub.length_le _) hfuel)
        e2.acyclic e2.single
      rw [← e2.net] at this
      exact this
    · -- every linker left was one of the run
      refine net_way (E := { E with summits := m.summits }) hE.geo g2 g3 (P := fun _ => True) (h := h) (a := a) (b := b) ?_ hp hh q hq
      refine Relation.ReflTransGen.mono ?_ _ _ hc
      rintro u v ⟨k, ob, i, j, _, hob, hle, i1, i2, j1, j2⟩
      have hob' : (m.st.objs.map (·.f))[k]? = some ob.f := by
        rw [← e2.feat]
        simp [hob]
      rw [List.getElem?_map] at hob'
      obtain ⟨ob2, o1, o2⟩ := Option.map_eq_some_iff.1 hob'
      rw [e2.store] at i2 j2
      exact ⟨k, ob2, i, j, trivial, o1, by rw [o2]; exact hle, e2.only i i1, i2, e2.only j j1, j2⟩
    · have hnet : NetConnected m (LiveSaddle m) h a b := passable_joined g2 (netConnected_level m (LiveSaddle m)) g5
        hc a b ⟨p, ⟨p, hp, .refl⟩, .refl⟩ ⟨q, ⟨q, hq, .refl⟩, .refl⟩
      have h1 := (hconn h a b).2 (live_connectedBy hH hnet)
      refine Relation.ReflTransGen.mono ?_ _ _ h1
      rintro u v ⟨_, _, k, ⟨hk, hle⟩, l1, l2⟩
      have hin : k ∈ liveSaddles m f := mem_liveSaddles.2 ⟨hN.listed k u
        ⟨fun h => hk.1 ((marked_out hf k).2 (.inl h)), hk.2⟩ l1, hk⟩
      have hin1 : k ∈ liveSaddles m1 f1 := by rw [e2.live]; exact hin
      have get : ∀ D, Linked m.net k D → ∃ i ∈ m1.linkers, m1.st.store[i]? = some ⟨D, k⟩ := by
        rintro D ⟨i, hi, hD⟩
        obtain ⟨l, e3, e4⟩ := g3.sad k i hi
        refine ⟨i, e2.all k (mem_liveSaddles.1 hin1).1 i hi, ?_⟩
        rw [e2.store, e3, ← e4, ← hD]
        simp [DMap.net, e3]
      obtain ⟨i, i1, i2⟩ := get u l1
      obtain ⟨j, j1, j2⟩ := get v l2
      obtain ⟨_, ob, _, hob, _⟩ := g3.links _ (List.mem_of_getElem? (e2.store ▸ i2))
      have hob' : (m1.st.objs.map (·.f))[k]? = some ob.f := by
        rw [e2.feat]
        simp [hob]
      rw [List.getElem?_map] at hob'
      obtain ⟨ob2, o1, o2⟩ := Option.map_eq_some_iff.1 hob'
      refine ⟨k, ob2, i, j, hin1, o1, ?_, i1, i2, j1, j2⟩
      have : m.net.elev (.saddle k) = ob.f.elevation := by simp [DMap.net, DMap.feature, hob]
      rw [o2, ← this]
      exact hle

/-- Instance of C88: after purging and detecting in turns the crater (it meets the conditions, see C28) has lost the saddle 9 and
kept the others. -/
example : ((exFull exCrater false 17).toOption.bind fun r => (DMap.calls 17 r
    [.purge true false false, .detect, .purge true true true, .detect]).toOption.map fun s =>
    (s.1.saddles, liveSaddles r.1 r.2, liveSaddles s.1 s.2, s.1.linkers)) =
    some ([8, 10, 11], [8, 10, 11], [8, 10, 11], [0, 1, 4, 5, 6, 7]) := by decide +kernel

/-- C88 fails with a saddle on the edge: after the run on this raster and purging, no saddle of the map connects the
summits 1 and 2 at level 2, although one can go from one to the other there. -/
theorem C88_edge_saddles_refuted : ∃ m f sites p q, exFull exBorder false 99 = .ok (m, f) ∧
    SummitsAt (DataMap.ofRows exBorder) sites m.summits ∧ sites[1]? = some p ∧ sites[2]? = some q ∧
    Passable (DataMap.ofRows exBorder) 2 p q ∧
    ¬ NetConnected (m.purge f true true true).1 (fun _ => True) 2 1 2 := by
  obtain ⟨m, f, sites, p, q, h0, h1, h2, h3, h4, _⟩ := C78_edge_saddles_refuted
  refine ⟨m, f, sites, p, q, h0, h1, h2, h3, h4, fun hc => ?_⟩
  have h : (exFull exBorder false 99).toOption.map (fun r =>
      (r.1.purge r.2 true true true).1.linkers.filterMap fun i =>
        (r.1.purge r.2 true true true).1.st.store[i]?.bind fun l =>
          (r.1.purge r.2 true true true).1.st.objs[l.saddle]?.map fun o => ((l.summit, l.saddle), o.f.elevation)) =
      some [((2, 8), 2), ((0, 8), 2), ((1, 10), 7), ((3, 10), 7), ((2, 11), 1), ((3, 11), 1)] := by decide +kernel
  rw [h0] at h
  simp only [Except.toOption, Option.map_some, Option.some.injEq] at h
  have get : ∀ (i D k : Nat) (o : SObj), i ∈ (m.purge f true true true).1.linkers →
      (m.purge f true true true).1.st.store[i]? = some ⟨D, k⟩ → (m.purge f true true true).1.st.objs[k]? = some o →
      ((D, k), o.f.elevation) ∈ ([((2, 8), 2), ((0, 8), 2), ((1, 10), 7), ((3, 10), 7), ((2, 11), 1), ((3, 11), 1)] : List ((Nat × Nat) × Rat)) := by
    intro i D k o h1 h2 h3
    rw [← h]
    exact List.mem_filterMap.2 ⟨i, h1, by simp [h2, h3]⟩
  have key : ∀ x, NetConnected (m.purge f true true true).1 (fun _ => True) 2 1 x → x = 1 ∨ x = 3 := by
    intro x hx
    induction hx with
    | refl => exact .inl rfl
    | tail _ hs ih =>
      obtain ⟨k, ob, i, j, _, hob, hle, i1, i2, j1, j2⟩ := hs
      have m1 := get i _ k ob i1 i2 hob
      have m2 := get j _ k ob j1 j2 hob
      simp only [List.mem_cons, Prod.mk.injEq, List.not_mem_nil, or_false] at m1 m2
      rcases m1 with ⟨⟨rfl, rfl⟩, e⟩ | ⟨⟨rfl, rfl⟩, e⟩ | ⟨⟨rfl, rfl⟩, e⟩ | ⟨⟨rfl, rfl⟩, e⟩ | ⟨⟨rfl, rfl⟩, e⟩ | ⟨⟨rfl, rfl⟩, e⟩ <;>
        first
          | omega
          | (exfalso; rw [e] at hle; exact absurd hle (by norm_num))
  have := key 2 hc
  omega

end PyProm
