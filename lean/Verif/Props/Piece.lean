import Verif.Proof.Climbs
import Verif.Props.Run

/-
C105: the points listed by a summit's domain hang together. C106: linkers run inside the domain of their summit.
-/
namespace PyProm
open Spec

/-! ### C105 -/

/-- C105 (rasters without flat shoulders): after a walk every point listed by the domain of a summit is joined
to an area of the summit by a path that never descends and enters only points listed by that domain. The
listed points are those the walk assigns to the summit. What is missing: rasters with flat ground below a
summit, see the refutation. -/
theorem C105_one_piece_partial (E : SaddleEnv) (hE : RunOk E) (hN : NoShelves E.d) (o : Pt → Oracle)
    (order : List Pt) (ho : IsScan E.d order) (rebuild : Bool) (m : DMap)
    (hm : DMap.runSparse E o order rebuild = .ok m) :
    ∃ sites, SummitsAt E.d sites m.summits ∧
      (∀ D pts, m.domPoints D = some pts → ∀ p, p ∈ pts ↔ m.st.w.lookup p = some D) ∧
      ∀ D pts, m.domPoints D = some pts → ∀ p ∈ pts, ∃ site top, sites[D]? = some site ∧ Flat E.d site top ∧
        top ∈ pts ∧ ReachedIn E.d pts p top := by
  obtain ⟨D, corners, m0, m', sites, news, h1, h2, h3, h4, h5, h6, h7, h8, h9⟩ := run_spec hE o order ho rebuild
  cases (h8.symm.trans hm : Except.ok _ = Except.ok _)
  obtain ⟨m'', news', a1, a2⟩ := walk_spec hE h4
  have hmm : m'' = m := by
    unfold DMap.runSparse at h8
    rw [h3] at h8
    dsimp only [bind, Except.bind] at h8
    rw [a1] at h8
    exact Except.ok.inj h8
  subst hmm
  obtain ⟨b1, b2⟩ := walk_explored hE h4 a1
  have hp := b1.piece hE.env hE.geo hN
  have key : ∀ D pts, m''.domPoints D = some pts → pts = m''.st.w.points D := by
    intro D pts e
    rw [b2] at e
    split at e
    · exact (Option.some.inj e).symm
    · cases e
  refine ⟨sites, by rw [h9.summits]; exact h4.tops, ?_, ?_⟩
  · intro D pts e p
    rw [key D pts e]
    exact (hp.tied p D).symm
  · intro D pts e p hpp
    rw [key D pts e] at hpp ⊢
    obtain ⟨t, ⟨q, t1, t2⟩, t3, t4⟩ := hp.joined D p hpp
    exact ⟨q, t, t1, t2, t3, t4⟩

/-- The same after any sequence of climbs. -/
theorem C105_climbs_partial (E : WalkEnv) (hE : EnvOk E) (hg : Findable E.d) (hN : NoShelves E.d) (sites : List Pt)
    (summits : List Feature) (s : WSt) (hs : Explored E sites summits s) (D : Nat) :
    (∀ p, s.lookup p = some D ↔ p ∈ s.points D) ∧
    ∀ p ∈ s.points D, ∃ site top, sites[D]? = some site ∧ Flat E.d site top ∧ top ∈ s.points D ∧
      ReachedIn E.d (s.points D) p top := by
  have hp := hs.piece hE hg hN
  refine ⟨fun p => hp.tied p D, fun p hpp => ?_⟩
  obtain ⟨t, ⟨q, t1, t2⟩, t3, t4⟩ := hp.joined D p hpp
  exact ⟨q, t, t1, t2, t3, t4⟩

/-- A finite area none of whose outer neighbours is as high is a top. -/
theorem isTop_of_area {d : DataMap} {p : Pt} (A : List Pt) (hp : p ∈ A)
    (h : ∀ a ∈ A, ∀ q, Adj a q → InB d q → q ∈ A ∧ el d q ≤ el d p ∨ el d q < el d p) : IsTop d p := by
  have hA : ∀ m, Flat d p m → m ∈ A ∧ el d m = el d p := by
    intro m hm
    induction hm with
    | refl => exact ⟨hp, rfl⟩
    | tail _ h2 ih =>
      have e : el d _ = el d p := h2.2.2.trans ih.2
      rcases h _ ih.1 _ h2.1 h2.2.1.1 with ⟨h1, _⟩ | h1
      · exact ⟨h1, e⟩
      · exact absurd e (ne_of_lt h1)
  rintro r ⟨⟨hr, _, m, hm, ha⟩, hlt⟩
  rcases h m (hA m hm).1 r ha hr.1 with ⟨_, h1⟩ | h1
  · exact absurd hlt (not_lt.2 h1)
  · exact absurd hlt (not_lt.2 (le_of_lt h1))

/-- Instance: two ridges, one with a flat summit; every domain lists several points. -/
def exSpine : List (List Rat) := [[0, 0, 0, 0, 0, 0, 0], [0, 9, 7, 5, 6, 8, 8], [0, 0, 1, 2, 1, 0, 0]]

example : RunOk (exRun (DataMap.ofRows exSpine)) := exRun_plain _ (by unfold maxsize; decide +kernel)

theorem exSpine_noShelves : NoShelves (DataMap.ofRows exSpine) := by
  rintro ⟨x, y⟩ ⟨hb, _⟩
  obtain ⟨h1, h2, h3, h4⟩ := id hb
  have key : ∀ i ∈ List.range 3, ∀ j ∈ List.range 7,
      (∃ q ∈ ring ((i : Int), (j : Int)), (0 ≤ q.1 ∧ q.1 ≤ 2 ∧ 0 ≤ q.2 ∧ q.2 ≤ 6) ∧
        el (DataMap.ofRows exSpine) (i, j) < el (DataMap.ofRows exSpine) q) ∨
      ((i : Int), (j : Int)) ∈ [((1, 1) : Pt), (1, 5), (1, 6)] := by decide +kernel
  have hx : x ≤ 2 := h2
  have hy : y ≤ 6 := h4
  have := key x.toNat (by simp; omega) y.toNat (by simp; omega)
  rw [Int.toNat_of_nonneg h1, Int.toNat_of_nonneg h3] at this
  rcases this with ⟨q, hq, hqb, hlt⟩ | ht
  · exact .inl ⟨q, mem_ring.1 hq, ⟨hqb, by simp [DataMap.ofRows]⟩, hlt⟩
  · right
    have near : ∀ (A : List Pt) (e : Rat), (∀ a ∈ A, ∀ q ∈ ring a, (0 ≤ q.1 ∧ q.1 ≤ 2 ∧ 0 ≤ q.2 ∧ q.2 ≤ 6) →
        q ∈ A ∧ el (DataMap.ofRows exSpine) q ≤ e ∨ el (DataMap.ofRows exSpine) q < e) →
        ∀ a ∈ A, ∀ q, Adj a q → InB (DataMap.ofRows exSpine) q →
          q ∈ A ∧ el (DataMap.ofRows exSpine) q ≤ e ∨ el (DataMap.ofRows exSpine) q < e := by
      intro A e h a ha q hq hb
      exact h a ha q (mem_ring.2 hq) hb
    simp only [List.mem_cons, List.not_mem_nil, or_false] at ht
    rcases ht with h | h | h <;> rw [h]
    · exact isTop_of_area [(1, 1)] (by simp) (near _ _ (by decide +kernel))
    · exact isTop_of_area [(1, 5), (1, 6)] (by simp) (near _ _ (by decide +kernel))
    · exact isTop_of_area [(1, 5), (1, 6)] (by simp) (near _ _ (by decide +kernel))

example : (exMap exSpine false).toOption.map (fun m => (m.domPoints 0, m.domPoints 1)) =
    some (some [(1, 1), (1, 2), (1, 3)], some [(1, 6), (1, 5), (1, 4)]) := by decide +kernel

/-- The walk of a raster with a flat shoulder. -/
def exLedge : List (List Rat) := [[1, 1, 1, 1, 1, 1, 1, 1], [1, 9, 5, 5, 5, 4, 8, 1], [1, 1, 1, 1, 1, 1, 1, 1]]

theorem exLedge_apart : ∀ q ∈ [((1, 1) : Pt), (1, 4)], ¬ Adj (1, 4) q := by
  intro q hq
  rcases List.mem_cons.1 hq with rfl | hq
  · unfold Adj; decide
  · rw [List.mem_singleton.1 hq]
    exact fun h => h.1 rfl

/-- C105 fails: the climb across a flat shoulder lists none of its cells, so the domain of the higher summit
consists of the summit and of a point further down that touches no other point of the domain. -/
theorem C105_one_piece_refuted : ∃ (E : SaddleEnv) (o : Pt → Oracle) (order : List Pt) (m : DMap) (pts : List Pt)
    (p : Pt), RunOk E ∧ IsScan E.d order ∧ DMap.runSparse E o order false = .ok m ∧
      m.domPoints 0 = some pts ∧ p ∈ pts ∧ (∀ q ∈ pts, ¬ Adj p q) ∧ (m.summits.map (·.elevation))[0]? = some 9 ∧ el E.d p = 5 ∧
      ∀ sites, SummitsAt E.d sites m.summits → ∀ site, sites[0]? = some site →
        ∀ top, Flat E.d site top → ¬ ReachedIn E.d pts p top := by
  have h : (exMap exLedge false).toOption.map (fun m => (m.domPoints 0, m.summits.map (·.elevation))) =
      some (some [(1, 1), (1, 4)], [9, 8]) := by decide +kernel
  cases hm : exMap exLedge false with
  | error e => rw [hm] at h; simp [Except.toOption] at h
  | ok m =>
    rw [hm] at h
    simp only [Except.toOption, Option.map_some, Option.some.injEq, Prod.mk.injEq] at h
    obtain ⟨hp, hs⟩ := h
    have hel : el (DataMap.ofRows exLedge) (1, 4) = 5 := by decide +kernel
    refine ⟨exRun (DataMap.ofRows exLedge), fun _ => exOracle, (DataMap.ofRows exLedge).cells, m, _, (1, 4),
      exRun_plain _ (by unfold maxsize; decide +kernel), isScan_cells _, hm, hp, by simp, exLedge_apart, by rw [hs]; rfl, hel, ?_⟩
    intro sites hsites site hsite top hflat hr
    obtain ⟨f, hf, hfs⟩ := forall₂_getElem? hsites.each hsite
    have hf9 : f.elevation = 9 := by
      have : (m.summits.map (·.elevation))[0]? = some f.elevation := by simp [hf]
      rw [hs] at this
      simpa using this.symm
    have htop := (flat_data (hsites.top site (List.mem_of_getElem? hsite)).1 hflat).2
    rw [← hfs.located.2.2, hf9] at htop
    rcases Relation.ReflTransGen.cases_head hr with h | ⟨c, ⟨h1, h2⟩, _⟩
    · rw [← h] at htop
      rw [show (exRun (DataMap.ofRows exLedge)).d = DataMap.ofRows exLedge from rfl, hel] at htop
      norm_num at htop
    · exact exLedge_apart c h2 h1.1

/-! ### C106 -/

/-- C106 (rasters without flat shoulders): every linker of a walked map begins at a point that the domain of its
summit lists, and from there its summit is reached without descent over points of this domain. What is
missing: rasters with flat ground below a summit, see the refutation. -/
theorem C106_inside_partial (E : SaddleEnv) (hE : RunOk E) (hN : NoShelves E.d) (o : Pt → Oracle)
    (order : List Pt) (ho : IsScan E.d order) (rebuild : Bool) (m : DMap)
    (hm : DMap.runSparse E o order rebuild = .ok m) :
    ∃ sites, SummitsAt E.d sites m.summits ∧ ∀ i ∈ m.linkers, ∃ l ob pts p site top, m.st.store[i]? = some l ∧
      m.st.objs[l.saddle]? = some ob ∧ m.domPoints l.summit = some pts ∧ StartsAt E.d ob.f p ∧ p ∈ pts ∧
      sites[l.summit]? = some site ∧ Flat E.d site top ∧ top ∈ pts ∧ ReachedIn E.d pts p top := by
  obtain ⟨D, corners, m0, m', sites, news, h1, h2, h3, h4, h5, h6, h7, h8, h9⟩ := run_spec hE o order ho rebuild
  cases (h8.symm.trans hm : Except.ok _ = Except.ok _)
  obtain ⟨m'', news', a1, a2⟩ := walk_spec hE h4
  have hmm : m'' = m := by
    unfold DMap.runSparse at h8
    rw [h3] at h8
    dsimp only [bind, Except.bind] at h8
    rw [a1] at h8
    exact Except.ok.inj h8
  subst hmm
  have hr := walk_routed hE hN h4 a1
  refine ⟨sites, by rw [h9.summits]; exact h4.tops, fun i hi => ?_⟩
  rw [a2.linkers, a2.inv.lk, List.mem_range] at hi
  have hl := List.getElem?_eq_getElem hi
  have hmem := List.getElem_mem hi
  generalize m''.st.store[i] = l at hl hmem
  obtain ⟨f, p, b1, b2, b3⟩ := hr.links l hmem
  obtain ⟨ob, c1, rfl⟩ : ∃ ob, m''.st.objs[l.saddle]? = some ob ∧ ob.f = f := by
    simp only [CSt.feats, List.getElem?_map, Option.map_eq_some_iff] at b1
    exact b1
  obtain ⟨sf, _, d1, _⟩ := a2.inv.links l hmem
  have hp := (hr.piece.tied p l.summit).1 b3
  obtain ⟨t, ⟨q, t1, t2⟩, t3, t4⟩ := hr.piece.joined _ p hp
  exact ⟨l, ob, m''.st.w.points l.summit, p, q, t, hl, c1, by rw [a2.points, if_pos (lt_of_getElem? d1)], b2, hp,
    t1, t2, t3, t4⟩

/-- Instance: on `exSpine` both summits are linked to the saddle between them, and runoffs to one summit each. -/
example : (exMap exSpine false).toOption.map (fun m => (m.linkers, m.st.store)) =
    some ([0, 1, 2, 3], [⟨1, 7⟩, ⟨0, 7⟩, ⟨1, 1⟩, ⟨0, 2⟩]) := by decide +kernel
example : (exMap exSpine false).toOption.map (fun m => m.st.objs[7]?.map fun o => o.f.hpn) =
    some (some [[⟨1, 4, 6⟩], [⟨1, 2, 7⟩]]) := by decide +kernel

/-- C106 fails: below a flat shoulder the linker to the higher summit begins at a point from which no other point
of the domain is reached, neither at this nor at its other high neighbourhood. -/
theorem C106_inside_refuted : ∃ (E : SaddleEnv) (o : Pt → Oracle) (order : List Pt) (m : DMap) (i : Nat) (l : LinkRec)
    (ob : SObj) (pts : List Pt), RunOk E ∧ IsScan E.d order ∧ DMap.runSparse E o order false = .ok m ∧
      i ∈ m.linkers ∧ m.st.store[i]? = some l ∧ m.st.objs[l.saddle]? = some ob ∧ m.domPoints l.summit = some pts ∧
      ∀ p, StartsAt E.d ob.f p → p ∈ pts → ∀ sites, SummitsAt E.d sites m.summits →
        ∀ site, sites[l.summit]? = some site → ∀ top, Flat E.d site top → ¬ ReachedIn E.d pts p top := by
  have h : (exMap exLedge false).toOption.map (fun m => (m.domPoints 0, m.summits.map (·.elevation))) =
      some (some [(1, 1), (1, 4)], [9, 8]) := by decide +kernel
  have h' : (exMap exLedge false).toOption.map (fun m => (m.linkers, m.st.store[1]?)) =
      some ([0, 1], some ⟨0, 5⟩) := by decide +kernel
  have h'' : (exMap exLedge false).toOption.map (fun m => m.st.objs[5]?.map fun o => o.f.hpn) =
      some (some [[⟨1, 6, 8⟩], [⟨1, 4, 5⟩]]) := by decide +kernel
  cases hm : exMap exLedge false with
  | error e => rw [hm] at h; simp [Except.toOption] at h
  | ok m =>
    rw [hm] at h h' h''
    simp only [Except.toOption, Option.map_some, Option.some.injEq, Prod.mk.injEq, Option.map_eq_some_iff] at h h' h''
    obtain ⟨hp, hs⟩ := h
    obtain ⟨hl, hst⟩ := h'
    obtain ⟨ob, hob, hhp⟩ := h''
    have hel : el (DataMap.ofRows exLedge) (1, 4) = 5 := by decide +kernel
    refine ⟨exRun (DataMap.ofRows exLedge), fun _ => exOracle, (DataMap.ofRows exLedge).cells, m, 1, _, ob, _,
      exRun_plain _ (by unfold maxsize; decide +kernel), isScan_cells _, hm, by rw [hl]; simp, hst, hob, hp, ?_⟩
    intro p hstart hpp sites hsites site hsite top hflat hr
    have hp4 : p = (1, 4) := by
      rcases hstart with ⟨e, he, x, hx, rfl⟩ | ⟨hn, _⟩
      · rw [hhp] at he
        simp only [List.mem_cons, List.not_mem_nil, or_false] at he
        rcases he with rfl | rfl
        · simp only [List.head?_cons, Option.mem_def, Option.some.injEq] at hx
          subst hx
          simp [P3.xy] at hpp
        · simp only [List.head?_cons, Option.mem_def, Option.some.injEq] at hx
          subst hx
          rfl
      · rw [hhp] at hn
        cases hn
    subst hp4
    obtain ⟨f, hf, hfs⟩ := forall₂_getElem? hsites.each hsite
    have hf9 : f.elevation = 9 := by
      have : (m.summits.map (·.elevation))[0]? = some f.elevation := by
        rw [List.getElem?_map, hf]
        rfl
      rw [hs] at this
      simpa using this.symm
    have htop := (flat_data (hsites.top site (List.mem_of_getElem? hsite)).1 hflat).2
    rw [← hfs.located.2.2, hf9] at htop
    rcases Relation.ReflTransGen.cases_head hr with h | ⟨c, ⟨h1, h2⟩, _⟩
    · rw [← h] at htop
      rw [show (exRun (DataMap.ofRows exLedge)).d = DataMap.ofRows exLedge from rfl, hel] at htop
      norm_num at htop
    · exact exLedge_apart c h2 h1.1

/-! ### C60 -/

/-- C60 (rasters without flat shoulders, explored states): flat summits do no harm; once a cell is assigned to a
domain, this domain lists it, and after any further climbs the domain still lists it and a climb from it reports
that domain. What is missing: rasters with flat ground below a summit, see `C60_reassigned_refuted`. -/
theorem C60_no_shelves_partial (E : WalkEnv) (hE : EnvOk E) (hg : Findable E.d) (hN : NoShelves E.d) (sites : List Pt)
    (summits : List Feature) (s : WSt) (hs : Explored E sites summits s) (fuel : Nat) (hf : E.d.size < fuel)
    (ps : List P3) (hp : ∀ p ∈ ps, Data E.d p.xy ∧ p.e = el E.d p.xy) :
    ∃ s', climbPoints E fuel ps s = .ok s' ∧ ∀ (q : P3) (D : Nat), s.lookup q.xy = some D →
      q.xy ∈ s.points D ∧ q.xy ∈ s'.points D ∧ climb E fuel s q = .ok (some D, s) ∧ climb E fuel s' q = .ok (some D, s') := by
  obtain ⟨s', a1, _⟩ := climbAll_spec (climbLoop_spec hE _ fuel) ps s (hs.inv hE hg) (fun p hpm =>
    ⟨(hp p hpm).1, (hp p hpm).2, lt_of_le_of_lt (above_le_size _ _) hf⟩)
  have h1 := hs.piece hE hg hN
  obtain ⟨h2, h3⟩ := climbAll_piece hE hN hf (hs.inv hE hg) h1 hp a1
  refine ⟨s', a1, fun q D hq => ?_⟩
  have hq' := h3 _ _ hq
  refine ⟨(h1.tied _ _).1 hq, (h2.tied _ _).1 hq', ?_, ?_⟩
  · unfold climb; rw [hq]
  · unfold climb; rw [hq']

end PyProm
