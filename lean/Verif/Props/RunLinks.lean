import Verif.Spec.RunLinks
import Verif.Proof.RunLinks
import Verif.Proof.Faithful
import Verif.Props.Run

/-
The linkers of every saddle and runoff of a walked map (C131), and the linkers of prominence zero (C20).
-/
namespace PyProm
open Spec

theorem OneEach.of {d : DataMap} {sites : List Pt} {k : Nat} {hs : List (List P3)} {ls : List LinkRec}
    (h : List.Forall₂ (RecOf d sites k) hs ls) : OneEach d sites k hs ls := by
  refine h.imp ?_
  rintro c l ⟨h1, h0, top, h2, ⟨site, h3, h4⟩, h5⟩
  exact ⟨h1, h0, h2, site, top, h3, h4, h5⟩

theorem filterMap_range_getElem? {α : Type} (l : List α) : (List.range l.length).filterMap (fun i => l[i]?) = l := by
  induction l using List.reverseRecOn with
  | nil => rfl
  | append_singleton l a ih =>
    rw [List.length_append, List.length_singleton, List.range_succ, List.filterMap_append]
    have e : (List.range l.length).filterMap (fun i => (l ++ [a])[i]?) = (List.range l.length).filterMap (fun i => l[i]?) :=
      List.filterMap_congr fun i hi => by rw [List.getElem?_append_left (List.mem_range.1 hi)]
    rw [e, ih]
    simp

theorem linkersOf_eq {E : SaddleEnv} {sites : List Pt} {m0 m : DMap} {news : List (List Nat)}
    (h : WalkedMap E sites m0 m news) (k : Nat) : linkersOf m k = recs m.st k := by
  unfold linkersOf recs
  rw [h.linkers, h.inv.lk, filterMap_range_getElem?]

theorem run_walk {E : SaddleEnv} {o : Pt → Oracle} {order : List Pt} {rebuild : Bool} {m0 m : DMap}
    (h3 : DMap.discover E.d E.fc o order rebuild = .ok m0) (h8 : DMap.runSparse E o order rebuild = .ok m) :
    ∃ x, m0.walk E [] = .ok (m, x) := by
  unfold DMap.runSparse at h8
  rw [h3] at h8
  replace h8 : (m0.walk E [] >>= fun r => pure r.1) = .ok m := h8
  obtain ⟨⟨m', x⟩, e1, e2⟩ := bind_ok h8
  cases e2
  exact ⟨x, e1⟩

/-! ### C131 -/

/-- C131 for saddles: every saddle of a finished map that is off the edge, whether made from an inner or from an
edge saddle, has exactly two high neighbourhoods and exactly two linkers, one per neighbourhood, in order; each leads
to a summit that can be reached without descent from there. A saddle on the edge has no linker. -/
theorem C131_saddles (E : SaddleEnv) (hE : RunOk E) (o : Pt → Oracle) (order : List Pt)
    (ho : IsScan E.d order) (rebuild : Bool) :
    ∃ m sites, DMap.runSparse E o order rebuild = .ok m ∧ SummitsAt E.d sites m.summits ∧
      ∀ k ∈ m.saddles, ∃ ob, m.st.objs[k]? = some ob ∧
        (ob.f.edge = false → ob.f.hpn.length = 2 ∧ OneEach E.d sites k ob.f.hpn (linkersOf m k)) ∧
        (ob.f.edge = true → linkersOf m k = []) := by
  obtain ⟨_, _, m0, m, sites, news, _, _, h3, h4, _, _, _, h8, h9⟩ := run_spec hE o order ho rebuild
  refine ⟨m, sites, h8, by rw [h9.summits]; exact h4.tops, fun k hk => ?_⟩
  obtain ⟨x, hx⟩ := run_walk h3 h8
  obtain ⟨r1, r2, r3⟩ := walk_recs hE h4 hx
  rw [h9.saddles] at hk
  obtain ⟨hw, hnr⟩ := List.mem_filter.1 hk
  have hlt := h9.inv.walked k hw
  have hob := List.getElem?_eq_getElem hlt
  refine ⟨_, hob, ?_⟩
  dsimp only at hnr
  rw [hob] at hnr
  dsimp only at hnr
  rw [linkersOf_eq h9]
  rcases r3 k hw with hk1 | ⟨hk1, o1, ho1, he1⟩
  · -- a saddle made by the walk
    have hF := r1 k _ hk1 hob
    rw [h9.walked] at hw
    obtain ⟨new, hn, hkn⟩ := List.mem_flatten.1 hw
    obtain ⟨i, hi⟩ := List.mem_iff_getElem?.1 hn
    have hil : i < (m0.saddles ++ m0.runoffs).length := by rw [h9.outcomes.length_eq]; exact lt_of_getElem? hi
    obtain ⟨new', e1, o2, e2, e3, _⟩ := forall₂_getElem? h9.outcomes (List.getElem?_eq_getElem hil)
    cases (e1.symm.trans hi : some _ = some _)
    have hbase := lt_of_getElem? e2
    have hS : SynthOf o2.f m.st.objs[k].f := by
      unfold Outcome at e3
      split at e3
      · obtain ⟨o', f1, f2, _⟩ := e3.2.2 k hkn
        cases (hob.symm.trans f1 : some _ = some _)
        exact f2
      · split at e3
        · exfalso
          rcases e3 with ⟨e3, _⟩ | ⟨_, e3⟩ <;> (rw [e3] at hkn; simp at hkn; omega)
        · obtain ⟨ids, g1, _, _, g4, _⟩ := e3
          rw [g1, List.mem_append, List.mem_singleton] at hkn
          rcases hkn with hkn | hkn
          · obtain ⟨o', f1, f2, _⟩ := g4 k hkn
            cases (hob.symm.trans f1 : some _ = some _)
            exact f2
          · omega
    exact ⟨fun _ => ⟨hS.two, .of hF⟩, fun he => by rw [hS.edge] at he; cases he⟩
  · -- a saddle of the map before the walk
    have hf := h9.step.feat k o1 ho1
    obtain ⟨o2, f1, f2, _⟩ := hf
    cases (hob.symm.trans f1 : some _ = some _)
    refine ⟨fun he => (by rw [f2, he1] at he; cases he), fun _ => (r2 k hk1 o1 ho1).1 ?_⟩
    rcases List.mem_append.1 hk1 with h | h
    · obtain ⟨o3, g1, g2⟩ := h4.sad k h
      cases (ho1.symm.trans g1 : some _ = some _)
      exact g2
    · exfalso
      obtain ⟨o3, g1, g2, _⟩ := h4.run k h
      cases (ho1.symm.trans g1 : some _ = some _)
      rw [f2, g2] at hnr
      simp at hnr

/-- C131 for runoffs: a runoff with high neighbourhoods has exactly one linker per neighbourhood, in order, to a summit
that can be reached without descent from there. A runoff without has at most one linker, to a summit that can be
reached without descent from its own cell; it has one for certain if this cell belongs to a summit. -/
theorem C131_runoffs (E : SaddleEnv) (hE : RunOk E) (o : Pt → Oracle) (order : List Pt)
    (ho : IsScan E.d order) (rebuild : Bool) :
    ∃ m sites, DMap.runSparse E o order rebuild = .ok m ∧ SummitsAt E.d sites m.summits ∧
      ∀ k ∈ m.runoffs, ∃ ob, m.st.objs[k]? = some ob ∧
        (ob.f.hpn ≠ [] → OneEach E.d sites k ob.f.hpn (linkersOf m k)) ∧
        (ob.f.hpn = [] → ∃ q, InB E.d q ∧ LocatedAt E.d q ob.f ∧
          ((linkersOf m k = [] ∧ ¬ (Data E.d q ∧ IsTop E.d q)) ∨
           ∃ D, linkersOf m k = [⟨D, k⟩] ∧ Data E.d q ∧ ClimbsTo E.d sites q D)) := by
  obtain ⟨_, _, m0, m, sites, news, _, _, h3, h4, _, _, _, h8, h9⟩ := run_spec hE o order ho rebuild
  refine ⟨m, sites, h8, by rw [h9.summits]; exact h4.tops, fun k hk => ?_⟩
  obtain ⟨x, hx⟩ := run_walk h3 h8
  obtain ⟨r1, r2, r3⟩ := walk_recs hE h4 hx
  rw [h9.runoffs] at hk
  obtain ⟨hw, hr⟩ := List.mem_filter.1 hk
  have hlt := h9.inv.walked k hw
  have hob := List.getElem?_eq_getElem hlt
  refine ⟨_, hob, ?_⟩
  rw [hob] at hr
  dsimp only at hr
  rw [linkersOf_eq h9]
  have hbase : k ∈ m0.saddles ++ m0.runoffs ∧ ∃ o, m0.st.objs[k]? = some o := by
    rcases r3 k hw with hk1 | ⟨hk1, o1, ho1, _⟩
    · exfalso
      rw [h9.walked] at hw
      obtain ⟨new, hn, hkn⟩ := List.mem_flatten.1 hw
      obtain ⟨i, hi⟩ := List.mem_iff_getElem?.1 hn
      have hil : i < (m0.saddles ++ m0.runoffs).length := by rw [h9.outcomes.length_eq]; exact lt_of_getElem? hi
      obtain ⟨new', e1, o2, e2, e3, _⟩ := forall₂_getElem? h9.outcomes (List.getElem?_eq_getElem hil)
      cases (e1.symm.trans hi : some _ = some _)
      have hb2 := lt_of_getElem? e2
      have no : ¬ SynthOf o2.f m.st.objs[k].f := fun hS => by rw [hS.kind] at hr; simp at hr
      unfold Outcome at e3
      split at e3
      · obtain ⟨o', f1, f2, _⟩ := e3.2.2 k hkn
        cases (hob.symm.trans f1 : some _ = some _)
        exact no f2
      · split at e3
        · rcases e3 with ⟨e3, _⟩ | ⟨_, e3⟩ <;> (rw [e3] at hkn; simp at hkn; omega)
        · obtain ⟨ids, g1, _, _, g4, _⟩ := e3
          rw [g1, List.mem_append, List.mem_singleton] at hkn
          rcases hkn with hkn | hkn
          · obtain ⟨o', f1, f2, _⟩ := g4 k hkn
            cases (hob.symm.trans f1 : some _ = some _)
            exact no f2
          · omega
    · exact ⟨hk1, o1, ho1⟩
  obtain ⟨hk1, o1, ho1⟩ := hbase
  obtain ⟨o2, f1, f2, _⟩ := h9.step.feat k o1 ho1
  cases (hob.symm.trans f1 : some _ = some _)
  have hkind : o1.f.kind = .runoff := by
    rw [f2] at hr
    simpa using hr
  obtain ⟨_, l2, l3⟩ := r2 k hk1 o1 ho1
  rw [f2]
  refine ⟨fun h => .of (l2 hkind h), fun h => ?_⟩
  obtain ⟨q, q1, q2, q3⟩ := l3 hkind h
  refine ⟨q, q1, q2, ?_⟩
  rcases q3 with q3 | ⟨D, top, a1, ⟨site, a2, a3⟩, a4, a5⟩
  · exact .inl q3
  · exact .inr ⟨D, a1, a4, site, top, a2, a3, a5⟩

/-- C20 fails on every raster with a summit on the edge: the finished map has, for every area without higher
neighbour that reaches the edge, a runoff with a linker to the summit of this area, and the prominence of this
linker is zero. -/
theorem C20_edge_summit_refuted (E : SaddleEnv) (hE : RunOk E) (o : Pt → Oracle) (order : List Pt)
    (ho : IsScan E.d order) (rebuild : Bool) (p : Pt) (hp : Data E.d p) (ht : IsTop E.d p) (hb : OnBorder E.d p) :
    ∃ m, DMap.runSparse E o order rebuild = .ok m ∧ ∃ k ∈ m.runoffs, ∃ ob l sf, m.st.objs[k]? = some ob ∧
      linkersOf m k = [l] ∧ m.summits[l.summit]? = some sf ∧ sf.elevation = el E.d p ∧ ob.f.elevation = el E.d p ∧
      sf.elevation - ob.f.elevation = 0 := by
  obtain ⟨D, corners, m0, m, sites, news, h1, _, h3, h4, _, _, h7, h8, h9⟩ := run_spec hE o order ho rebuild
  refine ⟨m, h8, ?_⟩
  obtain ⟨x, hx⟩ := run_walk h3 h8
  obtain ⟨_, r2, _⟩ := walk_recs hE h4 hx
  -- the runoff of the area
  obtain ⟨regs, c1, c2, c3⟩ := analyze_spec E.d o order ho
  cases (c3.symm.trans h1 : Except.ok _ = Except.ok _)
  obtain ⟨r, hr, hrf⟩ := c1.all p hp
  obtain ⟨hd, mp, high, lower, str, bps, hm, t⟩ := c2 r hr
  have htop : IsTop E.d r.site := (isTop_congr hd hrf).2 ht
  have hbor : OnBorder E.d r.site := by
    obtain ⟨b, b1, b2⟩ := hb
    exact ⟨b, hrf.trans b1, b2⟩
  have hfs := t.borderSummit hbor ((high_nil_iff t.isHigh).2 htop)
  generalize hf : mkRunoff (E.d.xyToLatLon r.site.1 r.site.2) (el E.d r.site) mp bps [] = f at hfs
  have hmem : f ∈ (regs.flatMap Region.features).filter fun f => f.kind = .runoff := by
    rw [List.mem_filter, List.mem_flatMap]
    exact ⟨⟨r, hr, by rw [hfs]; simp⟩, by rw [← hf]; rfl⟩
  obtain ⟨i, hi⟩ := List.mem_iff_getElem?.1 (List.mem_append_left corners hmem)
  obtain ⟨k, hk, hko⟩ := forall₂_getElem? h7 hi
  have hkr := List.mem_of_getElem? hk
  obtain ⟨ob, o1, o2, _⟩ := h9.step.feat k _ hko
  have hel : el E.d r.site = el E.d p := ((flat_data hd hrf).2).symm
  have hfel : f.elevation = el E.d p := by rw [← hf, ← hel]; rfl
  obtain ⟨_, _, l3⟩ := r2 k (List.mem_append_right _ hkr) _ hko
  obtain ⟨q, q1, q2, q3⟩ := l3 (by rw [← hf]; rfl) (by rw [← hf]; rfl)
  -- its place is the cell at which the area was met
  have hloc : LocatedAt E.d r.site f := by rw [← hf]; exact ⟨rfl, rfl, rfl⟩
  have hq : q = r.site := by
    have e1 := located_xy hE.geo q1 q2
    have e2 := located_xy hE.geo hd.1 hloc
    exact Option.some.inj (e1.symm.trans e2)
  subst hq
  refine ⟨k, ?_, ob, ?_⟩
  · rw [h9.runoffs]
    refine List.mem_filter.2 ⟨?_, by rw [o1]; simp only [o2]; rw [← hf]; rfl⟩
    rw [h9.walked]
    obtain ⟨j, hj⟩ := List.mem_iff_getElem?.1 (List.mem_append_right m0.saddles hkr)
    obtain ⟨new, n1, on, n2, n3, _⟩ := forall₂_getElem? h9.outcomes hj
    refine List.mem_flatten.2 ⟨new, List.mem_of_getElem? n1, ?_⟩
    cases (hko.symm.trans n2 : some _ = some _)
    unfold Outcome at n3
    rw [if_neg (by rw [← hf]; simp [mkRunoff]), if_pos (by rw [← hf]; rfl)] at n3
    rcases n3 with ⟨n3, _⟩ | ⟨_, n3⟩ <;> rw [n3] <;> simp
  · rw [linkersOf_eq h9]
    rcases q3 with ⟨_, q3⟩ | ⟨S, top, a1, a2, a4, a5⟩
    · exact absurd ⟨hd, htop⟩ q3
    · obtain ⟨site, s1, s2⟩ := a2
      obtain ⟨sf, g1, g2⟩ := forall₂_getElem? h4.tops.each s1
      have hst := h4.tops.top site (List.mem_of_getElem? s1)
      have e1 := (flat_data hd (ascent_stays hd htop a5)).2
      have e2 := (flat_data hst.1 s2).2
      have hsf : sf.elevation = el E.d p := by
        rw [g2.located.2.2, ← e2, e1, hel]
      refine ⟨⟨S, k⟩, sf, o1, a1, by rw [h9.summits]; exact g1, hsf, by rw [o2]; exact hfel, ?_⟩
      rw [hsf, o2]
      show _ - f.elevation = 0
      rw [hfel, sub_self]

/-! Instances -/

/-- A map with an edge saddle (0), the saddle made from it (7), a summit in the corner and one elsewhere on the edge:
the linkers of all saddles and runoffs. Runoffs are listed twice if they have linkers. -/
example : (exMap [[1, 9, 4, 3, 8], [1, 1, 3, 1, 1]] false).toOption.map (fun m => (m.saddles ++ m.runoffs).map fun k =>
    (k, (m.st.objs[k]?.map fun ob => (ob.f.edge, ob.f.hpn.length)), (linkersOf m k).map (·.summit))) =
    some [(7, some (false, 2), [0, 1]), (0, some (true, 2), []), (1, some (true, 0), [0]), (1, some (true, 0), [0]),
      (2, some (true, 0), [1]), (2, some (true, 0), [1]), (3, some (true, 0), []), (4, some (true, 0), []),
      (5, some (true, 0), []), (6, some (true, 0), [1]), (6, some (true, 0), [1])] := by decide +kernel

/-- Runoffs with a high neighbourhood: 1, 2 and 3. -/
example : (exMap [[1, 2, 1, 2, 1], [1, 9, 3, 8, 1], [1, 1, 3, 1, 1]] false).toOption.map (fun m => m.runoffs.map fun k =>
    (k, (m.st.objs[k]?.map fun ob => ob.f.hpn.length), (linkersOf m k).map (·.summit))) =
    some [(1, some 1, [0]), (1, some 1, [0]), (2, some 1, [1]), (2, some 1, [1]), (3, some 1, [0]), (3, some 1, [0]),
      (4, some 0, []), (5, some 0, []), (6, some 0, []), (7, some 0, [])] := by decide +kernel

/-- The hypotheses of `C20_edge_summit_refuted` are met. -/
example : RunOk (exRun (DataMap.ofRows [[1, 9, 4, 3, 8], [1, 1, 3, 1, 1]])) ∧
    Data (DataMap.ofRows [[1, 9, 4, 3, 8], [1, 1, 3, 1, 1]]) (0, 1) ∧
    OnBorder (DataMap.ofRows [[1, 9, 4, 3, 8], [1, 1, 3, 1, 1]]) (0, 1) :=
  ⟨exRun_plain _ (by unfold maxsize; decide +kernel), by unfold Spec.Data Spec.InB; decide +kernel,
    (0, 1), .refl, by unfold Border; decide +kernel⟩

end PyProm
