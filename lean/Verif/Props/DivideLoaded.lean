import Verif.Proof.DivideRename
import Verif.Props.Loaded
import Verif.Props.DivideProminence

/-
C134: the divide tree of a map that was loaded from a file
-/
namespace PyProm
open Spec

/-- Spec: the divide tree `t'` of a loaded map is the divide tree `t` of the saved map `m`: every summit has the same boundary
saddles, by position, every saddle the same boundary summits; the local prominence regions have the same paths of linkers, ending at
the same saddles and runoffs, and reach the edge alike; and the same summits were given up. -/
structure Spec.SameTree (m : DMap) (t t' : TreeSt) : Prop where
  summits : ∀ D, (t'.sumBnd D).map (m.saddles[·]?) = (t.sumBnd D).map some
  saddles : ∀ (P : Nat) k, m.saddles[P]? = some k → t'.sadBnd P = t.sadBnd k
  regions : ∀ D, (t'.lprPaths D = none ∧ t.lprPaths D = none) ∨ ∃ ps' ps e, t'.lprPaths D = some (ps', e) ∧
    t.lprPaths D = some (ps, e) ∧
    List.Forall₂ (fun p' p : LprPath => p'.path = p.path ∧ (m.saddles ++ m.runoffs)[p'.saddle]? = some p.saddle) ps' ps
  busted : t'.busted = t.busted

/-- Spec: the paths of summit `D` have the same declines in the tree `t` of the network `N` and in the tree `t'` of `N'`. -/
def Spec.SameDeclines (N N' : FNet) (t t' : TreeSt) (D : Nat) : Prop :=
  ∃ ps e ps' e', t.lprPaths D = some (ps, e) ∧ t'.lprPaths D = some (ps', e') ∧
    List.Forall₂ (fun q' q : LprPath => q'.decline N' = q.decline N) ps' ps

/-- Spec: of several linkers between a summit and a saddle all that are listed but the first are disqualified. -/
def Spec.RepeatsOut (m : DMap) (f : Flags) : Prop :=
  ∀ (i j : Nat) l, i < j → m.st.store[i]? = some l → m.st.store[j]? = some l → j ∈ m.st.sumLinks l.summit → f.linkDisq j = true

/-- Spec: saddles with two linkers to the same summit are off the edge of the map and report no disqualification. -/
def Spec.LoopsInner (m : DMap) : Prop :=
  ∀ (i j : Nat) l, i < j → m.st.store[i]? = some l → m.st.store[j]? = some l → j ∈ m.st.sumLinks l.summit →
    m.net.edge (.saddle l.saddle) = false ∧ m.flags.saddleDisq l.saddle = false

/-- Spec: a divide tree before it was run. -/
def Spec.noTree : TreeSt := ⟨fun _ => [], fun _ => [], fun _ => none, []⟩

/-- C134 (where it holds): save the map of a run, before or after basin saddle detection, load it, and run the divide tree on both:
the trees are the same, with the same declines. Missing: what is missing in C76, maps where linkers of other summits or saddles compare equal (see C91),
and maps with several linkers between a summit and a saddle that are not disqualified (`C134_repeated_refuted`). -/
theorem C134_tree_partial (E : SaddleEnv) (hE : RunOk E) (o : Pt → Oracle) (order : List Pt)
    (ho : IsScan E.d order) (rebuild : Bool) :
    ∃ D m, analyze E.d o order = .ok D ∧ DMap.runSparse E o order rebuild = .ok m ∧
      ((rebuild = false ∨ ∀ f ∈ D.saddles, f.edge = false) → EqualSame m →
        ∀ (ids : ObjIds), ids.Distinct → ∀ f, RunFlags E o order rebuild m f → RepeatsOut m f → ∀ fp,
        ∃ v s, (m.toL E.d f ids).toDict fp = .ok v ∧ LState.fromDict v.cbor fp = .ok (s, m.saddles.length) ∧
          s.summits.length = m.summits.length ∧ ∀ sums, sums ≠ [] → ∃ t t', divideRun m.net f sums noTree = .ok t ∧
            divideRun s.net s.flags sums noTree = .ok t' ∧ SameTree m t t' ∧
            ∀ D ∈ sums, D < m.summits.length → SameDeclines m.net s.net t t' D) := by
  obtain ⟨D, m, a1, a2, hnd, a3⟩ := run_loaded E hE o order ho rebuild
  obtain ⟨_, _, sites, m0, news, hw, hL⟩ := run_areas hE o order ho rebuild a2
  refine ⟨D, m, a1, a2, fun he hd ids hi f hf hro fp => ?_⟩
  obtain ⟨v, s, p1, p2, p3⟩ := a3 he hd ids hi f hf fp
  refine ⟨v, s, p1, p2, p3.summits, fun sums hs => ?_⟩
  have hF := run_first hE o order ho rebuild a2 hd
  have hout : ∀ (i : Nat) l, m.st.store[i]? = some l → i ∈ m.st.sumLinks l.summit → m.firstLink i = false → f.linkDisq i = true := by
    intro i l hl hm hb
    rw [← Bool.not_eq_true, firstLink_iff] at hb
    push Not at hb
    obtain ⟨j, hj, e⟩ := hb
    exact hro j i l hj (e.trans hl) hl hm
  have hdisq : ∀ (i : Nat) l, m.st.store[i]? = some l → s.flags.linkDisq i = f.linkDisq i := by
    intro i l hl
    obtain ⟨t, h1, h2, _⟩ := p3.link i l hl
    simp [LState.flags, h1, h2]
  have hlinks : LinksAs m.thinNet s.net (fun Q k => (m.saddles ++ m.runoffs)[Q]? = some k) f s.flags := by
    refine ⟨fun D i hi => ?_, fun D i hi => ?_, fun k i hi => ?_⟩
    · obtain ⟨l, hl, _⟩ := hw.inv.sum D i (List.mem_filter.1 hi).1
      obtain ⟨t, h1, _, _, h3⟩ := p3.link i l hl
      have e1 : (s.net.link i).2 = t.saddle := by simp [LState.net, h1]
      have e2 : (m.thinNet.link i).2 = l.saddle := by
        rw [show m.thinNet.link i = m.net.link i from rfl, net_link hl]
      rw [e1, e2]
      refine ⟨h3, ?_⟩
      obtain ⟨_, u, _, _, u2, u3⟩ := p3.sad _ _ h3
      rw [← u3.disq]
      simp only [Flags.saddleDisq, LSaddle.disqualified, LState.flags, u2, Option.map_some, Option.getD_some]
      rfl
    · obtain ⟨l, hl, _⟩ := hw.inv.sum D i (List.mem_filter.1 hi).1
      exact hdisq i l hl
    · obtain ⟨l, hl, _⟩ := hw.inv.sad k i (List.mem_filter.1 hi).1
      exact hdisq i l hl
  obtain ⟨t, t', h1, h2, h3⟩ := divide_rename (p3.renames hw hnd) hlinks (t := noTree) (t' := noTree)
    ⟨fun _ => rfl, fun _ _ h => absurd h List.not_mem_nil, fun _ _ => rfl, fun _ => .inl ⟨rfl, rfl⟩, rfl⟩ hs
  have hthin : divideRun m.thinNet f sums noTree = divideRun m.net f sums noTree := by
    refine divide_thin (fun D i hi hb => ?_) (fun k i hi hb => ?_) sums noTree
    · obtain ⟨l, hl, rfl⟩ := hw.inv.sum D i hi
      exact hout i l hl hi hb
    · obtain ⟨l, hl, rfl⟩ := hw.inv.sad k i hi
      exact hout i l hl ((hF.both i l hl).2 hi) hb
  have h1' : divideRun m.net f sums noTree = .ok t := hthin.symm.trans h1
  refine ⟨t, t', h1', h2, ⟨fun D => ?_, fun P k hP => ?_, h3.paths, h3.busted⟩, fun D hDs hD => ?_⟩
  · rw [← h3.sumBnd D, List.map_map]
    exact List.map_congr_left fun P hP => (savedAt_lt (h3.sumGood D P hP)).1
  · have hlt := lt_of_getElem? hP
    have := (savedAt_lt hlt).1
    rw [hP] at this
    rw [h3.sadBnd P hlt, ← Option.some.inj this]
  · have hN : OwnLinkers m.net := fun D i hi => by
      obtain ⟨l, hl, hD⟩ := hw.inv.sum D i hi
      rw [net_link hl]
      exact hD
    have hN' : OwnLinkers s.net := fun D i hi => by
      change i ∈ (s.summits[D]?.map (·.links)).getD [] at hi
      cases hsD : s.summits[D]? with
      | none =>
        rw [hsD] at hi
        cases hi
      | some x =>
        have hlt := lt_of_getElem? hsD
        rw [p3.summits] at hlt
        obtain ⟨y, _, y1, _, y2⟩ := p3.sum D _ (List.getElem?_eq_getElem hlt)
        rw [y1] at hi
        simp only [Option.map_some, Option.getD_some, y2] at hi
        obtain ⟨l, hl, hD⟩ := hw.inv.sum D i (List.mem_filter.1 hi).1
        obtain ⟨z, z1, _, z2, _⟩ := p3.link i l hl
        simp [LState.net, z1, z2, hD]
    obtain ⟨ps, e, k1, k2⟩ := C53_decline_partial m.net hN f _ _ t h1' D hDs
    obtain ⟨ps', e', l1, l2⟩ := C53_decline_partial s.net hN' s.flags _ _ t' h2 D hDs
    refine ⟨ps, e, ps', e', k1, l1, ?_⟩
    have hel : s.net.elev (.summit D) = m.net.elev (.summit D) := by
      obtain ⟨y, _, y1, y2, _⟩ := p3.sum D _ (List.getElem?_eq_getElem hD)
      simp [LState.net, LState.spot, DMap.net, DMap.feature, y1, y2.ele, List.getElem?_eq_getElem hD]
    rcases h3.paths D with ⟨c1, _⟩ | ⟨qs', qs, c, c1, c2, c3⟩
    · rw [l1] at c1
      cases c1
    · cases (l1.symm.trans c1 : some _ = some _)
      cases (k1.symm.trans c2 : some _ = some _)
      have hz : ∀ q' q : LprPath, q' ∈ ps' → q ∈ ps → (m.saddles ++ m.runoffs)[q'.saddle]? = some q.saddle →
          q'.decline s.net = q.decline m.net := by
        intro q' q hq' hq hqq
        rw [(k2 q hq).1, (l2 q' hq').1, hel]
        obtain ⟨ob, u, _, u1, u2, u3⟩ := p3.sad _ _ hqq
        simp [LState.net, LState.spot, DMap.net, DMap.feature, u1, u2, u3.ele]
      clear k2 l2 k1 l1 c1 c2
      induction c3 with
      | nil => exact .nil
      | cons hq _ ih =>
        exact .cons (hz _ _ (by simp) (by simp) hq.2) (ih fun q' q h1 h2 => hz q' q (by simp [h1]) (by simp [h2]))

/-- C134 (where it holds) after basin saddle detection: it disqualifies the linkers of every saddle with two linkers to one summit, so
that the trees are the same if only those saddles are off the edge of the map. -/
theorem C134_detected_partial (E : SaddleEnv) (hE : RunOk E) (o : Pt → Oracle) (order : List Pt)
    (ho : IsScan E.d order) (rebuild : Bool) :
    ∃ D m, analyze E.d o order = .ok D ∧ DMap.runSparse E o order rebuild = .ok m ∧
      ((rebuild = false ∨ ∀ f ∈ D.saddles, f.edge = false) → EqualSame m → LoopsInner m →
        ∀ (ids : ObjIds), ids.Distinct → ∀ fuel f, DMap.run E o order rebuild fuel = .ok (m, f) → ∀ fp,
        ∃ v s, (m.toL E.d f ids).toDict fp = .ok v ∧ LState.fromDict v.cbor fp = .ok (s, m.saddles.length) ∧
          s.summits.length = m.summits.length ∧ ∀ sums, sums ≠ [] → ∃ t t', divideRun m.net f sums noTree = .ok t ∧
            divideRun s.net s.flags sums noTree = .ok t' ∧ SameTree m t t' ∧
            ∀ D ∈ sums, D < m.summits.length → SameDeclines m.net s.net t t' D) := by
  obtain ⟨D, m, a1, a2, a3⟩ := C134_tree_partial E hE o order ho rebuild
  obtain ⟨_, _, sites, m0, news, hw, hL⟩ := run_areas hE o order ho rebuild a2
  refine ⟨D, m, a1, a2, fun he hd hin ids hi fuel f hf fp => a3 he hd ids hi f (.inr ⟨fuel, hf⟩) (fun i j l hij h1 h2 h3 => ?_) fp⟩
  have hF := run_first hE o order ho rebuild a2 hd
  obtain ⟨hedge, hdq⟩ := hin i j l hij h1 h2 h3
  obtain ⟨h', e0, e1, e2⟩ := exists_first i l h1
  have hl' : h' ∈ m.st.sumLinks l.summit := by
    by_contra hcc
    obtain ⟨h'', q1, q2⟩ := hF.first h' l e1 hcc
    exact firstLink_iff.1 e2 h'' q1 (q2.trans e1.symm)
  have hj := (hF.both j l h2).1 h3
  rcases hw.slim hL (by omega) e1 h2 ((hF.both h' l e1).1 hl') hj with hs | ⟨hs1, hs2⟩
  · rw [hedge] at hs
    cases hs
  obtain ⟨m', r1, hf⟩ := bind_ok hf
  cases (r1.symm.trans a2 : Except.ok _ = Except.ok _)
  obtain ⟨f', r2, hf⟩ := bind_ok hf
  cases hf
  have hm := basins_marked (show disqualifyBasinSaddles m.net fuel m.saddles m.flags = .ok f from r2)
  have hout : ¬ SaddleOut m.flags l.saddle := by
    rw [← saddleDisq_iff, hdq]
    simp
  exact hm.link j (((stubPass_spec m.net (basinFeatures m.net m.saddles) m.flags).2.2.2.2 j).2
    (.inr ⟨l.saddle, (sortElev_perm _ _).mem_iff.2 ((mem_toSet _ _).2 hs1), hout, hs2, hj⟩))

/-- C134 (where it holds) and prominence: if one can get from a summit to higher ground without going below height `h`, the divide tree
of the loaded map reports for the summit a path with a positive decline of at most the height of the summit above `h`, as the tree of the
map itself does (C121). -/
theorem C134_bound_partial (E : SaddleEnv) (hE : RunOk E) (o : Pt → Oracle) (order : List Pt) (ho : IsScan E.d order) (rebuild : Bool) :
    ∃ D m sites, analyze E.d o order = .ok D ∧ DMap.runSparse E o order rebuild = .ok m ∧ SummitsAt E.d sites m.summits ∧
      ((∀ f ∈ D.summits, f.edge = false) → (rebuild = false ∨ ∀ f ∈ D.saddles, f.edge = false) → Untwinned D m →
        SummitsApart m.summits → EqualSame m → LoopsInner m →
        m.linkers.length < 400 → ∀ fuel, m.saddles.length + m.st.objs.length < fuel → ∀ (ids : ObjIds), ids.Distinct → ∀ fp,
        ∃ f v s, DMap.run E o order rebuild fuel = .ok (m, f) ∧ (m.toL E.d f ids).toDict fp = .ok v ∧
          LState.fromDict v.cbor fp = .ok (s, m.saddles.length) ∧ ∀ (a : Nat) (p : Pt), sites[a]? = some p → ∃ t' ps' e',
            divideRun s.net s.flags (List.range m.summits.length) noTree = .ok t' ∧ t'.lprPaths a = some (ps', e') ∧
            ∀ h, Escapes E.d p h → ∃ q ∈ ps', ∃ x, q.decline s.net = .ok x ∧ 0 < x ∧ x ≤ el E.d p - h) := by
  obtain ⟨D, m, sites, a1, a2, a3, a4⟩ := C121_decline E hE o order ho rebuild
  obtain ⟨D', m', b1, b2, b3⟩ := C134_detected_partial E hE o order ho rebuild
  cases (a1.symm.trans b1 : Except.ok _ = Except.ok _)
  cases (a2.symm.trans b2 : Except.ok _ = Except.ok _)
  refine ⟨D, m, sites, a1, a2, a3, fun h1 h2 hu h3 h4 h5 h6 fuel hfuel ids hi fp => ?_⟩
  obtain ⟨f, c1, c2⟩ := a4 h1 hu h3 h6 fuel hfuel
  obtain ⟨v, s, d1, d2, d3, d4⟩ := b3 h2 h4 h5 ids hi fuel f c1 fp
  refine ⟨f, v, s, c1, d1, d2, fun a p hp => ?_⟩
  obtain ⟨t, ps, e, e1, e2, e3⟩ := c2 noTree rfl a p hp
  have ha : a < m.summits.length := a3.each.length_eq ▸ lt_of_getElem? hp
  obtain ⟨t1, t', g1, g2, _, g3⟩ := d4 (List.range m.summits.length) (List.ne_nil_of_mem (List.mem_range.2 ha))
  cases (e1.symm.trans g1 : Except.ok _ = Except.ok _)
  obtain ⟨ps1, e1', ps', e', k1, k2, k3⟩ := g3 a (List.mem_range.2 ha) ha
  cases (e2.symm.trans k1 : some _ = some _)
  refine ⟨t', ps', e', g2, k2, fun h hh => ?_⟩
  obtain ⟨q, hq, x, hx, hx'⟩ := e3 h hh
  obtain ⟨i, hi⟩ := List.getElem?_of_mem hq
  obtain ⟨q', hq', hqq⟩ := forall₂_getElem? (List.Forall₂.flip k3) hi
  exact ⟨q', List.mem_of_getElem? hq', x, hqq.trans hx, hx'⟩

/-- The map, before or after detection, and the divide trees of the map and of what is loaded from its file. -/
def exTrees (rows : List (List Rat)) (detect : Bool) : Option (DMap × Flags × TreeSt × TreeSt) :=
  (exMap rows false).toOption.bind fun m =>
    (if detect then (exFull rows false 99).toOption.map (·.2) else some m.flags).bind fun f =>
    ((m.toL (DataMap.ofRows rows) f exIds).toDict ⟨7, 8⟩).toOption.bind fun v =>
      (LState.fromDict v.cbor ⟨7, 8⟩).toOption.bind fun r =>
        (divideRun m.net f (List.range m.summits.length) noTree).toOption.bind fun t =>
          (divideRun r.1.net r.1.flags (List.range r.1.summits.length) noTree).toOption.map fun t' => (m, f, t, t')

/-- Instance of `C134_tree_partial`: the crater has no repeated linkers, and saddle 11 is the fourth. -/
example : RunOk (exRun (DataMap.ofRows exCrater)) ∧ (exMap exCrater false).toOption.map equalSameB = some true ∧
    (exMap exCrater false).toOption.map linkersDifferB = some true :=
  ⟨exRun_plain _ (by unfold maxsize; decide +kernel), by decide +kernel, by decide +kernel⟩

set_option synthInstance.maxSize 1000 in
example : (exTrees exCrater false).map (fun r => (r.1.saddles, r.2.2.1.lprPaths 0, r.2.2.2.lprPaths 0, r.2.2.1.sumBnd 2, r.2.2.2.sumBnd 2)) =
    some ([8, 9, 10, 11], some ([⟨[1, 0, 4, 5, 6], 11⟩], false), some ([⟨[1, 0, 4, 5, 6], 3⟩], false), [9, 10], [1, 2]) := by
  decide +kernel

set_option synthInstance.maxSize 1000 in
/-- Instance of `C134_bound_partial`: the chain has nothing on the edge and no repeated linkers; the loaded tree reports declines of 7 and
4 for the summit of height 9, which has prominence 7. -/
example : (analyze (DataMap.ofRows exChain4) (fun _ => exOracle) (DataMap.ofRows exChain4).cells).toOption.map (fun D =>
      (D.summits ++ D.saddles).map (·.edge)) = some (List.replicate 7 false) ∧
    (exMap exChain4 false).toOption.map (fun m => (equalSameB m, linkersDifferB m, m.linkers.length)) = some (true, true, 6) ∧
    (exTrees exChain4 true).map (fun r => (r.2.2.2.lprPaths 1, r.1.saddles.map fun k => r.1.net.elev (.saddle k))) =
      some (some ([⟨[0], 0⟩, ⟨[3, 2, 5], 2⟩], false), [2, 3, 5]) := by
  decide +kernel

/-- A ring with a notch, and a higher summit reached over its lower right corner. -/
def exLoopRidge : List (List Rat) :=
  [[0, 0, 0, 0, 0, 0, 0], [0, 9, 8, 7, 0, 0, 0], [0, 8, 1, 6, 0, 0, 0], [0, 7, 5, 6, 3, 10, 0], [0, 0, 0, 0, 0, 0, 0]]

/-- Instance of `C134_detected_partial`: the notch has two linkers to the summit of the ring. -/
example : RunOk (exRun (DataMap.ofRows exLoopRidge)) ∧ (exTrees exLoopRidge true).map (fun r => (equalSameB r.1,
    r.1.st.store.map fun l => (l.summit, l.saddle))) = some (true, [(0, 6), (0, 6), (1, 7), (0, 7)]) ∧
    (exMap exLoopRidge false).toOption.map (fun m => (m.net.edge (.saddle 6), m.flags.saddleDisq 6)) = some (false, false) :=
  ⟨exRun_plain _ (by unfold maxsize; decide +kernel), by decide +kernel, by decide +kernel⟩

example : (exTrees exLoopRidge true).map (fun r => (r.1.saddles, r.2.2.1.lprPaths 0, r.2.2.2.lprPaths 0)) =
    some ([6, 7], some ([⟨[3], 7⟩], false), some ([⟨[3], 1⟩], false)) := by decide +kernel

/-- C134 fails before detection: the path from the summit of the ring to the saddle goes round the ring first, over both linkers of
the notch; the loaded map, where the notch lists only the first, has the path of one linker. -/
theorem C134_repeated_refuted : ∃ m f t t', exTrees exLoopRidge false = some (m, f, t, t') ∧
    t.lprPaths 0 = some ([⟨[0, 1, 3], 7⟩], false) ∧ t'.lprPaths 0 = some ([⟨[3], 1⟩], false) ∧ m.saddles[1]? = some 7 ∧
    ¬ SameTree m t t' := by
  have h : (exTrees exLoopRidge false).map (fun r => (r.1.saddles[1]?, r.2.2.1.lprPaths 0, r.2.2.2.lprPaths 0)) =
      some (some 7, some ([⟨[0, 1, 3], 7⟩], false), some ([⟨[3], 1⟩], false)) := by decide +kernel
  obtain ⟨⟨m, f, t, t'⟩, h1, h2⟩ := Option.map_eq_some_iff.1 h
  simp only [Prod.mk.injEq] at h2
  refine ⟨m, f, t, t', h1, h2.2.1, h2.2.2, h2.1, fun hs => ?_⟩
  rcases hs.regions 0 with ⟨e, _⟩ | ⟨ps', ps, e, e1, e2, e3⟩
  · rw [h2.2.2] at e
    cases e
  · rw [h2.2.2] at e1
    rw [h2.2.1] at e2
    cases e1
    cases e2
    cases e3 with
    | cons a _ => exact absurd a.1 (by decide)

end PyProm
