import Verif.Props.DivideTree
import Verif.Props.KeySaddles

/-
C121: the paths around a summit in the divide tree and its prominence.
-/
namespace PyProm
open Spec

/-- Detection leaves the linkers of the saddles open that it does not mark. -/
theorem detected_open {m : DMap} {f : Flags} {fuel : Nat} (hN : NetOk m.net m.saddles m.flags)
    (hf : disqualifyBasinSaddles m.net fuel m.saddles m.flags = .ok f) {k i : Nat} (hk : ¬ SaddleOut f k)
    (hi : i ∈ m.net.sadLinks k) (hsad : ∀ k, ∀ j ∈ m.net.sadLinks k, (m.net.link j).2 = k) : f.linkDisq i = false := by
  by_contra hc
  obtain ⟨_, h2, _⟩ := C40_detection_linkers m.net m.saddles m.flags f fuel hf
  rcases h2 i (by simpa using hc) with h | ⟨k', h3, h4⟩
  · cases h
  · have : k' = k := (hsad k' i h3).symm.trans (hsad k i hi)
    subst this
    refine hk ((marked_out hf k').2 ?_)
    cases ho : m.flags.over k' with
    | none => exact .inr ⟨rfl, h4⟩
    | some b =>
      cases b with
      | true => exact .inl (.inl ho)
      | false => exact absurd ho (hN.over k')

/-- The region of a summit reaches over all saddles of a height at which nothing is reported. -/
theorem region_closed {N : FNet} {f : Flags} {D : Nat} {ps : List LprPath} {e : Bool} {L : List Nat} {h : Rat}
    (hB : BoundaryTold N f D ps e) (hno : ∀ q ∈ ps, N.edge (.saddle q.saddle) = false → ¬ h ≤ N.elev (.saddle q.saddle))
    (hpass : ∀ k ∈ L, ∀ i ∈ N.sadLinks k, ∀ j ∈ N.sadLinks k, j ≠ i → Passage N f (N.link i).1 i j ∧ (N.link i).2 = k)
    (hedge : ∀ k ∈ L, ∀ j ∈ N.sadLinks k, N.edge (.summit (N.link j).1) = false) {b : Nat}
    (hc : ConnectedBy N (fun _ => True) (· ∈ L.filter fun k => decide (h ≤ N.elev (.saddle k))) D b) : InRegion N f D b := by
  induction hc with
  | refl => exact ⟨_, .start⟩
  | tail _ h2 ih =>
    obtain ⟨_, _, k, hk, ⟨i, i1, rfl⟩, ⟨j, j1, rfl⟩⟩ := h2
    obtain ⟨hk, hh⟩ := List.mem_filter.1 (show k ∈ L.filter _ from hk)
    rw [decide_eq_true_eq] at hh
    by_cases hij : j = i
    · rw [hij]; exact ih
    · obtain ⟨hp, hik⟩ := hpass k hk i i1 j j1 hij
      by_cases hle : N.elev (.summit (N.link j).1) ≤ N.elev (.summit (N.link i).1)
      · obtain ⟨p, hd⟩ := ih
        exact ⟨_, hd.step ⟨hp, hle⟩ (hedge k hk j j1)⟩
      · by_contra hn
        obtain ⟨p, hq⟩ := hB.rises _ ih i j ⟨hp, not_le.1 hle⟩ hn
        exact hno _ hq hp.inner (by rw [hik]; exact hh)

/-- C121: on a raster without summits on the edge, on which no saddle is on the edge or no saddles coincide, and with fewer than 400 linkers, if one can get from a summit to higher ground
without going below height `h`, then the divide tree of the complete run reports for the summit a path with a decline of at most the
height of the summit above `h`. So the least decline that it reports is not greater than the prominence. -/
theorem C121_decline (E : SaddleEnv) (hE : RunOk E) (o : Pt → Oracle) (order : List Pt) (ho : IsScan E.d order) (rebuild : Bool) :
    ∃ D m sites, analyze E.d o order = .ok D ∧ DMap.runSparse E o order rebuild = .ok m ∧ SummitsAt E.d sites m.summits ∧
      ((∀ f ∈ D.summits, f.edge = false) → Untwinned D m → SummitsApart m.summits → m.linkers.length < 400 →
        ∀ fuel, m.saddles.length + m.st.objs.length < fuel → ∃ f, DMap.run E o order rebuild fuel = .ok (m, f) ∧
          ∀ s, s.busted = [] → ∀ (a : Nat) (p : Pt), sites[a]? = some p → ∃ t ps e,
            divideRun m.net f (List.range m.summits.length) s = .ok t ∧ t.lprPaths a = some (ps, e) ∧
            ∀ h, Escapes E.d p h → ∃ q ∈ ps, ∃ x, q.decline m.net = .ok x ∧ 0 < x ∧ x ≤ el E.d p - h) := by
  obtain ⟨D, m, sites, h1, h2, g2, hr2, d3, hmain⟩ := live_escapes hE o order ho rebuild
  obtain ⟨m', c1, c2⟩ := C53_runs_partial E hE o order ho rebuild
  cases (c1.symm.trans h2 : Except.ok _ = Except.ok _)
  obtain ⟨m', sites', r1, _, r3, _⟩ := run_joins hE o order ho rebuild
  cases (r1.symm.trans h2 : Except.ok _ = Except.ok _)
  refine ⟨D, m, sites, h1, h2, g2, fun he hU hA hn fuel hfuel => ?_⟩
  obtain ⟨hN, hmain⟩ := hmain hU hA
  obtain ⟨f, hrun, hf, hacy, _, hesc⟩ := hmain fuel hfuel
  refine ⟨f, hrun, fun s hs a p hp => ?_⟩
  obtain ⟨sa, sa1, sa2⟩ := forall₂_getElem? g2.each hp
  have ha : a < m.summits.length := lt_of_getElem? sa1
  have hela : m.net.elev (.summit a) = el E.d p := by
    rw [← sa2.located.2.2]
    simp [DMap.net, DMap.feature, sa1]
  obtain ⟨t, ht⟩ : ∃ t, divideRun m.net f (List.range m.summits.length) s = .ok t := by
    unfold divideRun
    cases hr : List.range m.summits.length with
    | nil => exact absurd (List.range_eq_nil.1 hr) (by omega)
    | cons a l => exact ⟨_, rfl⟩
  obtain ⟨ps, e, p1, p2, p3⟩ := c2 hn f s t hs ht a ha
  refine ⟨t, ps, e, ht, p1, fun h hh => ?_⟩
  have hsad : ∀ k, ∀ j ∈ m.net.sadLinks k, (m.net.link j).2 = k := fun k j hj => by
    obtain ⟨l, hl, hk⟩ := r3.sad k j hj
    rw [net_link hl]
    exact hk
  have hlive : ∀ k ∈ liveSaddles m f, ¬ SaddleOut f k ∧ m.net.edge (.saddle k) = false := fun k hk => (mem_liveSaddles.1 hk).2
  obtain ⟨b, ⟨sa', sb, x1, x2, x3⟩, hb⟩ := (hesc a p hp h).1 hh
  cases (x1.symm.trans sa1 : some _ = some _)
  have : ∃ q ∈ ps, m.net.edge (.saddle q.saddle) = false ∧ h ≤ m.net.elev (.saddle q.saddle) := by
    by_contra hc
    push Not at hc
    have hreg : InRegion m.net f a b := by
      refine region_closed p2 (fun q hq hqe => not_le.2 (hc q hq hqe)) (fun k hk i hi j hj hij => ?_) (fun k hk j hj => ?_) hb
      · obtain ⟨l1, l2⟩ := hlive k hk
        have := hsad k i hi
        refine ⟨⟨(hN.sad k l2 i hi).2, detected_open hN hf l1 hi hsad, ?_, ?_, ?_, detected_open hN hf l1 hj hsad, hij⟩, this⟩
        · rw [this]; exact l1
        · rw [this]; exact l2
        · rw [this]; exact hj
      · have hD : (m.net.link j).1 < m.summits.length := (hN.range k _ (hlive k hk).2 ⟨j, hj, rfl⟩).2
        generalize (m.net.link j).1 = c at hD
        simp only [DMap.net, DMap.feature, List.getElem?_eq_getElem hD, Option.map_some, Option.getD_some]
        exact he _ (d3 ▸ List.getElem_mem hD)
    obtain ⟨w, hw⟩ := hreg
    have := hw.le
    rw [show m.net.elev (.summit b) = sb.elevation by simp [DMap.net, DMap.feature, x2],
        show m.net.elev (.summit a) = sa.elevation by simp [DMap.net, DMap.feature, sa1]] at this
    exact absurd x3 (not_lt.2 this)
  obtain ⟨q, hq, hqe, hqh⟩ := this
  obtain ⟨y1, y2, y3⟩ := p3 q hq
  refine ⟨q, hq, _, y2, y3 hqe, by rw [hela]; linarith⟩

/-- C121 for summits without paths: under the same conditions no cell that can be reached at all from a summit for which
nothing is reported is higher. -/
theorem C121_none (E : SaddleEnv) (hE : RunOk E) (o : Pt → Oracle) (order : List Pt) (ho : IsScan E.d order) (rebuild : Bool) :
    ∃ D m sites, analyze E.d o order = .ok D ∧ DMap.runSparse E o order rebuild = .ok m ∧ SummitsAt E.d sites m.summits ∧
      ((∀ f ∈ D.summits, f.edge = false) → Untwinned D m → SummitsApart m.summits → m.linkers.length < 400 →
        ∀ fuel, m.saddles.length + m.st.objs.length < fuel → ∃ f, DMap.run E o order rebuild fuel = .ok (m, f) ∧
          ∀ s t, s.busted = [] → divideRun m.net f (List.range m.summits.length) s = .ok t →
            ∀ (a : Nat) (p : Pt) e, sites[a]? = some p → t.lprPaths a = some ([], e) → ∀ h q, Passable E.d h p q → el E.d q ≤ el E.d p) := by
  obtain ⟨D, m, sites, h1, h2, h3, h4⟩ := C121_decline E hE o order ho rebuild
  refine ⟨D, m, sites, h1, h2, h3, fun he hU hA hn fuel hfuel => ?_⟩
  obtain ⟨f, f1, f2⟩ := h4 he hU hA hn fuel hfuel
  refine ⟨f, f1, fun s t hs ht a p e hp ha h q hq => ?_⟩
  obtain ⟨t', ps, e', g1, g2, g3⟩ := f2 s hs a p hp
  cases (g1.symm.trans ht : Except.ok _ = Except.ok _)
  cases (g2.symm.trans ha : some _ = some _)
  by_contra hlt
  obtain ⟨q', hq', _⟩ := g3 h ⟨q, not_le.1 hlt, hq⟩
  cases hq'

/-- Instance of `C121_none`: nothing is reported for the summit of a single hill. -/
example : (analyze (DataMap.ofRows [[1, 1, 1], [1, 5, 1], [1, 1, 1]]) (fun _ => exOracle)
      (DataMap.ofRows [[1, 1, 1], [1, 5, 1], [1, 1, 1]]).cells).toOption.map (fun D => (D.summits ++ D.saddles).map (·.edge)) = some [false] ∧
    (exFull [[1, 1, 1], [1, 5, 1], [1, 1, 1]] false 99).toOption.bind (fun r =>
      (divideRun r.1.net r.2 (List.range r.1.summits.length) exTree0).toOption.map fun t => t.lprPaths 0) = some (some ([], false)) := by
  decide +kernel

/-- A chain of summits of heights 10, 9, 6 and 7 over saddles of heights 2, 3 and 5. -/
def exChain4 : List (List Rat) := [[1, 1, 1, 1, 1, 1, 1, 1, 1], [1, 10, 2, 9, 3, 6, 5, 7, 1], [1, 1, 1, 1, 1, 1, 1, 1, 1]]

/-- Instance of C121: the chain has no features on the edge and few linkers; for the summit of height 9 declines of 7 and 4 are reported. -/
example : (analyze (DataMap.ofRows exChain4) (fun _ => exOracle) (DataMap.ofRows exChain4).cells).toOption.map (fun D =>
      (D.summits ++ D.saddles).map (·.edge)) = some (List.replicate 7 false) ∧
    (exFull exChain4 false 14).toOption.bind (fun r => (divideRun r.1.net r.2 (List.range r.1.summits.length) exTree0).toOption.map fun t =>
      (r.1.summits.map (·.elevation), r.1.saddles.length + r.1.st.objs.length, r.1.linkers.length,
        (t.lprPaths 1).map fun x => x.1.map fun q => (q.decline r.1.net).toOption)) =
      some ([10, 9, 6, 7], 13, 6, some [some 7, some 4]) := by decide +kernel

/-- C121 gives a bound and no more: from the summit of height 9 one has to descend to 2, so that its prominence is 7, but a
decline of 4 is reported, down to a saddle with a summit behind it that is lower than 9. -/
theorem C121_only_bound : ∃ m f sites p t ps e, exFull exChain4 false 99 = .ok (m, f) ∧
    SummitsAt (DataMap.ofRows exChain4) sites m.summits ∧ sites[1]? = some p ∧ el (DataMap.ofRows exChain4) p = 9 ∧
    KeyCol (DataMap.ofRows exChain4) p 2 ∧ divideRun m.net f (List.range m.summits.length) exTree0 = .ok t ∧
    t.lprPaths 1 = some (ps, e) ∧ ∃ q ∈ ps, q.decline m.net = .ok 4 := by
  have h : (exFull exChain4 false 99).toOption.bind (fun r => (divideRun r.1.net r.2 (List.range r.1.summits.length) exTree0).toOption.map
      fun t => (r.1.summits.map (·.elevation), (t.lprPaths 1).map fun x => x.1.map fun q => (q.decline r.1.net).toOption)) =
      some ([10, 9, 6, 7], some [some 7, some 4]) := by decide +kernel
  cases hr : exFull exChain4 false 99 with
  | error e => rw [hr] at h; cases h
  | ok r =>
    obtain ⟨m, f⟩ := r
    rw [hr] at h
    simp only [Except.toOption, Option.bind_some] at h
    cases ht : divideRun m.net f (List.range m.summits.length) exTree0 with
    | error e => rw [ht] at h; cases h
    | ok t =>
      rw [ht] at h
      simp only [Option.map_some, Option.some.injEq, Prod.mk.injEq] at h
      obtain ⟨h1, h2⟩ := h
      cases hp : t.lprPaths 1 with
      | none => rw [hp] at h2; cases h2
      | some x =>
        obtain ⟨ps, e⟩ := x
        rw [hp] at h2
        simp only [Option.map_some, Option.some.injEq] at h2
        obtain ⟨m', sites, g1, g2, _⟩ := C103_prominence _ (exRun_plain exChain4 (by unfold maxsize; decide +kernel)) (fun _ => exOracle) _
          (isScan_cells _) false
        cases (g1.symm.trans (exFull_sparse hr) : Except.ok _ = Except.ok _)
        have hlen : sites.length = 4 := by
          have := congrArg List.length h1
          rw [g2.each.length_eq]
          simpa using this
        have hs1 : sites[1]? = some sites[1] := List.getElem?_eq_getElem (by omega)
        obtain ⟨s, s1, s2⟩ := forall₂_getElem? g2.each hs1
        have he : el (DataMap.ofRows exChain4) sites[1] = 9 := by
          have := congrArg (·[1]?) h1
          simp only [List.getElem?_map, s1, Option.map_some] at this
          exact s2.located.2.2.symm.trans (by simpa using this)
        have hcell : sites[1] = (1, 3) := by
          have : ∀ q ∈ (DataMap.ofRows exChain4).cells, el (DataMap.ofRows exChain4) q = 9 → q = (1, 3) := by decide +kernel
          exact this _ ((mem_cells _ _).2 (g2.top _ (List.getElem_mem _)).1.1) he
        refine ⟨m, f, sites, sites[1], t, ps, e, rfl, g2, hs1, he, ?_, ht, hp, ?_⟩
        · rw [hcell]
          refine ⟨⟨(1, 1), by decide +kernel, by unfold Spec.Data Spec.InB; decide +kernel, by decide +kernel, ?_⟩, ?_⟩
          · exact .tail (b := (1, 2)) (.single ⟨by decide +kernel, by unfold Spec.Data Spec.InB; decide +kernel, by decide +kernel⟩)
              ⟨by decide +kernel, by unfold Spec.Data Spec.InB; decide +kernel, by decide +kernel⟩
          · rintro h' ⟨q, q1, _, _, q2⟩
            by_contra hlt
            have hS : ∀ a ∈ ([(1, 3), (1, 4), (1, 5), (1, 6), (1, 7)] : List Pt), ∀ b ∈ (DataMap.ofRows exChain4).cells,
                Adj a b → 2 < el (DataMap.ofRows exChain4) b → b ∈ ([(1, 3), (1, 4), (1, 5), (1, 6), (1, 7)] : List Pt) := by
              decide +kernel
            have hq : q ∈ ([(1, 3), (1, 4), (1, 5), (1, 6), (1, 7)] : List Pt) := by
              clear q1
              induction q2 with
              | refl => decide
              | tail _ hb ih => exact hS _ ih _ ((mem_cells _ _).2 hb.2.1.1) hb.1 (lt_of_lt_of_le (not_le.1 hlt) hb.2.2)
            have : ∀ q ∈ ([(1, 3), (1, 4), (1, 5), (1, 6), (1, 7)] : List Pt),
                ¬ el (DataMap.ofRows exChain4) (1, 3) < el (DataMap.ofRows exChain4) q := by decide +kernel
            exact this q hq q1
        · have : some 4 ∈ ps.map fun q => (q.decline m.net).toOption := by
            show some 4 ∈ ps.map fun q => _
            exact h2 ▸ (by simp : (some 4 : Option Rat) ∈ [some 7, some 4])
          obtain ⟨q, q1, q2⟩ := List.mem_map.1 this
          refine ⟨q, q1, ?_⟩
          cases hq : q.decline m.net with
          | error e => rw [hq] at q2; cases q2
          | ok x => rw [hq] at q2; simp only [Except.toOption, Option.some.injEq] at q2; rw [q2]

end PyProm
