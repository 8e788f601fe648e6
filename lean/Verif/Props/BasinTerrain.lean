import Verif.Props.BasinExact
import Verif.Props.Tree

/-
C87: basin saddles of a complete run, read on the terrain.
-/
namespace PyProm
open Spec

/-- Finitely many saddles above `s` all are above some level above `s`. -/
theorem conn_level_gt {N : FNet} {P : Nat → Prop} {a b : Nat} {s t0 : Rat} (h0 : s < t0)
    (h : ConnectedBy N (fun _ => True) (fun k => P k ∧ s < N.elev (.saddle k)) a b) :
    ∃ t, s < t ∧ t ≤ t0 ∧ ConnectedBy N (fun _ => True) (fun k => P k ∧ t ≤ N.elev (.saddle k)) a b := by
  induction h with
  | refl => exact ⟨t0, h0, le_refl _, .refl⟩
  | tail _ h2 ih =>
    obtain ⟨t, h1, h3, h4⟩ := ih
    obtain ⟨_, _, k, hk, l1, l2⟩ := h2
    refine ⟨min t (N.elev (.saddle k)), lt_min h1 hk.2, le_trans (min_le_left _ _) h3, ?_⟩
    exact (conn_mono (fun _ h => h) (fun j hj => ⟨hj.1, le_trans (min_le_left _ _) hj.2⟩) h4).tail
      ⟨trivial, trivial, k, ⟨hk.1, min_le_right _ _⟩, l1, l2⟩

/-- What is connected over live saddles in the network of the map is connected over live saddles by the linkers that
they list, if linkers are listed by both ends or by none. -/
theorem live_connectedBy {m : DMap} (hH : LinkersPaired m) {h : Rat} {a b : Nat}
    (hc : NetConnected m (LiveSaddle m) h a b) :
    ConnectedBy m.net (fun _ => True)
      (fun k => Alive m.net m.flags (.saddle k) ∧ h ≤ m.net.elev (.saddle k)) a b := by
  refine Relation.ReflTransGen.mono ?_ _ _ hc
  rintro u v ⟨k, ob, i, j, ⟨_, ob', e1, e2, e3⟩, hob, hh, i1, i2, j1, j2⟩
  have : ob' = ob := by simpa using e1.symm.trans hob
  subst this
  obtain ⟨_, i3, i4, i5⟩ := hH i i1 _ _ i2 hob e2
  obtain ⟨_, j3, j4, j5⟩ := hH j j1 _ _ j2 hob e2
  refine ⟨trivial, trivial, k, ⟨⟨?_, ?_⟩, ?_⟩, ⟨i3, i4, ?_⟩, ⟨j3, j4, ?_⟩⟩
  · unfold SaddleOut
    simp [DMap.flags, hob, e3]
  · simp [DMap.net, DMap.feature, hob, e2]
  · have : m.net.elev (.saddle k) = ob'.f.elevation := by simp [DMap.net, DMap.feature, hob]
    rw [this]
    exact hh
  · simp [DMap.net, i5]
  · simp [DMap.net, j5]

/-- C87 (where it holds), for maps on which no two summits agree in location and elevation and whose linkers are held
at both ends: let a complete run find a live saddle `k` between the summits at `p` and at `q`. If there is no summit
on the edge and one can go from `p` to `q` on the terrain staying above the saddle, `k` is disqualified as a basin
saddle. If no other live saddle is as high and `k` is so disqualified, it can be bypassed in this
way. Missing: summits on the edge and other saddles of the same height, see below. -/
theorem C87_bypass_partial (E : SaddleEnv) (hE : RunOk E) (o : Pt → Oracle) (order : List Pt)
    (ho : IsScan E.d order) (rebuild : Bool) :
    ∃ m sites, DMap.runSparse E o order rebuild = .ok m ∧ SummitsAt E.d sites m.summits ∧
      (SummitsApart m.summits → LinkersPaired m → ∀ fuel, m.saddles.length + m.st.objs.length < fuel →
        ∃ f, DMap.run E o order rebuild fuel = .ok (m, f) ∧
          ∀ (k a b : Nat) (p q : Pt), Alive m.net m.flags (.saddle k) → Linked m.net k a → Linked m.net k b → a ≠ b →
            sites[a]? = some p → sites[b]? = some q →
            ((∀ s ∈ m.summits, s.edge = false) → (∃ t, m.net.elev (.saddle k) < t ∧ Passable E.d t p q) →
              f.basin k = true) ∧
            (AloneAt m.net m.saddles m.flags k → f.basin k = true →
              ∃ t, m.net.elev (.saddle k) < t ∧ Passable E.d t p q)) := by
  obtain ⟨_, m0, m, sites0, news, _, h8, h9, hL, _⟩ := run_links hE o order ho rebuild
  obtain ⟨m'', sites, g1, g2, g3, g4, g5⟩ := run_joins hE o order ho rebuild
  cases (g1.symm.trans h8 : Except.ok _ = Except.ok _)
  refine ⟨m, sites, h8, g2, fun hS hH fuel hfuel => ?_⟩
  have hN := h9.netOk hL hH hS
  obtain ⟨f, hf, hlow, hex⟩ := C86_exact_partial m.net m.saddles m.flags hN fuel hfuel
  refine ⟨f, ?_, fun k a b p q ha la lb hab hp hq => ⟨?_, ?_⟩⟩
  · unfold DMap.run
    rw [h8]
    dsimp only [bind, Except.bind]
    rw [show m.detectBasins fuel m.flags = .ok f from hf]
    rfl
  · rintro hne ⟨t, ht, hpass⟩
    have hnet : NetConnected m (LiveSaddle m) t a b := passable_joined g2 (netConnected_level m (LiveSaddle m)) g5
      hpass a b ⟨p, ⟨p, hp, .refl⟩, .refl⟩ ⟨q, ⟨q, hq, .refl⟩, .refl⟩
    have okD : ∀ j D, Alive m.net m.flags (.saddle j) → m.net.elev (.saddle k) ≤ m.net.elev (.saddle j) →
        Linked m.net j D → Alive m.net m.flags (.summit D) ∧ m.net.elev (.saddle k) < m.net.elev (.summit D) := by
      intro j D hj hle hl
      refine ⟨⟨rfl, ?_⟩, lt_of_le_of_lt hle (hN.above j D hj.2 hl)⟩
      have hD : D < m.summits.length := (hN.range j D hj.2 hl).2
      simp only [DMap.net, DMap.feature, List.getElem?_eq_getElem hD, Option.map_some, Option.getD_some]
      exact hne _ (List.getElem_mem hD)
    have hc : ConnectedBy m.net
        (fun D => Alive m.net m.flags (.summit D) ∧ m.net.elev (.saddle k) < m.net.elev (.summit D))
        (fun j => Alive m.net m.flags (.saddle j) ∧ t ≤ m.net.elev (.saddle j)) a b := by
      refine Relation.ReflTransGen.mono ?_ _ _ (live_connectedBy hH hnet)
      rintro u v ⟨_, _, j, hj, l1, l2⟩
      have := le_of_lt (lt_of_lt_of_le ht hj.2)
      exact ⟨okD j u hj.1 this l1, okD j v hj.1 this l2, j, hj, l1, l2⟩
    obtain ⟨l, hl, hin⟩ := bypass_cycle_by (okD k a ha (le_refl _) la) (fun h => absurd ht (not_lt.2 h.2)) hab la lb hc
    refine hlow k ⟨.saddle k :: l, { hl with mem := fun n hn => ?_ }, by simp, fun n hn hnk => ?_⟩
    · rcases List.mem_cons.1 hn with rfl | hn
      · exact ha
      · have := hin n hn
        cases n <;> exact this.1
    · rcases List.mem_cons.1 hn with h | hn
      · exact absurd h hnk
      · have := hin n hn
        cases n with
        | summit D => exact this.2
        | saddle j => exact lt_of_lt_of_le ht this.2
  · intro hd hb
    rcases (hex k hd).1 hb with h | ⟨c, hc, hm, hl⟩
    · exact absurd h (by simp [DMap.flags])
    · obtain ⟨pre, post, rfl⟩ := List.append_of_mem hm
      have hconn := cycle_bypass hc (hN.two k ha.2) (Q := fun _ => True)
        (P' := fun i => True ∧ m.net.elev (.saddle k) < m.net.elev (.saddle i)) (fun _ _ => trivial)
        (fun i hi hne u v hu hv qu qv => conn_hop ⟨trivial, hl _ hi (by simpa using hne)⟩ hu hv qu qv) a b la lb
      have hpa : el E.d p = m.net.elev (.summit a) := by
        obtain ⟨s, hs, hf⟩ := forall₂_getElem? g2.each hp
        simp [DMap.net, DMap.feature, hs, hf.located.2.2]
      obtain ⟨t, t1, t2, t3⟩ := conn_level_gt (t0 := el E.d p) (by rw [hpa]; exact hN.above k a ha.2 la) hconn
      exact ⟨t, t1, net_way (E := { E with summits := m.summits }) hE.geo g2 g3 (connectedBy_net g3 g4 t3) hp t2 q hq⟩

/-- Instance of C87: in the crater saddle 9 between the summits at (1, 1) and (3, 1) has height 2; one can go around it on
the other side of the crater at level 3, and it is the only basin saddle. The crater meets the conditions
(see C28) and its saddles differ in height. -/
example : Passable (DataMap.ofRows exCrater) 3 (1, 1) (3, 1) ∧ (exFull exCrater false 17).toOption.map (fun r =>
    (r.1.saddles.map r.2.basin, r.1.saddles.map fun k => r.1.net.elev (.saddle k))) =
    some ([false, true, false, false], [3, 2, 4, 5]) := by
  refine ⟨⟨by unfold Spec.Data Spec.InB; decide +kernel, by decide +kernel, ?_⟩, by decide +kernel⟩
  refine .tail (b := (3, 2)) (.tail (b := (2, 3)) (.tail (b := (1, 2)) (.single ?_) ?_) ?_) ?_
  all_goals exact ⟨by decide +kernel, by unfold Spec.Data Spec.InB; decide +kernel, by decide +kernel⟩

/-- C87 fails with summits on the edge: between the two summits of this raster there is a saddle of height 2 and also a way
on which no cell is lower than 3, but the saddle is not a basin saddle. -/
theorem C87_edge_summit_refuted : ∃ m f, exFull exRimSummit false 99 = .ok (m, f) ∧
    m.summits.map (fun s => (s.lat, s.lon)) = [(-1, 1), (-2, 4)] ∧
    10 ∈ m.saddles ∧ m.net.elev (.saddle 10) = 2 ∧ m.net.edge (.saddle 10) = false ∧
    Linked m.net 10 0 ∧ Linked m.net 10 1 ∧ f.basin 10 = false ∧
    Passable (DataMap.ofRows exRimSummit) 3 (1, 1) (2, 4) := by
  have h : (exFull exRimSummit false 99).toOption.map (fun r => (r.1.summits.map (fun s => (s.lat, s.lon)),
      decide (10 ∈ r.1.saddles), (r.1.net.elev (.saddle 10), r.1.net.edge (.saddle 10)),
      (r.1.net.sadLinks 10).map (fun i => (r.1.net.link i).1), r.2.basin 10)) =
      some ([(-1, 1), (-2, 4)], true, (2, false), [1, 0], false) := by decide +kernel
  cases hr : exFull exRimSummit false 99 with
  | error e => rw [hr] at h; cases h
  | ok r =>
    obtain ⟨m, f⟩ := r
    rw [hr] at h
    simp only [Except.toOption, Option.map_some, Option.some.injEq, Prod.mk.injEq, decide_eq_true_eq] at h
    obtain ⟨e1, e2, ⟨e3, e4⟩, e5, e6⟩ := h
    have get : ∀ D ∈ [1, 0], Linked m.net 10 D := fun D hD => by
      rw [← e5] at hD
      obtain ⟨i, hi, rfl⟩ := List.mem_map.1 hD
      exact ⟨i, hi, rfl⟩
    refine ⟨m, f, rfl, e1, e2, e3, e4, get 0 (by simp), get 1 (by simp), e6,
      by unfold Spec.Data Spec.InB; decide +kernel, by decide +kernel, ?_⟩
    exact .tail (b := (1, 3)) (.tail (b := (0, 2)) (.single
      ⟨by decide +kernel, by unfold Spec.Data Spec.InB; decide +kernel, by decide +kernel⟩)
      ⟨by decide +kernel, by unfold Spec.Data Spec.InB; decide +kernel, by decide +kernel⟩)
      ⟨by decide +kernel, by unfold Spec.Data Spec.InB; decide +kernel, by decide +kernel⟩

/-- A ring of four summits whose two lowest saddles are equally high. -/
def exTwoLow : List (List Rat) := [[0, 0, 0, 0, 0], [0, 9, 2, 8, 0], [0, 5, 1, 4, 0], [0, 7, 2, 6, 0], [0, 0, 0, 0, 0]]

/-- C87 fails for saddles of equal height: on this raster, without edge features, saddle 8 between the summits at (1, 1) and
(1, 3) becomes a basin saddle, but one cannot go from one to the other staying above it; and saddle 11, which is just
as low, stays. -/
theorem C87_ties_refuted : ∃ m f, exFull exTwoLow false 99 = .ok (m, f) ∧
    m.summits.map (fun s => (s.lat, s.lon)) = [(-1, 1), (-1, 3), (-3, 1), (-3, 3)] ∧ (∀ s ∈ m.summits, s.edge = false) ∧
    m.saddles.map (fun k => (k, m.net.elev (.saddle k))) = [(8, 2), (9, 5), (10, 4), (11, 2)] ∧
    Linked m.net 8 0 ∧ Linked m.net 8 1 ∧ f.basin 8 = true ∧ f.basin 11 = false ∧
    ∀ t, m.net.elev (.saddle 8) < t → ¬ Passable (DataMap.ofRows exTwoLow) t (1, 1) (1, 3) := by
  have h : (exFull exTwoLow false 99).toOption.map (fun r => (r.1.summits.map (fun s => (s.lat, s.lon)),
      decide (∀ s ∈ r.1.summits, s.edge = false), (r.1.net.sadLinks 8).map (fun i => (r.1.net.link i).1),
      r.2.basin 8, r.2.basin 11)) =
      some ([(-1, 1), (-1, 3), (-3, 1), (-3, 3)], true, [1, 0], true, false) := by decide +kernel
  have h' : (exFull exTwoLow false 99).toOption.map (fun r => r.1.saddles.map (fun k => (k, r.1.net.elev (.saddle k)))) =
      some [(8, 2), (9, 5), (10, 4), (11, 2)] := by decide +kernel
  cases hr : exFull exTwoLow false 99 with
  | error e => rw [hr] at h; cases h
  | ok r =>
    obtain ⟨m, f⟩ := r
    rw [hr] at h h'
    simp only [Except.toOption, Option.map_some, Option.some.injEq, Prod.mk.injEq, decide_eq_true_eq] at h h'
    obtain ⟨e1, e0, e3, e4, e5⟩ := h
    have e2 := h'
    have get : ∀ D ∈ [1, 0], Linked m.net 8 D := fun D hD => by
      rw [← e3] at hD
      obtain ⟨i, hi, rfl⟩ := List.mem_map.1 hD
      exact ⟨i, hi, rfl⟩
    refine ⟨m, f, rfl, e1, e0, e2, get 0 (by simp), get 1 (by simp), e4, e5, fun t ht hp => ?_⟩
    have e6 : m.net.elev (.saddle 8) = 2 := by
      have : (8, m.net.elev (.saddle 8)) ∈ [(8, 2), (9, 5), (10, 4), (11, 2)] := by
        rw [← e2]
        refine List.mem_map.2 ⟨8, ?_, rfl⟩
        have h8 : (8 : Nat) ∈ (m.saddles.map (fun k => (k, m.net.elev (.saddle k)))).map (·.1) := by rw [e2]; simp
        simpa [List.map_map, Function.comp_def] using h8
      simpa using this
    rw [e6] at ht
    -- no cell of the middle column is higher than the saddle
    have hcol : ∀ x : Int, 0 ≤ x → x ≤ 4 → el (DataMap.ofRows exTwoLow) (x, 2) ≤ 2 := by
      intro x h0 h4
      obtain rfl | rfl | rfl | rfl | rfl : x = 0 ∨ x = 1 ∨ x = 2 ∨ x = 3 ∨ x = 4 := by omega
      all_goals decide +kernel
    have hin : ∀ c, Relation.ReflTransGen (fun a b => Adj a b ∧ Data (DataMap.ofRows exTwoLow) b ∧
        t ≤ el (DataMap.ofRows exTwoLow) b) (1, 1) c → c.2 ≤ 1 := by
      intro c hc
      induction hc with
      | refl => simp
      | @tail b c _ h2 ih =>
        obtain ⟨⟨_, _, _, _, a4⟩, ⟨⟨b1, b2, _, _⟩, _⟩, a5⟩ := h2
        by_contra hlt
        have h2 : c.2 = 2 := by omega
        have := hcol c.1 b1 (by simpa [DataMap.ofRows, exTwoLow] using b2)
        rw [← h2] at this
        exact absurd (lt_of_lt_of_le ht (le_trans a5 this)) (lt_irrefl _)
    have := hin _ hp.2.2
    simp at this

end PyProm
