import Verif.Proof.Forest
import Verif.Props.Faithful

/-
C79: the network that a complete run leaves is a tree on every area of data cells.
-/
namespace PyProm
open Spec

theorem mem_liveSaddles {m : DMap} {f : Flags} {k : Nat} :
    k ∈ liveSaddles m f ↔ k ∈ m.saddles ∧ Alive m.net f (.saddle k) := by
  unfold liveSaddles
  rw [List.mem_filter]
  show _ ↔ _ ∧ ¬ SaddleOut f k ∧ _
  rw [← saddleDisq_iff]
  simp

/-- After detection a saddle that is neither disqualified nor on the edge has two summits. -/
theorem live_ends {N : FNet} {saddles : List Nat} {f f' : Flags} (hN : NetOk N saddles f) {fuel : Nat}
    (h1 : disqualifyBasinSaddles N fuel saddles f = .ok f') {k : Nat} (hk : k ∈ saddles)
    (ha : Alive N f' (.saddle k)) : TwoEnds N N.nSummits k := by
  obtain ⟨s1, s2, _, s4, _⟩ := stubPass_spec N (basinFeatures N saddles) f
  have hm := basins_marked h1
  have hone : ¬ OneSource N k := by
    intro hone
    refine ha.1 ?_
    have hnf : ¬ SaddleOut f k := fun h => ha.1 ((marked_out h1 k).2 (.inl h))
    have hs : f'.single k = true := by
      rw [hm.single]
      exact (s4 k).2 (.inr ⟨((features_spec N saddles).2.1 k).2 hk, hnf, hone⟩)
    rcases hov : f.over k with _ | _ | _
    · exact .inr ⟨by rw [hm.over, s1]; exact hov, .inl hs⟩
    · exact absurd hov (hN.over k)
    · exact absurd (.inl hov) hnf
  rw [oneSource_iff hN k ha.2] at hone
  push Not at hone
  obtain ⟨u, v, hu, hv, hne⟩ := hone
  refine ⟨u, v, hne, (hN.range k u ha.2 hu).2, (hN.range k v ha.2 hv).2, fun D => ⟨fun hD => ?_, ?_⟩⟩
  · have htwo := hN.two k ha.2
    obtain ⟨i, hi, rfl⟩ := hu
    obtain ⟨j, hj, rfl⟩ := hv
    obtain ⟨l, hl, rfl⟩ := hD
    have hij : i ≠ j := fun h => hne (by rw [h])
    match hs : N.sadLinks k, htwo with
    | [], _ => rw [hs] at hi; cases hi
    | [x], _ =>
      rw [hs] at hi hj
      simp only [List.mem_singleton] at hi hj
      exact absurd (hi.trans hj.symm) hij
    | [x, y], _ =>
      rw [hs] at hi hj hl
      simp only [List.mem_cons, List.not_mem_nil, or_false] at hi hj hl
      rcases hi with rfl | rfl <;> rcases hj with rfl | rfl <;> rcases hl with rfl | rfl <;> simp at hij ⊢
    | x :: y :: z :: _, h => simp at h
  · rintro (rfl | rfl)
    · exact hu
    · exact hv

/-- Finitely many saddles all are above some level. -/
theorem conn_level {N : FNet} {P : Nat → Prop} {a b : Nat} (t0 : Rat) (h : ConnectedBy N (fun _ => True) P a b) :
    ∃ t, t ≤ t0 ∧ ConnectedBy N (fun _ => True) (fun k => P k ∧ t ≤ N.elev (.saddle k)) a b := by
  induction h with
  | refl => exact ⟨t0, le_refl _, .refl⟩
  | tail _ h2 ih =>
    obtain ⟨t, h1, h3⟩ := ih
    obtain ⟨_, _, k, hk, l1, l2⟩ := h2
    refine ⟨min t (N.elev (.saddle k)), le_trans (min_le_left _ _) h1, ?_⟩
    exact (conn_mono (fun _ h => h) (fun j hj => ⟨hj.1, le_trans (min_le_left _ _) hj.2⟩) h3).tail
      ⟨trivial, trivial, k, ⟨hk, min_le_right _ _⟩, l1, l2⟩

/-- Every data cell is connected with a summit. -/
theorem summit_of_cell {d : DataMap} {sites : List Pt} {summits : List Feature} (hS : SummitsAt d sites summits)
    {p : Pt} (hp : Data d p) : ∃ (a : Nat) (q : Pt), sites[a]? = some q ∧ Passable d (el d p) p q := by
  obtain ⟨D, top, ⟨q, hq, hf⟩, hasc⟩ := exists_peak hS _ p (Nat.lt_succ_self _) hp
  have dq := (hS.top q (List.mem_of_getElem? hq)).1
  have h1 := hasc.passable hp
  refine ⟨D, q, hq, h1.trans ?_⟩
  have h2 : Passable d (el d q) q top := by
    clear * - hf dq
    refine ⟨dq, le_refl _, ?_⟩
    induction hf with
    | refl => exact .refl
    | @tail b c h1 h2 ih =>
      have hb := (flat_data dq h1).2
      exact ih.tail ⟨h2.1, h2.2.1, by rw [h2.2.2, hb]⟩
  have hl : el d p ≤ el d top := by
    obtain ⟨_, _, h3⟩ := h1
    cases h3 with
    | refl => exact le_refl _
    | tail _ h => exact h.2.2
  exact h2.symm.mono (by rw [(flat_data dq hf).2] at hl; exact hl)

/-- With a cycle there are more saddles than a forest has. -/
theorem forest_cycle {N : FNet} {n : Nat} {L reps : List Nat} (hT : ∀ k ∈ L, TwoEnds N n k)
    (h2 : ∀ k ∈ L, (N.sadLinks k).length ≤ 2) (hL : L.Nodup) (hr : PartReps N n L reps) {c : List Node}
    (hc : Cycle N (InNet n L) c) : n < L.length + reps.length := by
  -- a saddle of the cycle
  obtain ⟨k, hk⟩ : ∃ k, Node.saddle k ∈ c := by
    obtain ⟨x, hx⟩ := List.exists_mem_of_ne_nil c (by rintro rfl; have := hc.long; simp at this)
    cases x with
    | saddle k => exact ⟨k, hx⟩
    | summit D =>
      obtain ⟨a, ha, _, _, _, ja, _⟩ := cycle_two hc hx
      cases a with
      | summit _ => exact ja.elim
      | saddle k => exact ⟨k, ha⟩
  have hkL : k ∈ L := hc.mem _ hk
  have hmem : ∀ j, j ∈ L → j ≠ k → j ∈ L.erase k := fun j hj hne => (List.mem_erase_of_ne hne).2 hj
  -- its ends are connected without it
  obtain ⟨pre, post, rfl⟩ := List.append_of_mem hk
  have hby := cycle_bypass hc (h2 k hkL) (Q := fun _ => True) (P' := (· ∈ L.erase k)) (fun _ _ => trivial)
    fun j hj hne u v hu hv qu qv => conn_hop (hmem j (hc.mem _ hj) hne) hu hv qu qv
  have hiff : ∀ {a b : Nat}, ConnectedBy N (fun _ => True) (· ∈ L) a b → ConnectedBy N (fun _ => True) (· ∈ L.erase k) a b := by
    refine conn_bind fun j u v hj hu hv qu qv => ?_
    by_cases hjk : j = k
    · subst hjk
      exact hby u v hu hv
    · exact conn_hop (hmem j hj hjk) hu hv qu qv
  have hr' : PartReps N n (L.erase k) reps := by
    refine ⟨hr.bound, hr.apart.imp fun h hc => h (conn_mono (fun _ h => h) (fun j hj => List.mem_of_mem_erase hj) hc), fun a ha => ?_⟩
    obtain ⟨r, hr, h⟩ := hr.all a ha
    exact ⟨r, hr, hiff h⟩
  have := (forest_count N n (L.erase k) reps (hL.erase k) (fun j hj => hT j (List.mem_of_mem_erase hj)) hr').1
  rw [List.length_erase_of_mem hkL] at this
  have := List.length_pos_of_mem hkL
  omega

/-- The network after a complete run, its parts and those of the terrain. -/
theorem run_parts {E : SaddleEnv} (hE : RunOk E) (o : Pt → Oracle) (order : List Pt)
    (ho : IsScan E.d order) (rebuild : Bool) :
    ∃ m, DMap.runSparse E o order rebuild = .ok m ∧ (SummitsApart m.summits → LinkersPaired m →
      ∀ fuel, m.saddles.length + m.st.objs.length < fuel → ∃ f, DMap.run E o order rebuild fuel = .ok (m, f) ∧
        disqualifyBasinSaddles m.net fuel m.saddles m.flags = .ok f ∧ NetOk m.net m.saddles m.flags ∧
        (∀ c, ¬ Cycle m.net (Alive m.net f) c) ∧ m.saddles.Nodup ∧
        ∀ areas, Areas E.d areas → ∃ reps, reps.length = areas.length ∧ ∃ sites : List Pt, sites.length = m.summits.length ∧
          (∀ (a b : Nat) (p q : Pt), sites[a]? = some p → sites[b]? = some q →
            (ConnectedBy m.net (fun _ => True) (· ∈ liveSaddles m f) a b ↔ ∃ h, Passable E.d h p q)) ∧
          PartReps m.net m.summits.length (liveSaddles m f) reps) := by
  obtain ⟨_, m0, m, sites0, news, _, h8, h9, hL, _⟩ := run_links hE o order ho rebuild
  obtain ⟨m', hr1, hr2⟩ := C65_once E hE o order ho rebuild
  obtain ⟨m'', sites, g1, g2, g3, g4, g5⟩ := run_joins hE o order ho rebuild
  cases (hr1.symm.trans h8 : Except.ok _ = Except.ok _)
  cases (g1.symm.trans h8 : Except.ok _ = Except.ok _)
  refine ⟨m, h8, fun hS hH fuel hfuel => ?_⟩
  have hN := h9.netOk hL hH hS
  obtain ⟨f, hf, hacy⟩ := C28_acyclic_partial m.net m.saddles m.flags hN fuel hfuel
  obtain ⟨f', hf', hconn⟩ := C29_off_edge_partial m.net m.saddles m.flags hN fuel hfuel
  cases (hf'.symm.trans hf : Except.ok _ = Except.ok _)
  refine ⟨f, ?_, hf, hN, hacy, hr2, fun areas hA => ?_⟩
  · unfold DMap.run
    rw [h8]
    dsimp only [bind, Except.bind]
    rw [show m.detectBasins fuel m.flags = .ok f from hf]
    rfl
  · -- connection over live saddles is connection on the terrain
    have hiff : ∀ (a b : Nat) (p q : Pt), sites[a]? = some p → sites[b]? = some q →
        (ConnectedBy m.net (fun _ => True) (· ∈ liveSaddles m f) a b ↔ ∃ h, Passable E.d h p q) := by
      intro a b p q hp hq
      constructor
      · intro hc
        obtain ⟨t, t1, t2⟩ := conn_level (el E.d p) hc
        exact ⟨t, net_way (E := { E with summits := m.summits }) hE.geo g2 g3 (connectedBy_net g3 g4 t2) hp t1 q hq⟩
      · rintro ⟨h, hpass⟩
        have hnet : NetConnected m (LiveSaddle m) h a b := passable_joined g2 (netConnected_level m (LiveSaddle m)) g5
          hpass a b ⟨p, ⟨p, hp, .refl⟩, .refl⟩ ⟨q, ⟨q, hq, .refl⟩, .refl⟩
        have h1 : ConnectedBy m.net (fun _ => True)
            (fun k => Alive m.net m.flags (.saddle k) ∧ h ≤ m.net.elev (.saddle k)) a b := by
          refine Relation.ReflTransGen.mono ?_ _ _ hnet
          rintro u v ⟨k, ob, i, j, ⟨_, ob', e1, e2, e3⟩, hob, hh, i1, i2, j1, j2⟩
          have : ob' = ob := by simpa using e1.symm.trans hob
          subst this
          obtain ⟨_, i3, i4, i5⟩ := hH i i1 _ _ i2 hob e2
          obtain ⟨_, j3, j4, j5⟩ := hH j j1 _ _ j2 hob e2
          refine ⟨trivial, trivial, k, ⟨⟨?_, ?_⟩, ?_⟩, ⟨i3, i4, ?_⟩, ⟨j3, j4, ?_⟩⟩
          · unfold SaddleOut
            simp [DMap.flags, hob, e3]
          · simp [DMap.net, DMap.feature, hob, e2]
          · have : m.net.elev (.saddle k) = ob'.f.elevation := by simp [DMap.net, DMap.feature, hob]
            rw [this]
            exact hh
          · simp [DMap.net, i5]
          · simp [DMap.net, j5]
        refine conn_bind (fun k u v hk hu hv _ _ => ?_) ((hconn h a b).2 h1)
        exact conn_hop (mem_liveSaddles.2 ⟨hN.listed k u ⟨fun h => hk.1.1 ((marked_out hf k).2 (.inl h)), hk.1.2⟩ hu, hk.1⟩) hu hv trivial trivial
    have hlen : sites.length = m.summits.length := g2.each.length_eq
    -- one summit of every area
    have hrep : ∀ p : Pt, ∃ a : Nat, Data E.d p → ∃ q, sites[a]? = some q ∧ Passable E.d (el E.d p) p q := by
      intro p
      by_cases hp : Data E.d p
      · obtain ⟨a, q, h1, h2⟩ := summit_of_cell g2 hp
        exact ⟨a, fun _ => ⟨q, h1, h2⟩⟩
      · exact ⟨0, fun h => absurd h hp⟩
    choose rep hrep using hrep
    have hpart : PartReps m.net m.summits.length (liveSaddles m f) (areas.map rep) := by
      refine ⟨?_, ?_, ?_⟩
      · intro r hr
        obtain ⟨p, hp, rfl⟩ := List.mem_map.1 hr
        obtain ⟨q, hq, _⟩ := hrep p (hA.data p hp)
        rw [← hlen]
        exact lt_of_getElem? hq
      · rw [List.pairwise_map]
        refine hA.apart.imp_of_mem fun {p q} hp hq hno hc => ?_
        obtain ⟨p', e1, e2⟩ := hrep p (hA.data p hp)
        obtain ⟨q', e3, e4⟩ := hrep q (hA.data q hq)
        obtain ⟨h, hh⟩ := (hiff _ _ _ _ e1 e3).1 hc
        refine hno (min (min (el E.d p) h) (el E.d q)) ?_
        exact ((e2.mono (le_trans (min_le_left _ _) (min_le_left _ _))).trans
          (hh.mono (le_trans (min_le_left _ _) (min_le_right _ _)))).trans (e4.symm.mono (min_le_right _ _))
      · intro a ha
        obtain ⟨p, hp⟩ : ∃ p, sites[a]? = some p := ⟨_, List.getElem?_eq_getElem (by rw [hlen]; exact ha)⟩
        obtain ⟨q, hq, h, hh⟩ := hA.all p (g2.top p (List.mem_of_getElem? hp)).1
        obtain ⟨q', e1, e2⟩ := hrep q (hA.data q hq)
        refine ⟨rep q, List.mem_map.2 ⟨q, hq, rfl⟩, (hiff _ _ _ _ hp e1).2 ⟨min h (el E.d q), ?_⟩⟩
        exact (hh.symm.mono (min_le_left _ _)).trans (e2.mono (min_le_right _ _))
    exact ⟨areas.map rep, List.length_map _, sites, hlen, hiff, hpart⟩

/-- C79, for maps with no summit on the edge on which no two summits agree in location and elevation and whose linkers
are listed by both ends or by none (as they are without edge saddles, C41): after a complete run every saddle that is
neither disqualified nor on the edge has exactly two summits, and there are exactly as many
summits as such saddles and areas of data cells together, so that on every area they form a tree. With summits on the edge
the number is right exactly if those saddles form no cycle with any summits, and too high otherwise. What is
missing: rasters with features on the edge, see below. -/
theorem C79_tree_partial (E : SaddleEnv) (hE : RunOk E) (o : Pt → Oracle) (order : List Pt)
    (ho : IsScan E.d order) (rebuild : Bool) :
    ∃ m, DMap.runSparse E o order rebuild = .ok m ∧ (SummitsApart m.summits → LinkersPaired m →
      ∀ fuel, m.saddles.length + m.st.objs.length < fuel → ∃ f, DMap.run E o order rebuild fuel = .ok (m, f) ∧
        (∀ k ∈ liveSaddles m f, ∃ a b, a ≠ b ∧ a < m.summits.length ∧ b < m.summits.length ∧
          ∀ D, Linked m.net k D ↔ D = a ∨ D = b) ∧
        ∀ areas, Areas E.d areas → m.summits.length ≤ (liveSaddles m f).length + areas.length ∧
          ((∀ s ∈ m.summits, s.edge = false) → (liveSaddles m f).length + areas.length = m.summits.length) ∧
          ((liveSaddles m f).length + areas.length = m.summits.length ↔
            ∀ c, ¬ Cycle m.net (fun n => ∀ k, n = .saddle k → k ∈ liveSaddles m f) c)) := by
  obtain ⟨m, h8, h⟩ := run_parts hE o order ho rebuild
  refine ⟨m, h8, fun hS hH fuel hfuel => ?_⟩
  obtain ⟨f, hr, hf, hN, hacy, hnd, hA⟩ := h hS hH fuel hfuel
  have hends : ∀ k ∈ liveSaddles m f, TwoEnds m.net m.summits.length k := fun k hk =>
    live_ends hN hf (mem_liveSaddles.1 hk).1 (mem_liveSaddles.1 hk).2
  refine ⟨f, hr, hends, fun areas ha => ?_⟩
  obtain ⟨reps, hl, _, _, _, hpart⟩ := hA areas ha
  obtain ⟨c1, c2⟩ := forest_count m.net m.summits.length (liveSaddles m f) reps (hnd.filter _) hends hpart
  rw [hl] at c1 c2
  -- every summit on a cycle is one of the map
  have hin : ∀ c, Cycle m.net (fun n => ∀ k, n = .saddle k → k ∈ liveSaddles m f) c →
      Cycle m.net (InNet m.summits.length (liveSaddles m f)) c := by
    intro c hc
    refine { hc with mem := fun n hn => ?_ }
    cases n with
    | saddle k => exact hc.mem _ hn k rfl
    | summit D =>
      obtain ⟨a, ha, _, _, _, ja, _⟩ := cycle_two hc hn
      cases a with
      | summit _ => exact ja.elim
      | saddle k =>
        obtain ⟨u, v, _, e1, e2, e3⟩ := hends k (hc.mem _ ha k rfl)
        rcases (e3 D).1 ja with rfl | rfl
        · exact e1
        · exact e2
  have hex : (liveSaddles m f).length + areas.length = m.summits.length ↔
      ∀ c, ¬ Cycle m.net (fun n => ∀ k, n = .saddle k → k ∈ liveSaddles m f) c := by
    refine ⟨fun he c hc => ?_, fun hc => c2 fun c h => hc c { h with mem := fun n hn k e => ?_ }⟩
    rotate_left
    · have := h.mem n hn
      rw [e] at this
      exact this
    have := forest_cycle hends (fun k hk => hN.two k (mem_liveSaddles.1 hk).2.2) (hnd.filter _) hpart (hin c hc)
    rw [hl] at this
    omega
  refine ⟨c1, fun hne => hex.2 fun c hc => ?_, hex⟩
  -- without edge summits all of them are alive
  refine hacy c { hc with mem := fun n hn => ?_ }
  have := (hin c hc).mem n hn
  cases n with
  | summit D =>
    refine ⟨rfl, ?_⟩
    have hD : D < m.summits.length := this
    simp only [DMap.net, DMap.feature, List.getElem?_eq_getElem hD, Option.map_some, Option.getD_some]
    exact hne _ (List.getElem_mem hD)
  | saddle k => exact (mem_liveSaddles.1 this).2

/-- A raster without nodata cells is one area. -/
theorem areas_full {d : DataMap} (hd : ∀ p, InB d p → Data d p) (h0 : InB d (0, 0)) : Areas d [(0, 0)] := by
  refine ⟨by simp [hd _ h0], by simp, fun q hq => ⟨(0, 0), by simp, ?_⟩⟩
  have step : ∀ {p q : Pt} {h : Rat}, Passable d h (0, 0) p → Adj p q → InB d q → ∃ h, Passable d h (0, 0) q := by
    intro p q h hp ha hq
    have := hp.mono (min_le_left h (el d q))
    exact ⟨min h (el d q), this.1, this.2.1, this.2.2.tail ⟨ha, hd q hq, min_le_right _ _⟩⟩
  obtain ⟨⟨q1, q2, q3, q4⟩, _⟩ := hq
  have hx : ∀ n : Nat, (n : Int) ≤ d.maxX → ∃ h, Passable d h (0, 0) ((n : Int), 0) := by
    intro n
    induction n with
    | zero => intro _; exact ⟨_, hd _ h0, le_refl _, .refl⟩
    | succ n ih =>
      intro hn
      obtain ⟨h, hp⟩ := ih (by push_cast at hn; omega)
      refine step hp ⟨by simp, ?_⟩ ⟨by simp; omega, hn, le_refl _, by simp⟩
      push_cast
      simp
  have hy : ∀ n : Nat, (n : Int) ≤ d.maxY → ∃ h, Passable d h (0, 0) (q.1, (n : Int)) := by
    intro n
    induction n with
    | zero =>
      intro _
      obtain ⟨h, hp⟩ := hx q.1.toNat (by omega)
      exact ⟨h, by rwa [Int.toNat_of_nonneg q1] at hp⟩
    | succ n ih =>
      intro hn
      obtain ⟨h, hp⟩ := ih (by push_cast at hn; omega)
      refine step hp ⟨by simp, ?_⟩ ⟨q1, q2, by simp; omega, hn⟩
      push_cast
      simp
  obtain ⟨h, hp⟩ := hy q.2.toNat (by omega)
  exact ⟨h, by rwa [Int.toNat_of_nonneg q3] at hp⟩

/-- Instance of C79: the crater (it meets the conditions, see C28) is one area and has no edge summit, and of its four saddles the lowest one
is disqualified. -/
example : Areas (DataMap.ofRows exCrater) [(0, 0)] ∧ (exFull exCrater false 17).toOption.map (fun r =>
    ((r.1.summits.map (·.edge)), r.1.saddles, liveSaddles r.1 r.2)) =
    some ([false, false, false, false], [8, 9, 10, 11], [8, 10, 11]) := by
  refine ⟨areas_full (fun p hp => ⟨hp, by simp [DataMap.ofRows]⟩) (by unfold Spec.InB; decide +kernel), by decide +kernel⟩

/-- A raster with a summit on the edge. -/
def exRimSummit : List (List Rat) := [[1, 1, 9, 2, 1], [2, 9, 1, 3, 1], [2, 9, 2, 2, 9], [1, 8, 3, 1, 3]]

/-- C79 fails with a summit on the edge: this raster has two summits, no saddle is on the edge, but two
saddles are left, which form a cycle with the summits. -/
theorem C79_edge_summit_refuted : ∃ m f, exFull exRimSummit false 99 = .ok (m, f) ∧
    (∀ k ∈ m.saddles, m.net.edge (.saddle k) = false) ∧ Areas (DataMap.ofRows exRimSummit) [(0, 0)] ∧
    m.summits.length = 2 ∧ (liveSaddles m f).length = 2 := by
  have h : (exFull exRimSummit false 99).toOption.map (fun r => (decide (∀ k ∈ r.1.saddles, r.1.net.edge (.saddle k) = false),
      r.1.summits.length, (liveSaddles r.1 r.2).length)) = some (true, 2, 2) := by decide +kernel
  cases hr : exFull exRimSummit false 99 with
  | error e => rw [hr] at h; cases h
  | ok r =>
    obtain ⟨m, f⟩ := r
    rw [hr] at h
    simp only [Except.toOption, Option.map_some, Option.some.injEq, Prod.mk.injEq, decide_eq_true_eq] at h
    exact ⟨m, f, rfl, h.1, areas_full (fun p hp => ⟨hp, by simp [DataMap.ofRows]⟩)
      (by unfold Spec.InB; decide +kernel), h.2.1, h.2.2⟩

/-- C79 fails with a saddle on the edge: with rebuilding this raster (see C28) has four summits and five saddles that are
neither disqualified nor on the edge. -/
theorem C79_edge_saddle_refuted : ∃ m f,
    exFull [[2, 8, 2, 8, 2], [1, 9, 1, 9, 8], [2, 2, 2, 2, 8], [2, 8, 8, 2, 9]] true 99 = .ok (m, f) ∧
    Areas (DataMap.ofRows [[2, 8, 2, 8, 2], [1, 9, 1, 9, 8], [2, 2, 2, 2, 8], [2, 8, 8, 2, 9]]) [(0, 0)] ∧
    m.summits.length = 4 ∧ (liveSaddles m f).length = 5 := by
  have h : (exFull [[2, 8, 2, 8, 2], [1, 9, 1, 9, 8], [2, 2, 2, 2, 8], [2, 8, 8, 2, 9]] true 99).toOption.map (fun r =>
      (r.1.summits.length, (liveSaddles r.1 r.2).length)) = some (4, 5) := by decide +kernel
  cases hr : exFull [[2, 8, 2, 8, 2], [1, 9, 1, 9, 8], [2, 2, 2, 2, 8], [2, 8, 8, 2, 9]] true 99 with
  | error e => rw [hr] at h; cases h
  | ok r =>
    obtain ⟨m, f⟩ := r
    rw [hr] at h
    simp only [Except.toOption, Option.map_some, Option.some.injEq, Prod.mk.injEq] at h
    exact ⟨m, f, rfl, areas_full (fun p hp => ⟨hp, by simp [DataMap.ofRows]⟩)
      (by unfold Spec.InB; decide +kernel), h.1, h.2⟩

end PyProm
