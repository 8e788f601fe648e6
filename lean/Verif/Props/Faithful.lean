import Verif.Proof.Faithful
import Verif.Props.RunBasin

/-
Properties that compare the network of a run with the terrain: C77 for the walked map, C78 after basin saddle
detection.
-/
namespace PyProm
open Spec

/-! ### C77 -/

/-- C77: on every raster, with and without rebuilding, two summits of the walked map are connected in its network
over live saddles not lower than `h` exactly if one can go from one to the other over the terrain without
going below `h`. Here `sites` are the places of the summits. -/
theorem C77_faithful (E : SaddleEnv) (hE : RunOk E) (o : Pt → Oracle) (order : List Pt)
    (ho : IsScan E.d order) (rebuild : Bool) :
    ∃ m sites, DMap.runSparse E o order rebuild = .ok m ∧ SummitsAt E.d sites m.summits ∧
      ∀ (h : Rat) (a b : Nat) (p q : Pt), sites[a]? = some p → sites[b]? = some q → h ≤ el E.d p →
        (NetConnected m (LiveSaddle m) h a b ↔ Passable E.d h p q) := by
  obtain ⟨m, sites, h1, h2, h3, _, h5⟩ := run_joins hE o order ho rebuild
  refine ⟨m, sites, h1, h2, fun h a b p q hp hq hh => ⟨fun hc => ?_, fun hc => ?_⟩⟩
  · exact net_way (E := { E with summits := m.summits }) hE.geo h2 h3 hc hp hh q hq
  · exact passable_joined h2 (netConnected_level m (LiveSaddle m)) h5 hc a b ⟨p, ⟨p, hp, .refl⟩, .refl⟩
      ⟨q, ⟨q, hq, .refl⟩, .refl⟩

/-- C77, nothing false: all linkers of the map together, also those of runoffs and of saddles that are disqualified or
on the edge, connect only summits that are connected on the terrain, at every level. -/
theorem C77_nothing_false (E : SaddleEnv) (hE : RunOk E) (o : Pt → Oracle) (order : List Pt)
    (ho : IsScan E.d order) (rebuild : Bool) :
    ∃ m sites, DMap.runSparse E o order rebuild = .ok m ∧ SummitsAt E.d sites m.summits ∧
      ∀ (h : Rat) (a b : Nat) (p q : Pt), sites[a]? = some p → sites[b]? = some q → h ≤ el E.d p →
        NetConnected m (fun _ => True) h a b → Passable E.d h p q := by
  obtain ⟨m, sites, h1, h2, h3, _⟩ := run_joins hE o order ho rebuild
  exact ⟨m, sites, h1, h2, fun h a b p q hp hq hh hc =>
    net_way (E := { E with summits := m.summits }) hE.geo h2 h3 hc hp hh q hq⟩

/-- Instance of C77: in the crater one can go from the summit 9 to the summit 8 at level 3, over the cell between
them. -/
example : RunOk (exRun (DataMap.ofRows exCrater)) ∧ Passable (DataMap.ofRows exCrater) 3 (1, 1) (1, 3) := by
  refine ⟨exRun_plain _ (by unfold maxsize; decide +kernel), by unfold Spec.Data Spec.InB; decide +kernel, by decide +kernel, ?_⟩
  exact .tail (b := (1, 2)) (.single ⟨by decide +kernel, by unfold Spec.Data Spec.InB; decide +kernel, by decide +kernel⟩)
    ⟨by decide +kernel, by unfold Spec.Data Spec.InB; decide +kernel, by decide +kernel⟩

/-- Instance of C77: the saddles of the crater and their linkers. -/
example : (exMap exCrater false).toOption.map (fun m => (m.saddles, m.linkers.map fun i => m.net.link i)) =
    some ([8, 9, 10, 11], [(1, 8), (0, 8), (0, 9), (2, 9), (1, 10), (3, 10), (3, 11), (2, 11)]) := by
  decide +kernel

/-! ### C78 -/

/-- What is connected by linkers that the saddles list is connected in the network of the map. -/
theorem connectedBy_net {E : SaddleEnv} {sites : List Pt} {m : DMap} (hs : CInv E sites m.st)
    (hl : m.linkers = m.st.linkers) {P : Nat → Prop} {h : Rat} {a b : Nat}
    (hc : ConnectedBy m.net (fun _ => True) (fun k => P k ∧ h ≤ m.net.elev (.saddle k)) a b) :
    NetConnected m P h a b := by
  refine Relation.ReflTransGen.mono ?_ _ _ hc
  rintro u v ⟨_, _, k, ⟨hP, hh⟩, l1, l2⟩
  have get : ∀ D, Linked m.net k D → ∃ i ∈ m.linkers, m.st.store[i]? = some ⟨D, k⟩ := by
    rintro D ⟨i, hi, hD⟩
    obtain ⟨l, e1, e2⟩ := hs.sad k i hi
    refine ⟨i, ?_, ?_⟩
    · rw [hl, hs.lk]
      exact List.mem_range.2 (lt_of_getElem? e1)
    · rw [e1, ← e2, ← hD]
      simp [DMap.net, e1]
  obtain ⟨i, i1, i2⟩ := get u l1
  obtain ⟨j, j1, j2⟩ := get v l2
  obtain ⟨_, ob, _, hob, _⟩ := hs.links _ (List.mem_of_getElem? i2)
  refine ⟨k, ob, i, j, hP, hob, ?_, i1, i2, j1, j2⟩
  have : m.net.elev (.saddle k) = ob.f.elevation := by simp [DMap.net, DMap.feature, hob]
  rw [← this]
  exact hh

/-- What is connected over live saddles in the network of the map is connected by linkers that the saddles list, if
linkers are listed by both ends or by none. -/
theorem net_connectedBy {m : DMap} (hH : LinkersPaired m) {h : Rat} {a b : Nat} (hc : NetConnected m (LiveSaddle m) h a b) :
    ConnectedBy m.net (fun _ => True) (fun k => ¬ SaddleOut m.flags k ∧ h ≤ m.net.elev (.saddle k)) a b := by
  refine Relation.ReflTransGen.mono ?_ _ _ hc
  rintro u v ⟨k, ob, i, j, ⟨_, ob', e1, e2, e3⟩, hob, hh, i1, i2, j1, j2⟩
  have : ob' = ob := by simpa using e1.symm.trans hob
  subst this
  obtain ⟨_, i3, i4, i5⟩ := hH i i1 _ _ i2 hob e2
  obtain ⟨_, j3, j4, j5⟩ := hH j j1 _ _ j2 hob e2
  refine ⟨trivial, trivial, k, ⟨?_, ?_⟩, ⟨i3, i4, ?_⟩, ⟨j3, j4, ?_⟩⟩
  · unfold SaddleOut
    simp [DMap.flags, hob, e3]
  · have : m.net.elev (.saddle k) = ob'.f.elevation := by simp [DMap.net, DMap.feature, hob]
    rw [this]
    exact hh
  · simp [DMap.net, i5]
  · simp [DMap.net, j5]

/-- C78, nothing false: after every complete run, whatever has been disqualified, two summits that are connected over
saddles not lower than `h` are connected on the terrain without going below `h`. -/
theorem C78_nothing_false (E : SaddleEnv) (hE : RunOk E) (o : Pt → Oracle) (order : List Pt)
    (ho : IsScan E.d order) (rebuild : Bool) (fuel : Nat) (m : DMap) (f : Flags)
    (hr : DMap.run E o order rebuild fuel = .ok (m, f)) :
    ∃ sites, SummitsAt E.d sites m.summits ∧
      ∀ (h : Rat) (a b : Nat) (p q : Pt), sites[a]? = some p → sites[b]? = some q → h ≤ el E.d p →
        ConnectedBy m.net (fun _ => True) (fun k => ¬ SaddleOut f k ∧ h ≤ m.net.elev (.saddle k)) a b →
        Passable E.d h p q := by
  obtain ⟨m', sites, h1, h2, h3, h4, _⟩ := run_joins hE o order ho rebuild
  unfold DMap.run at hr
  obtain ⟨m1, e1, hr⟩ := bind_ok hr
  obtain ⟨f1, _, hr⟩ := bind_ok hr
  cases hr
  have : m' = m := by simpa using h1.symm.trans e1
  subst this
  exact ⟨sites, h2, fun h a b p q hp hq hh hc =>
    net_way (E := { E with summits := m'.summits }) hE.geo h2 h3 (connectedBy_net h3 h4 hc) hp hh q hq⟩

/-- C78 for rasters without saddles on the edge, or on which no saddle split off an edge saddle coincides with an earlier one that is
linked with the same summit, if no two summits agree in location and elevation: after a complete run two summits are connected over
saddles that are not disqualified and not lower than `h` exactly if they are connected on the terrain without going below `h`. So the network that is left still has the right key
saddle elevation for every pair of summits, without any cycle off the edge (C28). What is missing:
rasters on which saddles coincide, see below. -/
theorem C78_faithful_partial (E : SaddleEnv) (hE : RunOk E) (o : Pt → Oracle) (order : List Pt)
    (ho : IsScan E.d order) (rebuild : Bool) :
    ∃ D m sites, analyze E.d o order = .ok D ∧ DMap.runSparse E o order rebuild = .ok m ∧
      SummitsAt E.d sites m.summits ∧ (Untwinned D m → SummitsApart m.summits →
        ∀ fuel, m.saddles.length + m.st.objs.length < fuel → ∃ f, DMap.run E o order rebuild fuel = .ok (m, f) ∧
          (∀ c, ¬ Cycle m.net (Alive m.net f) c) ∧
          ∀ (h : Rat) (a b : Nat) (p q : Pt), sites[a]? = some p → sites[b]? = some q → h ≤ el E.d p →
            (ConnectedBy m.net (fun _ => True) (fun k => ¬ SaddleOut f k ∧ h ≤ m.net.elev (.saddle k)) a b ↔
              Passable E.d h p q)) := by
  obtain ⟨D, m, h1, h2, h3⟩ := C41_no_edge_saddles_partial E hE o order ho rebuild
  obtain ⟨m', sites, g1, g2, g3, g4, g5⟩ := run_joins hE o order ho rebuild
  have : m' = m := by simpa using g1.symm.trans h2
  subst this
  refine ⟨D, m', sites, h1, g1, g2, fun he hS fuel hf => ?_⟩
  have hH := run_untwinned hE o order ho rebuild h1 g1 hS he
  obtain ⟨_, a1, a2⟩ := C28_run_acyclic_partial E hE o order ho rebuild
  obtain ⟨_, b1, b2⟩ := C29_run_connection_partial E hE o order ho rebuild
  cases (a1.symm.trans g1 : Except.ok _ = Except.ok _)
  cases (b1.symm.trans g1 : Except.ok _ = Except.ok _)
  obtain ⟨f, f1, f2⟩ := a2 hS hH fuel hf
  obtain ⟨f', f1', f3⟩ := b2 hS hH fuel hf
  have : f' = f := by
    have := f1'.symm.trans f1
    simpa using this
  subst this
  refine ⟨f', f1, f2, fun h a b p q hp hq hh => ⟨fun hc => ?_, fun hc => ?_⟩⟩
  · exact net_way (E := { E with summits := m'.summits }) hE.geo g2 g3 (connectedBy_net g3 g4 hc) hp hh q hq
  · rw [f3]
    exact net_connectedBy hH (passable_joined g2 (netConnected_level m' (LiveSaddle m')) g5 hc a b
      ⟨p, ⟨p, hp, .refl⟩, .refl⟩ ⟨q, ⟨q, hq, .refl⟩, .refl⟩)

/-- C78 fails where a saddle is on the edge: after the run on this raster the summits 1 and 2 are not connected at
level 2, although one can go from one to the other there. -/
theorem C78_edge_saddles_refuted : ∃ m f sites p q, exFull exBorder false 99 = .ok (m, f) ∧
    SummitsAt (DataMap.ofRows exBorder) sites m.summits ∧ sites[1]? = some p ∧ sites[2]? = some q ∧
    Passable (DataMap.ofRows exBorder) 2 p q ∧
    ¬ ConnectedBy m.net (fun _ => True) (fun k => ¬ SaddleOut f k ∧ 2 ≤ m.net.elev (.saddle k)) 1 2 := by
  obtain ⟨m, f, h0, h1, h2⟩ := C29_run_refuted
  obtain ⟨m', sites, g1, g2, g3, g4, _⟩ := run_joins (exRun_plain exBorder (by unfold maxsize; decide +kernel))
    (fun _ => exOracle) _ (isScan_cells _) false
  have : m' = m := by
    have := h0
    unfold exFull DMap.run at this
    obtain ⟨m1, e1, this⟩ := bind_ok this
    obtain ⟨f1, _, this⟩ := bind_ok this
    cases this
    simpa using g1.symm.trans e1
  subst this
  have hsum : (exMap exBorder false).toOption.map (fun m => m.summits.map (·.elevation)) = some [3, 9, 9, 9] := by
    decide +kernel
  rw [show exMap exBorder false = .ok m' from g1] at hsum
  simp only [Except.toOption, Option.map_some, Option.some.injEq] at hsum
  have hlen : m'.summits.length = 4 := by simpa using congrArg List.length hsum
  have site : ∀ i, i < 4 → ∃ p, sites[i]? = some p := fun i hi =>
    ⟨_, List.getElem?_eq_getElem (by rw [g2.each.length_eq, hlen]; exact hi)⟩
  obtain ⟨p, hp⟩ := site 1 (by omega)
  obtain ⟨q, hq⟩ := site 2 (by omega)
  obtain ⟨s, s1, s2⟩ := forall₂_getElem? g2.each hp
  have he : el (DataMap.ofRows exBorder) p = 9 := by
    rw [← show s.elevation = el (DataMap.ofRows exBorder) p from s2.located.2.2]
    have : (m'.summits.map (·.elevation))[1]? = some s.elevation := by rw [List.getElem?_map, s1]; rfl
    rw [hsum] at this
    simpa using this.symm
  refine ⟨m', f, sites, p, q, h0, g2, hp, hq, ?_, h2⟩
  exact net_way (E := { exRun (DataMap.ofRows exBorder) with summits := m'.summits })
    (exRun_plain exBorder (by unfold maxsize; decide +kernel)).geo g2 g3 (connectedBy_net g3 g4 h1) hp
    (by show (2 : Rat) ≤ el (DataMap.ofRows exBorder) p; rw [he]; norm_num) q hq

/-- Instance of C78: the crater, whose conditions are shown with C28; at level 3 its summits 0 and 1 stay connected
over the saddle 8 when saddle 9 has been marked. -/
example : (exFull exCrater false 17).toOption.map (fun r => ([8, 9].map r.2.saddleDisq, [8, 9].map fun k =>
    (r.1.net.elev (.saddle k), (r.1.net.sadLinks k).map fun i => (r.1.net.link i).1))) =
    some ([false, true], [(3, [1, 0]), (2, [0, 2])]) := by decide +kernel

end PyProm
