import Verif.Proof.Edits
import Verif.Props.BasinExact

/-
C125: editing a map by hand, in any order with detection and purging.
-/
namespace PyProm
open Spec

/-- One gets from summit `a` to summit `b` over summits and saddles that are neither disqualified nor on the edge, the saddles
not below `h`. -/
def Spec.LiveRoute (m : DMap) (f : Flags) (h : Rat) (a b : Nat) : Prop :=
  ConnectedBy m.net (fun D => Alive m.net f (.summit D)) (fun k => Alive m.net f (.saddle k) ∧ h ≤ m.net.elev (.saddle k)) a b

/-- What a saddle that detection takes out connects stays connected. -/
theorem live_bypass {N : FNet} {saddles : List Nat} {f f' : Flags} (hN : NetOk N saddles f)
    (h2 : BasinResult N saddles f f') {k u v : Nat} (hk : Alive N f (.saddle k))
    (hk' : ¬ Alive N f' (.saddle k)) (hu : Linked N k u) (hv : Linked N k v) :
    ConnectedBy N (okS N f) (fun j => Alive N f' (.saddle j) ∧ N.elev (.saddle k) ≤ N.elev (.saddle j)) u v := by
  by_cases hs : Alive N (stubPass N (basinFeatures N saddles) f) (.saddle k)
  · exact h2.stub.bypass k hs hk' u v hu hv
  · have : OneSource N k := by
      by_contra hc
      exact hs ((alive_stub hN.over _).2 ⟨hk, fun j hj _ => by cases hj; exact hc⟩)
    rw [(oneSource_iff hN k hk.2).1 this u v hu hv]
    exact .refl

/-- Detection changes no route. -/
theorem detect_routes {m : DMap} {f f' : Flags} (hN : NetOk m.net m.saddles f) {fuel : Nat}
    (h1 : m.detectBasins fuel f = .ok f') (h2 : BasinResult m.net m.saddles f f') (h : Rat) (a b : Nat) :
    LiveRoute m f' h a b ↔ LiveRoute m f h a b := by
  constructor
  · exact conn_mono (fun _ h => h) fun k hk => ⟨⟨fun h => hk.1.1 ((marked_out h1 k).2 (.inl h)), hk.1.2⟩, hk.2⟩
  · refine conn_bind fun k u v ⟨hk, ht⟩ hu hv qu qv => ?_
    by_cases hk' : Alive m.net f' (.saddle k)
    · exact conn_hop ⟨hk', ht⟩ hu hv qu qv
    · exact conn_mono (fun _ h => h) (fun j hj => ⟨hj.1, le_trans ht hj.2⟩) (live_bypass hN h2 hk hk' hu hv)

/-- A map as the walk of a run leaves it meets the conditions. -/
theorem run_editable {E : SaddleEnv} (hE : RunOk E) (o : Pt → Oracle) (order : List Pt) (ho : IsScan E.d order)
    (rebuild : Bool) : ∃ m, DMap.runSparse E o order rebuild = .ok m ∧ NetFin m.net m.saddles m.flags ∧
      (∀ k ∈ m.saddles, ∀ i ∈ m.st.sadLinks k, i ∈ m.linkers) ∧
      (SummitsApart m.summits → LinkersPaired m → NetOk m.net m.saddles m.flags) := by
  obtain ⟨_, m0, m, sites0, news, _, h8, h9, hL, _⟩ := run_links hE o order ho rebuild
  obtain ⟨m'', sites, g1, g2, g3, g4, g5⟩ := run_joins hE o order ho rebuild
  cases (g1.symm.trans h8 : Except.ok _ = Except.ok _)
  refine ⟨m, h8, h9.netFin, fun k _ i hi => ?_, fun hS hH => h9.netOk hL hH hS⟩
  obtain ⟨l, e1, e2⟩ := g3.sad k i hi
  rw [g4, g3.lk]
  exact List.mem_range.2 (lt_of_getElem? e1)

/-- C125, what calls do to any map: take any map that lists the linkers of its saddles, with any marks on it, and detect basin
saddles, purge with any options, soft delete, disqualify, emancipate and disown any saddles, in any order and as
often as one likes. If all calls return, summits and runoffs are the same, saddles and linkers are only removed, and what
is missing is disqualified. A saddle or linker that was disqualified stays disqualified, no saddle gets a parent or child that
it did not have, and no summits are connected over live saddles that were not connected before. -/
theorem C125_calls (m : DMap) (f : Flags) (hl : ∀ k ∈ m.saddles, ∀ i ∈ m.st.sadLinks k, i ∈ m.linkers) (fuel : Nat)
    (cs : List EditCall) (m1 : DMap) (f1 : Flags) (h : DMap.edits fuel (m, f) cs = .ok (m1, f1)) :
    m1.summits = m.summits ∧ m1.runoffs = m.runoffs ∧ m1.saddles.Sublist m.saddles ∧ (∀ i ∈ m1.linkers, i ∈ m.linkers) ∧
      (∀ k ∈ m1.saddles, ∀ i ∈ m1.st.sadLinks k, i ∈ m1.linkers) ∧
      (∀ k ∈ m.saddles, k ∉ m1.saddles → SaddleOut f1 k) ∧
      (∀ k, SaddleOut f k → SaddleOut f1 k) ∧ (∀ i, f.linkDisq i = true → f1.linkDisq i = true) ∧
      (∀ k, (childrenOf m1 k).Sublist (childrenOf m k) ∧ (parentOf m1 k = none ∨ parentOf m1 k = parentOf m k)) ∧
      ∀ h a b, LiveRoute m1 f1 h a b → LiveRoute m f h a b := by
  have e := edited_edits hl cs h
  refine ⟨e.summits, e.runoffs, e.sub, e.only, e.whole, e.gone, e.out, e.link, e.thins, fun h a b hr => ?_⟩
  unfold LiveRoute at hr ⊢
  rw [e.net] at hr
  exact conn_mono (fun D => e.alive (.summit D)) (fun k hk => ⟨e.alive (.saddle k) hk.1, hk.2⟩) hr

/-- C125, no call fails: on the map that the walk of a run leaves, on every raster, all calls of any sequence return, and the map
lists the linkers of its saddles. -/
theorem C125_return (E : SaddleEnv) (hE : RunOk E) (o : Pt → Oracle) (order : List Pt) (ho : IsScan E.d order)
    (rebuild : Bool) : ∃ m, DMap.runSparse E o order rebuild = .ok m ∧
      (∀ k ∈ m.saddles, ∀ i ∈ m.st.sadLinks k, i ∈ m.linkers) ∧
      ∀ fuel, m.saddles.length + m.st.objs.length < fuel → ∀ cs, ∃ m1 f1, DMap.edits fuel (m, m.flags) cs = .ok (m1, f1) := by
  obtain ⟨m, h8, hF, hl, _⟩ := run_editable hE o order ho rebuild
  exact ⟨m, h8, hl, fun fuel hfuel cs => edits_return hF hl hfuel cs⟩

/-- C125, deletion: on any map, once a saddle is soft deleted, whatever is done afterwards, it is disqualified with all
its linkers, and has no parent, no children and no alternatives. -/
theorem C125_deleted (m : DMap) (f : Flags) (hl : ∀ k ∈ m.saddles, ∀ i ∈ m.st.sadLinks k, i ∈ m.linkers) (fuel k : Nat)
    (cs : List EditCall) (m1 : DMap) (f1 : Flags) (h : DMap.edits fuel (m, f) (.delete k :: cs) = .ok (m1, f1)) :
    SaddleOut f1 k ∧ (∀ i ∈ m1.st.sadLinks k, f1.linkDisq i = true) ∧
      parentOf m1 k = none ∧ childrenOf m1 k = [] ∧ f1.alts (.saddle k) = [] := by
  rw [edits_cons] at h
  have ed := edited_delete f hl k
  have e := edited_edits ed.whole cs h
  obtain ⟨t1, t2, t3⟩ := softDelete_thins m f k
  obtain ⟨_, _, c3, c4⟩ := culls_flags [k] (m, f)
  have hout : SaddleOut (m.softDelete f k).2 k := .inl (by
    rw [show (m.softDelete f k).2.over k = _ from c3 k, if_pos (by simp)])
  refine ⟨e.out k hout, fun i hi => e.link i ?_, ?_, ?_, e.quiet k hout ?_⟩
  · rw [show m1.st.sadLinks = _ from congrArg FNet.sadLinks (e.net.trans ed.net)] at hi
    exact (c4 i).2 (.inr ⟨k, by simp, hi⟩)
  · rcases (e.thins k).2 with h | h
    · exact h
    · rw [h, t3]
  · have := (e.thins k).1
    rw [t2] at this
    exact List.sublist_nil.1 this
  · exact (softDelete_alts m f k k).trans (if_pos rfl)

/-- C125, detection (where it holds): whatever was done to the map of a run before, basin detection costs no route between summits
that is there at the time, at any height, and leaves no cycle of live features. Missing: rasters with features on the edge
whose linkers are held at one end only (C41) and maps with two summits at one place. -/
theorem C125_detection_partial (E : SaddleEnv) (hE : RunOk E) (o : Pt → Oracle) (order : List Pt) (ho : IsScan E.d order)
    (rebuild : Bool) : ∃ m, DMap.runSparse E o order rebuild = .ok m ∧ (SummitsApart m.summits → LinkersPaired m →
      ∀ fuel, m.saddles.length + m.st.objs.length < fuel → ∀ cs, ∃ m1 f1 f2,
        DMap.edits fuel (m, m.flags) cs = .ok (m1, f1) ∧ m1.detectBasins fuel f1 = .ok f2 ∧
        (∀ c, ¬ Cycle m1.net (Alive m1.net f2) c) ∧ ∀ h a b, LiveRoute m1 f2 h a b ↔ LiveRoute m1 f1 h a b) := by
  obtain ⟨m, h8, hF, hl, hc⟩ := run_editable hE o order ho rebuild
  refine ⟨m, h8, fun hS hH fuel hfuel cs => ?_⟩
  obtain ⟨m1, f1, h1⟩ := edits_return hF hl hfuel cs
  have e1 := edited_edits hl cs h1
  have hN1 := e1.ok (hc hS hH)
  obtain ⟨f2, g1, g2⟩ := basin_spec hN1 (fuel := fuel) (e1.fuel hfuel)
  exact ⟨m1, f1, f2, h1, g1, g2.acyclic, fun h a b => detect_routes hN1 g1 g2 h a b⟩

/-- C125 fails: the order counts, on every raster. Suppose that two summits of a saddle have a way round it before detection, and
that detection leaves the saddle. If the saddle is deleted before detection, the way round stays. If it is deleted
afterwards, the two summits are separated at every height, and nothing that can be done connects them again:
detection had taken the way round for superfluous. -/
theorem C125_order_refuted (E : SaddleEnv) (hE : RunOk E) (o : Pt → Oracle) (order : List Pt) (ho : IsScan E.d order)
    (rebuild : Bool) : ∃ m, DMap.runSparse E o order rebuild = .ok m ∧ (SummitsApart m.summits → LinkersPaired m →
      ∀ fuel, m.saddles.length + m.st.objs.length < fuel → ∃ f, DMap.run E o order rebuild fuel = .ok (m, f) ∧
        ∀ k a b h, a ≠ b → Linked m.net k a → Linked m.net k b → Alive m.net f (.summit a) → Alive m.net f (.saddle k) →
          ConnectedBy m.net (fun D => Alive m.net m.flags (.summit D))
            (fun j => j ≠ k ∧ Alive m.net m.flags (.saddle j) ∧ h ≤ m.net.elev (.saddle j)) a b →
          (∃ m1 f1, DMap.edits fuel (m, m.flags) [.delete k, .map .detect] = .ok (m1, f1) ∧ LiveRoute m1 f1 h a b) ∧
          ∀ ds, ∃ m1 f1, DMap.edits fuel (m, f) (.delete k :: ds) = .ok (m1, f1) ∧ ∀ h', ¬ LiveRoute m1 f1 h' a b) := by
  obtain ⟨m, h8, hF, hl, hc⟩ := run_editable hE o order ho rebuild
  refine ⟨m, h8, fun hS hH fuel hfuel => ?_⟩
  have hN := hc hS hH
  obtain ⟨f, g1, g2⟩ := basin_spec hN (show m.saddles.length + m.net.nSaddles < fuel from hfuel)
  have eF := edited_detect hl (show m.detectBasins fuel m.flags = .ok f from g1)
  refine ⟨f, ?_, fun k a b h hab la lb ha hk hw => ⟨?_, fun ds => ?_⟩⟩
  · unfold DMap.run
    rw [h8]
    dsimp only [bind, Except.bind]
    rw [show m.detectBasins fuel m.flags = .ok f from g1]
    rfl
  · have ed := edited_delete m.flags hl k
    have hN2 := ed.ok hN
    obtain ⟨f1, d1, d2⟩ := basin_spec hN2 (fuel := fuel) (ed.fuel hfuel)
    refine ⟨(m.softDelete m.flags k).1, f1, ?_, (detect_routes hN2 d1 d2 h a b).2 ?_⟩
    · unfold DMap.edits DMap.edit
      dsimp only
      unfold DMap.edits DMap.edit DMap.call
      dsimp only
      rw [show (m.softDelete m.flags k).1.detectBasins fuel (m.softDelete m.flags k).2 = .ok f1 from d1]
      rfl
    · unfold LiveRoute
      rw [ed.net]
      refine conn_mono (fun D hD => hD) (fun j hj => ⟨⟨fun ho => hj.2.1.1 ?_, hj.2.1.2⟩, hj.2.2⟩) hw
      obtain ⟨c1, c2, c3, _⟩ := culls_flags [k] (m, m.flags)
      have e1 : (m.softDelete m.flags k).2.basin = m.flags.basin := c1
      have e2 : (m.softDelete m.flags k).2.single = m.flags.single := c2
      have e3 : (m.softDelete m.flags k).2.over j = if j ∈ [k] then some true else m.flags.over j := c3 j
      unfold SaddleOut at ho
      rw [e1, e2, e3, if_neg (by simpa using hj.1)] at ho
      exact ho
  · obtain ⟨m2, f2, h2⟩ := edits_return (eF.fin hF) eF.whole (eF.fuel hfuel) (.delete k :: ds)
    refine ⟨m2, f2, h2, fun h' hr => ?_⟩
    have et := edited_edits eF.whole _ h2
    have hko := (C125_deleted m f eF.whole fuel k ds m2 f2 h2).1
    unfold LiveRoute at hr
    rw [et.net] at hr
    obtain ⟨l, c1, c2⟩ := bypass_cycle_by (k := k) (show Alive m.net f2 (.summit a) from ha)
      (fun hp => hp.1.1 hko) hab la lb hr
    refine g2.acyclic _ { c1 with mem := fun n hn => ?_ }
    rcases List.mem_cons.1 hn with rfl | hn
    · exact hk
    · have := c2 n hn
      cases n with
      | summit D => exact this
      | saddle j => exact et.alive (.saddle j) this.1

/-- The crater (it meets the conditions, see C28): its four saddles are a ring, so that there is a way round each, and detection
takes out the lowest, 9. Of the saddle 8 one can go round over 9, 11 and 10. -/
example : (exFull exCrater false 17).toOption.map (fun r => (r.1.saddles, liveSaddles r.1 r.2, r.1.saddles.map fun k =>
      (r.1.st.sadLinks k).map fun i => (r.1.net.link i).1)) =
    some ([8, 9, 10, 11], [8, 10, 11], [[1, 0], [0, 2], [1, 3], [3, 2]]) := by decide +kernel

/-- Deleted before detection, 8 is replaced by 9; deleted afterwards it is not, and purging then removes 9. -/
example : ((exMap exCrater false).toOption.bind fun m =>
      (DMap.edits 17 (m, m.flags) [.delete 8, .map .detect]).toOption.map fun r => liveSaddles r.1 r.2) = some [9, 10, 11] ∧
    ((exFull exCrater false 17).toOption.bind fun r =>
      (DMap.edits 17 r [.delete 8, .map .detect, .map (.purge true true true), .emancipate 10, .disown 11]).toOption.map fun r =>
        (r.1.saddles, liveSaddles r.1 r.2)) = some ([8, 10, 11], [10, 11]) := by decide +kernel

set_option synthInstance.maxSize 1000 in
/-- The way round the saddle 8 before detection. -/
example : ∃ m, exMap exCrater false = .ok m ∧ ConnectedBy m.net (fun D => Alive m.net m.flags (.summit D))
    (fun j => j ≠ 8 ∧ Alive m.net m.flags (.saddle j) ∧ 2 ≤ m.net.elev (.saddle j)) 0 1 := by
  have h : (exMap exCrater false).toOption.map (fun m => ((m.st.sadLinks 9, m.st.sadLinks 10, m.st.sadLinks 11),
      (m.net.link 2, m.net.link 3, m.net.link 4, m.net.link 5, m.net.link 6, m.net.link 7),
      (List.range 4).map (fun D => m.net.dead m.flags (.summit D)), [9, 10, 11].map fun k =>
        (m.net.dead m.flags (.saddle k), decide (2 ≤ m.net.elev (.saddle k))))) =
      some (([2, 3], [4, 5], [6, 7]), ((0, 9), (2, 9), (1, 10), (3, 10), (3, 11), (2, 11)),
        [false, false, false, false], [(false, true), (false, true), (false, true)]) := by decide +kernel
  cases hm : exMap exCrater false with
  | error e => rw [hm] at h; cases h
  | ok m =>
    rw [hm] at h
    simp only [Except.toOption, Option.map_some, Option.some.injEq, Prod.mk.injEq, List.map_cons, List.map_nil, List.cons.injEq,
      decide_eq_true_eq] at h
    obtain ⟨⟨l9, l10, l11⟩, ⟨k2, k3, k4, k5, k6, k7⟩, hs, ⟨d9, e9⟩, ⟨d10, e10⟩, ⟨d11, e11⟩, _⟩ := h
    have hs : ∀ D < 4, m.net.dead m.flags (.summit D) = false := by
      intro D hD
      have := List.mem_map_of_mem (f := fun D => m.net.dead m.flags (.summit D)) (List.mem_range.2 hD)
      rw [hs] at this
      simpa using this
    have al : ∀ n, m.net.dead m.flags n = false → Alive m.net m.flags n := fun n hn => (alive_iff _ _ _).1 hn
    refine ⟨m, rfl, .tail (.tail (.tail .refl ⟨al _ (hs 0 (by decide)), al _ (hs 2 (by decide)), 9, ?_, ?_, ?_⟩)
      ⟨al _ (hs 2 (by decide)), al _ (hs 3 (by decide)), 11, ?_, ?_, ?_⟩)
      ⟨al _ (hs 3 (by decide)), al _ (hs 1 (by decide)), 10, ?_, ?_, ?_⟩⟩
    · exact ⟨by decide, al _ d9, e9⟩
    · exact ⟨2, by show 2 ∈ m.st.sadLinks 9; rw [l9]; simp, by rw [k2]⟩
    · exact ⟨3, by show 3 ∈ m.st.sadLinks 9; rw [l9]; simp, by rw [k3]⟩
    · exact ⟨by decide, al _ d11, e11⟩
    · exact ⟨7, by show 7 ∈ m.st.sadLinks 11; rw [l11]; simp, by rw [k7]⟩
    · exact ⟨6, by show 6 ∈ m.st.sadLinks 11; rw [l11]; simp, by rw [k6]⟩
    · exact ⟨by decide, al _ d10, e10⟩
    · exact ⟨5, by show 5 ∈ m.st.sadLinks 10; rw [l10]; simp, by rw [k5]⟩
    · exact ⟨4, by show 4 ∈ m.st.sadLinks 10; rw [l10]; simp, by rw [k4]⟩

end PyProm
