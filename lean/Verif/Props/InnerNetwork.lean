import Verif.Proof.BasinInner
import Verif.Proof.DisqEdge
import Verif.Props.ContainerLists
import Verif.Props.RunBasin

/-
C29 on runs, over the saddles off the edge of the map; C30 and C137: one reason for each disqualified saddle.
-/
namespace PyProm
open Spec

/-- Before detection the live saddles of the map of a run that are off the edge are all saddles off the edge. -/
theorem run_alive {E : SaddleEnv} {o : Pt → Oracle} {order : List Pt} {rebuild : Bool} {m : DMap}
    (hm : DMap.runSparse E o order rebuild = .ok m) (k : Nat) :
    Alive m.net m.flags (.saddle k) ↔ m.net.edge (.saddle k) = false := by
  refine ⟨fun h => h.2, fun h => ⟨fun hout => ?_, h⟩⟩
  have hd : m.flags.over k = some true := hout.elim id fun h => by simp [DMap.flags] at h
  cases ho : m.st.objs[k]? with
  | none => simp [DMap.flags, ho] at hd
  | some ob =>
    have he := run_disqEdge hm k ob ho (by simpa [DMap.flags, ho] using hd)
    simp [DMap.net, DMap.feature, ho, he] at h

/-- C29 for complete runs, over the inside of the map (where it holds): two summits are connected over saddles off the edge of at least
some height exactly if they are so over those of these saddles that are not disqualified by the run, under the conditions of C28. -/
theorem C29_run_inner_partial (E : SaddleEnv) (hE : RunOk E) (o : Pt → Oracle) (order : List Pt) (ho : IsScan E.d order)
    (rebuild : Bool) :
    ∃ m, DMap.runSparse E o order rebuild = .ok m ∧ (SummitsApart m.summits → LinkersPaired m →
      ∀ fuel, m.saddles.length + m.st.objs.length < fuel → ∃ f, DMap.run E o order rebuild fuel = .ok (m, f) ∧
        ∀ (t : Rat) (a b : Nat),
          ConnectedBy m.net (fun _ => True)
            (fun k => f.saddleDisq k = false ∧ m.net.edge (.saddle k) = false ∧ t ≤ m.net.elev (.saddle k)) a b ↔
          ConnectedBy m.net (fun _ => True) (fun k => m.net.edge (.saddle k) = false ∧ t ≤ m.net.elev (.saddle k)) a b) := by
  obtain ⟨_, m0, m, sites, news, _, h8, h9, hL, _⟩ := run_links hE o order ho rebuild
  refine ⟨m, h8, fun hS hH fuel hf => ?_⟩
  obtain ⟨f, hf, hc⟩ := C29_off_edge_partial m.net m.saddles m.flags (h9.netOk hL hH hS) fuel hf
  refine ⟨f, ?_, fun t a b => ?_⟩
  · unfold DMap.run
    rw [h8]
    dsimp only [bind, Except.bind]
    rw [show m.detectBasins fuel m.flags = .ok f from hf]
    rfl
  · have e1 : (fun k => f.saddleDisq k = false ∧ m.net.edge (.saddle k) = false ∧ t ≤ m.net.elev (.saddle k)) =
        fun k => Alive m.net f (.saddle k) ∧ t ≤ m.net.elev (.saddle k) := by
      funext k
      rw [eq_iff_iff, ← and_assoc, ← Bool.not_eq_true, saddleDisq_iff]
      rfl
    have e2 : (fun k => m.net.edge (.saddle k) = false ∧ t ≤ m.net.elev (.saddle k)) =
        fun k => Alive m.net m.flags (.saddle k) ∧ t ≤ m.net.elev (.saddle k) := by
      funext k
      rw [run_alive h8]
    rw [e1, e2]
    exact hc t a b

set_option synthInstance.maxSize 1000 in
/-- Instance: the crater (which meets the conditions, Props/RunBasin.lean) has four saddles in a ring, all off the edge; the lowest is
disqualified, and its summits 0 and 2 stay connected over the three others. -/
example : (exFull exCrater false 99).toOption.map (fun r => (r.1.saddles.map fun k => r.1.net.edge (.saddle k),
    r.1.saddles.map fun k => r.2.saddleDisq k, r.1.saddles.map fun k => r.1.net.nbrs (.saddle k),
    r.1.saddles.map fun k => r.1.net.elev (.saddle k))) =
    some ([false, false, false, false], [false, true, false, false],
      [[.summit 1, .summit 0], [.summit 0, .summit 2], [.summit 1, .summit 3], [.summit 3, .summit 2]], [3, 2, 4, 5]) := by
  decide +kernel

/-- C30, on every network: basin detection marks saddles only that are off the edge, are not disqualified by hand, and (unless exempted
by hand) are not single-source. -/
theorem C30_inner (N : FNet) (saddles : List Nat) (f f' : Flags) (fuel : Nat) (h : disqualifyBasinSaddles N fuel saddles f = .ok f') :
    ∀ j, f'.basin j = true → f.basin j = true ∨
      (N.edge (.saddle j) = false ∧ f.over j ≠ some true ∧ (f.over j = none → f'.single j = false)) := by
  intro j hj
  have h1 := stubPass_spec N (basinFeatures N saddles) f
  have hm := basins_marked h
  have h2 := basinLoop_inner (f := stubPass N (basinFeatures N saddles) f) fuel _ f' _ (.refl _ _) (fun _ hb => .inl hb)
    (show basinLoop N fuel (stubPass N (basinFeatures N saddles) f) (basinFeatures N saddles) = .ok f' from h) j hj
  rw [h1.2.1] at h2
  refine h2.imp id fun h3 => ⟨h3.1, ?_⟩
  have h4 := h3.2 j rfl
  rw [h1.1] at h4
  rw [hm.single]
  exact h4

/-- C137, reasons after a complete run: a saddle of the map is disqualified exactly if it is on the edge, single-source or a basin saddle,
and no two of these hold of the same saddle. -/
theorem C137_reasons (E : SaddleEnv) (hE : RunOk E) (o : Pt → Oracle) (order : List Pt) (ho : IsScan E.d order) (rebuild : Bool) :
    ∃ m, DMap.runSparse E o order rebuild = .ok m ∧ ∀ fuel, m.saddles.length + m.st.objs.length < fuel →
      ∃ f, DMap.run E o order rebuild fuel = .ok (m, f) ∧ ∀ k ∈ m.saddles,
        (f.saddleDisq k = true ↔ m.net.edge (.saddle k) = true ∨ f.single k = true ∨ f.basin k = true) ∧
        ¬ (m.net.edge (.saddle k) = true ∧ f.single k = true) ∧ ¬ (m.net.edge (.saddle k) = true ∧ f.basin k = true) ∧
        ¬ (f.single k = true ∧ f.basin k = true) := by
  obtain ⟨m, h1, h2⟩ := C31_inner E hE o order ho rebuild
  obtain ⟨m', h5, h6⟩ := C137_disqualified E hE o order ho rebuild
  cases (h1.symm.trans h5 : Except.ok _ = Except.ok _)
  refine ⟨m, h1, fun fuel hf => ?_⟩
  obtain ⟨f, h3, h4⟩ := h2 fuel hf
  obtain ⟨f', h7, _, h8, _⟩ := h6 fuel hf
  cases (h3.symm.trans h7 : Except.ok _ = Except.ok _)
  refine ⟨f, h3, fun k hk => ?_⟩
  obtain ⟨m', r1, h9⟩ := bind_ok h3
  obtain ⟨f', r2, h9⟩ := bind_ok h9
  cases h9
  have hb : f.basin k = true → m.net.edge (.saddle k) = false ∧ f.single k = false := fun hb => by
    rcases C30_inner m.net m.saddles m.flags f fuel (show disqualifyBasinSaddles m.net fuel m.saddles m.flags = .ok f from r2) k hb with
      hc | ⟨e1, e2, e3⟩
    · simp [DMap.flags] at hc
    · refine ⟨e1, Bool.eq_false_iff.2 fun hs => ?_⟩
      have hn : m.flags.over k = none := by
        obtain ⟨_, _, m', _, _, _, w8, w9, _⟩ := run_links hE o order ho rebuild
        cases (h1.symm.trans w8 : Except.ok _ = Except.ok _)
        have := w9.netFin.over k
        rcases hq : m.flags.over k with _ | _ | _
        · rfl
        · exact absurd hq this
        · exact absurd hq e2
      rw [e3 hn] at hs
      cases hs
  have hd := h8 k
  unfold DMap.disqualifiedSaddles at hd
  rw [List.mem_filter, and_iff_right hk, and_iff_right hk] at hd
  have hs := h4 k
  rw [and_iff_right hk] at hs
  refine ⟨?_, fun h => ?_, fun h => ?_, fun h => ?_⟩
  · rw [hd, hs]
    cases m.net.edge (.saddle k) <;> simp
  · rw [(hs.1 h.2).1] at h; cases h.1
  · rw [(hb h.2).1] at h; cases h.1
  · rw [(hb h.2).2] at h; cases h.1

set_option synthInstance.maxSize 1000 in
/-- Instance of `C30_inner` and `C137_reasons`: disqualified, on the edge, single-source, basin saddle, on a map with a basin saddle and
a saddle on the edge, and on one with a single-source saddle. -/
example : RunOk (exRun (DataMap.ofRows exBorder)) ∧ (exFull exBorder false 99).toOption.map (fun r => r.1.saddles.map fun k =>
      (r.2.saddleDisq k, r.1.net.edge (.saddle k), r.2.single k, r.2.basin k)) =
    some [(false, false, false, false), (true, false, false, true), (true, true, false, false), (false, false, false, false),
      (false, false, false, false)] ∧
    (exFull exLoopRidge false 99).toOption.map (fun r => r.1.saddles.map fun k =>
      (r.2.saddleDisq k, r.1.net.edge (.saddle k), r.2.single k, r.2.basin k)) =
    some [(true, false, true, false), (false, false, false, false)] :=
  ⟨exRun_plain _ (by unfold maxsize; decide +kernel), by decide +kernel, by decide +kernel⟩

end PyProm
