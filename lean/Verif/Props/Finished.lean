import Verif.Props.TileProminence
import Verif.Props.Errors

/-
C116 and C117 for maps after basin detection.
-/
namespace PyProm
open Spec

/-- On ground that does not reach the border, the finished map shows whether one gets to higher ground. -/
theorem run_escapes_iff (E : SaddleEnv) (hE : RunOk E) (o : Pt → Oracle) (order : List Pt) (ho : IsScan E.d order) (rebuild : Bool) :
    ∃ m sites, DMap.runSparse E o order rebuild = .ok m ∧ SummitsAt E.d sites m.summits ∧ (SummitsApart m.summits →
      ∀ fuel, m.saddles.length + m.st.objs.length < fuel → ∃ f, DMap.run E o order rebuild fuel = .ok (m, f) ∧
        ∀ (a : Nat) (p : Pt) (h : Rat), sites[a]? = some p → InlandAt E.d h p →
          (Escapes E.d p h ↔ ∃ b, HigherSummit m a b ∧
            ConnectedBy m.net (fun _ => True) (fun k => ¬ SaddleOut f k ∧ h ≤ m.net.elev (.saddle k)) a b)) := by
  obtain ⟨m, sites, h2, h3, h4⟩ := C127_inland E hE o order ho rebuild
  refine ⟨m, sites, h2, h3, fun hS fuel hfuel => ?_⟩
  obtain ⟨f, f1, f2⟩ := h4 hS fuel hfuel
  refine ⟨f, f1, fun a p h ha hi => ⟨?_, fun ⟨b, g1, g2⟩ => run_escapes hE ho f1 h3 ha g1 g2⟩⟩
  rintro ⟨q, hq, hp⟩
  obtain ⟨b, q', hb, hpass⟩ := summit_of_cell h3 hp.symm.1
  refine ⟨b, ?_, (f2 h a b p q' ha hb hp.2.1 hi).2 (hp.trans (hpass.mono hp.symm.2.1))⟩
  obtain ⟨s, s1, s2⟩ := forall₂_getElem? h3.each hb
  obtain ⟨t, u1, u2⟩ := forall₂_getElem? h3.each ha
  refine ⟨t, s, u1, s1, ?_⟩
  rw [u2.located.2.2, s2.located.2.2]
  exact lt_of_lt_of_le hq hpass.symm.2.1

/-- C116 for finished maps: if according to the finished map of one raster a summit is separated from higher ones at the height `c`,
more than twice the error lower, and the ground around it down to `c` does not reach the border, then it has a counterpart in the
other raster, with a height that differs by at most the error, and no finished map of that raster connects the counterpart with a
higher summit over saddles higher by the error, whatever lies on its edge. -/
theorem C116_finished (E E' : SaddleEnv) (hE : RunOk E) (hE' : RunOk E') (o o' : Pt → Oracle) (order order' : List Pt)
    (ho : IsScan E.d order) (ho' : IsScan E'.d order') (rebuild rebuild' : Bool) (ε : Rat) (hn : Measures ε E.d E'.d) :
    ∃ m m' sites sites', DMap.runSparse E o order rebuild = .ok m ∧ DMap.runSparse E' o' order' rebuild' = .ok m' ∧
      SummitsAt E.d sites m.summits ∧ SummitsAt E'.d sites' m'.summits ∧ (SummitsApart m.summits →
      ∀ fuel, m.saddles.length + m.st.objs.length < fuel → ∃ f, DMap.run E o order rebuild fuel = .ok (m, f) ∧
        ∀ fuel' f', DMap.run E' o' order' rebuild' fuel' = .ok (m', f') →
        ∀ (a : Nat) (p : Pt) (c : Rat), sites[a]? = some p → c ≤ el E.d p - 2 * ε → InlandAt E.d c p →
          (∀ b, HigherSummit m a b →
            ¬ ConnectedBy m.net (fun _ => True) (fun k => ¬ SaddleOut f k ∧ c ≤ m.net.elev (.saddle k)) a b) →
          ∃ (a' : Nat) (p' : Pt), sites'[a']? = some p' ∧ Passable E'.d (c + ε) p p' ∧ |el E'.d p' - el E.d p| ≤ ε ∧
            ∀ h, c + ε ≤ h → ∀ b', HigherSummit m' a' b' →
              ¬ ConnectedBy m'.net (fun _ => True) (fun k => ¬ SaddleOut f' k ∧ h ≤ m'.net.elev (.saddle k)) a' b') := by
  obtain ⟨m, m', sites, sites', h1, h2, h3, h4, h5⟩ := C116_prominence E E' hE hE' o o' order order' ho ho' rebuild rebuild' ε hn
  obtain ⟨m1, s1, g1, g3, g4⟩ := run_escapes_iff E hE o order ho rebuild
  cases (g1.symm.trans h1 : Except.ok _ = Except.ok _)
  obtain rfl := sites_same hE.geo g3 h3
  obtain ⟨m1, s2, k1, k3, k4⟩ := C103_prominence E hE o order ho rebuild
  cases (k1.symm.trans h1 : Except.ok _ = Except.ok _)
  obtain rfl := sites_same hE.geo k3 h3
  obtain ⟨m1, s3, l1, l3, l4⟩ := C103_prominence E' hE' o' order' ho' rebuild'
  cases (l1.symm.trans h2 : Except.ok _ = Except.ok _)
  obtain rfl := sites_same hE'.geo l3 h4
  refine ⟨m, m', _, _, h1, h2, h3, h4, fun hS fuel hfuel => ?_⟩
  obtain ⟨f, f1, f2⟩ := g4 hS fuel hfuel
  refine ⟨f, f1, fun fuel' f' hf' a p c ha hc hi hsep => ?_⟩
  have hesc : ¬ Escapes E.d p c := by
    rw [f2 a p c ha hi]
    rintro ⟨b, b1, b2⟩
    exact hsep b b1 b2
  obtain ⟨a', p', e1, e2, e3, e4⟩ := h5 a p c ha hc (fun b hb hcon => hesc (((k4 a p ha).1 c).2 ⟨b, hb, hcon⟩))
  refine ⟨a', p', e1, e2, e3, fun h hh b' hb' hcon => ?_⟩
  obtain ⟨q, q1, q2⟩ := run_escapes hE' ho' hf' h4 e1 hb' hcon
  obtain ⟨b, b1, b2⟩ := ((l4 a' p' e1).1 (c + ε)).1 ⟨q, q1, q2.mono hh⟩
  exact e4 b b1 b2

/-- C117 for finished maps: two rasters that agree from a height upwards show the same key saddles in their finished maps above this
height, as far as the ground does not reach the border of either. -/
theorem C117_finished (h : Rat) (x y : Int) (E E' : SaddleEnv) (hE : RunOk E) (hE' : RunOk E') (t : AgreeAbove h x y E.d E'.d)
    (o o' : Pt → Oracle) (order order' : List Pt) (ho : IsScan E.d order) (ho' : IsScan E'.d order') (rebuild rebuild' : Bool) :
    ∃ m m' sites sites', DMap.runSparse E o order rebuild = .ok m ∧ DMap.runSparse E' o' order' rebuild' = .ok m' ∧
      SummitsAt E.d sites m.summits ∧ SummitsAt E'.d sites' m'.summits ∧
      (SummitsApart m.summits → SummitsApart m'.summits → ∀ fuel fuel', m.saddles.length + m.st.objs.length < fuel →
        m'.saddles.length + m'.st.objs.length < fuel' → ∃ f f', DMap.run E o order rebuild fuel = .ok (m, f) ∧
          DMap.run E' o' order' rebuild' fuel' = .ok (m', f') ∧
          ∀ (a b : Nat) (p q : Pt) (c : Rat), sites[a]? = some p → sites'[b]? = some q → h ≤ c → c ≤ el E.d p →
            Flat E'.d (moved x y p) q → InlandAt E.d c p → InlandAt E'.d c q → (KeyRead m f a c ↔ KeyRead m' f' b c)) := by
  obtain ⟨D, m, sites, k1, k2, k3, k4⟩ := run_keyRead E hE o order ho rebuild
  obtain ⟨D', m', sites', g1, g2, g3, g4⟩ := run_keyRead E' hE' o' order' ho' rebuild'
  refine ⟨m, m', sites, sites', k2, g2, k3, g3, fun hS hS' fuel fuel' hf hf' => ?_⟩
  obtain ⟨f, f1, f2⟩ := k4 hS fuel hf
  obtain ⟨f', f1', f2'⟩ := g4 hS' fuel' hf'
  refine ⟨f, f', f1, f1', fun a b p q c ha hb hc hp hfl hi hi' => ?_⟩
  rw [f2 a p c ha (clear_inland ho k1 hi), f2' b q c hb (clear_inland ho' g1 hi')]
  have hA : HillAt x y h E.d E'.d p q := ⟨(k3.top p (List.mem_of_getElem? ha)).1, le_trans hc hp, hfl⟩
  unfold KeyCol
  rw [hillAt_escapes t hA c hc]
  refine and_congr_right fun _ => ⟨fun g h' he => ?_, fun g h' he => ?_⟩
  · by_contra hlt
    exact hlt (g h' ((hillAt_escapes t hA h' (le_trans hc (le_of_lt (not_le.1 hlt)))).1 he))
  · by_contra hlt
    exact hlt (g h' ((hillAt_escapes t hA h' (le_trans hc (le_of_lt (not_le.1 hlt)))).2 he))

/-! ### Instances -/

/-- Cells around which everything else is lower hold the ground around each of them. -/
theorem ground_within {d : DataMap} {S : List Pt} {c : Rat}
    (hS : ∀ a ∈ S, ∀ x ∈ [(-1 : Int), 0, 1], ∀ y ∈ [(-1 : Int), 0, 1], c ≤ el d (a.1 + x, a.2 + y) → (a.1 + x, a.2 + y) ∈ S)
    {p : Pt} (hp : p ∈ S) (z : Pt) (hz : Passable d c p z) : z ∈ S := by
  obtain ⟨_, _, hx⟩ := hz
  induction hx with
  | refl => exact hp
  | @tail a b _ h1 ih =>
    obtain ⟨b1, b2⟩ := b
    have hb := h1.1
    unfold Adj at hb
    have := hS a ih (b1 - a.1) (by simp only [List.mem_cons, List.not_mem_nil, or_false]; omega) (b2 - a.2)
      (by simp only [List.mem_cons, List.not_mem_nil, or_false]; omega)
    simp only [add_sub_cancel] at this
    exact this h1.2.2

/-- Two measurements of one terrain which differ by one at most, and only below 3. -/
def exDry : DataMap := DataMap.ofRows [[0, 0, 0, 0, 0], [0, 6, 3, 9, 0], [0, 0, 0, 0, 0]]
@[inherit_doc exDry] def exWet : DataMap := DataMap.ofRows [[1, 1, 0, 0, 0], [0, 6, 3, 9, 1], [0, 1, 0, 1, 0]]

theorem exDry_inland : InlandAt exDry 3 (1, 1) ∧ InlandAt exWet 3 (1, 1) := by
  have b : ∀ z ∈ [((1, 1) : Pt), (1, 2), (1, 3)], ¬ Border exDry z ∧ ¬ Border exWet z := by unfold Border; decide +kernel
  exact ⟨fun z hz => (b z (ground_within (by decide +kernel) (by decide) z hz)).1,
    fun z hz => (b z (ground_within (by decide +kernel) (by decide) z hz)).2⟩

theorem exDry_data (p : Pt) : Data exWet p ↔ Data exDry p := by
  have b : InB exWet p ↔ InB exDry p := Iff.rfl
  constructor
  · exact fun h => ⟨b.1 h.1, by simp [exDry, DataMap.ofRows]⟩
  · exact fun h => ⟨b.2 h.1, by simp [exWet, DataMap.ofRows]⟩

/-- Instance of C116 and C117 for finished maps: the hypotheses hold for the lower hill, at (1, 1), which is alone at the
height 4. -/
example : AgreeAbove 3 0 0 exDry exWet ∧ Measures 1 exDry exWet ∧ (4 ≤ el exDry (1, 1) - 2 * 1 ∧ ¬ Escapes exDry (1, 1) 4) ∧
    InlandAt exDry 3 (1, 1) ∧ InlandAt exWet 3 (1, 1) ∧ RunOk (exRun exDry) ∧ RunOk (exRun exWet) ∧
    ∃ m m', DMap.runSparse (exRun exDry) (fun _ => exOracle) exDry.cells false = .ok m ∧
      DMap.runSparse (exRun exWet) (fun _ => exOracle) exWet.cells true = .ok m' ∧ SummitsApart m.summits ∧ SummitsApart m'.summits := by
  refine ⟨?_, ?_, ⟨by decide +kernel, ?_⟩, exDry_inland.1, exDry_inland.2, exRun_plain _ (by unfold maxsize; decide +kernel),
    exRun_plain _ (by unfold maxsize; decide +kernel), ?_⟩
  · have fin : ∀ p ∈ exDry.cells, (3 ≤ el exDry p ↔ 3 ≤ el exWet p) ∧ (3 ≤ el exDry p → el exWet p = el exDry p) := by decide +kernel
    have mv : ∀ p : Pt, moved 0 0 p = p := fun p => by unfold moved; simp
    refine ⟨fun p => ?_, fun p h1 h2 => ?_⟩
    · rw [mv, exDry_data]
      exact and_congr_right fun hp => (fin p ((mem_cells _ p).2 hp.1)).1
    · rw [mv]
      exact (fin p ((mem_cells _ p).2 h1.1)).2 h2
  · have fin : ∀ p ∈ exDry.cells, |el exWet p - el exDry p| ≤ 1 := by decide +kernel
    exact ⟨exDry_data, fun p hp => fin p ((mem_cells _ p).2 hp.1)⟩
  · rintro ⟨q, hq, hp⟩
    have := ground_within (S := [(1, 1)]) (by decide +kernel) (by decide) q hp
    rw [List.mem_singleton.1 this] at hq
    exact lt_irrefl _ hq
  · have h : (DMap.runSparse (exRun exDry) (fun _ => exOracle) exDry.cells false).toOption.map (fun m => decide (m.summits.map fun s =>
        (round6 s.lat, round6 s.lon, s.elevation)).Nodup) = some true := by decide +kernel
    have h' : (DMap.runSparse (exRun exWet) (fun _ => exOracle) exWet.cells true).toOption.map (fun m => decide (m.summits.map fun s =>
        (round6 s.lat, round6 s.lon, s.elevation)).Nodup) = some true := by decide +kernel
    cases hm : DMap.runSparse (exRun exDry) (fun _ => exOracle) exDry.cells false with
    | error e => rw [hm] at h; cases h
    | ok m =>
      cases hm' : DMap.runSparse (exRun exWet) (fun _ => exOracle) exWet.cells true with
      | error e => rw [hm'] at h'; cases h'
      | ok m' =>
        rw [hm] at h
        rw [hm'] at h'
        exact ⟨m, m', rfl, rfl, summitsApart_of_nodup (by simpa [Except.toOption] using h),
          summitsApart_of_nodup (by simpa [Except.toOption] using h')⟩

end PyProm
