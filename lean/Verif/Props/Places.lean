import Verif.Proof.Places
import Verif.Proof.Faithful
import Verif.Props.Run

/-
C99: the raster has the height of a feature at its coordinates. C100: features lie within the extent
of the map.
-/
namespace PyProm
open Spec

/-! ### C99 -/

theorem Spec.OnLevel.lookup {d : DataMap} (hg : Findable d) {f : Feature} (h : OnLevel d f) :
    d.elevation f.lat f.lon = some f.elevation := by
  obtain ⟨q, hq, ⟨h1, h2⟩, h3⟩ := h
  unfold DataMap.elevation
  rw [h1, h2, hg q hq, ← h3]
  obtain ⟨a, b, c, e⟩ := hq
  simp only [Option.bind_some, DataMap.get, npIndex]
  rw [if_pos ⟨a, b⟩, if_pos ⟨c, e⟩]

/-- C99 for everything discovery finds: looking up the coordinates of a summit, saddle, runoff or corner
runoff in the raster gives its elevation. -/
theorem C99_found_partial (d : DataMap) (hg : Findable d) (o : Pt → Oracle) (order : List Pt)
    (ho : IsScan d order) : ∃ D cs, analyze d o order = .ok D ∧ makeCornerRunoffs d = .ok cs ∧
      ∀ f ∈ D.summits ++ D.saddles ++ D.runoffs ++ cs, d.elevation f.lat f.lon = some f.elevation := by
  obtain ⟨_, _, _, h⟩ := analyze_spec d o order ho
  obtain ⟨cs, hc, _⟩ := corner_featOk d
  refine ⟨_, cs, h, hc, fun f hf => ?_⟩
  rcases List.mem_append.1 hf with hf | hf
  · exact (analyze_places ho h f hf).1.lookup hg
  · exact (corner_places hc f hf).1.lookup hg

/-- C99 for saddles made from others, by rebuilding and by the walk: it holds for all saddles and runoffs of
the map if the areas of the saddles found are level (which they are off the border, C15) and no path has to
be searched to place a saddle: either all saddles are rebuilt and none is an edge saddle, or no saddle with
two high neighbourhoods has an area. -/
theorem C99_made_partial {E : SaddleEnv} (hE : RunOk E) (o : Pt → Oracle) (order : List Pt)
    (ho : IsScan E.d order) (rebuild : Bool) {D : Discovered} (hD : analyze E.d o order = .ok D)
    (hl : ∀ f ∈ D.saddles, LevelArea E.d f)
    (hs : (rebuild = true ∧ ∀ f ∈ D.saddles, f.edge = false) ∨
      ∀ f ∈ D.saddles, f.hpn.length = 2 → f.multipoint = none) {m : DMap}
    (hm : DMap.runSparse E o order rebuild = .ok m) :
    ∀ k ∈ m.saddles ++ m.runoffs, ∀ o, m.st.objs[k]? = some o →
      E.d.elevation o.f.lat o.f.lon = some o.f.elevation := by
  obtain ⟨D', cs, m0, sites, h1, h2, h3, hf, _, hfrom, _⟩ := discover_spec hE.fc o order ho rebuild
  cases (hD.symm.trans h1 : Except.ok _ = Except.ok _)
  let R : Rat → Pt → Prop := fun e q => InB E.d q ∧ E.d.cell q.1 q.2 = e
  have hplace : ∀ f ∈ D.saddles ++ (D.runoffs ++ cs), Placed R E.d f := by
    have hat : ∀ f, OnLevel E.d f → ∃ q, R f.elevation q ∧ AtCell E.d q f :=
      fun f ⟨q, a, b, c⟩ => ⟨q, ⟨a, c⟩, b⟩
    intro f hf
    rcases List.mem_append.1 hf with hf | hf
    · exact ⟨hat f (analyze_places ho hD f (by simp [hf])).1, hl f hf⟩
    · rcases List.mem_append.1 hf with hf | hf
      · refine ⟨hat f (analyze_places ho hD f (by simp [hf])).1, ?_⟩
        obtain ⟨D', d1, d2, _⟩ := C15_level_partial E.d o order ho
        cases (hD.symm.trans d1 : Except.ok _ = Except.ok _)
        exact fun pts hpts mm hmm => ⟨(d2 f (by simp [hf]) pts hpts mm hmm).1.1, (d2 f (by simp [hf]) pts hpts mm hmm).2⟩
      · obtain ⟨c1, c2⟩ := corner_places h2 f hf
        exact ⟨hat f c1, fun pts hpts => by rw [c2] at hpts; cases hpts⟩
  have hall := discover_placed hD h2 h3 hplace
  unfold DMap.runSparse at hm
  obtain ⟨m0', h3', hm⟩ := bind_ok hm
  cases (h3.symm.trans h3' : Except.ok _ = Except.ok _)
  obtain ⟨⟨m', r⟩, h4, hm⟩ := bind_ok hm
  cases hm
  have hg := walk_grows (P := Placed R E.d) h4 (fun k hk => by
    rcases List.mem_append.1 hk with hk | hk
    · obtain ⟨ok, hok, _⟩ := hf.sad k hk
      have hpl := hall ok (List.mem_of_getElem? hok)
      refine ⟨ok, hok, fun _ => breeds_placed hpl (fun hlen ⟨p, ps, hmp⟩ => ?_), fun c => ?_⟩
      · have hno : ok.f.hpn.length = 2 → ok.f.multipoint = none := by
          unfold FromSaddles at hfrom
          cases rebuild with
          | false =>
            have hs := hs.resolve_left (by simp)
            rw [if_neg (by simp)] at hfrom
            obtain ⟨f, hfm, e⟩ := forall₂_mem_right hfrom hk
            rw [hok] at e
            cases e
            exact hs f hfm
          | true =>
            rw [if_pos rfl] at hfrom
            obtain ⟨news, e1, e2⟩ := hfrom
            rw [e1] at hk
            obtain ⟨new, hnew, hkn⟩ := List.mem_flatten.1 hk
            obtain ⟨⟨f, i⟩, hfi, ids, _, _, a3, a4⟩ := forall₂_mem_right e2 hnew
            have hfD : f ∈ D.saddles := by
              obtain ⟨_, _, e⟩ := List.mem_zipIdx hfi
              exact e ▸ List.getElem_mem _
            have hids : k ∈ ids → ok.f.hpn.length = 2 → ok.f.multipoint = none := by
              intro hk _
              obtain ⟨o', b1, b2, _⟩ := a3 k hk
              rw [hok] at b1
              cases b1
              exact b2.mp
            dsimp only at a4
            split at a4
            · rename_i he
              rcases hs with ⟨_, hs⟩ | hs
              · rw [hs f hfD] at he; cases he
              · rw [a4.1, List.mem_append] at hkn
                rcases hkn with c | c
                · exact hids c
                · rw [List.mem_singleton.1 c, a4.2] at hok
                  cases hok
                  exact hs f hfD
            · rw [a4.1] at hkn
              exact hids hkn
        rw [hno hlen] at hmp
        cases hmp
      · obtain ⟨o2, e2, c2⟩ := hf.sad k hk
        rw [hok] at e2
        cases e2
        rw [c2] at c
        cases c
    · obtain ⟨ok, hok, c1, c2⟩ := hf.run k hk
      exact ⟨ok, hok, fun c => absurd c1 c, fun _ => c2⟩)
  intro k hk ok hok
  obtain ⟨⟨q, ⟨q1, q2⟩, q3⟩, _⟩ := hg.2 hall ok (List.mem_of_getElem? hok)
  exact Spec.OnLevel.lookup hE.geo ⟨q, q1, q3, q2⟩

/-- A flat gateway along the border between two peaks. -/
def exGate : List (List Rat) :=
  [[1, 1, 5, 5, 5, 5, 5, 5, 5, 1, 1],
   [1, 1, 5, 1, 1, 1, 1, 1, 5, 1, 1],
   [1, 1, 5, 1, 1, 1, 1, 1, 5, 1, 1],
   [1, 1, 5, 9, 1, 1, 1, 9, 5, 1, 1],
   [1, 1, 1, 1, 1, 1, 1, 1, 1, 1, 1]]

/-- C99 fails for saddles made from a saddle on the border: their place is chosen among the area *and* the
high points around it (C15). Here the only saddle of the map, of elevation 5, is reported at the summit of
height 9. -/
theorem C99_border_refuted : ∃ (E : SaddleEnv) (o : Pt → Oracle) (order : List Pt) (m : DMap) (k : Nat) (s : SObj),
    RunOk E ∧ IsScan E.d order ∧ DMap.runSparse E o order true = .ok m ∧ m.saddles = [k] ∧
    m.st.objs[k]? = some s ∧ s.f.elevation = 5 ∧ E.d.elevation s.f.lat s.f.lon = some 9 := by
  have h : (exMap exGate true).toOption.map (fun m => m.saddles.map fun k => (m.st.objs[k]?.map fun s =>
      (s.f.elevation, (DataMap.ofRows exGate).elevation s.f.lat s.f.lon))) = some [some (5, some 9)] := by
    decide +kernel
  cases hm : exMap exGate true with
  | error e => rw [hm] at h; cases h
  | ok m =>
    rw [hm] at h
    simp only [Except.toOption, Option.map_some, Option.some.injEq] at h
    obtain ⟨k, hk⟩ := List.length_eq_one_iff.1 (by simpa using congrArg List.length h : m.saddles.length = 1)
    · rw [hk] at h
      simp only [List.map_cons, List.map_nil, List.cons.injEq, and_true, Option.map_eq_some_iff, Prod.mk.injEq] at h
      obtain ⟨s, h1, h2, h3⟩ := h
      exact ⟨exRun (DataMap.ofRows exGate), fun _ => exOracle, (DataMap.ofRows exGate).cells, m, k, s,
        exRun_plain _ (by unfold maxsize; decide +kernel), isScan_cells _, hm, hk, h1, h2, h3⟩

/-- Two peaks and a low gap, no flat areas: the hypotheses of `C99_made_partial` are met with one saddle. -/
example : ∃ D, analyze (DataMap.ofRows exRows) (fun _ => exOracle) (DataMap.ofRows exRows).cells = .ok D ∧
    (D.saddles.map fun f => (f.elevation, f.hpn.length)) = [(3, 2)] ∧
    (∀ f ∈ D.saddles, LevelArea (DataMap.ofRows exRows) f) ∧ ∀ f ∈ D.saddles, f.hpn.length = 2 → f.multipoint = none := by
  have h : (analyze (DataMap.ofRows exRows) (fun _ => exOracle) (DataMap.ofRows exRows).cells).toOption.map
      (fun D => D.saddles.map fun f => ((f.elevation, f.hpn.length), f.multipoint)) = some [((3, 2), none)] := by
    decide +kernel
  cases hD : analyze (DataMap.ofRows exRows) (fun _ => exOracle) (DataMap.ofRows exRows).cells with
  | error e => rw [hD] at h; cases h
  | ok D =>
    rw [hD] at h
    simp only [Except.toOption, Option.map_some, Option.some.injEq] at h
    have hn : ∀ f ∈ D.saddles, f.multipoint = none := by
      intro f hf
      have := List.mem_map_of_mem (f := fun f : Feature => ((f.elevation, f.hpn.length), f.multipoint)) hf
      rw [h, List.mem_singleton] at this
      exact congrArg (fun z => z.2) this
    refine ⟨D, rfl, ?_, fun f hf pts hp => ?_, fun f hf _ => hn f hf⟩
    · have := congrArg (List.map Prod.fst) h
      simpa using this
    · rw [hn f hf] at hp; cases hp

/-! ### C100 -/

/-- The four corners of a raster, which a DomainMap reports as its extent (domain_map.py:83-87). -/
def extentCorners (d : DataMap) : List (Rat × Rat) := [d.lowerLeft, d.lowerRight, d.upperLeft, d.upperRight]

/-- A linear expression in two numbers of `0..X` and `0..Y`, rounded or not, is between its values at the corners. -/
theorem linear_between {fl : Rat → Rat} (hm : Monotone fl) {X Y : Nat} {x y : Int} (hx : 0 ≤ x ∧ x ≤ (X : Int))
    (hy : 0 ≤ y ∧ y ≤ (Y : Int)) (c a b : Rat) (F : Int → Int → Rat)
    (hF : ∀ x y, F x y = fl (fl (c + fl (y * a)) + fl (x * b))) :
    (F X 0 ≤ F x y ∨ F X Y ≤ F x y ∨ F 0 0 ≤ F x y ∨ F 0 Y ≤ F x y) ∧
    (F x y ≤ F X 0 ∨ F x y ≤ F X Y ∨ F x y ≤ F 0 0 ∨ F x y ≤ F 0 Y) := by
  have x0 : (0 : Rat) ≤ x := by exact_mod_cast hx.1
  have y0 : (0 : Rat) ≤ y := by exact_mod_cast hy.1
  have x1 : (x : Rat) ≤ X := by exact_mod_cast hx.2
  have y1 : (y : Rat) ≤ Y := by exact_mod_cast hy.2
  have mono : ∀ x y x' y' : Int, (y : Rat) * a ≤ y' * a → (x : Rat) * b ≤ x' * b → F x y ≤ F x' y' := by
    intro x y x' y' h1 h2
    rw [hF, hF]
    exact hm (add_le_add (hm (add_le_add_right (hm h1) c)) (hm h2))
  rcases le_total 0 a with ha | ha <;> rcases le_total 0 b with hb | hb
  · refine ⟨.inr (.inr (.inl (mono _ _ _ _ ?_ ?_))), .inr (.inl (mono _ _ _ _ ?_ ?_))⟩ <;> push_cast <;> nlinarith
  · refine ⟨.inl (mono _ _ _ _ ?_ ?_), .inr (.inr (.inr (mono _ _ _ _ ?_ ?_)))⟩ <;> push_cast <;> nlinarith
  · refine ⟨.inr (.inr (.inr (mono _ _ _ _ ?_ ?_))), .inl (mono _ _ _ _ ?_ ?_)⟩ <;> push_cast <;> nlinarith
  · refine ⟨.inr (.inl (mono _ _ _ _ ?_ ?_)), .inr (.inr (.inl (mono _ _ _ _ ?_ ?_)))⟩ <;> push_cast <;> nlinarith

theorem Spec.OnMap.between {d : DataMap} (hm : Monotone d.fl) {f : Feature} (h : OnMap d f) :
    Between (extentCorners d) f.lat f.lon := by
  obtain ⟨q, ⟨h1, h2, h3, h4⟩, e1, e2⟩ := h
  obtain ⟨a1, a2⟩ := linear_between hm ⟨h1, h2⟩ ⟨h3, h4⟩ d.gt3 d.gt4 d.gt5 (fun x y => latOf d (x, y)) fun _ _ => rfl
  obtain ⟨b1, b2⟩ := linear_between hm ⟨h1, h2⟩ ⟨h3, h4⟩ d.gt0 d.gt1 d.gt2 (fun x y => lonOf d (x, y)) fun _ _ => rfl
  have e1' : f.lat = latOf d (q.1, q.2) := e1
  have e2' : f.lon = lonOf d (q.1, q.2) := e2
  simp only [Between, extentCorners, List.mem_cons, List.not_mem_nil, or_false, exists_eq_or_imp, exists_eq_left]
  rw [e1', e2']
  exact ⟨⟨a1, a2⟩, b1, b2⟩

/-- The nodes of the paths searched inside a saddle are cells of its area and high points around it. -/
def PathsInside (E : SaddleEnv) : Prop :=
  ∀ f, ∀ u ∈ f.hpn.flatten, ∀ t ∈ f.hpn.flatten, ∀ n ∈ (E.find f u t).nodes,
    (∃ pts, f.multipoint = some pts ∧ n ∈ pts) ∨ ∃ p ∈ f.hpn.flatten, n = MPt.ofP3 p

theorem discover_onMap {d : DataMap} {fc : PairSearch} {o : Pt → Oracle} {order : List Pt} (ho : IsScan d order)
    {rebuild : Bool} {D : Discovered} {cs : List Feature} {m : DMap} (h1 : analyze d o order = .ok D)
    (h2 : makeCornerRunoffs d = .ok cs) (h3 : DMap.discover d fc o order rebuild = .ok m) :
    AllF (Placed (fun _ q => InB d q) d) m.st.objs :=
  discover_placed (R := fun _ q => InB d q) h1 h2 h3 (fun f hf => by
    rcases List.mem_append.1 hf with hf | hf
    · obtain ⟨⟨q, a, b, _⟩, _, c⟩ := analyze_places ho h1 f (by simp [hf])
      exact ⟨⟨q, a, b⟩, c⟩
    · rcases List.mem_append.1 hf with hf | hf
      · obtain ⟨⟨q, a, b, _⟩, _, c⟩ := analyze_places ho h1 f (by simp [hf])
        exact ⟨⟨q, a, b⟩, c⟩
      · obtain ⟨⟨q, a, b, _⟩, c⟩ := corner_places h2 f hf
        exact ⟨⟨q, a, b⟩, fun pts hpts => by rw [c] at hpts; cases hpts⟩)

/-- C100 after discovery and rebuilding: every summit, saddle and runoff of the map is at a cell of the
raster, so between the corners of the extent of the map, also if the raster is rotated, and with any
rounding that keeps the order of numbers. -/
theorem C100_discovered (d : DataMap) (hr : Monotone d.fl) {fc : PairSearch} (hfc : PairOk d fc) (o : Pt → Oracle) (order : List Pt)
    (ho : IsScan d order) (rebuild : Bool) : ∃ m, DMap.discover d fc o order rebuild = .ok m ∧
      ∀ f ∈ m.summits ++ m.st.objs.map SObj.f, OnMap d f ∧ Between (extentCorners d) f.lat f.lon := by
  obtain ⟨D, cs, m, sites, h1, h2, h3, hf, hsum, _, _⟩ := discover_spec hfc o order ho rebuild
  refine ⟨m, h3, fun f hf' => ?_⟩
  have : OnMap d f := by
    rcases List.mem_append.1 hf' with c | c
    · rw [hsum] at c
      obtain ⟨q, a, b, _⟩ := (analyze_places ho h1 f (by simp [c])).1
      exact ⟨q, a, b⟩
    · obtain ⟨ob, hob, rfl⟩ := List.mem_map.1 c
      exact (discover_onMap ho h1 h2 h3 ob hob).1
  exact ⟨this, this.between hr⟩

/-- C100 after the walk: every summit, saddle and runoff, found or made, is at a cell of the raster and
between the corners of the extent. -/
theorem C100_walked {E : SaddleEnv} (hE : RunOk E) (hr : Monotone E.d.fl) (hp : PathsInside E) (o : Pt → Oracle) (order : List Pt)
    (ho : IsScan E.d order) (rebuild : Bool) {m : DMap} (hm : DMap.runSparse E o order rebuild = .ok m) :
    ∀ f ∈ m.summits ++ m.st.objs.map SObj.f, OnMap E.d f ∧ Between (extentCorners E.d) f.lat f.lon := by
  obtain ⟨D, cs, m0, sites, h1, h2, h3, hf, hsum, _, _⟩ := discover_spec hE.fc o order ho rebuild
  have hall := discover_onMap ho h1 h2 h3
  unfold DMap.runSparse at hm
  obtain ⟨m0', h3', hm⟩ := bind_ok hm
  cases (h3.symm.trans h3' : Except.ok _ = Except.ok _)
  obtain ⟨⟨m', r⟩, h4, hm⟩ := bind_ok hm
  obtain rfl : m' = m := Except.ok.inj hm
  have hg := walk_grows (P := Placed (fun _ q => InB E.d q) E.d) h4 (fun k hk => by
    rcases List.mem_append.1 hk with hk | hk
    · obtain ⟨ok, hok, hkind⟩ := hf.sad k hk
      have hpl := hall ok (List.mem_of_getElem? hok)
      refine ⟨ok, hok, fun _ => breeds_placed hpl (fun _ _ a b n hn => ?_), fun c => by rw [hkind] at c; cases c⟩
      obtain ⟨u, hu, t, ht, hmem⟩ := saddleHighPath_mem hn
      rcases hp ok.f u hu t ht n hmem with ⟨pts, e1, e2⟩ | ⟨p, hp, rfl⟩
      · exact hpl.2 pts e1 n e2
      · obtain ⟨c, hc, hpc⟩ := List.mem_flatten.1 hp
        exact (((hf.ok ok (List.mem_of_getElem? hok)).high c hc).2 p hpc).1.1
    · obtain ⟨ok, hok, c1, c2⟩ := hf.run k hk
      exact ⟨ok, hok, fun c => absurd c1 c, fun _ => c2⟩)
  have hs : m'.summits = m0.summits := by
    unfold DMap.walk at h4
    obtain ⟨w, _, h4⟩ := bind_ok h4
    obtain ⟨⟨r', s⟩, _, h4⟩ := bind_ok h4
    cases h4
    rfl
  intro f hf'
  have : OnMap E.d f := by
    rcases List.mem_append.1 hf' with c | c
    · rw [hs, hsum] at c
      obtain ⟨q, a, b, _⟩ := (analyze_places ho h1 f (by simp [c])).1
      exact ⟨q, a, b⟩
    · obtain ⟨ob, hob, rfl⟩ := List.mem_map.1 c
      exact (hg.2 hall ob hob).1
  exact ⟨this, this.between hr⟩

/-- The hypothesis on paths is met by the search of the instances. -/
example (d : DataMap) : PathsInside (exRun d) := by
  intro f u hu t ht n hn
  simp only [exRun, exFind, List.mem_cons, List.not_mem_nil, or_false] at hn
  rcases hn with rfl | rfl
  · exact .inr ⟨u, hu, rfl⟩
  · exact .inr ⟨t, ht, rfl⟩

/-- A map with made saddles, to which the theorems apply: two of its objects are away from the corners and
the border. -/
example : (exMap exGate true).toOption.map (fun m => (m.st.objs.map fun o => (o.f.lat, o.f.lon)).drop 5) =
      some [(0, 10), (-3, 3), (-3, 3)] ∧
    extentCorners (DataMap.ofRows exGate) = [(-4, 0), (-4, 10), (0, 0), (0, 10)] :=
  ⟨by decide +kernel, by decide +kernel⟩

end PyProm
