import Verif.Props.RunLinks
import Verif.Props.RunFamily
import Verif.Props.WalkAgain
import Verif.Props.Views
import Verif.Props.Util
import Verif.Props.Serial

/-
Violations that occur on every input of a kind, where the refutations elsewhere show one input:
C02, C21, C35, C38, C42, C43, C52, C55, C63, C67.
-/
namespace PyProm
open Spec

/-! ### Families -/

/-- C63 fails on every raster with a saddle on the edge that has more than two high neighbourhoods: it lists
children twice. -/
theorem C63_every_refuted (E : SaddleEnv) (hE : RunOk E) (o : Pt → Oracle) (order : List Pt)
    (ho : IsScan E.d order) (rebuild : Bool) :
    ∃ m0 m, DMap.discover E.d E.fc o order rebuild = .ok m0 ∧ DMap.runSparse E o order rebuild = .ok m ∧
      ∀ k ∈ m0.saddles, ∀ ob, m0.st.objs[k]? = some ob → ob.f.edge = true → 2 < ob.f.hpn.length →
        ∃ o', m.st.objs[k]? = some o' ∧ ¬ o'.children.Nodup := by
  obtain ⟨m0, m, h1, h2, h3⟩ := C63_children_partial E hE o order ho rebuild
  refine ⟨m0, m, h1, h2, fun k hk ob hob he hl => ?_⟩
  obtain ⟨ob', e1, e2⟩ := h3 k hk
  cases (e1.symm.trans hob : some _ = some _)
  obtain ⟨o', ids, a1, _, a3, _, a5⟩ := e2 he
  refine ⟨o', a1, fun hn => ?_⟩
  rw [a5 hl] at hn
  have hn' := (List.nodup_append.1 (List.nodup_append.1 hn).2.1).2.2
  cases ids with
  | nil => simp at a3; omega
  | cons i ids => exact hn' i (by simp) i (by simp) rfl

/-- C67 fails on every raster with a runoff below higher ground: it is its own parent and its own child. -/
theorem C67_every_runoff_refuted (E : SaddleEnv) (hE : RunOk E) (o : Pt → Oracle) (order : List Pt)
    (ho : IsScan E.d order) (rebuild : Bool) :
    ∃ m, DMap.runSparse E o order rebuild = .ok m ∧ ∀ k ∈ m.runoffs, ∀ ob, m.st.objs[k]? = some ob → ob.f.hpn ≠ [] →
      parentOf m k = some k ∧ k ∈ childrenOf m k := by
  obtain ⟨_, _, m0, m, sites, news, _, _, h3, h4, _, _, _, h8, h9⟩ := run_spec hE o order ho rebuild
  obtain ⟨m', g1, g2⟩ := C67_families_agree E hE o order ho rebuild
  cases (g1.symm.trans h8 : Except.ok _ = Except.ok _)
  refine ⟨m, h8, fun k hk ob hob hh => ?_⟩
  suffices hc : k ∈ childrenOf m k from ⟨(g2 k k).1 hc, hc⟩
  rw [h9.runoffs] at hk
  obtain ⟨hw, hr⟩ := List.mem_filter.1 hk
  rw [hob] at hr
  have hkind : ob.f.kind = .runoff := by simpa using hr
  rw [h9.walked] at hw
  obtain ⟨new, hn, hkn⟩ := List.mem_flatten.1 hw
  obtain ⟨i, hi⟩ := List.mem_iff_getElem?.1 hn
  have hil : i < (m0.saddles ++ m0.runoffs).length := by rw [h9.outcomes.length_eq]; exact lt_of_getElem? hi
  obtain ⟨new', e1, o2, e2, e3, _⟩ := forall₂_getElem? h9.outcomes (List.getElem?_eq_getElem hil)
  cases (e1.symm.trans hi : some _ = some _)
  have no : ∀ f, ¬ SynthOf f ob.f := fun f hS => by rw [hS.kind] at hkind; cases hkind
  obtain ⟨o3, q1, q2, _⟩ := h9.step.feat _ o2 e2
  unfold Outcome at e3
  split at e3
  · obtain ⟨o', f1, f2, _⟩ := e3.2.2 k hkn
    cases (hob.symm.trans f1 : some _ = some _)
    exact absurd f2 (no _)
  · split at e3
    · rcases e3 with ⟨e3, ob', b1, _, b3⟩ | ⟨e3, e4⟩
      · rw [e3] at hkn
        have hkb : k = (m0.saddles ++ m0.runoffs)[i] := by simpa using hkn
        rw [← hkb] at b1 b3
        unfold childrenOf
        rw [b1]
        simp [b3]
      · exfalso
        rw [e4] at hkn
        have hkb : k = (m0.saddles ++ m0.runoffs)[i] := by simpa using hkn
        rw [← hkb] at q1
        cases (hob.symm.trans q1 : some _ = some _)
        rw [q2] at hh
        exact hh e3
    · obtain ⟨ids, g1, _, _, g4, _⟩ := e3
      rw [g1, List.mem_append, List.mem_singleton] at hkn
      rcases hkn with hkn | hkn
      · obtain ⟨o', f1, f2, _⟩ := g4 k hkn
        cases (hob.symm.trans f1 : some _ = some _)
        exact absurd f2 (no _)
      · exfalso
        rw [← hkn] at q1
        cases (hob.symm.trans q1 : some _ = some _)
        rw [q2] at hkind
        contradiction

/-- C67 fails with rebuilding on every raster with a saddle on the edge: it lists a child that is neither a saddle
nor a runoff of the map, but names it as its parent. -/
theorem C67_every_rebuilt_refuted (E : SaddleEnv) (hE : RunOk E) (o : Pt → Oracle) (order : List Pt)
    (ho : IsScan E.d order) :
    ∃ D m, analyze E.d o order = .ok D ∧ DMap.runSparse E o order true = .ok m ∧
      ∀ k f, D.saddles[k]? = some f → f.edge = true →
        ∃ c ∈ childrenOf m k, parentOf m c = some k ∧ c ∉ m.saddles ++ m.runoffs := by
  obtain ⟨D, _, m0, m, sites, news, h1, _, h3, h4, _, h6, _, h8, h9⟩ := run_spec hE o order ho true
  obtain ⟨m', g1, g2⟩ := C67_families_agree E hE o order ho true
  cases (g1.symm.trans h8 : Except.ok _ = Except.ok _)
  refine ⟨D, m, h1, h8, fun k f hf he => ?_⟩
  obtain ⟨x, hx⟩ := run_walk h3 h8
  obtain ⟨_, _, r3⟩ := walk_recs hE h4 hx
  unfold FromSaddles at h6
  rw [if_pos rfl] at h6
  obtain ⟨nw, e1, e2⟩ := h6
  obtain ⟨new, n1, ids, i1, _, i3, i4⟩ := forall₂_getElem? e2
    (show D.saddles.zipIdx[k]? = some (f, k) by rw [List.getElem?_zipIdx, hf]; simp)
  dsimp only at i1 i3 i4
  rw [if_pos he] at i4
  -- the saddle still has two high neighbourhoods at least
  have hk0 := (h4.ok _ (List.mem_of_getElem? i4.2))
  have hkm : k ∈ m0.saddles := by
    rw [e1]
    exact List.mem_flatten.2 ⟨new, List.mem_of_getElem? n1, by rw [i4.1]; simp⟩
  obtain ⟨ok, o1, o2⟩ := h4.sad k hkm
  cases (i4.2.symm.trans o1 : some _ = some _)
  have hl : 2 ≤ f.hpn.length := hk0.saddle o2
  cases ids with
  | nil => simp at i1; omega
  | cons c ids =>
    obtain ⟨oc, c1, c2, _⟩ := i3 c (by simp)
    have hc : c ∈ childrenOf m k := by
      obtain ⟨i, hi⟩ := List.mem_iff_getElem?.1 (List.mem_append_left m0.runoffs hkm)
      obtain ⟨nn, s1, so, s2, s3, _⟩ := forall₂_getElem? h9.outcomes hi
      cases (i4.2.symm.trans s2 : some _ = some _)
      unfold Outcome at s3
      rw [if_neg (by simp [he]), if_neg (by simp only; rw [show f.kind = .saddle from o2]; simp)] at s3
      obtain ⟨ids', _, _, _, _, ob, b1, _, b3⟩ := s3
      unfold childrenOf
      rw [b1]
      simp [b3]
    refine ⟨c, hc, (g2 c k).1 hc, fun hm => ?_⟩
    have hw : c ∈ m.st.walked := by
      rcases List.mem_append.1 hm with h | h
      · rw [h9.saddles] at h; exact (List.mem_filter.1 h).1
      · rw [h9.runoffs] at h; exact (List.mem_filter.1 h).1
    rcases r3 c hw with h | ⟨_, oc', d1, d2⟩
    · have := lt_of_getElem? c1
      omega
    · cases (c1.symm.trans d1 : some _ = some _)
      rw [c2.edge] at d2
      cases d2

/-! ### Purging and walking again -/

/-- C38 fails whenever a saddle is removed: the summits it is linked with still list its linkers. -/
theorem C38_every_summit_refuted (m : DMap) (f : Flags) (single basin all : Bool) (k D i : Nat)
    (hs : Selected f single basin all k) (hi : i ∈ m.net.sumLinks D) (hl : m.net.link i = (D, k)) :
    let m' := (m.purge f single basin all).1
    k ∉ m'.saddles ∧ i ∈ m'.net.sumLinks D ∧ m'.net.link i = (D, k) := by
  obtain ⟨_, h2, _, _, _, h6, _⟩ := C38_purge_exact m f single basin all
  exact ⟨(h2 k).1 hs, by rw [h6]; exact hi, by rw [h6]; exact hl⟩

/-- C38 fails on every complete run with runoffs that have linkers: whatever is asked for, also if there is nothing to
remove, all linkers of runoffs are gone from the map. -/
theorem C38_every_runoff_refuted (E : SaddleEnv) (hE : RunOk E) (o : Pt → Oracle) (order : List Pt)
    (ho : IsScan E.d order) (rebuild : Bool) (fuel : Nat) (m : DMap) (f : Flags)
    (hr : DMap.run E o order rebuild fuel = .ok (m, f)) (single basin all : Bool) (k : Nat) (hk : k ∈ m.runoffs)
    (i : Nat) (l : LinkRec) (hl : m.st.store[i]? = some l) (hlk : l.saddle = k) :
    i ∈ m.linkers ∧ i ∉ (m.purge f single basin all).1.linkers := by
  obtain ⟨_, _, m0, m1, sites, news, _, _, h3, h4, _, _, _, h8, h9⟩ := run_spec hE o order ho rebuild
  have hm : m1 = m := by
    unfold DMap.run at hr
    rw [h8] at hr
    obtain ⟨f', _, e⟩ := bind_ok (x := m1.detectBasins fuel m1.flags) hr
    cases e
    rfl
  subst hm
  refine ⟨by rw [h9.linkers, h9.inv.lk]; exact List.mem_range.2 (lt_of_getElem? hl), fun hc => ?_⟩
  obtain ⟨l', a1, a2, _⟩ := C38_run_linkers E hE o order ho rebuild fuel m1 f hr single basin all i hc
  obtain ⟨p1, _, p3, _⟩ := C38_purge_exact m1 f single basin all
  have hst : (m1.purge f single basin all).1.net.link i = m1.net.link i := by
    rw [(C38_purge_exact m1 f single basin all).2.2.2.2.2.1]
  have hll : l'.saddle = l.saddle := by
    unfold DMap.net at hst
    dsimp only at hst
    rw [a1, hl] at hst
    simpa using congrArg Prod.snd hst
  have hms := p1.subset a2
  rw [hll, hlk, h9.mem_saddles] at hms
  rw [h9.mem_runoffs] at hk
  rw [hms.2] at hk
  cases hk.2

/-- C55 fails on every walked map with linkers: if walking selected saddles does not raise, the map has neither
linkers nor domains afterwards. -/
theorem C55_every_refuted (E E' : SaddleEnv) (m m1 m2 : DMap) (sel : List Nat) (hs : sel ≠ [])
    (r r' : Option (List Nat × List Nat)) (h1 : m.walk E [] = .ok (m1, r)) (h2 : m1.walk E' sel = .ok (m2, r'))
    (hl : m1.linkers ≠ []) : m2.linkers = [] ∧ m2.domains = [] ∧ m2.linkers ≠ m1.linkers ∧ m2.saddles = m1.saddles := by
  obtain ⟨a, b, c⟩ := C93_lists_refuted E E' m m1 m2 [] sel r r' h1 h2
  exact ⟨a, b, c hl, (C55_selected_partial E' m1 m2 sel hs r' h2).1⟩

/-- C21 fails on every walked map with linkers: if the second walk does not raise, it leaves the map without linkers
and domains. -/
theorem C21_every_refuted (E : SaddleEnv) (hE : RunOk E) (o : Pt → Oracle) (order : List Pt) (ho : IsScan E.d order)
    (rebuild : Bool) : ∃ m, DMap.runSparse E o order rebuild = .ok m ∧ ∀ m' r, m.walk E [] = .ok (m', r) →
      m'.linkers = [] ∧ m'.domains = [] := by
  obtain ⟨_, _, m0, m, _, _, _, _, h3, _, _, _, _, h8, _⟩ := run_spec hE o order ho rebuild
  obtain ⟨x, hx⟩ := run_walk h3 h8
  refine ⟨m, h8, fun m' r h => ?_⟩
  obtain ⟨a, b, _⟩ := C93_lists_refuted E E m0 m m' [] [] x r hx h
  exact ⟨a, b⟩

/-! ### Containers, lookups, conversions -/

/-- C35 fails for every member on a border line of the rectangle: it is dropped. -/
theorem C35_every_refuted (c : SContainer) (lat1 long1 lat2 long2 : Rat) (p : Spot)
    (h : p.lat = lat1 ∨ p.lat = lat2 ∨ p.lon = long1 ∨ p.lon = long2) :
    p ∉ (c.rectangle lat1 long1 lat2 long2).points := by
  rw [C35_rectangle_open]
  intro hm
  have := (List.mem_filter.1 hm).2
  rw [decide_eq_true_eq] at this
  obtain ⟨h1, h2⟩ := this
  rcases h with rfl | rfl | rfl | rfl
  · rcases h1 with h1 | h1
    · exact lt_irrefl _ h1.1
    · exact lt_irrefl _ h1.2
  · rcases h1 with h1 | h1
    · exact lt_irrefl _ h1.2
    · exact lt_irrefl _ h1.1
  · rcases h2 with h2 | h2
    · exact lt_irrefl _ h2.1
    · exact lt_irrefl _ h2.2
  · rcases h2 with h2 | h2
    · exact lt_irrefl _ h2.2
    · exact lt_irrefl _ h2.1

/-- C52 fails for every lookup with a default, whatever was done before: what is removed is not absent but None. -/
theorem C52_every_removed_refuted {K V : Type} [DecidableEq K] (s : FastLookup K V) (hs : s.auto = true)
    (ops : List (FOp K V)) (x y : K) :
    ∃ s' s1, (ops ++ [FOp.remove x y]).foldlM FOp.run s = .ok s' ∧ s'.get x y = .ok (s1, .none) := by
  obtain ⟨s', h1, h2⟩ := C52_map s hs (ops ++ [FOp.remove x y])
  obtain ⟨_, s1, v, _, h4⟩ := h2 x y
  refine ⟨s', s1, h1, ?_⟩
  have key : ∀ ops : List (FOp K V), stored x y (ops ++ [.remove x y]) = some .none := by
    intro ops
    induction ops with
    | nil => simp [stored]
    | cons op ops ih => rw [List.cons_append, stored.eq_def]; dsimp only; rw [ih]
  rw [h4, key]
  rfl

/-- On every rotated raster the round trip of some cell fails. -/
theorem C02_every_rotated_refuted (d : DataMap) (hx : ∀ r, d.fl r = r) (h : d.gt2 ≠ 0 ∨ d.gt4 ≠ 0) :
    ∃ x y : Int, d.latLongToXY (d.xyToLatLon x y).1 (d.xyToLatLon x y).2 ≠ some (x, y) := by
  obtain ⟨p, hp⟩ := C83_rotated_refuted d hx h
  refine ⟨p.x, p.y, fun hc => hp ?_⟩
  show (d.latLongToXY (d.xyToLatLon p.x p.y).1 (d.xyToLatLon p.x p.y).2).map _ = _
  rw [hc]
  rfl

/-- C43 fails for every disqualified summit that can be saved and loaded: the flag is lost. -/
theorem C43_every_disqualified_refuted (s t : LSummit) (linkId : Nat → Nat) (v : PyVal) (_ : s.toDict linkId = .ok v)
    (h : LSummit.fromDict v = .ok t) (hd : s.disq = true) : t.disq ≠ s.disq := by
  unfold LSummit.fromDict at h
  repeat (obtain ⟨_, _, h⟩ := bind_ok h)
  cases h
  rw [hd]
  simp

/-- C42 fails for every saddle with two linkers to one summit: the summit is listed twice among its neighbours. -/
theorem C42_every_refuted (N : FNet) (k a b : Nat) (hab : a ≠ b) (i j : Nat) (hi : (N.sadLinks k)[a]? = some i)
    (hj : (N.sadLinks k)[b]? = some j) (h : (N.link i).1 = (N.link j).1) : ¬ (N.nbrs (.saddle k)).Nodup := by
  intro hn
  have e1 : (N.nbrs (.saddle k))[a]? = some (.summit (N.link i).1) := by
    show ((N.sadLinks k).map _)[a]? = _
    rw [List.getElem?_map, hi]; rfl
  have e2 : (N.nbrs (.saddle k))[b]? = some (.summit (N.link i).1) := by
    show ((N.sadLinks k).map _)[b]? = _
    rw [List.getElem?_map, hj, h]; rfl
  exact hab ((List.getElem?_inj (lt_of_getElem? e1) hn).1 (e1.trans e2.symm))

/-! ### Instances -/

/-- The hypotheses on rasters: an edge saddle with four high neighbourhoods (C63), a runoff below higher ground
(C67, C38), an edge saddle (C67). -/
example : (exMap [[9, 5, 8, 5, 7], [1, 4, 1, 5, 1], [7, 5, 9, 1, 9]] false).toOption.bind (fun m =>
    m.st.objs[1]?.map fun ob => (ob.f.edge, ob.f.hpn.length)) = some (true, 4) := by decide +kernel

example : (exMap exRows false).toOption.bind (fun m => m.st.objs[2]?.map fun ob =>
    (decide (2 ∈ m.runoffs), ob.f.hpn.length, m.st.store[3]?)) = some (true, 1, some ⟨0, 2⟩) := by decide +kernel

example : (analyze (DataMap.ofRows exPass) (fun _ => exOracle) (DataMap.ofRows exPass).cells).toOption.map
    (fun D => D.saddles.map (·.edge)) = some [true] := by decide +kernel

/-- A walked map with linkers on which a second walk does not raise (C21, C55). -/
example : (exMap exSlopes false).toOption.bind (fun m => (m.walk (exRun (DataMap.ofRows exSlopes)) [4]).toOption.map
    fun r => (m.linkers, r.1.linkers)) = some ([0, 1], []) := by decide +kernel

/-- Members on the border of a rectangle; a rotated raster; a disqualified summit; parallel linkers. -/
example : (⟨2, 1, 10, 2⟩ : Spot) ∈ (SContainer.mk' [⟨1, 1, 10, 1⟩, ⟨2, 1, 10, 2⟩]).points ∧
    ((SContainer.mk' [⟨1, 1, 10, 1⟩, ⟨2, 1, 10, 2⟩]).rectangle 0 0 2 2).points = [⟨1, 1, 10, 1⟩] := by decide +kernel

example : ({ DataMap.ofRows [[1, 2], [3, 4]] with gt2 := 1 } : DataMap).gt2 ≠ 0 := by decide +kernel

example : ∃ v t, ({ exSum 1 with disq := true } : LSummit).toDict id = .ok v ∧ LSummit.fromDict v = .ok t := ⟨_, _, rfl, rfl⟩

example : ((netOf [30, 40] [10] [(0, 0), (1, 0), (1, 0)]).sadLinks 0)[1]? = some 1 ∧
    ((netOf [30, 40] [10] [(0, 0), (1, 0), (1, 0)]).sadLinks 0)[2]? = some 2 := by decide +kernel

end PyProm
