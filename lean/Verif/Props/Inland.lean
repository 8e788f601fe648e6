import Verif.Props.Prominence
import Verif.Props.Apart
import Verif.Props.Turned
import Verif.Proof.RunLocal

/-
C127: the network of a complete run is right on all ground that edge saddles do not disturb.
-/
namespace PyProm
open Spec

/-- C127: after a complete run on any raster on which no two summits agree in location and elevation, with edge saddles or
without: if the ground around a summit down to the height `h` is clear of edge saddles, the summit is connected
over saddles that are not disqualified and not lower than `h` exactly with the summits to which one can go without going below
`h`. -/
theorem C127_clear_ground (E : SaddleEnv) (hE : RunOk E) (o : Pt → Oracle) (order : List Pt)
    (ho : IsScan E.d order) (rebuild : Bool) :
    ∃ D m sites, analyze E.d o order = .ok D ∧ DMap.runSparse E o order rebuild = .ok m ∧
      SummitsAt E.d sites m.summits ∧ (SummitsApart m.summits →
        ∀ fuel, m.saddles.length + m.st.objs.length < fuel → ∃ f, DMap.run E o order rebuild fuel = .ok (m, f) ∧
          ∀ (h : Rat) (a b : Nat) (p q : Pt), sites[a]? = some p → sites[b]? = some q → h ≤ el E.d p →
            ClearOfEdge E.d D.saddles h p →
            (ConnectedBy m.net (fun _ => True) (fun k => ¬ SaddleOut f k ∧ h ≤ m.net.elev (.saddle k)) a b ↔
              Passable E.d h p q)) := by
  obtain ⟨D, corners, m0, m, sites, news, h1, h2, h3, h4, h5, h6, h7, h8, h9⟩ := run_spec hE o order ho rebuild
  obtain ⟨_, _, m1, _, _, r1, r2, _, hL, _⟩ := run_links hE o order ho rebuild
  cases (r2.symm.trans h8 : Except.ok _ = Except.ok _)
  obtain ⟨m2, sites', g1, g2, g3, g4, g5⟩ := run_joins hE o order ho rebuild
  cases (g1.symm.trans h8 : Except.ok _ = Except.ok _)
  have hT : SummitsAt E.d sites m.summits := by rw [h9.summits]; exact h4.tops
  obtain rfl := sites_same hE.geo g2 hT
  have hw : m0.walk E [] = .ok (m, none) := by
    obtain ⟨m', _, w1, _⟩ := walk_spec hE h4
    have h8' := h8
    unfold DMap.runSparse at h8'
    rw [h3] at h8'
    dsimp only [bind, Except.bind] at h8'
    rw [w1] at h8'
    cases h8'
    exact w1
  refine ⟨D, m, sites', h1, h8, hT, fun hS fuel hfuel => ?_⟩
  obtain ⟨f, hf⟩ := basin_terminates (fuel := fuel) h9.netFin hfuel
  have hrun : DMap.run E o order rebuild fuel = .ok (m, f) := by
    unfold DMap.run
    rw [h8]
    dsimp only [bind, Except.bind]
    rw [show m.detectBasins fuel m.flags = .ok f from hf]
    rfl
  refine ⟨f, hrun, fun h a b p q hp hq hh hcl => ⟨fun hc => ?_, fun hc => ?_⟩⟩
  · exact net_way (E := { E with summits := m.summits }) hE.geo hT g3 (connectedBy_net g3 g4 hc) hp hh q hq
  · have hG := h9.sound h4 h6 hw hE.geo hL hcl hS
    have hnet := passable_joined hT (netConnected_level m (LiveSaddle m)) g5 hc a b
      ⟨p, ⟨p, hp, .refl⟩, .refl⟩ ⟨q, ⟨q, hq, .refl⟩, .refl⟩
    have dp := (hT.top p (List.mem_of_getElem? hp)).1
    clear hc hq q
    -- along the way, every summit is on the ground around `p`
    have key : (∀ x, sites'[b]? = some x → Passable E.d h p x) ∧
        ConnectedBy m.net (fun _ => True) (fun k => ¬ SaddleOut f k ∧ h ≤ m.net.elev (.saddle k)) a b := by
      unfold NetConnected at hnet
      induction hnet with
      | refl =>
        refine ⟨fun x hx => ?_, .refl⟩
        cases (hx.symm.trans hp : some _ = some _)
        exact ⟨dp, hh, .refl⟩
      | @tail u v _ hstep ih =>
        obtain ⟨ih1, ih2⟩ := ih
        obtain ⟨k, ob, i, j, ⟨_, ob', k1, k2, k3⟩, hob, hko, _, hi, _, hj⟩ := hstep
        cases (k1.symm.trans hob : some _ = some _)
        obtain ⟨_, _, _, _, _, _, _, ⟨xu, hxu, _⟩, _⟩ := h9.inv.links _ (List.mem_of_getElem? hi)
        have hGk := h9.onGround h4 h6 hL hcl hob k2 hko (List.mem_of_getElem? hi) hxu (ih1 xu hxu)
        obtain ⟨z, hz⟩ := link_way (E := { E with summits := m0.summits }) hE.geo h4.tops h9.inv hob
        refine ⟨fun x hx => (ih1 xu hxu).trans (((hz u (List.mem_of_getElem? hi) xu hxu).mono hko).symm.trans
          ((hz v (List.mem_of_getElem? hj) x hx).mono hko)), ih2.trans ?_⟩
        have hns : ¬ Split m.st k := by
          obtain ⟨o1, o2, o3, o4, _⟩ := hGk
          rintro ⟨o', e1, e2⟩
          cases (e1.symm.trans o2 : some _ = some _)
          rcases e2 with e2 | e2
          · rw [o3] at e2; cases e2
          · exact e2 o4
        have hlu : Linked m.net k u := ⟨i, (walk_listed h4 hw i _ hi hns).2, by rw [net_link hi]⟩
        have hlv : Linked m.net k v := ⟨j, (walk_listed h4 hw j _ hj hns).2, by rw [net_link hj]⟩
        have hed : m.net.edge (.saddle k) = false := by simp [DMap.net, DMap.feature, hob, k2]
        have ha : Alive m.net m.flags (.saddle k) := ⟨by unfold SaddleOut; simp [DMap.flags, hob, k3], hed⟩
        have hel : h ≤ m.net.elev (.saddle k) := by rw [net_elev_saddle hob]; exact hko
        by_cases hd : SaddleOut f k
        · exact conn_mono (fun _ _ => trivial) (fun j hj => ⟨hj.1.2.1, le_trans hel hj.2⟩)
            (basin_local hG h9.netFin hf hGk ha (fun hc => hc.1 hd) hlu hlv)
        · exact conn_hop ⟨hd, hel⟩ hlu hlv trivial trivial
    exact key.2

/-- C127 where the ground does not reach the border of the raster. -/
theorem C127_inland (E : SaddleEnv) (hE : RunOk E) (o : Pt → Oracle) (order : List Pt)
    (ho : IsScan E.d order) (rebuild : Bool) :
    ∃ m sites, DMap.runSparse E o order rebuild = .ok m ∧
      SummitsAt E.d sites m.summits ∧ (SummitsApart m.summits →
        ∀ fuel, m.saddles.length + m.st.objs.length < fuel → ∃ f, DMap.run E o order rebuild fuel = .ok (m, f) ∧
          ∀ (h : Rat) (a b : Nat) (p q : Pt), sites[a]? = some p → sites[b]? = some q → h ≤ el E.d p →
            (∀ x, Passable E.d h p x → ¬ Border E.d x) →
            (ConnectedBy m.net (fun _ => True) (fun k => ¬ SaddleOut f k ∧ h ≤ m.net.elev (.saddle k)) a b ↔
              Passable E.d h p q)) := by
  obtain ⟨D, m, sites, h1, h2, h3, h4⟩ := C127_clear_ground E hE o order ho rebuild
  refine ⟨m, sites, h2, h3, fun hS fuel hfuel => ?_⟩
  obtain ⟨f, f1, f2⟩ := h4 hS fuel hfuel
  exact ⟨f, f1, fun h a b p q hp hq hh hb => f2 h a b p q hp hq hh (clear_inland ho h1 hb)⟩

/-- C127 on rasters whose cells have different coordinates to six digits: nothing is asked of the summits. -/
theorem C127_coarse (E : SaddleEnv) (hE : RunOk E) (hd : Told E.d) (o : Pt → Oracle) (order : List Pt)
    (ho : IsScan E.d order) (rebuild : Bool) :
    ∃ m sites, DMap.runSparse E o order rebuild = .ok m ∧ SummitsAt E.d sites m.summits ∧
      ∀ fuel, m.saddles.length + m.st.objs.length < fuel → ∃ f, DMap.run E o order rebuild fuel = .ok (m, f) ∧
        ∀ (h : Rat) (a b : Nat) (p q : Pt), sites[a]? = some p → sites[b]? = some q → h ≤ el E.d p →
          (∀ x, Passable E.d h p x → ¬ Border E.d x) →
          (ConnectedBy m.net (fun _ => True) (fun k => ¬ SaddleOut f k ∧ h ≤ m.net.elev (.saddle k)) a b ↔
            Passable E.d h p q) := by
  obtain ⟨m, sites, h1, h2, h3⟩ := C127_inland E hE o order ho rebuild
  obtain ⟨m', g1, _, g2, _⟩ := C122_summits E hE hd o order ho rebuild
  cases (g1.symm.trans h1 : Except.ok _ = Except.ok _)
  exact ⟨m, sites, h1, h2, h3 g2⟩

/-- Whatever lies on the edge: where the map of a complete run connects a summit with a higher one over saddles that are not
disqualified and not lower than `h`, one can go to higher ground without going below `h`. -/
theorem run_escapes {E : SaddleEnv} (hE : RunOk E) {o : Pt → Oracle} {order : List Pt} (ho : IsScan E.d order) {rebuild : Bool}
    {fuel : Nat} {m : DMap} {f : Flags} (hr : DMap.run E o order rebuild fuel = .ok (m, f)) {sites : List Pt}
    (t1 : SummitsAt E.d sites m.summits) {a b : Nat} {p : Pt} {h : Rat} (ha : sites[a]? = some p) (hb : HigherSummit m a b)
    (hc : ConnectedBy m.net (fun _ => True) (fun k => ¬ SaddleOut f k ∧ h ≤ m.net.elev (.saddle k)) a b) : Escapes E.d p h := by
  obtain ⟨sites', t1', t2⟩ := C78_nothing_false E hE o order ho rebuild fuel m f hr
  obtain rfl := sites_same hE.geo t1' t1
  obtain ⟨m1, hs, hr'⟩ := bind_ok hr
  obtain ⟨f1, _, hr'⟩ := bind_ok hr'
  cases hr'
  obtain ⟨m', r1, r2⟩ := C20_linkers_rise_partial E hE o order ho rebuild
  cases (r1.symm.trans hs : Except.ok _ = Except.ok _)
  obtain ⟨m', _, g1, _, g3, g4, _⟩ := run_joins hE o order ho rebuild
  cases (g1.symm.trans hs : Except.ok _ = Except.ok _)
  have hat : ∀ {b : Nat} {q : Pt}, sites'[b]? = some q → ∃ s, m.summits[b]? = some s ∧ s.elevation = el E.d q := by
    intro b q hb
    obtain ⟨s, e1, e2⟩ := forall₂_getElem? t1.each hb
    exact ⟨s, e1, e2.located.2.2⟩
  have hsite : ∀ {b : Nat}, HigherSummit m a b → ∃ q, sites'[b]? = some q ∧ el E.d p < el E.d q := by
    rintro b ⟨sa, sb, k1, k2, k3⟩
    obtain ⟨sa', e1, e2⟩ := hat ha
    rw [k1] at e1
    cases e1
    have hlt : b < sites'.length := by
      rw [t1.each.length_eq]
      exact lt_of_getElem? k2
    obtain ⟨sb', e3, e4⟩ := hat (List.getElem?_eq_getElem hlt)
    rw [k2] at e3
    cases e3
    exact ⟨_, List.getElem?_eq_getElem hlt, by rw [← e2, ← e4]; exact k3⟩
  have hcon : ∀ (h : Rat) (a b : Nat),
      ConnectedBy m.net (fun _ => True) (fun k => ¬ SaddleOut f k ∧ h ≤ m.net.elev (.saddle k)) a b ↔
      Relation.ReflTransGen (Over (fun k => m.net.elev (.saddle k)) (fun k => ¬ SaddleOut f k) (Linked m.net) h) a b := by
    intro h a b
    unfold ConnectedBy
    constructor
    · exact Relation.ReflTransGen.mono (fun _ _ ⟨_, _, k, ⟨k1, k2⟩, k3, k4⟩ => ⟨k, k1, k2, k3, k4⟩) _ _
    · exact Relation.ReflTransGen.mono (fun _ _ ⟨k, k1, k2, k3, k4⟩ => ⟨trivial, trivial, k, ⟨k1, k2⟩, k3, k4⟩) _ _
  obtain ⟨q, hq, hlt⟩ := hsite hb
  refine ⟨q, hlt, t2 h a b p q ha hq ?_ hc⟩
  rcases over_first ((hcon _ _ _).1 hc) with rfl | ⟨k', p1, p2, p3⟩
  · cases (hq.symm.trans ha : some _ = some _)
    exact absurd hlt (lt_irrefl _)
  · refine le_trans p2 ?_
    obtain ⟨i, hi, hD⟩ := p3
    obtain ⟨l, l1, l2⟩ := g3.sad k' i hi
    rw [net_link l1] at hD
    dsimp only at hD
    have hil : i ∈ m.linkers := by
      rw [g4, g3.lk]
      exact List.mem_range.2 (lt_of_getElem? l1)
    obtain ⟨l', sf, ob, e1, e2, e3, e4⟩ := r2 i hil
    cases (e1.symm.trans l1 : some _ = some _)
    obtain ⟨s, s1, s2⟩ := hat ha
    rw [hD] at e2
    cases (e2.symm.trans s1 : some _ = some _)
    rw [l2] at e3
    show m.net.elev (.saddle k') ≤ _
    rw [net_elev_saddle e3, ← s2]
    rcases e4 with ⟨_, e4⟩ | ⟨_, _, e4⟩
    · exact le_of_lt e4
    · exact e4

/-- C127, prominence: if one has to descend from a summit exactly to `c` to get to higher ground, and the ground around it down to
`c` is clear of edge saddles, then after a complete run a saddle of height `c` which is not disqualified
lies on a way along linkers to a higher summit that is nowhere lower; and no way to a higher summit over saddles that are
not disqualified is higher. -/
theorem C127_key_saddle (E : SaddleEnv) (hE : RunOk E) (o : Pt → Oracle) (order : List Pt)
    (ho : IsScan E.d order) (rebuild : Bool) :
    ∃ D m sites, analyze E.d o order = .ok D ∧ DMap.runSparse E o order rebuild = .ok m ∧
      SummitsAt E.d sites m.summits ∧ (SummitsApart m.summits →
        ∀ fuel, m.saddles.length + m.st.objs.length < fuel → ∃ f, DMap.run E o order rebuild fuel = .ok (m, f) ∧
          ∀ (a : Nat) (p : Pt) (c : Rat), sites[a]? = some p → KeyCol E.d p c → ClearOfEdge E.d D.saddles c p →
            (∃ k b x y, ¬ SaddleOut f k ∧ m.net.elev (.saddle k) = c ∧
              HigherSummit m a b ∧ Linked m.net k x ∧ Linked m.net k y ∧
              ConnectedBy m.net (fun _ => True) (fun k' => ¬ SaddleOut f k' ∧ c ≤ m.net.elev (.saddle k')) a x ∧
              ConnectedBy m.net (fun _ => True) (fun k' => ¬ SaddleOut f k' ∧ c ≤ m.net.elev (.saddle k')) y b) ∧
            ∀ h b, HigherSummit m a b →
              ConnectedBy m.net (fun _ => True) (fun k => ¬ SaddleOut f k ∧ h ≤ m.net.elev (.saddle k)) a b → h ≤ c) := by
  obtain ⟨D, m, sites, h1, h2, h3, h4⟩ := C127_clear_ground E hE o order ho rebuild
  refine ⟨D, m, sites, h1, h2, h3, fun hS fuel hfuel => ?_⟩
  obtain ⟨f, f1, f2⟩ := h4 hS fuel hfuel
  refine ⟨f, f1, fun a p c ha hkey hcl => ?_⟩
  have hat : ∀ {b : Nat} {q : Pt}, sites[b]? = some q → ∃ s, m.summits[b]? = some s ∧ s.elevation = el E.d q := by
    intro b q hb
    obtain ⟨s, e1, e2⟩ := forall₂_getElem? h3.each hb
    exact ⟨s, e1, e2.located.2.2⟩
  have hcon : ∀ (h : Rat) (a b : Nat),
      ConnectedBy m.net (fun _ => True) (fun k => ¬ SaddleOut f k ∧ h ≤ m.net.elev (.saddle k)) a b ↔
      Relation.ReflTransGen (Over (fun k => m.net.elev (.saddle k)) (fun k => ¬ SaddleOut f k) (Linked m.net) h) a b := by
    intro h a b
    unfold ConnectedBy
    constructor
    · exact Relation.ReflTransGen.mono (fun _ _ ⟨_, _, k, ⟨k1, k2⟩, k3, k4⟩ => ⟨k, k1, k2, k3, k4⟩) _ _
    · exact Relation.ReflTransGen.mono (fun _ _ ⟨k, k1, k2, k3, k4⟩ => ⟨trivial, trivial, k, ⟨k1, k2⟩, k3, k4⟩) _ _
  have htop : ∀ h b, HigherSummit m a b →
      ConnectedBy m.net (fun _ => True) (fun k => ¬ SaddleOut f k ∧ h ≤ m.net.elev (.saddle k)) a b → h ≤ c :=
    fun h b hb hc => hkey.2 h (run_escapes hE ho f1 h3 ha hb hc)
  refine ⟨?_, htop⟩
  obtain ⟨⟨q, hq, hp⟩, _⟩ := hkey
  obtain ⟨b, q', hb, hpass⟩ := summit_of_cell h3 hp.symm.1
  have hpq : Passable E.d c p q' := hp.trans (hpass.mono hp.symm.2.1)
  have hhigh : HigherSummit m a b := by
    obtain ⟨s, s1, s2⟩ := hat hb
    obtain ⟨t, u1, u2⟩ := hat ha
    refine ⟨t, s, u1, s1, ?_⟩
    rw [u2, s2]
    exact lt_of_lt_of_le hq hpass.symm.2.1
  have hc := (f2 c a b p q' ha hb hp.2.1 hcl).2 hpq
  rcases exists_lowest ((hcon _ _ _).1 hc) with rfl | ⟨k, k1, k2⟩
  · obtain ⟨s, t, e1, e2, e3⟩ := hhigh
    cases (e1.symm.trans e2 : some _ = some _)
    exact absurd e3 (lt_irrefl _)
  · have hck : m.net.elev (.saddle k) = c := le_antisymm (htop _ b hhigh ((hcon _ _ _).2 k2.over)) k1
    obtain ⟨x, y, k3, k4, k5, k6, k7⟩ := k2
    simp only [hck] at k4 k7
    exact ⟨k, b, x, y, k3, hck, hhigh, k5, k6, (hcon _ _ _).2 k4, (hcon _ _ _).2 k7⟩

/-- Instance of C127: on the raster for which C103 fails the ground around the summit of height 9 down to its key col, of height 7, does
not reach the border. -/
example : KeyCol (DataMap.ofRows exRing3) (2, 2) 7 ∧
    (∀ x, Passable (DataMap.ofRows exRing3) 7 (2, 2) x → ¬ Border (DataMap.ofRows exRing3) x) ∧
    (exFull exRing3 false 99).toOption.map (fun r => (r.1.summits.map (fun s => (s.lat, s.lon, s.elevation)),
      (r.1.net.sadLinks 10).map fun i => (r.1.net.link i).1, r.1.net.elev (.saddle 10), r.2.saddleDisq 10)) =
      some ([(0, 4, 3), (-2, 2, 9), (-3, 4, 10), (-4, 1, 11)], [1, 3], 7, false) ∧
    ∃ m, exMap exRing3 false = .ok m ∧ SummitsApart m.summits := by
  have step : ∀ h : Rat, 7 ≤ h → ∀ a ∈ [((2, 2) : Pt), (3, 1), (4, 1)], ∀ b : Pt, Adj a b → h ≤ el (DataMap.ofRows exRing3) b →
      b ∈ [((2, 2) : Pt), (3, 1), (4, 1)] := by
    intro h hh a ha b hb hl
    have fin : ∀ a ∈ [((2, 2) : Pt), (3, 1), (4, 1)], ∀ x ∈ [(-1 : Int), 0, 1], ∀ y ∈ [(-1 : Int), 0, 1],
        7 ≤ el (DataMap.ofRows exRing3) (a.1 + x, a.2 + y) → (a.1 + x, a.2 + y) ∈ [((2, 2) : Pt), (3, 1), (4, 1)] := by
      decide +kernel
    obtain ⟨b1, b2⟩ := b
    unfold Adj at hb
    have := fin a ha (b1 - a.1) (by simp only [List.mem_cons, List.not_mem_nil, or_false]; omega) (b2 - a.2)
      (by simp only [List.mem_cons, List.not_mem_nil, or_false]; omega)
    simp only [add_sub_cancel] at this
    exact this (le_trans hh hl)
  have ground : ∀ h : Rat, 7 ≤ h → ∀ x, Passable (DataMap.ofRows exRing3) h (2, 2) x → x ∈ [((2, 2) : Pt), (3, 1), (4, 1)] := by
    rintro h hh x ⟨_, _, hx⟩
    induction hx with
    | refl => simp
    | tail _ h1 ih => exact step h hh _ ih _ h1.1 h1.2.2
  refine ⟨⟨⟨(4, 1), by decide +kernel, by unfold Spec.Data Spec.InB; decide +kernel, by decide +kernel, ?_⟩, ?_⟩, ?_, by decide +kernel, ?_⟩
  · refine .tail (b := (3, 1)) (.single ?_) ?_
    all_goals exact ⟨by decide +kernel, by unfold Spec.Data Spec.InB; decide +kernel, by decide +kernel⟩
  · rintro h' ⟨q, hq, hp⟩
    by_contra hlt
    have h7 : (7 : Rat) ≤ h' := le_of_lt (not_le.1 hlt)
    have hq4 : q = (4, 1) := by
      have := ground h' h7 q hp
      simp only [List.mem_cons, List.not_mem_nil, or_false] at this
      rcases this with rfl | rfl | rfl
      · exact absurd hq (lt_irrefl _)
      · exact absurd hq (by decide +kernel)
      · rfl
    subst hq4
    -- the only way leads over the cell of height 7
    have : ∀ x, Relation.ReflTransGen (fun a b => Adj a b ∧ Data (DataMap.ofRows exRing3) b ∧ h' ≤ el (DataMap.ofRows exRing3) b)
        (2, 2) x → x = (2, 2) := by
      intro x hx
      induction hx with
      | refl => rfl
      | @tail b c _ h1 ih =>
        subst ih
        have hc := step h' h7 _ (by simp) c h1.1 h1.2.2
        simp only [List.mem_cons, List.not_mem_nil, or_false] at hc
        rcases hc with rfl | rfl | rfl
        · rfl
        · exact absurd h1.2.2 (by rw [show el (DataMap.ofRows exRing3) (3, 1) = 7 by decide +kernel]; exact hlt)
        · exact absurd h1.1 (by decide +kernel)
    cases this _ hp.2.2
  · intro x hx
    have := ground 7 (le_refl _) x hx
    have fin : ∀ x ∈ [((2, 2) : Pt), (3, 1), (4, 1)], ¬ Border (DataMap.ofRows exRing3) x := by unfold Border; decide +kernel
    exact fin x this
  · have h : (exMap exRing3 false).toOption.map (fun m => decide (m.summits.map fun s =>
        (round6 s.lat, round6 s.lon, s.elevation)).Nodup) = some true := by decide +kernel
    cases hm : exMap exRing3 false with
    | error e => rw [hm] at h; cases h
    | ok m =>
      rw [hm] at h
      exact ⟨m, rfl, summitsApart_of_nodup (by simpa [Except.toOption] using h)⟩

end PyProm
