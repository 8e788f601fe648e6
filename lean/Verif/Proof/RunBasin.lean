import Verif.Proof.LinkSteps
import Verif.Proof.Basin

/-
The feature network of a walked map: it always meets the conditions for termination of the basin
saddle detection, and those for its correctness if linkers are held at both ends and summits are
told apart by location and elevation.
-/
namespace PyProm
open Spec

theorem net_edge {m : DMap} {k : Nat} (h : m.net.edge (.saddle k) = false) :
    ∃ o, m.st.objs[k]? = some o ∧ o.f.edge = false := by
  simp only [DMap.net, DMap.feature] at h
  cases ho : m.st.objs[k]? with
  | none => rw [ho] at h; simp at h
  | some o => rw [ho] at h; exact ⟨o, rfl, by simpa using h⟩

theorem net_elev_saddle {m : DMap} {k : Nat} {o : SObj} (h : m.st.objs[k]? = some o) :
    m.net.elev (.saddle k) = o.f.elevation := by
  simp [DMap.net, DMap.feature, h]

theorem net_elev_summit {m : DMap} {D : Nat} {f : Feature} (h : m.summits[D]? = some f) :
    m.net.elev (.summit D) = f.elevation := by
  simp [DMap.net, DMap.feature, h]

theorem net_link {m : DMap} {i : Nat} {l : LinkRec} (h : m.st.store[i]? = some l) :
    m.net.link i = (l.summit, l.saddle) := by
  simp [DMap.net, h]

/-- Facts about one linker of a walked map. -/
theorem WalkedMap.link {E : SaddleEnv} {sites : List Pt} {m0 m : DMap} {news : List (List Nat)}
    (h : WalkedMap E sites m0 m news) {i : Nat} {l : LinkRec} (hl : m.st.store[i]? = some l) :
    ∃ sf o, m.summits[l.summit]? = some sf ∧ m.st.objs[l.saddle]? = some o ∧
      (o.f.edge = false → o.f.elevation < sf.elevation) := by
  obtain ⟨sf, o, h1, h2, h3, _⟩ := h.inv.links l (List.mem_of_getElem? hl)
  refine ⟨sf, o, by rw [h.summits]; exact h1, h2, fun he => ?_⟩
  rcases h3 with ⟨_, h3⟩ | ⟨h4, h5, _⟩
  · exact h3
  · have := (h.inv.objs o (List.mem_of_getElem? h2)).inner he
    rw [this] at h5
    cases h5

theorem WalkedMap.over {E : SaddleEnv} {sites : List Pt} {m0 m : DMap} {news : List (List Nat)}
    (h : WalkedMap E sites m0 m news) (k : Nat) : m.flags.over k ≠ some false := by
  simp only [DMap.flags]
  cases ho : m.st.objs[k]? with
  | none => simp
  | some o => simpa using h.inv.disq o (List.mem_of_getElem? ho)

theorem WalkedMap.netFin {E : SaddleEnv} {sites : List Pt} {m0 m : DMap} {news : List (List Nat)}
    (h : WalkedMap E sites m0 m news) : NetFin m.net m.saddles m.flags where
  sum D i hi := by
    obtain ⟨l, hl, hD⟩ := h.inv.sum D i hi
    obtain ⟨sf, o, h1, h2, h3⟩ := h.link hl
    rw [net_link hl]
    dsimp only
    refine ⟨lt_of_getElem? h2, fun he => ?_⟩
    obtain ⟨o', e1, e2⟩ := net_edge he
    have : o = o' := by simpa using h2.symm.trans e1
    subst this
    rw [net_elev_saddle h2, ← hD, net_elev_summit h1]
    exact h3 e2
  sad k he i hi := by
    obtain ⟨l, hl, hk⟩ := h.inv.sad k i hi
    obtain ⟨sf, o, h1, h2, h3⟩ := h.link hl
    rw [net_link hl]
    dsimp only
    refine ⟨lt_of_getElem? h1, ?_⟩
    obtain ⟨o', e1, e2⟩ := net_edge he
    rw [hk] at h2
    have : o = o' := by simpa using h2.symm.trans e1
    subst this
    rw [net_elev_saddle h2, net_elev_summit h1]
    exact h3 e2
  bound k hk := by
    rw [h.saddles] at hk
    exact h.inv.walked k (List.mem_filter.1 hk).1
  over := h.over

/-- Walked saddles off the edge have two high neighbourhoods. -/
theorem WalkedMap.two {E : SaddleEnv} {sites : List Pt} {m0 m : DMap} {news : List (List Nat)}
    (h : WalkedMap E sites m0 m news) {k : Nat} (hk : k ∈ m.st.walked) {o : SObj} (ho : m.st.objs[k]? = some o)
    (he : o.f.edge = false) : o.f.hpn.length = 2 := by
  rw [h.walked] at hk
  obtain ⟨new, hn, hk⟩ := List.mem_flatten.1 hk
  obtain ⟨i, hi⟩ := List.mem_iff_getElem?.1 hn
  have hil : i < (m0.saddles ++ m0.runoffs).length := by
    rw [h.outcomes.length_eq]; exact lt_of_getElem? hi
  obtain ⟨new', e1, ob, e2, e3, _⟩ := forall₂_getElem? h.outcomes (List.getElem?_eq_getElem hil)
  have : new' = new := by simpa using e1.symm.trans hi
  subst this
  generalize (m0.saddles ++ m0.runoffs)[i] = base at e2 e3
  obtain ⟨ob', f1, f2, _⟩ := h.step.feat base ob e2
  have hbase : ob.f.edge ≠ false → k ≠ base := by
    rintro hne rfl
    have : ob' = o := by simpa using f1.symm.trans ho
    rw [← f2, this] at hne
    exact hne he
  have hsyn : ∀ o', m.st.objs[k]? = some o' → SynthOf ob.f o'.f → o.f.hpn.length = 2 := by
    intro o' h1 h2
    have : o' = o := by simpa using h1.symm.trans ho
    rw [← this]; exact h2.two
  unfold Outcome at e3
  split at e3
  · obtain ⟨o', g1, g2, _⟩ := e3.2.2 k hk
    exact hsyn o' g1 g2
  · rename_i hne
    split at e3
    · rcases e3 with ⟨e3, _⟩ | ⟨_, e3⟩ <;> rw [e3] at hk <;> simp at hk <;> exact absurd hk (hbase hne)
    · obtain ⟨ids, g0, _, _, g3, _⟩ := e3
      rw [g0] at hk
      rcases List.mem_append.1 hk with hk | hk
      · obtain ⟨o', g1, g2, _⟩ := g3 k hk
        exact hsyn o' g1 g2
      · exact absurd (List.mem_singleton.1 hk) (hbase hne)

/-- Summits are told apart in sets. -/
theorem WalkedMap.setEq {E : SaddleEnv} {sites : List Pt} {m0 m : DMap} {news : List (List Nat)}
    (h : WalkedMap E sites m0 m news) (hS : SummitsApart m.summits) {k a b : Nat} (ha : Linked m.net k a)
    (hb : Linked m.net k b) : m.net.setEq a b = true ↔ a = b := by
  have hlk : ∀ D, Linked m.net k D → ∃ sf, m.summits[D]? = some sf := by
    rintro D ⟨i, hi, hD⟩
    obtain ⟨l, hl, hk⟩ := h.inv.sad k i hi
    rw [net_link hl] at hD
    obtain ⟨sf, _, h1, _⟩ := h.link hl
    exact ⟨sf, by rw [← hD]; exact h1⟩
  obtain ⟨sf, h1⟩ := hlk a ha
  obtain ⟨sf', h1'⟩ := hlk b hb
  simp only [DMap.net, sumSetEq, h1, h1', seNe, seEq, Bool.not_not, Bool.and_eq_true, decide_eq_true_eq]
  constructor
  · intro hc
    by_contra hne
    exact hS _ _ _ _ h1 h1' hne ⟨hc.1.1.1, hc.1.1.2, hc.1.2⟩
  · intro heq
    rw [heq, h1'] at h1
    simp only [Option.some.injEq] at h1
    subst h1
    simp

theorem WalkedMap.netOk {E : SaddleEnv} {sites : List Pt} {m0 m : DMap} {news : List (List Nat)}
    (h : WalkedMap E sites m0 m news) (hL : LInv m.st) (hH : LinkersPaired m)
    (hS : SummitsApart m.summits) :
    NetOk m.net m.saddles m.flags := by
  have hfe : ∀ (k : Nat) (o : SObj), m.st.objs[k]? = some o → m.st.feats[k]? = some o.f := fun k o ho => by simp [CSt.feats, ho]
  -- linkers of saddles off the edge
  have hlk : ∀ k D, m.net.edge (.saddle k) = false → Linked m.net k D → ∃ (i : Nat) (l : LinkRec),
      m.st.store[i]? = some l ∧ l.saddle = k ∧ l.summit = D := by
    rintro k D _ ⟨i, hi, hD⟩
    obtain ⟨l, hl, hk⟩ := h.inv.sad k i hi
    rw [net_link hl] at hD
    exact ⟨i, l, hl, hk, hD⟩
  have hwalk : ∀ (i : Nat) (l : LinkRec) (o : SObj), m.st.store[i]? = some l → m.st.objs[l.saddle]? = some o →
      o.f.edge = false → l.saddle ∈ m.st.walked := fun i l o hl ho he =>
    hL.seen l (List.mem_of_getElem? hl) o.f (hfe _ _ ho) he
  have hin : ∀ (i : Nat) (l : LinkRec), m.st.store[i]? = some l → i ∈ m.linkers := fun i l hl => by
    rw [h.linkers, h.inv.lk]
    exact List.mem_range.2 (lt_of_getElem? hl)
  refine ⟨fun k he i hi => ?_, fun D i hi he => ?_, fun D => (hL.once.nodup D).1, fun k he => ?_, fun k D he hD => ?_,
    fun k D he hD => ?_, h.netFin.bound, fun k D ⟨_, he⟩ hD => ?_, fun a b hab => ?_, fun k a b _ ha hb => h.setEq hS ha hb, h.over⟩
  · obtain ⟨o, ho, hoe⟩ := net_edge he
    obtain ⟨l, hl, hk⟩ := h.inv.sad k i hi
    rw [net_link hl]
    subst hk
    exact ⟨rfl, (hH i (hin i l hl) l o hl ho hoe).1.2 hi⟩
  · obtain ⟨o, ho, hoe⟩ := net_edge he
    obtain ⟨l, hl, hk⟩ := h.inv.sum D i hi
    rw [net_link hl] at ho ⊢
    exact ⟨hk, (hH i (hin i l hl) l o hl ho hoe).1.1 (hk ▸ hi)⟩
  · obtain ⟨o, ho, hoe⟩ := net_edge he
    change (m.st.sadLinks k).length ≤ 2
    have hfew := hL.few k o.f (hfe _ _ ho) hoe
    cases hs : m.st.sadLinks k with
    | nil => simp
    | cons i is =>
      obtain ⟨l, hl, hk⟩ := h.inv.sad k i (by rw [hs]; simp)
      have := h.two (hk ▸ hwalk i l o hl (by rw [hk]; exact ho) hoe) ho hoe
      rw [hs, this] at hfew
      exact hfew
  · obtain ⟨o, ho, hoe⟩ := net_edge he
    obtain ⟨i, l, hl, rfl, rfl⟩ := hlk k D he hD
    obtain ⟨sf, o', h1, h2, h3⟩ := h.link hl
    have : o' = o := by simpa using h2.symm.trans ho
    subst this
    rw [net_elev_saddle ho, net_elev_summit h1]
    exact h3 hoe
  · obtain ⟨i, l, hl, rfl, rfl⟩ := hlk k D he hD
    obtain ⟨sf, o', h1, h2, _⟩ := h.link hl
    exact ⟨lt_of_getElem? h2, lt_of_getElem? h1⟩
  · obtain ⟨o, ho, hoe⟩ := net_edge he
    obtain ⟨i, l, hl, rfl, rfl⟩ := hlk k D he hD
    rw [h.saddles]
    refine List.mem_filter.2 ⟨hwalk i l o hl ho hoe, ?_⟩
    have := (h.inv.objs o (List.mem_of_getElem? ho)).inner hoe
    simp [ho, this]
  · simp only [DMap.net, featEq] at hab ⊢
    split at hab
    · rename_i s t h1 h2
      rw [h1, h2]
      simp only [seEq, Bool.and_eq_true, decide_eq_true_eq] at hab
      simpa using hab.2
    · cases hab

/-- What is known of the map after a run. -/
theorem run_links {E : SaddleEnv} (hE : RunOk E) (o : Pt → Oracle) (order : List Pt) (ho : IsScan E.d order)
    (rebuild : Bool) :
    ∃ D m0 m sites news, analyze E.d o order = .ok D ∧ DMap.runSparse E o order rebuild = .ok m ∧
      WalkedMap E sites m0 m news ∧ LInv m.st ∧ ((∀ f ∈ D.saddles, f.edge = false) → Held m.st) := by
  obtain ⟨D, corners, m0, m, sites, news, h1, h2, h3, h4, h5, h6, h7, h8, h9⟩ := run_spec hE o order ho rebuild
  have hw : m0.walk E [] = .ok (m, none) := by
    obtain ⟨m', _, w1, _⟩ := walk_spec hE h4
    have h8' := h8
    unfold DMap.runSparse at h8'
    rw [h3] at h8'
    dsimp only [bind, Except.bind] at h8'
    rw [w1] at h8'
    cases h8'
    exact w1
  obtain ⟨l1, l2⟩ := walk_links hE h4 hw
  exact ⟨D, m0, m, sites, news, h1, h8, h9, l1, fun he => l2 (discover_noEdge hE.fc o order ho rebuild h1 h3 he)⟩

theorem WalkedMap.held {E : SaddleEnv} {sites : List Pt} {m0 m : DMap} {news : List (List Nat)}
    (h : WalkedMap E sites m0 m news) : Held m.st ↔ LinkersHeld m := by
  constructor
  · intro hH i _ l o hl ho he
    exact hH i l o.f hl (by simp [CSt.feats, ho]) he
  · intro hH i l f hl hf he
    simp only [CSt.feats, List.getElem?_map, Option.map_eq_some_iff] at hf
    obtain ⟨o, ho, rfl⟩ := hf
    exact hH i (by rw [h.linkers, h.inv.lk]; exact List.mem_range.2 (lt_of_getElem? hl)) l o hl ho he

/-- On a walked map on which no two summits agree in location and elevation, nor a saddle off the edge with another that is linked
with the same summit, linkers are listed by both ends or by none. -/
theorem run_paired {E : SaddleEnv} (hE : RunOk E) (o : Pt → Oracle) (order : List Pt) (ho : IsScan E.d order)
    (rebuild : Bool) {m : DMap} (hm : DMap.runSparse E o order rebuild = .ok m) (hS : SummitsApart m.summits)
    (hA : SaddlesApart m) : LinkersPaired m := by
  obtain ⟨D, corners, m0, m', sites, news, h1, h2, h3, h4, h5, h6, h7, h8, h9⟩ := run_spec hE o order ho rebuild
  cases (h8.symm.trans hm : Except.ok _ = Except.ok _)
  have hw : m0.walk E [] = .ok (m, none) := by
    obtain ⟨m1, _, w1, _⟩ := walk_spec hE h4
    have h8' := h8
    unfold DMap.runSparse at h8'
    rw [h3] at h8'
    dsimp only [bind, Except.bind] at h8'
    rw [w1] at h8'
    cases h8'
    exact w1
  have hin : ∀ (i : Nat) (l : LinkRec), m.st.store[i]? = some l → i ∈ m.linkers := fun i l hl => by
    rw [h9.linkers, h9.inv.lk]
    exact List.mem_range.2 (lt_of_getElem? hl)
  -- equal linkers have the same summit, and saddles that agree
  have hlq : ∀ a ∈ m.st.store, ∀ b ∈ m.st.store, linkEq { E with summits := m0.summits } m.st.objs a b = true →
      a.summit = b.summit ∧ ∃ s t, m.st.objs[a.saddle]? = some s ∧ m.st.objs[b.saddle]? = some t ∧
        round6 s.f.lat = round6 t.f.lat ∧ round6 s.f.lon = round6 t.f.lon ∧ s.f.elevation = t.f.elevation := by
    intro a ha b hb he
    obtain ⟨sf, ob, e1, e2, _⟩ := h9.inv.links a ha
    obtain ⟨sf', ob', e1', e2', _⟩ := h9.inv.links b hb
    unfold linkEq at he
    rw [e1, e1', e2, e2'] at he
    simp only [Bool.and_eq_true, seEq, decide_eq_true_eq] at he
    rw [← h9.summits] at e1 e1'
    have hr : ∀ r r' : Rat, eqCoord r = eqCoord r' → round6 r = round6 r' := by
      intro r r' hq
      unfold eqCoord at hq
      split at hq <;> split at hq <;> simp_all
    refine ⟨?_, ob, ob', e2, e2', hr _ _ he.2.1.1, hr _ _ he.2.1.2, he.2.2⟩
    by_contra hne
    exact hS _ _ _ _ e1 e1' hne ⟨hr _ _ he.1.1.1, hr _ _ he.1.1.2, he.1.2⟩
  have hP : Paired { E with summits := m0.summits } m.st := by
    refine walk_paired h4 hw (fun i j a b f hij hi hj hsp hf hed he => ?_) (fun a ha => ?_)
    · obtain ⟨e1, s, t, e2, e3, e4, e5, e6⟩ := hlq a (List.mem_of_getElem? hi) b (List.mem_of_getElem? hj) he
      have : m.st.feats[b.saddle]? = some t.f := by simp [CSt.feats, e3]
      cases (this.symm.trans hf : some _ = some _)
      obtain ⟨t', g1, g2⟩ := hsp
      cases (g1.symm.trans e3 : some _ = some _)
      have hp := g2.resolve_left (by rw [hed]; decide)
      have := hA i (hin i a hi) j (hin j b hj) hij a b s _ hi hj e1 e2 e3 hed hp ⟨e4, e5, e6⟩
      cases a
      cases b
      simp only at e1 this
      rw [e1, this]
    · obtain ⟨sf, _, e1, _⟩ := h9.inv.links a ha
      exact ⟨sf, e1⟩
  intro i hi l ob hl hob hed
  refine ⟨hP.both i l ob.f hl (by simp [CSt.feats, hob]) hed, ?_⟩
  obtain ⟨j, hj, l', e1, e2⟩ := (linkIn_iff _ _).1 (h9.inv.ends l (List.mem_of_getElem? hl)).2
  refine ⟨j, hj, ?_⟩
  obtain ⟨l2, d1, d2⟩ := h9.inv.sad _ j hj
  cases (d1.symm.trans e1 : some _ = some _)
  have := (hlq _ (List.mem_of_getElem? e1) l (List.mem_of_getElem? hl) e2).1
  rw [e1]
  cases l'
  cases l
  simp only at this d2
  rw [this, d2]

end PyProm
