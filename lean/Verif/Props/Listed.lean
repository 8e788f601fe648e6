import Verif.Spec.Listed
import Verif.Proof.Listed
import Verif.Props.RunLinks
import Verif.Props.Discovery

/-
Exactly which linkers of a finished map are listed by their summit and by their saddle (C41).
-/
namespace PyProm
open Spec

theorem earlierSaddle_iff {E : SaddleEnv} {m : DMap} (hm : m.linkers = List.range m.st.store.length) {i : Nat} {l : LinkRec}
    (hs : ∃ sf, m.summits[l.summit]? = some sf) :
    (∃ j < i, ∃ a, m.st.store[j]? = some a ∧ a.summit = l.summit ∧
      linkEq { E with summits := m.summits } m.st.objs a l = true) ↔ EarlierSaddle m i l := by
  obtain ⟨sf, hsf⟩ := hs
  constructor
  · rintro ⟨j, hj, a, h1, h2, h3⟩
    refine ⟨j, by rw [hm]; exact List.mem_range.2 (lt_of_getElem? h1), hj, a, ?_⟩
    unfold linkEq at h3
    split at h3
    · rename_i s1 s2 t1 t2 e1 e2 e3 e4
      exact ⟨t1, t2, h1, h2, e3, e4, (Bool.and_eq_true _ _ ▸ h3).2⟩
    · cases h3
  · rintro ⟨j, _, hj, a, s, t, h1, h2, h3, h4, h5⟩
    refine ⟨j, hj, a, h1, h2, ?_⟩
    unfold linkEq
    dsimp only
    rw [h2, hsf, h3, h4]
    dsimp only
    rw [Bool.and_eq_true]
    exact ⟨(seEq_iff ..).2 rfl, h5⟩

theorem earlierSummit_iff {E : SaddleEnv} {m : DMap} (hm : m.linkers = List.range m.st.store.length) {i : Nat} {l : LinkRec}
    (ho : ∃ o, m.st.objs[l.saddle]? = some o) :
    (∃ j < i, ∃ a, m.st.store[j]? = some a ∧ a.saddle = l.saddle ∧
      linkEq { E with summits := m.summits } m.st.objs a l = true) ↔ EarlierSummit m i l := by
  obtain ⟨o, ho⟩ := ho
  constructor
  · rintro ⟨j, hj, a, h1, h2, h3⟩
    refine ⟨j, by rw [hm]; exact List.mem_range.2 (lt_of_getElem? h1), hj, a, ?_⟩
    unfold linkEq at h3
    split at h3
    · rename_i s1 s2 t1 t2 e1 e2 e3 e4
      exact ⟨s1, s2, h1, h2, e1, e2, (Bool.and_eq_true _ _ ▸ h3).1⟩
    · cases h3
  · rintro ⟨j, _, hj, a, s, t, h1, h2, h3, h4, h5⟩
    refine ⟨j, hj, a, h1, h2, ?_⟩
    unfold linkEq
    dsimp only
    rw [h2, ho, h3, h4]
    dsimp only
    rw [Bool.and_eq_true]
    exact ⟨h5, (seEq_iff ..).2 rfl⟩

/-- The linkers of a finished map. -/
theorem run_listed {E : SaddleEnv} (hE : RunOk E) {o : Pt → Oracle} {order : List Pt} {rebuild : Bool} {m0 m : DMap} {sites : List Pt}
    {news : List (List Nat)} (h3 : DMap.discover E.d E.fc o order rebuild = .ok m0) (h4 : Fresh E.d sites m0)
    (h8 : DMap.runSparse E o order rebuild = .ok m) (h9 : WalkedMap E sites m0 m news) :
    ∀ (i : Nat) l, m.st.store[i]? = some l →
      (i ∈ m.st.sumLinks l.summit ↔ ¬ (AtEdge m l.saddle ∧ EarlierSaddle m i l)) ∧
      (i ∈ m.st.sadLinks l.saddle ↔ ¬ (AtEdge m l.saddle ∧ EarlierSummit m i l)) := by
  obtain ⟨x, hx⟩ := run_walk h3 h8
  have hL := walk_listedBy hE h4 hx
  have hm : m.linkers = List.range m.st.store.length := by rw [h9.linkers, h9.inv.lk]
  rw [← h9.summits] at hL
  intro i l hl
  obtain ⟨sf, ob, g1, g2, _⟩ := h9.inv.links l (List.mem_of_getElem? hl)
  dsimp only at g1
  rw [← h9.summits] at g1
  rw [← earlierSaddle_iff (E := E) hm ⟨sf, g1⟩, ← earlierSummit_iff (E := E) hm ⟨ob, g2⟩]
  exact ⟨hL.bySum i l hl, hL.bySad i l hl⟩

/-- C41, exactly: a linker of a finished map is missing from the list of its summit if and only if its saddle is on the
edge or was split off one on the edge, and an earlier linker of the same summit has a saddle that compares equal. It is missing from the
list of its saddle if and only if, for such a saddle, an earlier linker of the same saddle has a summit that compares
equal. -/
theorem C41_listed (E : SaddleEnv) (hE : RunOk E) (o : Pt → Oracle) (order : List Pt)
    (ho : IsScan E.d order) (rebuild : Bool) :
    ∃ m, DMap.runSparse E o order rebuild = .ok m ∧ ∀ i ∈ m.linkers, ∃ l, m.st.store[i]? = some l ∧
      (i ∈ m.st.sumLinks l.summit ↔ ¬ (AtEdge m l.saddle ∧ EarlierSaddle m i l)) ∧
      (i ∈ m.st.sadLinks l.saddle ↔ ¬ (AtEdge m l.saddle ∧ EarlierSummit m i l)) := by
  obtain ⟨_, _, m0, m, sites, news, _, _, h3, h4, _, _, _, h8, h9⟩ := run_spec hE o order ho rebuild
  refine ⟨m, h8, fun i hi => ?_⟩
  rw [h9.linkers, h9.inv.lk] at hi
  have hlt := List.mem_range.1 hi
  exact ⟨_, List.getElem?_eq_getElem hlt, run_listed hE h3 h4 h8 h9 i _ (List.getElem?_eq_getElem hlt)⟩

/-! ### Corners -/

/-- A runoff without high neighbourhood at a cell without higher ground has one linker, to the summit of the cell. -/
theorem runoff_top {E : SaddleEnv} (hE : RunOk E) {o : Pt → Oracle} {order : List Pt} {rebuild : Bool} {m0 m : DMap} {sites : List Pt}
    {news : List (List Nat)} (h3 : DMap.discover E.d E.fc o order rebuild = .ok m0) (h4 : Fresh E.d sites m0)
    (h8 : DMap.runSparse E o order rebuild = .ok m) (h9 : WalkedMap E sites m0 m news) {k : Nat} (hkr : k ∈ m0.runoffs) {f : Feature}
    (hko : m0.st.objs[k]? = some { f := f }) (hr : f.kind = .runoff) (he : f.edge = true) (hh : f.hpn = []) {q : Pt} (hd : Data E.d q)
    (htop : IsTop E.d q) (hloc : LocatedAt E.d q f) :
    k ∈ m.runoffs ∧ ∃ S site ob, recs m.st k = [⟨S, k⟩] ∧ sites[S]? = some site ∧ Flat E.d site q ∧ m.st.objs[k]? = some ob ∧ ob.f = f := by
  obtain ⟨x, hx⟩ := run_walk h3 h8
  obtain ⟨_, r2, _⟩ := walk_recs hE h4 hx
  obtain ⟨ob, o1, o2, _⟩ := h9.step.feat k _ hko
  obtain ⟨_, _, l3⟩ := r2 k (List.mem_append_right _ hkr) _ hko
  obtain ⟨q', q1, q2, q3⟩ := l3 hr hh
  have hq : q' = q := by
    have e1 := located_xy hE.geo q1 q2
    have e2 := located_xy hE.geo hd.1 hloc
    exact Option.some.inj (e1.symm.trans e2)
  subst hq
  refine ⟨?_, ?_⟩
  · rw [h9.runoffs]
    refine List.mem_filter.2 ⟨?_, by rw [o1]; simp only [o2]; simpa using hr⟩
    rw [h9.walked]
    obtain ⟨j, hj⟩ := List.mem_iff_getElem?.1 (List.mem_append_right m0.saddles hkr)
    obtain ⟨new, n1, on, n2, n3, _⟩ := forall₂_getElem? h9.outcomes hj
    refine List.mem_flatten.2 ⟨new, List.mem_of_getElem? n1, ?_⟩
    cases (hko.symm.trans n2 : some _ = some _)
    unfold Outcome at n3
    rw [if_neg (by simp [he]), if_pos hr] at n3
    rcases n3 with ⟨n3, _⟩ | ⟨_, n3⟩ <;> rw [n3] <;> simp
  · rcases q3 with ⟨_, q3⟩ | ⟨S, top, a1, ⟨site, s1, s2⟩, _, a5⟩
    · exact absurd ⟨hd, htop⟩ q3
    · exact ⟨S, site, ob, a1, s1, s2.trans (Spec.Flat.symm hd (ascent_stays hd htop a5)), o1, o2⟩

theorem sites_once {d : DataMap} {sites : List Pt} {fs : List Feature} (h : SummitsAt d sites fs) {a b : Nat} {s t p : Pt}
    (ha : sites[a]? = some s) (hb : sites[b]? = some t) (h1 : Flat d s p) (h2 : Flat d t p) : a = b := by
  have d1 := (h.top s (List.mem_of_getElem? ha)).1
  have d2 := (h.top t (List.mem_of_getElem? hb)).1
  obtain ⟨ha', rfl⟩ := List.getElem?_eq_some_iff.1 ha
  obtain ⟨hb', rfl⟩ := List.getElem?_eq_some_iff.1 hb
  have hp := List.pairwise_iff_getElem.1 h.once
  rcases Nat.lt_trichotomy a b with hlt | rfl | hlt
  · exact absurd (h1.trans (Spec.Flat.symm d2 h2)) (hp a b ha' hb' hlt)
  · rfl
  · exact absurd (h2.trans (Spec.Flat.symm d1 h1)) (hp b a hb' ha' hlt)

/-- One record, one place in the store. -/
theorem recs_single {s : CSt} {k : Nat} {l : LinkRec} (h : recs s k = [l]) :
    l.saddle = k ∧ ∃ i, s.store[i]? = some l ∧ ∀ (j : Nat) (a : LinkRec), s.store[j]? = some a → a.saddle = k → j = i := by
  have hl : l ∈ recs s k := by rw [h]; simp
  obtain ⟨hm, hk⟩ := List.mem_filter.1 hl
  have hk : l.saddle = k := by simpa using hk
  refine ⟨hk, ?_⟩
  obtain ⟨i, hi⟩ := List.mem_iff_getElem?.1 hm
  refine ⟨i, hi, fun j a ha hak => ?_⟩
  -- two different places would give two records
  by_contra hne
  have key : ∀ (x y : Nat) (b c : LinkRec), x < y → s.store[x]? = some b → s.store[y]? = some c → b.saddle = k → c.saddle = k →
      False := by
    intro x y b c hxy hb hc h1 h2
    have hsub : List.Sublist [b, c] s.store := by
      have e : s.store = s.store.take y ++ s.store.drop y := (List.take_append_drop y _).symm
      rw [e]
      refine List.Sublist.append (l₁ := [b]) (r₁ := [c]) (List.singleton_sublist.2 ?_) (List.singleton_sublist.2 ?_)
      · exact List.mem_of_getElem? (i := x) (by rw [List.getElem?_take_of_lt hxy]; exact hb)
      · exact List.mem_of_getElem? (i := 0) (by rw [List.getElem?_drop]; exact hc)
    have hf := (hsub.filter (fun l => decide (l.saddle = k))).length_le
    rw [show s.store.filter (fun l => decide (l.saddle = k)) = [l] from h] at hf
    simp [h1, h2] at hf
  rcases Nat.lt_or_gt_of_ne hne with hlt | hlt
  · exact key j i a l hlt ha hi hak hk
  · exact key i j l a hlt hi ha hk hak

/-- A cell above all its neighbours is a summit of its own. -/
theorem peak_alone {d : DataMap} {p : Pt} (h : ∀ q, Data d q → Adj p q → el d q < el d p) :
    (∀ q, Flat d p q → q = p) ∧ IsTop d p := by
  have h1 : ∀ q, Flat d p q → q = p := by
    intro q hq
    induction hq with
    | refl => rfl
    | @tail b c _ h2 ih =>
      subst ih
      exact absurd (h c h2.2.1 h2.1) (by rw [h2.2.2]; exact lt_irrefl _)
  refine ⟨h1, ?_⟩
  rintro r ⟨⟨r1, _, u, r3, r4⟩, r5⟩
  rw [h1 u r3] at r4
  exact lt_asymm r5 (h r r1 r4)

/-- C41 fails on every raster with a corner cell above all its neighbours: two runoffs stand there, and one of them
has a linker to the summit that the summit does not list. -/
theorem C41_corner_refuted (E : SaddleEnv) (hE : RunOk E) (o : Pt → Oracle) (order : List Pt)
    (ho : IsScan E.d order) (rebuild : Bool) (p : Pt) (hp : Data E.d p) (hlow : ∀ q, Data E.d q → Adj p q → el E.d q < el E.d p)
    (hc : p ∈ [((E.d.maxX, 0) : Pt), (E.d.maxX, E.d.maxY), (0, 0), (0, E.d.maxY)]) :
    ∃ m, DMap.runSparse E o order rebuild = .ok m ∧ ∃ i ∈ m.linkers, ∃ l ob sf, m.st.store[i]? = some l ∧
      l.saddle ∈ m.runoffs ∧ m.st.objs[l.saddle]? = some ob ∧ LocatedAt E.d p ob.f ∧ m.summits[l.summit]? = some sf ∧
      LocatedAt E.d p sf ∧ i ∈ m.st.sadLinks l.saddle ∧ i ∉ m.st.sumLinks l.summit := by
  obtain ⟨D, corners, m0, m, sites, news, h1, h2, h3, h4, _, _, h7, h8, h9⟩ := run_spec hE o order ho rebuild
  refine ⟨m, h8, ?_⟩
  obtain ⟨hone, ht⟩ := peak_alone hlow
  -- the runoff of the area
  obtain ⟨regs, c1, c2, c3⟩ := analyze_spec E.d o order ho
  cases (c3.symm.trans h1 : Except.ok _ = Except.ok _)
  obtain ⟨r, hr, hrf⟩ := c1.all p hp
  obtain ⟨hd, mp, high, lower, str, bps, hm, t⟩ := c2 r hr
  have hrp : r.site = p := hone _ (Spec.Flat.symm hd hrf)
  have hbor : OnBorder E.d r.site := by
    rw [hrp]
    refine ⟨p, .refl, ?_⟩
    simp only [List.mem_cons, List.not_mem_nil, or_false] at hc
    unfold Border
    rcases hc with rfl | rfl | rfl | rfl <;> simp
  have hfs := t.borderSummit hbor ((high_nil_iff t.isHigh).2 (by rw [hrp]; exact ht))
  generalize hf : mkRunoff (E.d.xyToLatLon r.site.1 r.site.2) (el E.d r.site) mp bps [] = f at hfs
  have hmem : f ∈ (regs.flatMap Region.features).filter fun f => f.kind = .runoff := by
    rw [List.mem_filter, List.mem_flatMap]
    exact ⟨⟨r, hr, by rw [hfs]; simp⟩, by rw [← hf]; rfl⟩
  obtain ⟨n, hn⟩ := List.mem_iff_getElem?.1 hmem
  obtain ⟨k, hk, hko⟩ := forall₂_getElem? h7 (i := n) (by rw [List.getElem?_append_left (lt_of_getElem? hn)]; exact hn)
  -- the runoff of the corner
  obtain ⟨ll, lr, ul, ur, g1, g2, _⟩ := C14_corners_partial E.d
  cases (g1.symm.trans h2 : Except.ok _ = Except.ok _)
  have hcor : ∃ c ∈ [ll, lr, ul, ur], LocatedAt E.d p c ∧ c.kind = .runoff ∧ c.edge = true := by
    simp only [List.mem_cons, List.not_mem_nil, or_false] at hc
    rcases hc with rfl | rfl | rfl | rfl
    · exact ⟨ll, by simp, (g2 (ll, _) (by simp)).2.1, (g2 (ll, (E.d.maxX, 0)) (by simp)).1, (g2 (ll, (E.d.maxX, 0)) (by simp)).2.2.1⟩
    · exact ⟨lr, by simp, (g2 (lr, _) (by simp)).2.1, (g2 (lr, (E.d.maxX, E.d.maxY)) (by simp)).1,
        (g2 (lr, (E.d.maxX, E.d.maxY)) (by simp)).2.2.1⟩
    · exact ⟨ul, by simp, (g2 (ul, _) (by simp)).2.1, (g2 (ul, (0, 0)) (by simp)).1, (g2 (ul, (0, 0)) (by simp)).2.2.1⟩
    · exact ⟨ur, by simp, (g2 (ur, _) (by simp)).2.1, (g2 (ur, (0, E.d.maxY)) (by simp)).1,
        (g2 (ur, (0, E.d.maxY)) (by simp)).2.2.1⟩
  have hhpn : ∀ c ∈ [ll, lr, ul, ur], c.hpn = [] := by
    intro c hc
    unfold makeCornerRunoffs at g1
    obtain ⟨a1, b1, g1⟩ := bind_ok g1
    obtain ⟨a2, b2, g1⟩ := bind_ok g1
    obtain ⟨a3, b3, g1⟩ := bind_ok g1
    obtain ⟨a4, b4, g1⟩ := bind_ok g1
    cases g1
    have key : ∀ {loc : Rat × Rat} {x y : Int} {c : Feature}, cornerRunoff E.d loc x y = .ok c → c.hpn = [] := by
      intro loc x y c h
      unfold cornerRunoff at h
      split at h <;> cases h
      rfl
    simp only [List.mem_cons, List.not_mem_nil, or_false] at hc
    rcases hc with rfl | rfl | rfl | rfl
    · exact key b1
    · exact key b2
    · exact key b3
    · exact key b4
  obtain ⟨c, hcm, hcl, hck, hce⟩ := hcor
  obtain ⟨n', hn'⟩ := List.mem_iff_getElem?.1 hcm
  obtain ⟨k', hk', hko'⟩ := forall₂_getElem? h7
    (i := ((regs.flatMap Region.features).filter fun f => f.kind = .runoff).length + n') (by
      rw [List.getElem?_append_right (Nat.le_add_right _ _), Nat.add_sub_cancel_left]
      exact hn')
  have hne : k ≠ k' := by
    rintro rfl
    have hnd := (List.nodup_append.1 h4.nodup).2.1
    have := lt_of_getElem? hn
    have e := (List.getElem?_inj (lt_of_getElem? hk) hnd).1 (hk.trans hk'.symm)
    omega
  have hfl : LocatedAt E.d p f := by rw [← hf, ← hrp]; exact ⟨rfl, rfl, rfl⟩
  obtain ⟨m1, S, site, ob, a1, a2, a3, a4, a5⟩ := runoff_top hE h3 h4 h8 h9 (List.mem_of_getElem? hk) hko (by rw [← hf]; rfl)
    (by rw [← hf]; rfl) (by rw [← hf]; rfl) hp ht hfl
  obtain ⟨m2, S', site', ob', b1, b2, b3, b4, b5⟩ := runoff_top hE h3 h4 h8 h9 (List.mem_of_getElem? hk') hko' hck hce (hhpn c hcm)
    hp ht hcl
  have hS : S' = S := sites_once h4.tops b2 a2 b3 a3
  subst hS
  obtain ⟨sf, f1, f2⟩ := forall₂_getElem? h4.tops.each a2
  have hsite : site = p := hone _ (Spec.Flat.symm (h4.tops.top site (List.mem_of_getElem? a2)).1 a3)
  rw [hsite] at f2
  have hall : ∀ i l, m.st.store[i]? = some l → i ∈ m.linkers := fun i l h => by
    rw [h9.linkers, h9.inv.lk]; exact List.mem_range.2 (lt_of_getElem? h)
  obtain ⟨_, i, i1, i2⟩ := recs_single a1
  obtain ⟨_, j, j1, j2⟩ := recs_single b1
  have heq : ∀ g g', LocatedAt E.d p g → LocatedAt E.d p g' → ComparesEqual g g' := by
    intro g g' h h'
    unfold ComparesEqual
    rw [h.1, h.2.1, h.2.2, h'.1, h'.2.1, h'.2.2]
    exact (seEq_iff ..).2 rfl
  have hL := run_listed hE h3 h4 h8 h9
  -- the later of two such linkers is not listed
  have key : ∀ (x y u v : Nat) (ob1 ob2 : SObj), x < y → m.st.store[x]? = some ⟨S', u⟩ → m.st.store[y]? = some ⟨S', v⟩ → v ∈ m.runoffs →
      m.st.objs[u]? = some ob1 → m.st.objs[v]? = some ob2 → LocatedAt E.d p ob1.f → LocatedAt E.d p ob2.f → ob2.f.edge = true →
      (∀ (z : Nat) (a : LinkRec), m.st.store[z]? = some a → a.saddle = v → z = y) →
      ∃ i ∈ m.linkers, ∃ l ob sf, m.st.store[i]? = some l ∧
        l.saddle ∈ m.runoffs ∧ m.st.objs[l.saddle]? = some ob ∧ LocatedAt E.d p ob.f ∧ m.summits[l.summit]? = some sf ∧
        LocatedAt E.d p sf ∧ i ∈ m.st.sadLinks l.saddle ∧ i ∉ m.st.sumLinks l.summit := by
    intro x y u v ob1 ob2 hxy hx hy hv ho1 ho2 hl1 hl2 he hu
    refine ⟨y, hall y _ hy, ⟨S', v⟩, ob2, sf, hy, hv, ho2, hl2, by rw [h9.summits]; exact f1, f2.located, ?_, ?_⟩
    · rw [(hL y _ hy).2]
      rintro ⟨_, z, _, hz, a, _, _, z1, z2, _⟩
      have := hu z a z1 z2
      omega
    · rw [(hL y _ hy).1, Classical.not_not]
      exact ⟨⟨ob2, ho2, .inl he⟩, x, hall x _ hx, hxy, ⟨S', u⟩, ob1, ob2, hx, rfl, ho1, ho2, heq _ _ hl1 hl2⟩
  have l1 : LocatedAt E.d p ob.f := by rw [a5]; exact hfl
  have l2 : LocatedAt E.d p ob'.f := by rw [b5]; exact hcl
  rcases Nat.lt_trichotomy i j with hlt | rfl | hlt
  · exact key i j k k' ob ob' hlt i1 j1 m2 a4 b4 l1 l2 (by rw [b5]; exact hce) j2
  · cases (i1.symm.trans j1 : some _ = some _)
    exact absurd rfl hne
  · exact key j i k' k ob' ob hlt j1 i1 m1 b4 a4 l2 l1 (by rw [a5, ← hf]; rfl) i2

/-! Instances -/

/-- Summit, saddle and whether either lists the linker, for the linkers of a map. -/
def exListed (m : DMap) : List (Nat × Nat × Bool × Bool) := m.linkers.filterMap fun i => m.st.store[i]?.map fun l =>
  (l.summit, l.saddle, (m.st.sumLinks l.summit).contains i, (m.st.sadLinks l.saddle).contains i)

/-- A summit in a corner: its runoff (0) and that of the corner (3) are both linked with it; the summit lists only the first. -/
example : (exMap [[9, 1, 1], [1, 1, 1]] false).toOption.map exListed =
    some [(0, 0, true, true), (0, 3, false, true)] := by decide +kernel

/-- The hypotheses of `C41_corner_refuted` are met. -/
example : RunOk (exRun (DataMap.ofRows [[9, 1, 1], [1, 1, 1]])) ∧ Data (DataMap.ofRows [[9, 1, 1], [1, 1, 1]]) (0, 0) ∧
    ∀ q, Data (DataMap.ofRows [[9, 1, 1], [1, 1, 1]]) q → Adj (0, 0) q →
      el (DataMap.ofRows [[9, 1, 1], [1, 1, 1]]) q < el (DataMap.ofRows [[9, 1, 1], [1, 1, 1]]) (0, 0) := by
  refine ⟨exRun_plain _ (by unfold maxsize; decide +kernel), by unfold Spec.Data Spec.InB; decide +kernel, ?_⟩
  rintro ⟨x, y⟩ ⟨⟨h1, _, h3, _⟩, _⟩ ⟨hne, h5, h6, h7, h8⟩
  dsimp only at h1 h3 h5 h6 h7 h8
  have hx : x = 0 ∨ x = 1 := by omega
  have hy : y = 0 ∨ y = 1 := by omega
  rcases hx with rfl | rfl <;> rcases hy with rfl | rfl
  · exact absurd rfl hne
  all_goals decide +kernel

/-- Saddles split off an edge saddle: both cases of `C41_listed` for linkers of saddles off the edge. -/
example : (exMap [[0, 0, 0, 2, 3, 0], [0, 0, 0, 2, 0, 0], [0, 0, 9, 0, 3, 0], [0, 7, 0, 0, 9, 0], [0, 9, 1, 1, 0, 0],
    [0, 0, 0, 0, 0, 0]] false).toOption.map exListed = some [(2, 8, true, true), (0, 8, true, true), (1, 9, true, true),
    (2, 9, false, true), (1, 10, true, true), (3, 10, true, true), (2, 11, true, true), (3, 11, true, true), (0, 3, true, true)] := by decide +kernel

end PyProm
