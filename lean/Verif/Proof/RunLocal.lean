import Verif.Proof.BasinLocal
import Verif.Proof.RunBasin
import Verif.Proof.Faithful
import Verif.Proof.LinkSteps

/-
The parts of a run that edge saddles do not disturb: which linkers are listed at both ends, and where
saddles with parents come from.
-/
namespace PyProm
open Spec

/-- Linkers of saddles outside `S` are listed at both ends. -/
theorem LinkSteps.listed {E : SaddleEnv} {S : Nat → Prop} {s u : CSt}
    (hs : ∀ (i : Nat) l, s.store[i]? = some l → ¬ S l.saddle → i ∈ s.sumLinks l.summit ∧ i ∈ s.sadLinks l.saddle)
    (h : LinkSteps E S s u) :
    ∀ (i : Nat) l, u.store[i]? = some l → ¬ S l.saddle → i ∈ u.sumLinks l.summit ∧ i ∈ u.sadLinks l.saddle := by
  induction h with
  | refl => exact hs
  | @quiet t u _ h1 h2 h3 _ ih =>
    intro i l hl hS
    rw [h1] at hl
    rw [h2, h3]
    exact ih i l hl hS
  | @add t ig D sid _ _ hS ih =>
    intro i l hl hn
    have hl' : (t.store ++ [⟨D, sid⟩])[i]? = some l := hl
    by_cases hi : i < t.store.length
    · rw [List.getElem?_append_left hi] at hl'
      obtain ⟨a, b⟩ := ih i l hl' hn
      exact ⟨(mem_push (Nat.ne_of_lt hi)).2 a, (mem_push (Nat.ne_of_lt hi)).2 b⟩
    · have hlt := lt_of_getElem? hl'
      rw [List.length_append, List.length_singleton] at hlt
      have : i = t.store.length := by omega
      subst this
      have : l = ⟨D, sid⟩ := by simpa using hl'.symm
      subst this
      have hig : ig = false := by
        cases ig with
        | false => rfl
        | true => exact absurd (hS rfl) hn
      subst hig
      exact ⟨by simp [addLinker, pushAt], by simp [addLinker, pushAt]⟩

/-- On a walked map, linkers of saddles that are off the edge and have no parent are listed at both ends. -/
theorem walk_listed {E : SaddleEnv} {sites : List Pt} {m0 m : DMap} (h0 : Fresh E.d sites m0)
    (hw : m0.walk E [] = .ok (m, none)) (i : Nat) (l : LinkRec) (hl : m.st.store[i]? = some l) (hS : ¬ Split m.st l.saddle) :
    i ∈ m.st.sumLinks l.summit ∧ i ∈ m.st.sadLinks l.saddle := by
  have hst := h0.start
  unfold DMap.walk at hw
  obtain ⟨w, e1, e2⟩ := bind_ok hw
  obtain ⟨⟨r, s⟩, e3, e4⟩ := bind_ok e2
  unfold climbFromSaddles at e3
  obtain ⟨s1, e5, e6⟩ := bind_ok e3
  cases e6
  simp only [List.isEmpty_nil, if_true] at e5 e4
  have hm : m.st = s := by
    cases e4; rfl
  rw [hm] at hl hS ⊢
  refine (LinkSteps.features e5).listed (fun i l hl _ => ?_) i l hl hS
  rw [hst] at hl
  simp [CSt.start] at hl

/-- An edge saddle of a discovered map is one that was discovered. -/
theorem FromSaddles.edge {d : DataMap} {rebuild : Bool} {fs : List Feature} {m : DMap} (h : FromSaddles d rebuild fs m)
    {k : Nat} {o : SObj} (hk : k ∈ m.saddles) (ho : m.st.objs[k]? = some o) (he : o.f.edge = true) : o.f ∈ fs := by
  unfold FromSaddles at h
  split at h
  · obtain ⟨news, h1, h2⟩ := h
    rw [h1] at hk
    obtain ⟨new, hn, hk⟩ := List.mem_flatten.1 hk
    obtain ⟨i, hi⟩ := List.mem_iff_getElem?.1 hn
    have hil : i < fs.zipIdx.length := by
      rw [h2.length_eq]; exact lt_of_getElem? hi
    obtain ⟨new', e1, ids, e2, e3, e4, e5⟩ := forall₂_getElem? h2 (List.getElem?_eq_getElem hil)
    have : new' = new := by simpa using e1.symm.trans hi
    subst this
    have hmem : fs.zipIdx[i].1 ∈ fs := List.fst_mem_of_mem_zipIdx (List.getElem_mem hil)
    generalize fs.zipIdx[i] = x at *
    have hids : k ∉ ids := by
      intro hc
      obtain ⟨o', g1, g2, _⟩ := e4 k hc
      cases (g1.symm.trans ho : some _ = some _)
      rw [g2.edge] at he
      cases he
    dsimp only at e5
    split at e5
    · obtain ⟨f1, f2⟩ := e5
      rw [f1] at hk
      have : k = x.2 := by
        rcases List.mem_append.1 hk with hk | hk
        · exact absurd hk hids
        · exact List.mem_singleton.1 hk
      subst this
      cases (f2.symm.trans ho : some _ = some _)
      exact hmem
    · rw [e5.1] at hk
      exact absurd hk hids
  · obtain ⟨i, hi⟩ := List.mem_iff_getElem?.1 hk
    have hil : i < fs.length := by
      rw [h.length_eq]; exact lt_of_getElem? hi
    obtain ⟨k', e1, e2⟩ := forall₂_getElem? h (List.getElem?_eq_getElem hil)
    have : k' = k := by simpa using e1.symm.trans hi
    subst this
    cases (e2.symm.trans ho : some _ = some _)
    exact List.getElem_mem hil

/-- A walked saddle off the edge has no parent, or is made from a discovered edge saddle. -/
theorem WalkedMap.origin {E : SaddleEnv} {sites : List Pt} {m0 m : DMap} {news : List (List Nat)} {rebuild : Bool}
    {fs : List Feature} (h : WalkedMap E sites m0 m news) (h0 : Fresh E.d sites m0) (hf : FromSaddles E.d rebuild fs m0)
    {k : Nat} (hk : k ∈ m.st.walked) {o : SObj} (ho : m.st.objs[k]? = some o) (he : o.f.edge = false) :
    o.parent = none ∨ ∃ f ∈ fs, f.edge = true ∧ SynthOf f o.f := by
  rw [h.walked] at hk
  obtain ⟨new, hn, hk⟩ := List.mem_flatten.1 hk
  obtain ⟨i, hi⟩ := List.mem_iff_getElem?.1 hn
  have hil : i < (m0.saddles ++ m0.runoffs).length := by
    rw [h.outcomes.length_eq]; exact lt_of_getElem? hi
  obtain ⟨new', e1, ob, e2, e3, _⟩ := forall₂_getElem? h.outcomes (List.getElem?_eq_getElem hil)
  have : new' = new := by simpa using e1.symm.trans hi
  subst this
  have hmem := List.getElem_mem hil
  generalize (m0.saddles ++ m0.runoffs)[i] = base at e2 e3 hmem
  obtain ⟨ob', f1, f2, _⟩ := h.step.feat base ob e2
  have hbase : ob.f.edge ≠ false → k ≠ base := by
    rintro hne rfl
    have : ob' = o := by simpa using f1.symm.trans ho
    rw [← f2, this] at hne
    exact hne he
  unfold Outcome at e3
  split at e3
  · obtain ⟨o', g1, _, g3⟩ := e3.2.2 k hk
    cases (g1.symm.trans ho : some _ = some _)
    exact .inl g3
  · rename_i hne
    split at e3
    · rcases e3 with ⟨e3, _⟩ | ⟨_, e3⟩ <;> rw [e3] at hk <;> simp at hk <;> exact absurd hk (hbase hne)
    · rename_i hkind
      obtain ⟨ids, g0, _, _, g3, _⟩ := e3
      rw [g0] at hk
      rcases List.mem_append.1 hk with hk | hk
      · obtain ⟨o', g1, g2, _⟩ := g3 k hk
        cases (g1.symm.trans ho : some _ = some _)
        have hed : ob.f.edge = true := by simpa using hne
        refine .inr ⟨ob.f, hf.edge ?_ e2 hed, hed, g2⟩
        rcases List.mem_append.1 hmem with hm | hm
        · exact hm
        · obtain ⟨ob2, k1, k2, _⟩ := h0.run base hm
          cases (k1.symm.trans e2 : some _ = some _)
          exact absurd k2 hkind
      · exact absurd (List.mem_singleton.1 hk) (hbase hne)

/-- Edge saddles are reported for areas that reach the border. -/
theorem edge_on_border {d : DataMap} {o : Pt → Oracle} {order : List Pt} (ho : IsScan d order) {D : Discovered}
    (hD : analyze d o order = .ok D) {f : Feature} (hf : f ∈ D.saddles) (he : f.edge = true) :
    ∃ q, Data d q ∧ OnBorder d q ∧ f.elevation = el d q ∧ ∀ c ∈ f.hpn, ∀ x ∈ c, HighRim d q x.xy := by
  obtain ⟨regs, _, h2, h3⟩ := analyze_spec d o order ho
  rw [hD] at h3
  simp only [Except.ok.injEq] at h3
  rw [h3] at hf
  obtain ⟨hf, hk⟩ := List.mem_filter.1 hf
  rw [decide_eq_true_eq] at hk
  obtain ⟨r, hr, hf⟩ := List.mem_flatMap.1 hf
  obtain ⟨hd, mp, high, lower, str, bps, _, t⟩ := h2 r hr
  have harea : ∀ c ∈ high, ∀ x ∈ c, HighRim d r.site x.xy := by
    obtain ⟨S, hS, hc⟩ := t.isHigh
    intro c hcm p hp
    exact ((hS p).1 ((hc.mem p).1 (List.mem_flatten.2 ⟨c, hcm, hp⟩))).1
  by_cases hb : OnBorder d r.site
  · refine ⟨r.site, hd, hb, ?_⟩
    by_cases hh : high = []
    · rw [t.borderSummit hb hh] at hf
      simp only [List.mem_cons, List.not_mem_nil, or_false] at hf
      rcases hf with rfl | rfl <;> simp [mkSummit, mkRunoff] at hk
    · by_cases hl : lower.length ≤ 1
      · rw [t.borderFew hb hh hl] at hf
        split at hf
        · rw [List.mem_singleton.1 hf]
          exact ⟨rfl, harea⟩
        · simp at hf
      · obtain ⟨cs, rs, rem, _, h3, _, _, h6⟩ := t.borderMany hb hh (by omega)
        rw [h6, List.mem_append] at hf
        rcases hf with hf | hf
        · obtain ⟨i, hi⟩ := List.mem_iff_getElem?.1 hf
          have hil : i < cs.length := by rw [h3.length_eq]; exact lt_of_getElem? hi
          obtain ⟨g, g1, g2, _⟩ := forall₂_getElem? h3 (List.getElem?_eq_getElem hil)
          cases (g1.symm.trans hi : some _ = some _)
          rw [g2.1] at hk
          cases hk
        · split at hf
          · rw [List.mem_singleton] at hf
            rw [hf]
            split <;> exact ⟨rfl, harea⟩
          · simp at hf
  · rw [t.interior hb] at hf
    split at hf
    · rw [List.mem_singleton.1 hf] at he
      simp [mkSummit] at he
    · split at hf
      · rw [List.mem_singleton.1 hf] at he
        simp [mkSaddle] at he
      · simp at hf

/-- A linker stands for a way from the high ground of its saddle to the summit, above the saddle. -/
theorem link_ground {E : SaddleEnv} {sites : List Pt} {summits : List Feature} (hS : SummitsAt E.d sites summits) {s : CSt}
    (hs : CInv E sites s) {k : Nat} {o : SObj} (ho : s.objs[k]? = some o) (hn : o.f.hpn ≠ []) {D : Nat} (hD : ⟨D, k⟩ ∈ s.store)
    {x : Pt} (hx : sites[D]? = some x) : ∃ c ∈ o.f.hpn, ∃ y ∈ c, Passable E.d o.f.elevation y.xy x := by
  obtain ⟨sf, o', _, h2, _, z, top, ⟨x', hx', hfl⟩, h4, h5⟩ := hs.links _ hD
  cases (h2.symm.trans ho : some _ = some _)
  cases (hx'.symm.trans hx : some _ = some _)
  rcases h5 with ⟨c, hc, y, hy, rfl⟩ | ⟨hn', _⟩
  · refine ⟨c, hc, y, hy, ?_⟩
    obtain ⟨d1, d2, d3⟩ := ((hs.objs o (List.mem_of_getElem? ho)).high c hc).2 y hy
    have dx := (hS.top x (List.mem_of_getElem? hx)).1
    exact (Spec.Ascends.passable d1 (Relation.ReflTransGen.trans h4 (hfl.symm dx).ascends)).mono (by rw [← d2]; exact le_of_lt d3)
  · exact absurd hn' hn

/-- Without border cells there are no edge saddles. -/
theorem clear_inland {d : DataMap} {o : Pt → Oracle} {order : List Pt} (ho : IsScan d order) {D : Discovered}
    (hD : analyze d o order = .ok D) {h : Rat} {p : Pt} (hb : ∀ q, Passable d h p q → ¬ Border d q) :
    ClearOfEdge d D.saddles h p := by
  intro f hf he hh c hc x hx hp
  obtain ⟨q, hq, ⟨b, b1, b2⟩, q2, q3⟩ := edge_on_border ho hD hf he
  have h1 : Passable d (el d q) q x.xy := (q3 c hc x hx).passable hq
  have h2 : Passable d (el d q) q b := b1.ascends.passable hq
  exact hb b (hp.trans ((h1.symm.trans h2).mono (by rw [← q2]; exact hh))) b2

/-- The saddles on ground that is connected with `p` at the level `h`. -/
def OnGround (E : SaddleEnv) (sites : List Pt) (m : DMap) (h : Rat) (p : Pt) (k : Nat) : Prop :=
  ∃ o, m.st.objs[k]? = some o ∧ o.f.edge = false ∧ o.parent = none ∧ h ≤ o.f.elevation ∧
    ∃ D x, (⟨D, k⟩ : LinkRec) ∈ m.st.store ∧ sites[D]? = some x ∧ Passable E.d h p x

section
variable {E : SaddleEnv} {sites : List Pt} {m0 m : DMap} {news : List (List Nat)} {rebuild : Bool} {fs : List Feature}

/-- On ground that is clear of edge saddles, no saddle is made from one. -/
theorem WalkedMap.onGround (hM : WalkedMap E sites m0 m news) (h0 : Fresh E.d sites m0) (hf : FromSaddles E.d rebuild fs m0)
    (hL : LInv m.st) {h : Rat} {p : Pt} (hc : ClearOfEdge E.d fs h p) {k : Nat} {o : SObj} (ho : m.st.objs[k]? = some o)
    (he : o.f.edge = false) (hh : h ≤ o.f.elevation) {D : Nat} {x : Pt} (hD : (⟨D, k⟩ : LinkRec) ∈ m.st.store)
    (hx : sites[D]? = some x) (hp : Passable E.d h p x) : OnGround E sites m h p k := by
  refine ⟨o, ho, he, ?_, hh, D, x, hD, hx, hp⟩
  have hw : k ∈ m.st.walked := hL.seen _ hD o.f (by simp [CSt.feats, ho]) he
  rcases hM.origin h0 hf hw ho he with hn | ⟨f, f1, f2, f3⟩
  · exact hn
  · have hne : o.f.hpn ≠ [] := by
      intro hc
      have := f3.two
      rw [hc] at this
      simp at this
    obtain ⟨c, hc1, y, hy, hyx⟩ := link_ground (E := { E with summits := m0.summits }) h0.tops hM.inv ho hne hD hx
    obtain ⟨c', hc', hy'⟩ := f3.high c hc1 y hy
    exact absurd (hp.trans (hyx.mono hh).symm) (hc f f1 f2 (by rw [← f3.elev]; exact hh) c' hc' y hy')

/-- Saddles on ground that is clear of edge saddles are in order for basin detection. -/
theorem WalkedMap.sound (hM : WalkedMap E sites m0 m news) (h0 : Fresh E.d sites m0) (hf : FromSaddles E.d rebuild fs m0)
    (hw : m0.walk E [] = .ok (m, none)) (hg : Findable E.d)
    (hL : LInv m.st) {h : Rat} {p : Pt} (hc : ClearOfEdge E.d fs h p) (hS : SummitsApart m.summits) :
    Sound m.net m.saddles h (OnGround E sites m h p) := by
  have hheld : ∀ (i : Nat) (l : LinkRec), m.st.store[i]? = some l → OnGround E sites m h p l.saddle →
      i ∈ m.st.sumLinks l.summit ∧ i ∈ m.st.sadLinks l.saddle := by
    rintro i l hl ⟨o, ho, he, hn, _⟩
    refine walk_listed h0 hw i l hl ?_
    rintro ⟨o', h1, h2⟩
    cases (h1.symm.trans ho : some _ = some _)
    rcases h2 with h2 | h2
    · rw [he] at h2; cases h2
    · exact h2 hn
  have hrec : ∀ k D, Linked m.net k D → (⟨D, k⟩ : LinkRec) ∈ m.st.store := by
    rintro k D ⟨i, hi, hD⟩
    obtain ⟨l, hl, hk⟩ := hM.inv.sad k i hi
    rw [net_link hl] at hD
    have : l = ⟨D, k⟩ := by cases l; simp only at hk hD; rw [hk, hD]
    rw [← this]
    exact List.mem_of_getElem? hl
  have hsite : ∀ D k, (⟨D, k⟩ : LinkRec) ∈ m.st.store → ∃ x, sites[D]? = some x := by
    intro D k hD
    obtain ⟨_, _, _, _, _, _, _, ⟨x, hx, _⟩, _⟩ := hM.inv.links _ hD
    exact ⟨x, hx⟩
  refine ⟨fun k hk => ?_, fun k hk i hi => ?_, fun D i hi hk => ?_, fun D => (hL.once.nodup D).1, fun k hk => ?_,
    fun k j D hk hkD hj he hh => ?_, fun k hk => ?_, fun a b hab => ?_, fun k a b _ ha hb => hM.setEq hS ha hb⟩
  · obtain ⟨o, ho, _, _, hh, _⟩ := hk
    rw [net_elev_saddle ho]
    exact hh
  · obtain ⟨l, hl, rfl⟩ := hM.inv.sad k i hi
    rw [net_link hl]
    exact ⟨rfl, (hheld i l hl hk).1⟩
  · obtain ⟨l, hl, rfl⟩ := hM.inv.sum D i hi
    rw [net_link hl] at hk ⊢
    exact ⟨rfl, (hheld i l hl hk).2⟩
  · obtain ⟨o, ho, he, _, _, D, x, hD, _⟩ := hk
    have hfe : m.st.feats[k]? = some o.f := by simp [CSt.feats, ho]
    have := hM.two (hL.seen _ hD o.f hfe he) ho he
    rw [← this]
    exact hL.few k o.f hfe he
  · obtain ⟨o, ho, _, _, hko, D', x', hD', hx', hp'⟩ := hk
    have hD := hrec k D hkD
    obtain ⟨x, hx⟩ := hsite D k hD
    obtain ⟨z, hz⟩ := link_way (E := { E with summits := m0.summits }) hg h0.tops hM.inv ho
    have hpx : Passable E.d h p x := hp'.trans (((hz D' hD' x' hx').mono hko).symm.trans ((hz D hD x hx).mono hko))
    obtain ⟨oj, hoj, hej⟩ := net_edge he
    rw [net_elev_saddle hoj] at hh
    refine hM.onGround h0 hf hL hc hoj hej hh (D := D) ?_ hx hpx
    rcases hj with hj | ⟨i, hi, hj⟩
    · exact hrec j D hj
    · obtain ⟨l, hl, rfl⟩ := hM.inv.sum D i hi
      rw [net_link hl] at hj
      dsimp only at hj
      subst hj
      exact List.mem_of_getElem? hl
  · obtain ⟨o, ho, he, _, _, D, x, hD, _⟩ := hk
    rw [hM.saddles]
    refine List.mem_filter.2 ⟨hL.seen _ hD o.f (by simp [CSt.feats, ho]) he, ?_⟩
    have := (hM.inv.objs o (List.mem_of_getElem? ho)).inner he
    simp [ho, this]
  · simp only [DMap.net, featEq] at hab ⊢
    split at hab
    · rename_i s t h1 h2
      rw [h1, h2]
      simp only [seEq, Bool.and_eq_true, decide_eq_true_eq] at hab
      simpa using hab.2
    · cases hab

end

end PyProm
