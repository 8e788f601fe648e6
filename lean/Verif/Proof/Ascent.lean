import Verif.Proof.Climbs
import Verif.Proof.Faithful
import Verif.Props.Walk
import Verif.Spec.Ascent

/-
Without shelves the domain of a point is that of the summit at the end of its line of steepest ascent.
-/
namespace PyProm
open Spec

/-! ### The line of steepest ascent -/

theorem Spec.FirstSteep.unique {d : DataMap} {w : Int → Int → Rat → Rat} {p q r : Pt} (h : FirstSteep d w p q)
    (g : FirstSteep d w p r) : q = r := by
  obtain ⟨h1, pre, post, h2, h3⟩ := h
  obtain ⟨g1, pre', post', g2, g3⟩ := g
  rw [h2] at g2
  rcases List.append_eq_append_iff.1 g2 with ⟨as, e1, e2⟩ | ⟨as, e1, e2⟩
  · cases as with
    | nil => simpa using (List.cons.inj e2).1
    | cons a as =>
      obtain ⟨rfl, _⟩ := List.cons.inj e2
      exact absurd h1.1 (g3 _ (by rw [e1]; simp))
  · cases as with
    | nil => simpa using (List.cons.inj e2).1.symm
    | cons a as =>
      obtain ⟨rfl, _⟩ := List.cons.inj e2
      exact absurd g1.1 (h3 _ (by rw [e1]; simp))

/-- A top is the end of the line. -/
theorem not_steep_of_top {d : DataMap} {w : Int → Int → Rat → Rat} {p q : Pt} (h : IsTop d p) :
    ¬ FirstSteep d w p q := by
  rintro ⟨⟨⟨h1, h2, _⟩, h3⟩, _⟩
  exact h q ⟨⟨h2, ne_of_gt h3, p, .refl, h1⟩, h3⟩

/-- The top at the end of the line is determined by its beginning. -/
theorem Spec.LeadsTo.unique {d : DataMap} {w : Int → Int → Rat → Rat} {p t u : Pt} (h : LeadsTo d w p t) (g : LeadsTo d w p u)
    (ht : IsTop d t) (hu : IsTop d u) : t = u := by
  induction h using Relation.ReflTransGen.head_induction_on with
  | refl =>
    rcases Relation.ReflTransGen.cases_head g with h | ⟨c, h, _⟩
    · exact h
    · exact absurd h (not_steep_of_top ht)
  | head h1 _ ih =>
    rcases Relation.ReflTransGen.cases_head g with h | ⟨c, h, g'⟩
    · subst h
      exact absurd h1 (not_steep_of_top hu)
    · rw [h.unique h1] at g'
      exact ih g'

/-- The step of the code, if it rises. -/
theorem steepest_first {d : DataMap} {w : Int → Int → Rat → Rat} (hw : Upward w) {p : Pt} {sn : P3} (hp : InB d p)
    (h : steepestNeighbor d w p.1 p.2 = .ok (some sn)) (hs : Steepest d w p sn.xy) (he : sn.e = el d sn.xy)
    (hr : el d p < el d sn.xy) : FirstSteep d w p sn.xy := by
  refine ⟨⟨hs, hr⟩, ?_⟩
  rcases C56_steepest d w hw p hp with ⟨h', _⟩ | ⟨q, e, pre, post, h1, h2, _, _, _, _, h3⟩
  · rw [h] at h'; cases h'
  · rw [h] at h1
    simp only [Except.ok.injEq, Option.some.injEq] at h1
    subst h1
    refine ⟨pre, post, h2, fun r hr' hst => ?_⟩
    have := h3 r hr' (el d r) (.inl ⟨hst.2.1.1, rfl⟩) hst.2.2.1
    have h5 := hst.2.2.2 q hs.1 hs.2.1 (le_of_lt hr)
    dsimp only [P3.xy] at he
    rw [he] at this
    exact absurd h5 (not_le.2 this)

/-- Along a chain of steps every member leads to the last. -/
theorem leads_chain {d : DataMap} {w : Int → Int → Rat → Rat} : ∀ (c : List Pt) (last : Pt), c.IsChain (FirstSteep d w) →
    c.getLast? = some last → ∀ p ∈ c, LeadsTo d w p last := by
  intro c
  induction c with
  | nil => intro last _ h; simp at h
  | cons a c ih =>
    intro last hc hl p hp
    cases c with
    | nil =>
      simp only [List.getLast?_singleton, Option.some.injEq] at hl
      rw [List.mem_singleton.1 hp, hl]
      exact .refl
    | cons b c =>
      rw [List.isChain_cons_cons] at hc
      have hl' : (b :: c).getLast? = some last := by rw [← hl]; simp
      have hrec := ih last hc.2 hl'
      rcases List.mem_cons.1 hp with rfl | hp
      · exact .head hc.1 (hrec b (by simp))
      · exact hrec p hp

/-! ### Climbs follow it -/

/-- Every assigned point leads to its summit. -/
def Led (E : WalkEnv) (S : Nat → Pt → Prop) (s : WSt) : Prop :=
  ∀ p D, s.lookup p = some D → ∃ t, S D t ∧ LeadsTo E.d E.w p t

theorem climbLoop_led {E : WalkEnv} (hE : EnvOk E) (hN : NoShelves E.d) {S : Nat → Pt → Prop} : ∀ (n : Nat)
    {s : WSt} {climbed : List Pt} {cur : P3} {r : Option Nat × WSt}, WInv E.d S s → Led E S s →
    Climbing E s climbed cur → climbed.IsChain (FirstSteep E.d E.w) → climbLoop E n s climbed cur = .ok r →
    Led E S r.2 := by
  intro n
  induction n with
  | zero => intro s climbed cur r _ _ _ _ h; simp [climbLoop] at h
  | succ n ih =>
    intro s climbed cur r hs hp hc hch h
    have hcl : cur.xy ∈ climbed := List.mem_of_getLast? hc.last
    have hnl := (hc.mem _ hcl).2.1
    unfold climbLoop at h
    rcases steepest_spec hE.low hE.pos hc.data with ⟨h', _⟩ | ⟨sn, h', he, hst⟩
    · rw [show steepestNeighbor E.d E.w cur.x cur.y = .ok none from h'] at h
      cases h
      exact hp
    · rw [show steepestNeighbor E.d E.w cur.x cur.y = .ok (some sn) from h'] at h
      dsimp only at h
      have hrise : el E.d cur.xy < el E.d sn.xy := by
        rcases hN _ hc.data with ⟨q, h1, h2, h3⟩ | ht
        · exact steepest_rises hE.pos h1 hst.1 h3 hst.2.2.1 (hst.2.2.2 q h1 h2 (le_of_lt h3))
        · obtain ⟨D, hD⟩ := hs.tops _ hc.data ht
          rw [hnl] at hD
          cases hD
      have hfs := steepest_first hE.pos hc.data.1 h' hst he hrise
      cases hls : s.lookup sn.xy with
      | some D =>
        rw [hls] at h
        cases h
        intro p k hk
        rw [extend_lookup] at hk
        split at hk
        · rename_i hpc
          cases hk
          obtain ⟨t, t1, t2⟩ := hp _ _ hls
          exact ⟨t, t1, ((leads_chain climbed cur.xy hch hc.last p hpc).tail hfs).trans t2⟩
        · exact hp p k hk
      | none =>
        rw [hls] at h
        dsimp only at h
        rw [if_neg (by rw [he, hc.elev]; exact ne_of_gt hrise)] at h
        refine ih hs hp ⟨hst.2.1, he, by simp, ?_, ?_, ?_⟩ ?_ h
        · refine List.isChain_append.2 ⟨hc.chain, by simp, ?_⟩
          intro x hx y hy
          rw [hc.last] at hx
          cases hx
          simp only [List.head?_cons, Option.mem_def, Option.some.injEq] at hy
          subst hy
          exact ⟨hst, hrise⟩
        · intro p hp
          rcases List.mem_append.1 hp with hp | hp
          · obtain ⟨a1, a2, a3, a4⟩ := hc.mem p hp
            refine ⟨a1, a2, ?_, a4.tail ⟨hst.1, hst.2.1, hst.2.2.1⟩⟩
            rw [he]
            exact le_trans a3 (by rw [hc.elev]; exact le_of_lt hrise)
          · rw [List.mem_singleton.1 hp]
            exact ⟨hst.2.1, hls, le_of_eq he.symm, .refl⟩
        · refine List.nodup_append.2 ⟨hc.nodup, by simp, fun a ha b hb hab => ?_⟩
          rw [List.mem_singleton.1 hb] at hab
          have := (hc.mem a ha).2.2.1
          rw [hab, hc.elev] at this
          exact absurd hrise (not_lt.2 this)
        · refine List.isChain_append.2 ⟨hch, by simp, ?_⟩
          intro x hx y hy
          rw [hc.last] at hx
          cases hx
          simp only [List.head?_cons, Option.mem_def, Option.some.injEq] at hy
          subst hy
          exact hfs

theorem climbAll_led {E : WalkEnv} (hE : EnvOk E) (hN : NoShelves E.d) {S : Nat → Pt → Prop} {n : Nat}
    (hn : E.d.size < n) : ∀ {ps : List P3} {s s' : WSt}, WInv E.d S s → Led E S s →
    (∀ p ∈ ps, Data E.d p.xy ∧ p.e = el E.d p.xy) → climbAll (climbLoop E n) ps s = .ok s' → Led E S s' := by
  intro ps
  induction ps with
  | nil => intro s s' _ hp _ h; cases h; exact hp
  | cons p ps ih =>
    intro s s' hs hp hd h
    obtain ⟨h1, h2⟩ := hd p (by simp)
    have hd' := fun q hq => hd q (List.mem_cons_of_mem _ hq)
    unfold climbAll at h
    cases hl : s.lookup p.xy with
    | some D => rw [hl] at h; exact ih hs hp hd' h
    | none =>
      rw [hl] at h
      obtain ⟨D, s1, c1, c2⟩ := climbLoop_spec hE S n s [p.xy] p hs (.start h1 h2 hl)
        (lt_of_le_of_lt (above_le_size _ _) hn)
      dsimp only at h
      rw [c1] at h
      exact ih c2.inv (climbLoop_led hE hN n hs hp (.start h1 h2 hl) (by simp) c1) hd' h

theorem Explored.led {E : WalkEnv} (hE : EnvOk E) (hg : Findable E.d) (hN : NoShelves E.d) {sites : List Pt}
    {summits : List Feature} {s : WSt} (h : Explored E sites summits s) : Led E (SummitArea E.d sites) s := by
  obtain ⟨s0, fuel, ps, h0, hf, hp, hs⟩ := h.reached
  obtain ⟨s0', e1, e2, e3, _⟩ := walkInit_points hg h.from_discovery
  rw [h0] at e1
  cases e1
  exact climbAll_led hE hN hf e2 (fun p D hpD => ⟨p, (e3 p D).1 hpD, .refl⟩) hp hs

/-! ### Linkers, in order -/

/-- Once assigned, points keep their domain. -/
theorem Walks.keeps {E : SaddleEnv} (hE : EnvOk E.toWalkEnv) (hf : E.d.size < E.fuel) (hN : NoShelves E.d)
    {S : Nat → Pt → Prop} {s t : CSt} (h : Walks E s t) (hs : Routed E S s) (ho : ∀ f ∈ t.feats, FeatOk E.d f) :
    ∀ p D, s.w.lookup p = some D → t.w.lookup p = some D := by
  obtain ⟨ps, h1, h2⟩ := h.climbs
  refine (climbAll_piece hE hN hf hs.inv hs.piece (fun p hp => ?_) h1).2
  obtain ⟨f, hff, e, he, hpe⟩ := h2 p hp
  have := ((ho f hff).high e he).2 p hpe
  exact ⟨this.1, this.2.1⟩

/-- The linkers of `k` lead, in order, to the domains of the first points of its high neighbourhoods. -/
def TiedTo (s : CSt) (k : Nat) (f : Feature) : Prop :=
  List.Forall₂ (fun (c : List P3) (i : Nat) => ∃ h0 D, c.head? = some h0 ∧ s.store[i]? = some ⟨D, k⟩ ∧
    s.w.lookup h0.xy = some D) f.hpn (s.sadLinks k)

theorem TiedTo.step {s s' : CSt} {k : Nat} {f : Feature} (h : TiedTo s k f) (hst : s.store <+: s'.store)
    (hsad : s'.sadLinks k = s.sadLinks k) (hw : ∀ p D, s.w.lookup p = some D → s'.w.lookup p = some D) :
    TiedTo s' k f := by
  unfold TiedTo at *
  rw [hsad]
  refine h.imp ?_
  rintro c i ⟨h0, D, a, b, e⟩
  exact ⟨h0, D, a, prefix_getElem? hst b, hw _ _ e⟩

theorem linkEdges_tied {E : SaddleEnv} {sid : Nat} : ∀ {es : List (List P3)} {s s' : CSt},
    linkEdges E false sid es s = .ok s' → (∀ e ∈ es, ∀ p ∈ e, ∃ D, s.w.lookup p.xy = some D) →
    s'.w = s.w ∧ s.store <+: s'.store ∧ ∃ new, s'.sadLinks sid = s.sadLinks sid ++ new ∧
      List.Forall₂ (fun (c : List P3) (i : Nat) => ∃ h0 D, c.head? = some h0 ∧ s'.store[i]? = some ⟨D, sid⟩ ∧
        s.w.lookup h0.xy = some D) es new := by
  intro es
  induction es with
  | nil =>
    intro s s' h _
    cases h
    exact ⟨rfl, List.prefix_refl _, [], by simp, .nil⟩
  | cons e es ih =>
    intro s s' h hall
    have hall' := fun e' he' => hall e' (List.mem_cons_of_mem _ he')
    cases e with
    | nil => simp [linkEdges] at h
    | cons h0 e =>
      unfold linkEdges at h
      obtain ⟨D, hD⟩ := hall (h0 :: e) (by simp) h0 (by simp)
      rw [hD] at h
      obtain ⟨a1, a2, new, a3, a4⟩ := ih (s := addLinker E false s D sid) h hall'
      refine ⟨a1, (List.prefix_append _ _).trans a2, s.store.length :: new, ?_, .cons ⟨h0, D, rfl, ?_, hD⟩ a4⟩
      · rw [a3]
        simp [addLinker, pushAt]
      · refine prefix_getElem? a2 ?_
        simp [addLinker]

theorem walkSynthetic_tied {E : SaddleEnv} {sites : List Pt} (hE : SEnvOk E sites) {s s' : CSt}
    (hs : CInv E sites s) {sid : Nat} {o : SObj} (ho : s.objs[sid]? = some o) (hl : s.sadLinks sid = [])
    (h : walkSynthetic E s sid = .ok s') : TiedTo s' sid o.f := by
  have hf := hs.objs o (List.mem_of_getElem? ho)
  obtain ⟨w', a1, a2, _, a4⟩ := climbEdges_spec hE o.f.hpn s.w hs.w
    fun e he p hp => ⟨((hf.high e he).2 p hp).1, ((hf.high e he).2 p hp).2.1⟩
  unfold walkSynthetic at h
  rw [ho] at h
  dsimp only at h
  rw [a1] at h
  dsimp only [bind, Except.bind] at h
  obtain ⟨s1, e1, e2⟩ := bind_ok h
  cases e2
  obtain ⟨b1, _, new, b3, b4⟩ := linkEdges_tied e1 a4
  unfold TiedTo
  show List.Forall₂ _ _ (s1.sadLinks sid)
  rw [b3, show CSt.sadLinks { s with w := w' } sid = [] from hl, List.nil_append]
  refine b4.imp ?_
  rintro c i ⟨h0, D, c1, c2, c3⟩
  exact ⟨h0, D, c1, c2, by show s1.w.lookup _ = _; rw [b1]; exact c3⟩

theorem CInv.featsOk {E : SaddleEnv} {sites : List Pt} {s : CSt} (hs : CInv E sites s) :
    ∀ f ∈ s.feats, FeatOk E.d f := by
  intro f hf
  obtain ⟨o, ho, rfl⟩ := List.mem_map.1 hf
  exact hs.objs o ho

theorem walkSynthetics_tied {E : SaddleEnv} {sites : List Pt} (hE : SEnvOk E sites) (hN : NoShelves E.d) :
    ∀ (ids : List Nat) {s s' : CSt}, CInv E sites s → Routed E (SummitArea E.d sites) s → ids.Nodup →
    (∀ k ∈ ids, k < s.objs.length ∧ s.sadLinks k = []) → ids.foldlM (walkSynthetic E) s = .ok s' →
    ∀ k ∈ ids, ∀ o, s'.objs[k]? = some o → TiedTo s' k o.f := by
  intro ids
  induction ids with
  | nil => intro s s' _ _ _ _ _ k hk; cases hk
  | cons i ids ih =>
    intro s s' hs hr hn h he
    obtain ⟨hi1, hi2⟩ := h i (by simp)
    obtain ⟨s1, a1, a2, a3, a4, _⟩ := walkSynthetic_spec hE hs (List.getElem?_eq_getElem hi1) hi2
    have hni := (List.nodup_cons.1 hn).1
    rw [List.foldlM_cons, a1] at he
    have he : ids.foldlM (walkSynthetic E) s1 = .ok s' := he
    have hw1 : Walks E s s1 := Walks.synthetics (ids := [i]) (by rw [List.foldlM_cons, a1]; rfl)
    have hr1 := hw1.routed hE.env hE.fuel hN hr a2.featsOk
    have hcond : ∀ k ∈ ids, k < s1.objs.length ∧ s1.sadLinks k = [] := by
      intro k hk
      obtain ⟨c1, c2⟩ := h k (List.mem_cons_of_mem _ hk)
      have hne : k ≠ i := by rintro rfl; exact hni hk
      exact ⟨by rw [a4]; exact c1, by rw [a3.sad k hne]; exact c2⟩
    obtain ⟨s2, b1, b2, b3, b4, _⟩ := walkSynthetics_spec hE ids s1 a2 (List.nodup_cons.1 hn).2 hcond
    cases (b1.symm.trans he : Except.ok _ = Except.ok _)
    intro k hk o ho
    rcases List.mem_cons.1 hk with rfl | hk
    · have hoo : o = s.objs[k] := by
        rw [b4, a4, List.getElem?_eq_getElem hi1] at ho
        simpa using ho.symm
      rw [hoo]
      exact (walkSynthetic_tied hE hs (List.getElem?_eq_getElem hi1) hi2 a1).step b3.store (b3.sad k hni)
        ((Walks.synthetics he).keeps hE.env hE.fuel hN hr1 b2.featsOk)
    · exact ih a2 hr1 (List.nodup_cons.1 hn).2 hcond he k hk o ho

/-- As `Good`, with the domains at the end of the walk. -/
def GoodTied (s : CSt) (k : Nat) : Prop :=
  ∀ o, s.objs[k]? = some o → o.parent = none → o.f.edge = false → TiedTo s k o.f

theorem walkFeature_tied {E : SaddleEnv} {sites : List Pt} (hE : SEnvOk E sites) (hN : NoShelves E.d) {s s' : CSt}
    (hs : CInv E sites s) (hr : Routed E (SummitArea E.d sites) s) {base : Nat} {o : SObj}
    (ho : s.objs[base]? = some o) {new : List Nat} (h : walkFeature E s base = .ok s')
    (hw : s'.walked = s.walked ++ new) : ∀ k ∈ new, GoodTied s' k := by
  have hf := hs.objs o (List.mem_of_getElem? ho)
  obtain ⟨s1, new1, a1, _, a3, a4, _, a6, _⟩ := walkFeature_spec hE hs ho
  cases (a1.symm.trans h : Except.ok _ = Except.ok _)
  have : new1 = new := List.append_cancel_left (a4.symm.trans hw)
  subst this
  have hbase : o.f.edge ≠ false → GoodTied s' base := by
    intro he o' ho' _ he'
    obtain ⟨o'', b1, b2, _⟩ := a3.feat base o ho
    rw [← Option.some.inj (b1.symm.trans ho'), b2] at he'
    exact absurd he' he
  by_cases he : o.f.edge = false
  · unfold walkFeature at h
    rw [ho] at h
    dsimp only at h
    rw [if_pos he] at h
    rcases generateSynthetic_spec hE hf with ⟨h1, _⟩ | ⟨_, fs, h3, _, h5⟩
    · have h2 := hf.saddle (hf.inner he)
      omega
    · rw [h3] at h
      dsimp only [bind, Except.bind] at h
      have i1 := alloc_inv hs fun f hf' => (h5 f hf').ok hf
      have hids := alloc_ids s fs
      have hcond : ∀ k ∈ (alloc s fs).2, k < (alloc s fs).1.objs.length ∧ (alloc s fs).1.sadLinks k = [] := by
        intro k hk
        have hr := (hids.2.2 k).1 hk
        exact ⟨by rw [alloc_len]; exact hr.2, hs.fresh k hr.1⟩
      obtain ⟨s2, b1, _, _, _, b5, _⟩ := walkSynthetics_spec hE (alloc s fs).2 (alloc s fs).1 i1 hids.1 hcond
      cases (b1.symm.trans h : Except.ok _ = Except.ok _)
      have hnew : new1 = (alloc s fs).2 := List.append_cancel_left (a4.symm.trans b5)
      have hwa : Walks E s (alloc s fs).1 := Walks.refl.quiet rfl rfl (by
        rw [feats_alloc]
        exact List.prefix_append _ _)
      intro k hk o' ho' _ _
      rw [hnew] at hk
      exact walkSynthetics_tied hE hN _ i1 (hwa.routed hE.env hE.fuel hN hr i1.featsOk) hids.1 hcond h k hk o' ho'
  · unfold Outcome at a6
    rw [if_neg he] at a6
    split at a6
    · rcases a6 with ⟨a6, _⟩ | ⟨_, a6⟩
      · intro k hk
        rw [a6] at hk
        have : k = base := by simpa using hk
        rw [this]
        exact hbase he
      · intro k hk
        rw [a6] at hk
        rw [List.mem_singleton.1 hk]
        exact hbase he
    · obtain ⟨ids, c1, _, _, c4, _⟩ := a6
      intro k hk
      rw [c1] at hk
      rcases List.mem_append.1 hk with hk | hk
      · intro o' ho' hp _
        obtain ⟨o'', d1, _, d3⟩ := c4 k hk
        cases (d1.symm.trans ho' : some _ = some _)
        rw [d3] at hp
        cases hp
      · rw [List.mem_singleton.1 hk]
        exact hbase he

theorem walkFeatures_tied {E : SaddleEnv} {sites : List Pt} (hE : SEnvOk E sites) (hN : NoShelves E.d) :
    ∀ (bases : List Nat) {s s' : CSt} {new : List Nat}, CInv E sites s → Routed E (SummitArea E.d sites) s →
    bases.Nodup → (∀ b ∈ bases, b < s.objs.length) → bases.foldlM (walkFeature E) s = .ok s' →
    s'.walked = s.walked ++ new → ∀ k ∈ new, GoodTied s' k := by
  intro bases
  induction bases with
  | nil =>
    intro s s' new _ _ _ _ h hw k hk
    cases h
    have : new = [] := by simpa using hw
    rw [this] at hk
    cases hk
  | cons b bases ih =>
    intro s s' new hs hr hn hb h hw
    have hbl := hb b (by simp)
    obtain ⟨hnb, hn'⟩ := List.nodup_cons.1 hn
    obtain ⟨s1, new1, a1, a2, a3, a4, _, _, a7⟩ := walkFeature_spec hE hs (List.getElem?_eq_getElem hbl)
    have hb1 : ∀ k ∈ bases, k < s1.objs.length := fun k hk => lt_of_lt_of_le (hb k (by simp [hk])) a3.len
    obtain ⟨s2, news, b1, b2, b3, b4, _⟩ := walkFeatures_spec hE bases s1 a2 hn' hb1
    rw [List.foldlM_cons, a1] at h
    have h : bases.foldlM (walkFeature E) s1 = .ok s' := h
    cases (b1.symm.trans h : Except.ok _ = Except.ok _)
    have hr1 := (Walks.feature a1).routed hE.env hE.fuel hN hr a2.featsOk
    have hnt : ∀ k ∈ new1, ¬ (k ∈ bases ∨ s1.objs.length ≤ k) := by
      intro k hk hc
      have hkl : k < s1.objs.length := a2.walked k (by rw [a4]; simp [hk])
      rcases hc with hc | hc
      · rcases a7 k hk with rfl | h
        · exact hnb hc
        · have := hb k (by simp [hc]); omega
      · omega
    have hnew : new = new1 ++ news.flatten := by
      rw [b4, a4, List.append_assoc] at hw
      exact (List.append_cancel_left hw).symm
    intro k hk
    rw [hnew] at hk
    rcases List.mem_append.1 hk with hk | hk
    · intro o ho hp he
      have hkl : k < s1.objs.length := a2.walked k (by rw [a4]; simp [hk])
      obtain ⟨o', c1, _, c2⟩ := b3.feat k _ (List.getElem?_eq_getElem hkl)
      cases (c1.symm.trans ho : some _ = some _)
      have := c2 (hnt k hk)
      subst this
      exact (walkFeature_tied hE hN hs hr (List.getElem?_eq_getElem hbl) a1 a4 k hk _
        (List.getElem?_eq_getElem hkl) hp he).step b3.store (b3.sad k (hnt k hk))
        ((Walks.features h).keeps hE.env hE.fuel hN hr1 b2.featsOk)
    · exact ih a2 hr1 hn' hb1 h b4 k hk

/-- After a walk. -/
theorem walk_tied {E : SaddleEnv} (hE : RunOk E) (hN : NoShelves E.d) {sites : List Pt} {m0 m : DMap}
    (h0 : Fresh E.d sites m0) (hw : m0.walk E [] = .ok (m, none)) : ∀ k ∈ m.st.walked, GoodTied m.st k := by
  have hst := h0.start
  unfold DMap.walk at hw
  obtain ⟨w, e1, e2⟩ := bind_ok hw
  obtain ⟨⟨r, s⟩, e3, e4⟩ := bind_ok e2
  unfold climbFromSaddles at e3
  obtain ⟨s1, e5, e6⟩ := bind_ok e3
  cases e6
  simp only [List.isEmpty_nil, if_true] at e5 e4
  have hm : m.st = s := by
    cases e4; rfl
  rw [h0.none] at e1
  obtain ⟨w', b1, b2, b3, b4⟩ := walkInit_points hE.geo h0.tops
  cases (b1.symm.trans e1 : Except.ok _ = Except.ok _)
  rw [hm]
  have hinv : CInv { E with summits := m0.summits } sites
      { m0.st with w := w, walked := [], linkers := [], doms := [] } := by
    refine ⟨b2, h0.ok, ?_, ?_, ?_, ?_, ?_, ?_, ?_, ?_, ?_, h0.disq⟩ <;> rw [hst] <;> simp [CSt.start]
  have hs0 : Routed { E with summits := m0.summits } (SummitArea E.d sites)
      { m0.st with w := w, walked := [], linkers := [], doms := [] } := by
    refine ⟨b2, ⟨fun p D => (b3 p D).trans (b4 D p).symm, fun D p hp => ?_⟩, ?_⟩
    · exact ⟨p, (b4 D p).1 hp, hp, .refl⟩
    · rw [hst]
      simp [CSt.start]
  refine walkFeatures_tied (hE.senv h0.tops) hN _ hinv hs0 h0.nodup ?_ e5 (by simp)
  intro b hb
  rcases List.mem_append.1 hb with h | h
  · obtain ⟨o, ho, _⟩ := h0.sad b h
    exact lt_of_getElem? ho
  · obtain ⟨o, ho, _⟩ := h0.run b h
    exact lt_of_getElem? ho

end PyProm
