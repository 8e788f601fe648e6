import Verif.Proof.Climbs
import Verif.Proof.Discovery
import Verif.Proof.DomainMap
import Verif.Proof.Graph
import Verif.Proof.Faithful
import Mathlib.Data.List.ProdSigma

/-
How many features and linkers there are: counting for C124.
-/
namespace PyProm
open Spec

/-! ### Areas -/

open Classical in
/-- The cells of the flat area of `q`. -/
noncomputable def areaCells (d : DataMap) (q : Pt) : List Pt := d.cells.filter fun p => decide (Flat d q p)

open Classical in
theorem mem_areaCells {d : DataMap} {q p : Pt} (hq : Data d q) : p ∈ areaCells d q ↔ Flat d q p := by
  unfold areaCells
  rw [List.mem_filter, decide_eq_true_eq, mem_cells]
  exact ⟨fun h => h.2, fun h => ⟨(h.data hq).1, h⟩⟩

theorem areaCells_nodup (d : DataMap) (q : Pt) : (areaCells d q).Nodup := (nodup_cells d).filter _

theorem areas_le {d : DataMap} {regs : List Region} (h : Covers d regs) :
    (regs.map fun r => (areaCells d r.site).length).sum ≤ d.size := by
  rw [← length_cells, ← List.length_flatMap]
  refine List.Nodup.length_le_of_subset ?_ ?_
  · rw [List.nodup_flatMap]
    refine ⟨fun r _ => areaCells_nodup d _, h.once.imp_of_mem fun {r r'} hr hr' hno => ?_⟩
    intro p hp hp'
    rw [mem_areaCells (h.data r hr)] at hp
    rw [mem_areaCells (h.data r' hr')] at hp'
    exact hno (hp.trans (hp'.symm (h.data r' hr')))
  · intro p hp
    obtain ⟨r, hr, hp⟩ := List.mem_flatMap.1 hp
    exact (List.mem_filter.1 hp).1

/-! ### High neighbourhoods -/

/-- The eight cells around `m` in four pairs of touching cells. -/
def quarter (m h : Pt) : Nat :=
  if h.1 < m.1 ∧ h.2 ≤ m.2 then 0 else if m.2 < h.2 ∧ h.1 ≤ m.1 then 1 else if m.1 < h.1 ∧ m.2 ≤ h.2 then 2 else 3

theorem quarter_lt (m h : Pt) : quarter m h < 4 := by
  unfold quarter
  split_ifs <;> omega

theorem quarter_near {m h h' : Pt} (h1 : Adj m h) (h2 : Adj m h') (e : quarter m h = quarter m h') : h = h' ∨ Adj h h' := by
  by_cases hh : h = h'
  · exact .inl hh
  · right
    obtain ⟨m1, m2⟩ := m
    obtain ⟨x, y⟩ := h
    obtain ⟨x', y'⟩ := h'
    obtain ⟨n1, a1, a2, a3, a4⟩ := h1
    obtain ⟨n2, b1, b2, b3, b4⟩ := h2
    simp only [ne_eq, Prod.mk.injEq] at n1 n2
    unfold quarter at e
    refine ⟨hh, ?_⟩
    dsimp only at *
    split_ifs at e <;> omega

theorem component_eq {S : List P3} {L : List (List P3)} (h : IsComponents S L) {c c' : List P3} (hc : c ∈ L) (hc' : c' ∈ L) {p : P3}
    (hp : p ∈ c) (hp' : p ∈ c') : c = c' := by
  by_contra hne
  have := (List.nodup_flatten.1 h.nodup).2
  have hsym : Std.Symm (List.Disjoint (α := P3)) := ⟨fun _ _ h => h.symm⟩
  exact this.forall hc hc' hne hp hp'

theorem components_nodup {S : List P3} {L : List (List P3)} (h : IsComponents S L) : L.Nodup := by
  refine List.Pairwise.imp_of_mem (fun {a b} ha _ hd e => ?_) (List.nodup_flatten.1 h.nodup).2
  subst e
  obtain ⟨p, hp⟩ := List.exists_mem_of_ne_nil _ (h.nonempty a ha)
  exact hd hp hp

/-- A flat area has at most four high neighbourhoods for every cell. -/
theorem high_le {d : DataMap} {q : Pt} (hq : Data d q) {high : List (List P3)} (h : IsHigh d q high) :
    high.length ≤ 4 * (areaCells d q).length := by
  obtain ⟨S, hS, hc⟩ := h
  have hex : ∀ c : List P3, ∃ x : Pt × Nat, c ∈ high → ∃ p ∈ c, Flat d q x.1 ∧ Adj x.1 p.xy ∧ x.2 = quarter x.1 p.xy := by
    intro c
    by_cases hm : c ∈ high
    · obtain ⟨p, hp⟩ := List.exists_mem_of_ne_nil _ (hc.nonempty c hm)
      obtain ⟨⟨_, _, m, m1, m2⟩, _⟩ := ((hS p).1 ((hc.mem p).1 (List.mem_flatten.2 ⟨c, hm, hp⟩))).1
      exact ⟨(m, quarter m p.xy), fun _ => ⟨p, hp, m1, m2, rfl⟩⟩
    · exact ⟨(q, 0), fun h => absurd h hm⟩
  choose F hF using hex
  have hlen : (high.map F).length ≤ ((areaCells d q).product [0, 1, 2, 3]).length := by
    refine List.Nodup.length_le_of_subset ?_ ?_
    · refine List.Nodup.map_on (fun c hcm c' hcm' e => ?_) (components_nodup hc)
      obtain ⟨p, p1, _, p3, p4⟩ := hF c hcm
      obtain ⟨p', p1', _, p3', p4'⟩ := hF c' hcm'
      rw [← e] at p3' p4'
      have hpS := (hc.mem p).1 (List.mem_flatten.2 ⟨c, hcm, p1⟩)
      have hpS' := (hc.mem p').1 (List.mem_flatten.2 ⟨c', hcm', p1'⟩)
      have hconn : Conn S p p' := by
        rcases quarter_near p3 p3' (p4.symm.trans p4') with h | h
        · have : p = p' := by
            have e1 := ((hS p).1 hpS).2
            have e2 := ((hS p').1 hpS').2
            obtain ⟨x, y, e⟩ := p
            obtain ⟨x', y', e'⟩ := p'
            simp only [P3.xy, Prod.mk.injEq] at h e1 e2
            rw [h.1, h.2] at e1
            simp [h.1, h.2, e1, e2]
          rw [this]
          exact .refl
        · exact .single ⟨h, hpS'⟩
      obtain ⟨c2, hc2, x1, x2⟩ := (hc.sameIff p hpS p' hpS').2 hconn
      exact (component_eq hc hcm hc2 p1 x1).trans (component_eq hc hc2 hcm' x2 p1')
    · intro x hx
      obtain ⟨c, hcm, rfl⟩ := List.mem_map.1 hx
      obtain ⟨p, _, p2, _, p4⟩ := hF c hcm
      refine List.mem_product.2 ⟨(mem_areaCells hq).2 p2, ?_⟩
      have := quarter_lt (F c).1 p.xy
      rw [p4]
      generalize quarter (F c).1 p.xy = n at this
      match n, this with
      | 0, _ => simp
      | 1, _ => simp
      | 2, _ => simp
      | 3, _ => simp
  have hl := List.length_product (areaCells d q) [0, 1, 2, 3]
  have e : ((areaCells d q).product [0, 1, 2, 3]).length = (areaCells d q).length * 4 := hl
  rw [List.length_map, e] at hlen
  omega

theorem length_le_flatten {α : Type} : ∀ {L : List (List α)}, (∀ c ∈ L, c ≠ []) → L.length ≤ L.flatten.length := by
  intro L
  induction L with
  | nil => intro _; simp
  | cons c L ih =>
    intro h
    have h1 := ih fun c hc => h c (List.mem_cons_of_mem _ hc)
    have h2 := List.length_pos_of_ne_nil (h c (by simp))
    simp only [List.length_cons, List.flatten_cons, List.length_append]
    omega

/-- A flat area has at most as many border stretches as cells. -/
theorem stretches_le {d : DataMap} {q : Pt} (hq : Data d q) {str : List (List P3)} (h : IsStretches d q str) :
    str.length ≤ (areaCells d q).length := by
  obtain ⟨S, hS, hc⟩ := h
  refine le_trans (length_le_flatten hc.nonempty) ?_
  rw [← List.length_map (f := P3.xy)]
  refine List.Nodup.length_le_of_subset (List.Nodup.map_on (fun p hp p' hp' h => ?_) hc.nodup) fun x hx => ?_
  · have e1 := ((hS.2 p).1 ((hc.mem p).1 hp)).2.2
    have e2 := ((hS.2 p').1 ((hc.mem p').1 hp')).2.2
    obtain ⟨x, y, e⟩ := p
    obtain ⟨x', y', e'⟩ := p'
    simp only [P3.xy, Prod.mk.injEq] at h e1 e2
    rw [h.1, h.2] at e1
    simp [h.1, h.2, e1, e2]
  · obtain ⟨p, hp, rfl⟩ := List.mem_map.1 hx
    exact (mem_areaCells hq).2 ((hS.2 p).1 ((hc.mem p).1 hp)).1

/-! ### Linkers -/

/-- The number of high neighbourhoods of feature `k`, at least one. -/
def edgeCount (fs : List Feature) (k : Nat) : Nat := (fs[k]?.map fun f => max f.hpn.length 1).getD 0

theorem edgeCount_mono {fs gs : List Feature} (h : fs <+: gs) (k : Nat) : edgeCount fs k ≤ edgeCount gs k := by
  obtain ⟨l, rfl⟩ := h
  unfold edgeCount
  by_cases hk : k < fs.length
  · rw [List.getElem?_append_left hk]
  · rw [List.getElem?_eq_none (by omega)]
    simp

theorem sum_mono {l : List Nat} {f g : Nat → Nat} (h : ∀ k, f k ≤ g k) : (l.map f).sum ≤ (l.map g).sum := by
  induction l with
  | nil => simp
  | cons a l ih =>
    simp only [List.map_cons, List.sum_cons]
    have := h a
    omega

/-- From `s` to `t` features were added, some were walked, and at most one linker made for each of their high neighbourhoods,
or one. -/
def GrownBy (s t : CSt) (new : List Nat) : Prop :=
  s.feats <+: t.feats ∧ t.walked = s.walked ++ new ∧ t.store.length ≤ s.store.length + (new.map (edgeCount t.feats)).sum

theorem GrownBy.refl (s : CSt) : GrownBy s s [] := ⟨List.prefix_refl _, by simp, by simp⟩

theorem GrownBy.trans {s t u : CSt} {a b : List Nat} (h : GrownBy s t a) (g : GrownBy t u b) : GrownBy s u (a ++ b) := by
  refine ⟨h.1.trans g.1, by rw [g.2.1, h.2.1, List.append_assoc], ?_⟩
  have := sum_mono (l := a) (edgeCount_mono g.1)
  have h3 := h.2.2
  have g3 := g.2.2
  rw [List.map_append, List.sum_append]
  omega

theorem linkEdges_grown {E : SaddleEnv} {ig : Bool} {sid : Nat} : ∀ {es : List (List P3)} {s s' : CSt},
    linkEdges E ig sid es s = .ok s' → s'.walked = s.walked ∧ s'.store.length ≤ s.store.length + es.length := by
  intro es
  induction es with
  | nil =>
    intro s s' h
    simp only [linkEdges, Except.ok.injEq] at h
    subst h
    exact ⟨rfl, by simp⟩
  | cons e es ih =>
    intro s s' h
    cases e with
    | nil => simp [linkEdges] at h
    | cons x t =>
      simp only [linkEdges] at h
      split at h
      · obtain ⟨h1, h2⟩ := ih h
        exact ⟨h1, by simp only [List.length_cons]; omega⟩
      · obtain ⟨h1, h2⟩ := ih h
        refine ⟨h1, ?_⟩
        simp only [addLinker, List.length_append, List.length_cons, List.length_nil] at h2 ⊢
        omega

theorem walkSynthetic_grown {E : SaddleEnv} {s s' : CSt} {sid : Nat} (h : walkSynthetic E s sid = .ok s') : GrownBy s s' [sid] := by
  unfold walkSynthetic at h
  cases ho : s.objs[sid]? with
  | none => rw [ho] at h; cases h
  | some o =>
    rw [ho] at h
    obtain ⟨w, h1, h⟩ := bind_ok h
    obtain ⟨s1, h2, h⟩ := bind_ok h
    cases h
    obtain ⟨h3, h4⟩ := linkEdges_grown h2
    have h5 : s1.objs = s.objs := by
      have := linkEdges_objs _ h2
      exact this
    refine ⟨?_, ?_, ?_⟩
    · simp only [CSt.feats, h5]
      exact List.prefix_refl _
    · simp only [h3]
    · simp only [List.map_cons, List.map_nil, List.sum_cons, List.sum_nil, edgeCount, CSt.feats, h5, List.getElem?_map, ho,
        Option.map_some, Option.getD_some] at h4 ⊢
      omega

theorem walkSynthetics_grown {E : SaddleEnv} : ∀ {ids : List Nat} {s s' : CSt}, ids.foldlM (walkSynthetic E) s = .ok s' →
    GrownBy s s' ids := by
  intro ids
  induction ids with
  | nil =>
    intro s s' h
    cases h
    exact .refl _
  | cons i ids ih =>
    intro s s' h
    rw [List.foldlM_cons] at h
    obtain ⟨s1, h1, h2⟩ := bind_ok h
    exact (walkSynthetic_grown h1).trans (ih h2)

theorem walkEdgeSaddle_grown {E : SaddleEnv} {base : Nat} {s s' : CSt} {sid : Nat} (h : walkEdgeSaddle E base s sid = .ok s') :
    GrownBy s s' [sid] := by
  unfold walkEdgeSaddle at h
  cases ho : s.objs[sid]? with
  | none => rw [ho] at h; cases h
  | some o =>
    rw [ho] at h
    obtain ⟨s1, h2, h⟩ := bind_ok h
    cases h
    obtain ⟨h3, h4⟩ := linkEdges_grown h2
    have h5 : s1.objs = s.objs := by
      have := linkEdges_objs _ h2
      exact this
    refine ⟨?_, ?_, ?_⟩
    · simp only [CSt.feats, h5]
      rw [modObj_map_f, modObj_map_f]
      · exact fun _ => rfl
      · exact fun _ => rfl
    · simp only [h3]
    · simp only [List.map_cons, List.map_nil, List.sum_cons, List.sum_nil, edgeCount, CSt.feats, h5]
      rw [modObj_map_f, modObj_map_f]
      · simp only [List.getElem?_map, ho, Option.map_some, Option.getD_some] at h4 ⊢
        omega
      · exact fun _ => rfl
      · exact fun _ => rfl

theorem walkEdgeSaddles_grown {E : SaddleEnv} {base : Nat} : ∀ {ids : List Nat} {s s' : CSt},
    ids.foldlM (walkEdgeSaddle E base) s = .ok s' → GrownBy s s' ids := by
  intro ids
  induction ids with
  | nil =>
    intro s s' h
    cases h
    exact .refl _
  | cons i ids ih =>
    intro s s' h
    rw [List.foldlM_cons] at h
    obtain ⟨s1, h1, h2⟩ := bind_ok h
    exact (walkEdgeSaddle_grown h1).trans (ih h2)

/-- Walking an edge feature leaves room for one linker more. -/
theorem finishEdge_grown {E : SaddleEnv} {base : Nat} {ids : List Nat} {s s' : CSt} (h : finishEdge E s base ids = .ok s')
    (hb : base < s.objs.length) : s.feats <+: s'.feats ∧ s'.walked = s.walked ++ (ids ++ [base]) ∧
      s'.store.length + 1 ≤ s.store.length + ((ids ++ [base]).map (edgeCount s'.feats)).sum := by
  unfold finishEdge at h
  obtain ⟨s1, h1, h⟩ := bind_ok h
  cases h
  obtain ⟨g1, g2, g3⟩ := walkEdgeSaddles_grown h1
  have e : (modObj s1.objs base fun o => { o with disq := some true }).map (·.f) = s1.objs.map (·.f) :=
    modObj_map_f _ _ _ fun _ => rfl
  refine ⟨?_, ?_, ?_⟩
  · simp only [CSt.feats, e]
    exact g1
  · simp only [g2, List.append_assoc]
  · simp only [CSt.feats, e] at g1 g3 ⊢
    have hlt : base < (s1.objs.map (·.f)).length := lt_of_lt_of_le (by simpa using hb) g1.length_le
    have h1 : 1 ≤ edgeCount (s1.objs.map (·.f)) base := by
      unfold edgeCount
      rw [List.getElem?_eq_getElem hlt]
      simp
    simp only [List.map_append, List.sum_append, List.map_cons, List.map_nil, List.sum_cons, List.sum_nil]
    omega

theorem alloc_grown (s : CSt) (fs : List Feature) : GrownBy s (alloc s fs).1 [] := by
  refine ⟨?_, by simp [alloc], by simp [alloc]⟩
  simp only [alloc, CSt.feats, List.map_append]
  exact List.prefix_append _ _

theorem adopt_feats (s : CSt) (base : Nat) (sids : List Nat) : (adoptChildren s base sids).feats = s.feats := by
  unfold adoptChildren CSt.feats
  dsimp only
  rw [modObj_map_f]
  case hg => exact fun _ => rfl
  generalize s.objs = objs
  induction sids generalizing objs with
  | nil => rfl
  | cons k sids ih =>
    rw [List.foldl_cons, ih, modObj_map_f]
    exact fun _ => rfl

theorem edgeSynthetic_grown {E : SaddleEnv} {s s' : CSt} {base : Nat} {f : Feature} {ids : List Nat}
    (h : edgeSynthetic E s base f = .ok (s', ids)) : GrownBy s s' [] := by
  unfold edgeSynthetic at h
  obtain ⟨r, _, h⟩ := bind_ok h
  cases r with
  | none =>
    cases h
    exact .refl _
  | some fs =>
    dsimp only at h
    have hg := alloc_grown s fs
    cases hx : alloc s fs with
    | mk s1 ids1 =>
      rw [hx] at h hg
      dsimp only at h hg
      split at h
      · cases h
        refine ⟨by rw [adopt_feats]; exact hg.1, hg.2.1, ?_⟩
        simpa [adoptChildren] using hg.2.2
      · cases h
        exact hg

theorem walkFeature_grown {E : SaddleEnv} {s s' : CSt} {base : Nat} (h : walkFeature E s base = .ok s') :
    ∃ new, GrownBy s s' new := by
  unfold walkFeature at h
  cases ho : s.objs[base]? with
  | none => rw [ho] at h; cases h
  | some o =>
    rw [ho] at h
    dsimp only at h
    have hb := lt_of_getElem? ho
    split at h
    · obtain ⟨r, _, h⟩ := bind_ok h
      cases r with
      | none => exact ⟨_, walkSynthetic_grown h⟩
      | some fs =>
        dsimp only at h
        exact ⟨_, (alloc_grown s fs).trans (walkSynthetics_grown h)⟩
    · obtain ⟨w, _, h⟩ := bind_ok h
      have hw : GrownBy s { s with w := w } [] := ⟨List.prefix_refl _, by simp, by simp⟩
      have fin : ∀ {t : CSt} {ids : List Nat}, GrownBy s t [] → finishEdge E t base ids = .ok s' → ∃ new, GrownBy s s' new := by
        intro t ids ht hf
        have hlt : base < t.objs.length := by
          have := ht.1.length_le
          simp only [CSt.feats, List.length_map] at this
          omega
        obtain ⟨f1, f2, f3⟩ := finishEdge_grown hf hlt
        exact ⟨_, ht.trans ⟨f1, f2, by omega⟩⟩
      split at h
      · split at h
        · split at h
          · cases h
          · split at h
            · cases h
              refine ⟨[base], List.prefix_refl _, rfl, ?_⟩
              simp
            · rename_i D _
              obtain ⟨⟨s2, ids⟩, h2, h⟩ := bind_ok h
              obtain ⟨g1, g2, g3⟩ := edgeSynthetic_grown h2
              have hlt : base < s2.objs.length := by
                have := g1.length_le
                simp only [CSt.feats, addLinker, List.length_map] at this
                omega
              obtain ⟨f1, f2, f3⟩ := finishEdge_grown h hlt
              refine ⟨ids ++ [base], (show s.feats <+: s2.feats from g1).trans f1, ?_, ?_⟩
              · rw [f2, g2]
                simp [addLinker]
              · simp only [addLinker, List.length_append, List.length_cons, List.length_nil, List.map_nil, List.sum_nil] at g3
                dsimp only at f3
                omega
        · exact fin hw h
      · obtain ⟨⟨s2, ids⟩, h2, h⟩ := bind_ok h
        exact fin (by simpa using hw.trans (edgeSynthetic_grown h2)) h

theorem walkFeatures_grown {E : SaddleEnv} : ∀ {bases : List Nat} {s s' : CSt}, bases.foldlM (walkFeature E) s = .ok s' →
    ∃ new, GrownBy s s' new := by
  intro bases
  induction bases with
  | nil =>
    intro s s' h
    cases h
    exact ⟨_, .refl _⟩
  | cons i bases ih =>
    intro s s' h
    rw [List.foldlM_cons] at h
    obtain ⟨s1, h1, h2⟩ := bind_ok h
    obtain ⟨a, ha⟩ := walkFeature_grown h1
    obtain ⟨b, hb⟩ := ih h2
    exact ⟨_, ha.trans hb⟩

/-! ### Regions -/

theorem area_pos {d : DataMap} {q : Pt} (hq : Data d q) : 1 ≤ (areaCells d q).length :=
  List.length_pos_of_mem ((mem_areaCells hq).2 .refl)

theorem region_saddles {d : DataMap} {r : Region} (h : RegOk d r) :
    ((r.features.filter fun f => decide (f.kind = .saddle)).map fun f => f.hpn.length).sum ≤ 4 * (areaCells d r.site).length := by
  obtain ⟨hq, mp, high, lower, str, bps, _, t⟩ := h
  by_cases h2 : TwoHigh d r.site
  · obtain ⟨f, e, hf, _⟩ := (table_saddles t).1 h2
    rw [e]
    simpa using high_le hq hf.high
  · rw [(table_saddles t).2 h2]
    simp

theorem runoffs_sum {d : DataMap} {q : Pt} {mp : Option (List MPt)} {high cs : List (List P3)} {rs : List Feature}
    (h : RunoffsFor d q mp high cs rs) : (mp = none → (rs.map fun f => max f.hpn.length 1).sum = cs.length * max high.length 1) ∧
      (mp ≠ none → (rs.map fun f => max f.hpn.length 1).sum = cs.length) ∧ rs.length = cs.length := by
  unfold RunoffsFor at h
  induction h with
  | nil => simp
  | @cons c f cs rs h1 _ ih =>
    obtain ⟨i1, i2, i3⟩ := ih
    simp only [List.map_cons, List.sum_cons, List.length_cons]
    refine ⟨fun e => ?_, fun e => ?_, by rw [i3]⟩
    · rcases h1.2 with ⟨_, h⟩ | ⟨h, _⟩
      · rw [i1 e, h, Nat.succ_mul, Nat.add_comm]
      · exact absurd e h
    · rcases h1.2 with ⟨h, _⟩ | ⟨_, t, _, h⟩
      · exact absurd h e
      · rw [i2 e, h]
        simp only [List.length_cons, List.length_nil]
        omega

theorem region_runoffs {d : DataMap} {r : Region} (h : RegOk d r) :
    ((r.features.filter fun f => decide (f.kind = .runoff)).map fun f => max f.hpn.length 1).sum ≤ 4 * (areaCells d r.site).length ∧
      (r.features.filter fun f => decide (f.kind = .runoff)).length ≤ (areaCells d r.site).length := by
  obtain ⟨hq, mp, high, lower, str, bps, hm, t⟩ := h
  have hpos := area_pos hq
  by_cases hb : OnBorder d r.site
  · by_cases hh : high = []
    · rw [t.borderSummit hb hh]
      simp [mkSummit, mkRunoff]
      omega
    · by_cases hl : lower.length ≤ 1
      · rw [t.borderFew hb hh hl]
        split <;> simp [mkSaddle]
      · obtain ⟨cs, rs, rem, h1, h3, _, _, h6⟩ := t.borderMany hb hh (by omega)
        have hrs : (rs.filter fun f => decide (f.kind = .runoff)) = rs := by
          rw [List.filter_eq_self]
          intro f hf
          obtain ⟨c, _, hc⟩ := runoffsFor_kind h3 f hf
          simp [hc.1]
        have e : (r.features.filter fun f => decide (f.kind = .runoff)) = rs := by
          rw [h6, List.filter_append, hrs]
          split
          · split <;> simp [mkSaddle]
          · simp
        have hcs : cs.length ≤ (areaCells d r.site).length := by
          rw [h1.length_eq]
          exact le_trans (List.length_filter_le _ _) (stretches_le hq t.isStr)
        obtain ⟨s1, s2, s3⟩ := runoffs_sum h3
        rw [e, s3]
        refine ⟨?_, hcs⟩
        by_cases hmp : mp = none
        · rw [s1 hmp]
          have hone : (areaCells d r.site).length ≤ 1 := by
            rcases hm with ⟨_, h⟩ | ⟨pts, h, _⟩
            · refine (List.Nodup.length_le_of_subset (areaCells_nodup d _) (l₂ := [r.site]) fun x hx => ?_)
              rw [(h x).1 ((mem_areaCells hq).1 hx)]
              simp
            · rw [hmp] at h
              cases h
          have hh4 := high_le hq t.isHigh
          have : cs.length = 0 ∨ cs.length = 1 := by omega
          rcases this with h | h <;> rw [h] <;> omega
        · rw [s2 hmp]
          omega
  · rw [t.interior hb]
    split
    · simp [mkSummit]
    · split <;> simp [mkSaddle]

theorem sum_flatMap_le {d : DataMap} {regs : List Region} (k : Kind) (w : Feature → Nat) (c : Nat)
    (h : ∀ r ∈ regs, ((r.features.filter fun f => decide (f.kind = k)).map w).sum ≤ c * (areaCells d r.site).length) :
    (((regs.flatMap Region.features).filter fun f => decide (f.kind = k)).map w).sum ≤
      c * (regs.map fun r => (areaCells d r.site).length).sum := by
  induction regs with
  | nil => simp
  | cons r regs ih =>
    have h1 := h r (by simp)
    have h2 := ih fun r hr => h r (by simp [hr])
    rw [List.flatMap_cons, List.filter_append, List.map_append, List.sum_append, List.map_cons, List.sum_cons, Nat.mul_add]
    omega

/-- The sizes of the lists that discovery returns. -/
theorem analyze_sizes (d : DataMap) (o : Pt → Oracle) (order : List Pt) (ho : IsScan d order) :
    ∃ D, analyze d o order = .ok D ∧ (D.saddles.map fun f => f.hpn.length).sum ≤ 4 * d.size ∧
      (D.runoffs.map fun f => max f.hpn.length 1).sum ≤ 4 * d.size ∧ D.runoffs.length ≤ d.size := by
  obtain ⟨regs, h1, h2, h3⟩ := analyze_spec d o order ho
  have ha := areas_le h1
  refine ⟨_, h3, ?_, ?_, ?_⟩
  · have := sum_flatMap_le (d := d) .saddle (fun f => f.hpn.length) 4 fun r hr => region_saddles (h2 r hr)
    exact this.trans (by omega)
  · have := sum_flatMap_le (d := d) .runoff (fun f => max f.hpn.length 1) 4 fun r hr => (region_runoffs (h2 r hr)).1
    exact this.trans (by omega)
  · have := sum_flatMap_le (d := d) .runoff (fun _ => 1) 1 fun r hr => by
      have := (region_runoffs (h2 r hr)).2
      simpa using this
    rw [List.map_const', List.sum_replicate] at this
    simp only [smul_eq_mul, mul_one, one_mul] at this
    exact this.trans ha

/-! ### Runs -/

/-- What one base adds: at most `3 n` linkers for `n` high neighbourhoods, at most twice that of a runoff. -/
theorem outcome_weight {fs : List Feature} {o : SObj} {b : Nat} {s : CSt} {new : List Nat} (h : Outcome o b s new) (hfs : fs = s.feats)
    (hb : fs[b]? = some o.f) : (o.f.kind = .runoff → o.f.edge = true → (new.map (edgeCount fs)).sum ≤ 2 * max o.f.hpn.length 1 ∧
        new.length ≤ 2) ∧
      (o.f.kind = .saddle → (new.map (edgeCount fs)).sum + 2 ≤ (if o.f.edge then 3 else 2) * o.f.hpn.length ∧
        new.length + (if o.f.edge then 0 else 1) ≤ o.f.hpn.length) := by
  have hbase : edgeCount fs b = max o.f.hpn.length 1 := by
    unfold edgeCount
    rw [hb]
    rfl
  have hsyn : ∀ ids : List Nat, (∀ k ∈ ids, ∃ o', s.objs[k]? = some o' ∧ SynthOf o.f o'.f) →
      (ids.map (edgeCount fs)).sum = 2 * ids.length := by
    intro ids
    induction ids with
    | nil => intro _; rfl
    | cons k ids ih =>
      intro h
      obtain ⟨o', e1, e2⟩ := h k (by simp)
      have : edgeCount fs k = 2 := by
        unfold edgeCount
        rw [hfs, CSt.feats, List.getElem?_map, e1]
        simp [e2.two]
      rw [List.map_cons, List.sum_cons, this, ih fun k hk => h k (by simp [hk]), List.length_cons]
      omega
  unfold Outcome at h
  split at h
  · rename_i he
    obtain ⟨h1, _, h3⟩ := h
    have := hsyn new fun k hk => by
      obtain ⟨o', a, b, _⟩ := h3 k hk
      exact ⟨o', a, b⟩
    refine ⟨fun _ h => ?_, fun _ => ?_⟩
    · rw [he] at h
      cases h
    · rw [he]
      simp only [Bool.false_eq_true, if_false]
      omega
  · rename_i he
    have he : o.f.edge = true := by simpa using he
    split at h
    · rename_i hk
      refine ⟨fun _ _ => ?_, fun h => by rw [hk] at h; cases h⟩
      rcases h with ⟨h, _⟩ | ⟨_, h⟩
      · rw [h]
        simp [hbase]
        omega
      · rw [h]
        simp [hbase]
    · rename_i hk
      refine ⟨fun h => absurd h hk, fun _ => ?_⟩
      obtain ⟨ids, h1, h2, _, h4, _⟩ := h
      have := hsyn ids fun k hk => by
        obtain ⟨o', a, b, _⟩ := h4 k hk
        exact ⟨o', a, b⟩
      rw [h1, he]
      simp only [List.map_append, List.sum_append, List.map_cons, List.map_nil, List.sum_cons, List.sum_nil, List.length_append,
        List.length_cons, List.length_nil, if_true, hbase, this]
      omega

theorem forall₂_sum_le {α β : Type} {R : α → β → Prop} {w : α → Nat} {v : β → Nat} {l : List α} {l' : List β} (h : List.Forall₂ R l l')
    (hw : ∀ a ∈ l, ∀ b, R a b → v b ≤ w a) : (l'.map v).sum ≤ (l.map w).sum := by
  induction h with
  | nil => simp
  | cons h1 _ ih =>
    have := ih fun a ha => hw a (by simp [ha])
    have := hw _ (by simp) _ h1
    simp only [List.map_cons, List.sum_cons]
    omega

/-- The weight of the object `k` in a state: what walking it may add. -/
def objWeight (c e : Nat → Nat) (objs : List SObj) (k : Nat) : Nat :=
  (objs[k]?.map fun o => if o.f.edge then e o.f.hpn.length else c o.f.hpn.length).getD 0

theorem from_weight {d : DataMap} {rebuild : Bool} {fs : List Feature} {m : DMap} (h : FromSaddles d rebuild fs m) (c e : Nat → Nat)
    (w : Nat) (hc : c 2 + w ≤ w * 2) (hcn : ∀ n, 2 ≤ n → c n ≤ w * n) (he : ∀ n, 2 ≤ n → e n ≤ w * n) (hn : ∀ f ∈ fs, 2 ≤ f.hpn.length) :
    (m.saddles.map (objWeight c e m.st.objs)).sum ≤ (if rebuild then 2 * w else w) * (fs.map fun f => f.hpn.length).sum := by
  unfold FromSaddles at h
  have hmul : ∀ a : Nat, (fs.map fun f => a * f.hpn.length).sum = a * (fs.map fun f => f.hpn.length).sum := by
    intro a
    rw [List.sum_map_mul_left]
  cases rebuild with
  | false =>
    simp only [Bool.false_eq_true, if_false] at h ⊢
    rw [← hmul]
    refine forall₂_sum_le h fun f hf k hk => ?_
    unfold objWeight
    rw [hk]
    simp only [Option.map_some, Option.getD_some]
    split
    · exact he _ (hn f hf)
    · exact hcn _ (hn f hf)
  | true =>
    simp only [if_true] at h ⊢
    obtain ⟨news, e1, e2⟩ := h
    rw [e1, List.map_flatten, List.sum_flatten, List.map_map]
    have key := forall₂_sum_le (w := fun x : Feature × Nat => 2 * w * x.1.hpn.length)
      (v := fun new => (new.map (objWeight c e m.st.objs)).sum) e2 (by
        rintro ⟨f, k⟩ hf new ⟨ids, r1, r2, r3, r4⟩
        have hf : f ∈ fs := List.fst_mem_of_mem_zipIdx hf
        have h2 := hn f hf
        dsimp only at r1 r4 ⊢
        have hids : (ids.map (objWeight c e m.st.objs)).sum = c 2 * ids.length := by
          clear r1 r2 r4
          induction ids with
          | nil => rfl
          | cons i ids ih =>
            obtain ⟨o', a1, a2, _⟩ := r3 i (by simp)
            have : objWeight c e m.st.objs i = c 2 := by
              unfold objWeight
              rw [a1]
              simp [a2.edge, a2.two]
            rw [List.map_cons, List.sum_cons, this, ih (fun i hi => r3 i (by simp [hi])), List.length_cons, Nat.mul_add]
            omega
        have hle : c 2 * ids.length ≤ w * f.hpn.length := by
          refine Nat.mul_le_mul (by omega) (by omega)
        have := he _ h2
        split at r4
        · rename_i hed
          rw [r4.1, List.map_append, List.sum_append, hids]
          have hk : objWeight c e m.st.objs k = e f.hpn.length := by
            unfold objWeight
            rw [r4.2]
            simp [hed]
          simp only [List.map_cons, List.map_nil, List.sum_cons, List.sum_nil, hk]
          have e3 : 2 * w * f.hpn.length = w * f.hpn.length + w * f.hpn.length := by ring
          omega
        · rw [r4.1, hids]
          have e3 : 2 * w * f.hpn.length = w * f.hpn.length + w * f.hpn.length := by ring
          omega)
    refine le_trans key ?_
    rw [← hmul]
    apply le_of_eq
    have : (fs.zipIdx.map fun x => 2 * w * x.1.hpn.length) = (fs.zipIdx.map Prod.fst).map fun f => 2 * w * f.hpn.length := by
      rw [List.map_map]; rfl
    rw [this, List.zipIdx_map_fst]

/-- The sizes of the lists of a map after the first walk. -/
theorem run_sizes {E : SaddleEnv} (hE : RunOk E) (o : Pt → Oracle) (order : List Pt) (ho : IsScan E.d order) (rebuild : Bool) :
    ∃ m, DMap.runSparse E o order rebuild = .ok m ∧
      m.linkers.length ≤ (if rebuild then 32 else 20) * E.d.size + 8 ∧
      m.saddles.length + m.runoffs.length ≤ (if rebuild then 10 else 6) * E.d.size + 8 := by
  obtain ⟨D, corners, m0, m, sites, news, h1, h2, h3, h4, h5, h6, h7, h8, h9⟩ := run_spec hE o order ho rebuild
  obtain ⟨D', g1, g2, g3, g4⟩ := analyze_sizes E.d o order ho
  cases (g1.symm.trans h1 : Except.ok _ = Except.ok _)
  refine ⟨m, h8, ?_⟩
  have hgrow : m0.st.feats <+: m.st.feats ∧ m.st.store.length ≤ (m.st.walked.map (edgeCount m.st.feats)).sum := by
    unfold DMap.runSparse at h8
    obtain ⟨m1, w0, h8⟩ := bind_ok h8
    cases (w0.symm.trans h3 : Except.ok _ = Except.ok _)
    obtain ⟨⟨m1, x⟩, w1, h8⟩ := bind_ok h8
    cases h8
    unfold DMap.walk at w1
    obtain ⟨w, _, w1⟩ := bind_ok w1
    obtain ⟨⟨r, s⟩, w2, w1⟩ := bind_ok w1
    unfold climbFromSaddles at w2
    obtain ⟨s', w3, w2⟩ := bind_ok w2
    cases w2
    simp only [List.isEmpty_nil, if_true] at w1 w3
    cases w1
    obtain ⟨new, a1, a2, a3⟩ := walkFeatures_grown w3
    have hst := h4.start
    dsimp only at a2 a3 ⊢
    refine ⟨a1, ?_⟩
    rw [List.nil_append] at a2
    rw [a2]
    rw [hst] at a3
    simpa [CSt.start] using a3
  have hold : ∀ (b : Nat) (o : SObj), m0.st.objs[b]? = some o → m.st.feats[b]? = some o.f := by
    intro b o hb
    obtain ⟨l, hl⟩ := hgrow.1
    have hlt := lt_of_getElem? hb
    rw [← hl, List.getElem?_append_left (by simpa [CSt.feats] using hlt), CSt.feats, List.getElem?_map, hb]
    rfl
  have hw : m.linkers.length = m.st.store.length := by rw [h9.linkers, h9.inv.lk, List.length_range]
  have hlen : m.saddles.length + m.runoffs.length = m.st.walked.length := by
    rw [h9.saddles, h9.runoffs]
    unfold sortWalked
    dsimp only
    rw [Nat.add_comm]
    exact (List.length_eq_length_filter_add _).symm
  have hn2 : ∀ f ∈ D.saddles, 2 ≤ f.hpn.length := by
    obtain ⟨D', bs, g1, g2, _⟩ := C10_saddles E.d o order ho
    cases (g1.symm.trans h1 : Except.ok _ = Except.ok _)
    intro f hf
    obtain ⟨q, _, hq⟩ := forall₂_mem_right g2 hf
    exact hq.2.1
  obtain ⟨cs, c1, c2, c3⟩ := corner_featOk E.d
  cases (c1.symm.trans h2 : Except.ok _ = Except.ok _)
  have hrun : ∀ (v : SObj → Nat), (m0.runoffs.map fun k => (m0.st.objs[k]?.map v).getD 0).sum ≤
      ((D.runoffs ++ corners).map fun f => v { f := f }).sum := by
    intro v
    refine forall₂_sum_le h7 fun f _ k hk => ?_
    rw [hk]
    exact le_refl _
  have total : ∀ (c e r : Nat → Nat) (v : List Nat → Nat), (∀ (b : Nat) (o : SObj) (new : List Nat), m0.st.objs[b]? = some o → Outcome o b m.st new →
        (o.f.kind = .saddle → v new ≤ (if o.f.edge then e else c) o.f.hpn.length) ∧
        (o.f.kind = .runoff → o.f.edge = true → v new ≤ r o.f.hpn.length)) →
      (news.map v).sum ≤ (m0.saddles.map (objWeight c e m0.st.objs)).sum +
        ((D.runoffs ++ corners).map fun f => r f.hpn.length).sum := by
    intro c e r v hv
    refine le_trans (forall₂_sum_le (w := fun k => if k ∈ m0.saddles then objWeight c e m0.st.objs k
      else (m0.st.objs[k]?.map fun o => r o.f.hpn.length).getD 0) h9.outcomes ?_) ?_
    · rintro b hb new ⟨o, ho1, ho2, _⟩
      obtain ⟨v1, v2⟩ := hv b o new ho1 ho2
      split
      · rename_i hs
        obtain ⟨o', a1, a2⟩ := h4.sad b hs
        cases (a1.symm.trans ho1 : some _ = some _)
        unfold objWeight
        rw [ho1]
        have := v1 a2
        simp only [Option.map_some, Option.getD_some]
        split at this <;> simp_all
      · rename_i hs
        have hr := (List.mem_append.1 hb).resolve_left hs
        obtain ⟨o', a1, a2, a3⟩ := h4.run b hr
        cases (a1.symm.trans ho1 : some _ = some _)
        rw [ho1]
        exact v2 a2 a3
    · rw [List.map_append, List.sum_append]
      refine Nat.add_le_add ?_ ?_
      · apply le_of_eq
        congr 1
        exact List.map_congr_left fun k hk => if_pos hk
      · refine le_trans (le_of_eq ?_) (hrun fun o => r o.f.hpn.length)
        congr 1
        refine List.map_congr_left fun k hk => if_neg fun hs => ?_
        exact (List.nodup_append.1 h4.nodup).2.2 k hs k hk rfl
  constructor
  · have t1 := total (fun n => 2 * n - 2) (fun n => 3 * n - 2) (fun n => 2 * max n 1)
      (fun new => (new.map (edgeCount m.st.feats)).sum) (by
        intro b o new hb hout
        obtain ⟨w1, w2⟩ := outcome_weight hout rfl (hold b o hb)
        refine ⟨fun hk => ?_, fun hk he => (w1 hk he).1⟩
        have := (w2 hk).1
        split at this <;> rename_i hed <;> simp only [hed, if_true, Bool.false_eq_true, if_false] <;> omega)
    have t2 := from_weight h6 (fun n => 2 * n - 2) (fun n => 3 * n - 2) 3 (by omega) (fun n _ => by omega) (fun n _ => by omega) hn2
    have t3 : ((D.runoffs ++ corners).map fun f => 2 * max f.hpn.length 1).sum ≤ 8 * E.d.size + 8 := by
      rw [List.map_append, List.sum_append, List.sum_map_mul_left]
      have : (corners.map fun f => 2 * max f.hpn.length 1) = corners.map fun _ => 2 :=
        List.map_congr_left fun f hf => by rw [(c3 f hf).2.2.2]; rfl
      rw [this, List.map_const', List.sum_replicate, c2]
      simp only [smul_eq_mul]
      omega
    have t4 := hgrow.2
    rw [h9.walked, List.map_flatten, List.sum_flatten, List.map_map] at t4
    rw [hw]
    refine le_trans t4 (le_trans t1 ?_)
    cases rebuild <;> simp only [if_true, Bool.false_eq_true, if_false] at t2 ⊢ <;> omega
  · have t1 := total (fun n => n - 1) (fun n => n) (fun _ => 2) List.length (by
        intro b o new hb hout
        obtain ⟨w1, w2⟩ := outcome_weight hout rfl (hold b o hb)
        refine ⟨fun hk => ?_, fun hk he => (w1 hk he).2⟩
        have := (w2 hk).2
        split at this <;> rename_i hed <;> simp only [hed, if_true, Bool.false_eq_true, if_false] <;> omega)
    have t2 := from_weight h6 (fun n => n - 1) (fun n => n) 1 (by omega) (fun n _ => by omega) (fun n _ => by omega) hn2
    rw [List.map_const', List.sum_replicate, List.length_append, c2] at t1
    simp only [smul_eq_mul] at t1
    rw [hlen, h9.walked, List.length_flatten]
    refine le_trans t1 ?_
    cases rebuild <;> simp only [if_true, Bool.false_eq_true, if_false] at t2 ⊢ <;> omega

end PyProm
