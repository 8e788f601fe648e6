import Verif.Spec.Faithful
import Verif.Proof.DomainMap

/-
The network of a walked map compared with the terrain: ascents, high neighbourhoods, joined summits
-/
namespace PyProm
open Spec

/-! ### Ascents -/

/-- Summit `D` is reached from `p` without descent. -/
def Peaks (d : DataMap) (sites : List Pt) (p : Pt) (D : Nat) : Prop :=
  ∃ top, SummitArea d sites D top ∧ Ascends d p top

theorem ascent_leaves {d : DataMap} {p top : Pt} (hp : Data d p) (hn : ¬ IsTop d p) (ht : IsTop d top)
    (h : Ascends d p top) : ∃ a, HighRim d p a ∧ Ascends d a top := by
  induction h using Relation.ReflTransGen.head_induction_on with
  | refl => exact absurd ht hn
  | @head p p1 h1 h2 ih =>
    by_cases he : el d p1 = el d p
    · have hf : Flat d p p1 := .single ⟨h1.1, h1.2.1, he⟩
      obtain ⟨a, ha, hat⟩ := ih h1.2.1 (fun hc => hn ((isTop_congr hp hf).2 hc))
      exact ⟨a, (highRim_congr hp hf a).2 ha, hat⟩
    · exact ⟨p1, ⟨⟨h1.2.1, he, p, .refl, h1.1⟩, lt_of_le_of_ne h1.2.2 (Ne.symm he)⟩, h2⟩

theorem ascent_stays {d : DataMap} {p top : Pt} (hp : Data d p) (ht : IsTop d p) (h : Ascends d p top) :
    Flat d p top := by
  induction h with
  | refl => exact .refl
  | @tail b c _ h2 ih =>
    have hb := (flat_data hp ih).2
    by_cases he : el d c = el d b
    · exact ih.tail ⟨h2.1, h2.2.1, he⟩
    · exact absurd (⟨⟨h2.2.1, by rw [← hb]; exact he, b, ih, h2.1⟩,
        by rw [← hb]; exact lt_of_le_of_ne h2.2.2 (Ne.symm he)⟩ : HighRim d p c) (ht c)

theorem area_top {d : DataMap} {sites : List Pt} {summits : List Feature} (hS : SummitsAt d sites summits)
    {D : Nat} {top : Pt} (h : SummitArea d sites D top) : Data d top ∧ IsTop d top := by
  obtain ⟨q, hq, hf⟩ := h
  obtain ⟨h1, h2⟩ := hS.top q (List.mem_of_getElem? hq)
  exact ⟨(flat_data h1 hf).1, (isTop_congr h1 hf).1 h2⟩

theorem area_unique {d : DataMap} {sites : List Pt} {summits : List Feature} (hS : SummitsAt d sites summits)
    {D D' : Nat} {p q : Pt} (h : SummitArea d sites D p) (h' : SummitArea d sites D' q) (hf : Flat d p q) :
    D = D' := by
  obtain ⟨a, ha, hap⟩ := h
  obtain ⟨b, hb, hbq⟩ := h'
  have da := (hS.top a (List.mem_of_getElem? ha)).1
  have db := (hS.top b (List.mem_of_getElem? hb)).1
  have hab : Flat d a b := (hap.trans hf).trans (hbq.symm db)
  have hpw := List.pairwise_iff_getElem.1 hS.once
  obtain ⟨la, rfl⟩ := List.getElem?_eq_some_iff.1 ha
  obtain ⟨lb, rfl⟩ := List.getElem?_eq_some_iff.1 hb
  rcases lt_trichotomy D D' with hlt | he | hlt
  · exact absurd hab (hpw D D' la lb hlt)
  · exact he
  · exact absurd (hab.symm da) (hpw D' D lb la hlt)

theorem Peaks.up {d : DataMap} {sites : List Pt} {p q : Pt} {D : Nat} (h : Peaks d sites q D)
    (hu : Ascends d p q) : Peaks d sites p D := by
  obtain ⟨t, h1, h2⟩ := h
  exact ⟨t, h1, hu.trans h2⟩

/-- Some summit is reached from every data cell. -/
theorem exists_peak {d : DataMap} {sites : List Pt} {summits : List Feature} (hS : SummitsAt d sites summits) :
    ∀ (n : Nat) (p : Pt), above d (el d p) < n → Data d p → ∃ D, Peaks d sites p D := by
  intro n
  induction n with
  | zero => intro p h; omega
  | succ n ih =>
    intro p hn hp
    by_cases ht : IsTop d p
    · obtain ⟨q, hq, hf⟩ := hS.all p hp ht
      obtain ⟨i, hi⟩ := List.mem_iff_getElem?.1 hq
      exact ⟨i, p, ⟨q, hi, hf⟩, .refl⟩
    · unfold Spec.IsTop at ht
      push Not at ht
      obtain ⟨r, hr⟩ := ht
      have := above_lt hr.1.1.1 hr.2
      obtain ⟨D, hD⟩ := ih r (by omega) hr.1.1
      exact ⟨D, hD.up (highRim_ascends hp .refl hr)⟩

/-! ### Joined summits -/

/-- The pairs connect the numbers below `n`. -/
def JoinsAll (n : Nat) (T : List (Nat × Nat)) : Prop :=
  (∀ e ∈ T, e.1 < n ∧ e.2 < n) ∧ ∀ R : Nat → Nat → Prop, (∀ e ∈ T, R e.1 e.2 ∧ R e.2 e.1) →
    ∀ i j, i < n → j < n → Relation.ReflTransGen R i j

theorem SpanningTree.joins {n : Nat} {T : List (Nat × Nat)} (h : SpanningTree n T) : JoinsAll n T := by
  refine ⟨h.2.1, fun R hR i j hi hj => ?_⟩
  obtain ⟨w⟩ := h.2.2.connected.preconnected ⟨i, hi⟩ ⟨j, hj⟩
  have key : ∀ (a b : Fin n), (linkGraph n T).Walk a b → Relation.ReflTransGen R a.1 b.1 := by
    intro a b w
    induction w with
    | nil => exact .refl
    | @cons a b c hab _ ih =>
      refine .head ?_ ih
      rcases hab.2 with h | h
      · exact (hR _ h).1
      · exact (hR _ h).2
  exact key _ _ w

theorem joinsAll_two : JoinsAll 2 [(1, 0)] := by
  refine ⟨by simp, fun R hR i j hi hj => ?_⟩
  obtain ⟨h1, h2⟩ := hR (1, 0) (by simp)
  obtain rfl | rfl : i = 0 ∨ i = 1 := by omega
  · obtain rfl | rfl : j = 0 ∨ j = 1 := by omega
    · exact .refl
    · exact .single h2
  · obtain rfl | rfl : j = 0 ∨ j = 1 := by omega
    · exact .single h1
    · exact .refl

/-- Connection of summits above a level, as far as it is used below. -/
structure LevelRel (N : Rat → Nat → Nat → Prop) : Prop where
  refl : ∀ h a, N h a a
  symm : ∀ h a b, N h a b → N h b a
  trans : ∀ h a b c, N h a b → N h b c → N h a c
  mono : ∀ h h' a b, h ≤ h' → N h' a b → N h a b

/-- The network joins the high neighbourhoods of every flat area, not below its elevation. -/
def JoinsHigh (d : DataMap) (sites : List Pt) (N : Rat → Nat → Nat → Prop) : Prop :=
  ∀ q, Data d q → ∃ high, IsHigh d q high ∧ (2 ≤ high.length → ∃ T, JoinsAll high.length T ∧ ∀ e ∈ T,
    ∃ p ∈ high.getD e.1 [], ∃ p' ∈ high.getD e.2 [], ∃ D D', Peaks d sites p.xy D ∧ Peaks d sites p'.xy D' ∧
      N (el d q) D D')

theorem mem_getD_of_mem {L : List (List P3)} {p : P3} (h : p ∈ L.flatten) :
    ∃ i, i < L.length ∧ p ∈ L.getD i [] := by
  obtain ⟨c, hc, hp⟩ := List.mem_flatten.1 h
  obtain ⟨i, hi⟩ := List.mem_iff_getElem?.1 hc
  exact ⟨i, lt_of_getElem? hi, by rw [List.getD_eq_getElem?_getD, hi]; exact hp⟩

theorem getD_mem_of_lt {L : List (List P3)} {i : Nat} (h : i < L.length) : L.getD i [] ∈ L := by
  rw [List.getD_eq_getElem?_getD, List.getElem?_eq_getElem h]
  exact List.getElem_mem h

/-- All summits reached from one cell are connected, not below that cell. -/
theorem peaks_joined {d : DataMap} {sites : List Pt} {summits : List Feature} (hS : SummitsAt d sites summits)
    {N : Rat → Nat → Nat → Prop} (hN : LevelRel N) (H : JoinsHigh d sites N) :
    ∀ (n : Nat) (p : Pt), above d (el d p) < n → Data d p → ∀ D D', Peaks d sites p D → Peaks d sites p D' →
      N (el d p) D D' := by
  intro n
  induction n with
  | zero => intro p h; omega
  | succ n ih =>
    intro p hn hp D D' hD hD'
    by_cases ht : IsTop d p
    · obtain ⟨t, h1, h2⟩ := hD
      obtain ⟨t', h1', h2'⟩ := hD'
      have f1 := ascent_stays hp ht h2
      have f2 := ascent_stays hp ht h2'
      rw [area_unique hS h1 h1' ((f1.symm hp).trans f2)]
      exact hN.refl _ _
    · obtain ⟨high, ⟨S, hSl, hc⟩, hT⟩ := H p hp
      have hmem : ∀ x ∈ S, HighRim d p x.xy := fun x hx => ((hSl x).1 hx).1
      -- one cell
      have one : ∀ x ∈ S, ∀ A B, Peaks d sites x.xy A → Peaks d sites x.xy B → N (el d p) A B := by
        intro x hx A B hA hB
        have hr := hmem x hx
        have := above_lt hr.1.1.1 hr.2
        exact hN.mono _ _ _ _ (le_of_lt hr.2) (ih x.xy (by omega) hr.1.1 A B hA hB)
      have peak : ∀ x ∈ S, ∃ A, Peaks d sites x.xy A := fun x hx =>
        exists_peak hS _ x.xy (Nat.lt_succ_self _) (hmem x hx).1.1
      -- two touching cells
      have two : ∀ x ∈ S, ∀ y ∈ S, Adj x.xy y.xy → ∀ A B, Peaks d sites x.xy A → Peaks d sites y.xy B →
          N (el d p) A B := by
        intro x hx y hy hxy A B hA hB
        rcases le_total (el d x.xy) (el d y.xy) with hle | hle
        · exact one x hx A B hA (hB.up (.single ⟨hxy, (hmem y hy).1.1, hle⟩))
        · exact one y hy A B (hA.up (.single ⟨hxy.symm, (hmem x hx).1.1, hle⟩)) hB
      -- one neighbourhood
      have conn : ∀ x ∈ S, ∀ y, Conn S x y → y ∈ S ∧ ∀ A B, Peaks d sites x.xy A → Peaks d sites y.xy B →
          N (el d p) A B := by
        intro x hx y hxy
        induction hxy with
        | refl => exact ⟨hx, one x hx⟩
        | @tail u v _ huv ih2 =>
          refine ⟨huv.2, fun A B hA hB => ?_⟩
          obtain ⟨C, hC⟩ := peak u ih2.1
          exact hN.trans _ _ _ _ (ih2.2 A C hA hC) (two u ih2.1 v huv.2 huv.1 C B hC hB)
      have inS : ∀ c ∈ high, ∀ x ∈ c, x ∈ S := fun c hcm x hx =>
        (hc.mem x).1 (List.mem_flatten.2 ⟨c, hcm, hx⟩)
      have same : ∀ c ∈ high, ∀ x ∈ c, ∀ y ∈ c, ∀ A B, Peaks d sites x.xy A → Peaks d sites y.xy B →
          N (el d p) A B := by
        intro c hcm x hx y hy
        exact (conn x (inS c hcm x hx) y ((hc.sameIff x (inS c hcm x hx) y (inS c hcm y hy)).1
          ⟨c, hcm, hx, hy⟩)).2
      -- all neighbourhoods
      have all : ∀ i j, i < high.length → j < high.length → ∀ x ∈ high.getD i [], ∀ y ∈ high.getD j [],
          ∀ A B, Peaks d sites x.xy A → Peaks d sites y.xy B → N (el d p) A B := by
        intro i j hi hj
        by_cases h2 : 2 ≤ high.length
        · obtain ⟨T, hT1, hT2⟩ := hT h2
          let R : Nat → Nat → Prop := fun u v => u < high.length ∧ v < high.length ∧
            ∃ a ∈ high.getD u [], ∃ b ∈ high.getD v [], ∃ A B, Peaks d sites a.xy A ∧ Peaks d sites b.xy B ∧
              N (el d p) A B
          have hR : ∀ e ∈ T, R e.1 e.2 ∧ R e.2 e.1 := by
            intro e he
            obtain ⟨l1, l2⟩ := hT1.1 e he
            obtain ⟨a, ha, b, hb, A, B, hA, hB, hAB⟩ := hT2 e he
            exact ⟨⟨l1, l2, a, ha, b, hb, A, B, hA, hB, hAB⟩, l2, l1, b, hb, a, ha, B, A, hB, hA,
              hN.symm _ _ _ hAB⟩
          have path := hT1.2 R hR i j hi hj
          have key : ∀ j, Relation.ReflTransGen R i j → j < high.length ∧ ∀ x ∈ high.getD i [],
              ∀ y ∈ high.getD j [], ∀ A B, Peaks d sites x.xy A → Peaks d sites y.xy B → N (el d p) A B := by
            intro j hj
            induction hj with
            | refl => exact ⟨hi, same _ (getD_mem_of_lt hi)⟩
            | @tail u v _ huv ih2 =>
              obtain ⟨l1, l2, a, ha, b, hb, P, Q, hP, hQ, hPQ⟩ := huv
              refine ⟨l2, fun x hx y hy A B hA hB => ?_⟩
              exact hN.trans _ _ _ _ (ih2.2 x hx a ha A P hA hP) (hN.trans _ _ _ _ hPQ
                (same _ (getD_mem_of_lt l2) b hb y hy Q B hQ hB))
          exact (key j path).2
        · have : i = j := by omega
          subst this
          exact same _ (getD_mem_of_lt hi)
      obtain ⟨t, h1, h2⟩ := hD
      obtain ⟨t', h1', h2'⟩ := hD'
      obtain ⟨a, ha, hat⟩ := ascent_leaves hp ht (area_top hS h1).2 h2
      obtain ⟨b, hb, hbt⟩ := ascent_leaves hp ht (area_top hS h1').2 h2'
      have ma : (⟨a.1, a.2, el d a⟩ : P3) ∈ S := (hSl _).2 ⟨ha, rfl⟩
      have mb : (⟨b.1, b.2, el d b⟩ : P3) ∈ S := (hSl _).2 ⟨hb, rfl⟩
      obtain ⟨i, hi, hai⟩ := mem_getD_of_mem ((hc.mem _).2 ma)
      obtain ⟨j, hj, hbj⟩ := mem_getD_of_mem ((hc.mem _).2 mb)
      exact all i j hi hj _ hai _ hbj D D' ⟨t, h1, hat⟩ ⟨t', h1', hbt⟩

/-- Summits reached from the two ends of a way over the terrain are connected, not below its level. -/
theorem passable_joined {d : DataMap} {sites : List Pt} {summits : List Feature} (hS : SummitsAt d sites summits)
    {N : Rat → Nat → Nat → Prop} (hN : LevelRel N) (H : JoinsHigh d sites N) {h : Rat} {p q : Pt}
    (hp : Passable d h p q) : ∀ D D', Peaks d sites p D → Peaks d sites q D' → N h D D' := by
  obtain ⟨h1, h2, h3⟩ := hp
  have one : ∀ (x : Pt), Data d x → h ≤ el d x → ∀ A B, Peaks d sites x A → Peaks d sites x B → N h A B :=
    fun x hx hh A B hA hB => hN.mono _ _ _ _ hh (peaks_joined hS hN H _ x (Nat.lt_succ_self _) hx A B hA hB)
  have key : (Data d q ∧ h ≤ el d q) ∧ ∀ D D', Peaks d sites p D → Peaks d sites q D' → N h D D' := by
    induction h3 with
    | refl => exact ⟨⟨h1, h2⟩, one p h1 h2⟩
    | @tail b c _ hbc ih =>
      refine ⟨hbc.2, fun A B hA hB => ?_⟩
      obtain ⟨C, hC⟩ := exists_peak hS _ b (Nat.lt_succ_self _) ih.1.1
      refine hN.trans _ _ _ _ (ih.2 A C hA hC) ?_
      rcases le_total (el d b) (el d c) with hle | hle
      · exact one b ih.1.1 ih.1.2 C B hC (hB.up (.single ⟨hbc.1, hbc.2.1, hle⟩))
      · exact one c hbc.2.1 hbc.2.2 C B (hC.up (.single ⟨hbc.1.symm, ih.1.1, hle⟩)) hB
  exact key.2

/-! ### Ways over the terrain -/

theorem Spec.Passable.trans {d : DataMap} {h : Rat} {p q r : Pt} (h1 : Passable d h p q) (h2 : Passable d h q r) :
    Passable d h p r := ⟨h1.1, h1.2.1, h1.2.2.trans h2.2.2⟩

theorem Spec.Passable.symm {d : DataMap} {h : Rat} {p q : Pt} (h1 : Passable d h p q) : Passable d h q p := by
  obtain ⟨a, b, c⟩ := h1
  induction c with
  | refl => exact ⟨a, b, .refl⟩
  | @tail u v _ huv ih => exact ⟨huv.2.1, huv.2.2, .head ⟨huv.1.symm, ih.1, ih.2.1⟩ ih.2.2⟩

theorem Spec.Passable.mono {d : DataMap} {h h' : Rat} {p q : Pt} (h1 : Passable d h' p q) (hl : h ≤ h') :
    Passable d h p q :=
  ⟨h1.1, le_trans hl h1.2.1, Relation.ReflTransGen.mono (fun _ _ hs => ⟨hs.1, hs.2.1, le_trans hl hs.2.2⟩) _ _ h1.2.2⟩

theorem Spec.Ascends.passable {d : DataMap} {p q : Pt} (hp : Data d p) (h : Ascends d p q) :
    Passable d (el d p) p q := by
  refine ⟨hp, le_refl _, ?_⟩
  induction h with
  | refl => exact .refl
  | @tail u v h1 huv ih => exact ih.tail ⟨huv.1, huv.2.1, le_trans (ascends_le h1) huv.2.2⟩

theorem Spec.HighRim.passable {d : DataMap} {p q : Pt} (hp : Data d p) (h : HighRim d p q) :
    Passable d (el d p) p q := (highRim_ascends hp .refl h).passable hp

/-! ### Bridges -/

/-- Object `k` has a linker to a summit that is reached from `p` without descent. -/
def Reaches (E : SaddleEnv) (sites : List Pt) (s : CSt) (k : Nat) (p : Pt) : Prop :=
  ∃ D, ⟨D, k⟩ ∈ s.store ∧ Peaks E.d sites p D

/-- Some walked saddle of elevation `e`, made after the first `n` objects, not disqualified and not on the edge, has
linkers for a point of `a` and for a point of `b`. -/
def Bridge (E : SaddleEnv) (sites : List Pt) (n : Nat) (s : CSt) (e : Rat) (a b : List P3) : Prop :=
  ∃ k o, ∃ p ∈ a, ∃ q ∈ b, s.objs[k]? = some o ∧ (n ≤ k ∧ o.disq = none ∧ o.f.edge = false) ∧ o.f.kind = .saddle ∧ k ∈ s.walked ∧
    o.f.elevation = e ∧ Reaches E sites s k p.xy ∧ Reaches E sites s k q.xy

/-- Walked saddles of its elevation connect the high neighbourhoods of `f`. -/
def Spans (E : SaddleEnv) (sites : List Pt) (n : Nat) (s : CSt) (f : Feature) : Prop :=
  ∃ T, JoinsAll f.hpn.length T ∧ ∀ e ∈ T, Bridge E sites n s f.elevation (f.hpn.getD e.1 []) (f.hpn.getD e.2 [])

theorem Bridge.symm {E : SaddleEnv} {sites : List Pt} {n : Nat} {s : CSt} {e : Rat} {a b : List P3}
    (h : Bridge E sites n s e a b) : Bridge E sites n s e b a := by
  obtain ⟨k, o, p, hp, q, hq, h1, hn, h2, h3, h4, h5, h6⟩ := h
  exact ⟨k, o, q, hq, p, hp, h1, hn, h2, h3, h4, h6, h5⟩

theorem Bridge.mono {E : SaddleEnv} {sites : List Pt} {n : Nat} {s : CSt} {e : Rat} {a b a' b' : List P3}
    (h : Bridge E sites n s e a b) (ha : ∀ p ∈ a, p ∈ a') (hb : ∀ p ∈ b, p ∈ b') : Bridge E sites n s e a' b' := by
  obtain ⟨k, o, p, hp, q, hq, h⟩ := h
  exact ⟨k, o, p, ha p hp, q, hb q hq, h⟩

theorem Reaches.step {E : SaddleEnv} {sites : List Pt} {s s' : CSt} (h : s.store <+: s'.store) {k : Nat} {p : Pt}
    (hr : Reaches E sites s k p) : Reaches E sites s' k p := by
  obtain ⟨D, h1, h2⟩ := hr
  exact ⟨D, h.subset h1, h2⟩

theorem Bridge.step {E : SaddleEnv} {sites : List Pt} {n : Nat} {T : Nat → Prop} {s s' : CSt} (h : Step T s s')
    (hT : ∀ k, T k → k < n ∨ s.objs.length ≤ k) {e : Rat} {a b : List P3} (hb : Bridge E sites n s e a b) :
    Bridge E sites n s' e a b := by
  obtain ⟨k, o, p, hp, q, hq, h1, hn, h2, h3, h4, h5, h6⟩ := hb
  obtain ⟨o', e1, _, e3⟩ := h.feat k o h1
  have hk := lt_of_getElem? h1
  rw [e3 (fun hc => by have := hT k hc; omega)] at e1
  exact ⟨k, o, p, hp, q, hq, e1, hn, h2, h.grow.subset h3, h4, h5.step h.store, h6.step h.store⟩

theorem Spans.step {E : SaddleEnv} {sites : List Pt} {n : Nat} {T : Nat → Prop} {s s' : CSt} (h : Step T s s')
    (hT : ∀ k, T k → k < n ∨ s.objs.length ≤ k) {f : Feature}
    (hf : Spans E sites n s f) : Spans E sites n s' f := by
  obtain ⟨T', h1, h2⟩ := hf
  exact ⟨T', h1, fun e he => (h2 e he).step h hT⟩

/-- For a feature with two high neighbourhoods there is one bridge between them. -/
theorem Spans.two {E : SaddleEnv} {sites : List Pt} {n : Nat} {s : CSt} {f : Feature} {a b : List P3}
    (hf : Spans E sites n s f) (h : f.hpn = [a, b]) : Bridge E sites n s f.elevation a b := by
  obtain ⟨T, h1, h2⟩ := hf
  have path := h1.2 (fun i j => i < 2 ∧ j < 2 ∧ Bridge E sites n s f.elevation (f.hpn.getD i []) (f.hpn.getD j [])) (by
    intro e he
    have := h1.1 e he
    rw [h] at this
    exact ⟨⟨this.1, this.2, h2 e he⟩, this.2, this.1, (h2 e he).symm⟩) 0 1 (by rw [h]; simp) (by rw [h]; simp)
  have key : ∀ j, Relation.ReflTransGen (fun i j => i < 2 ∧ j < 2 ∧
      Bridge E sites n s f.elevation (f.hpn.getD i []) (f.hpn.getD j [])) 0 j → j = 0 ∨ Bridge E sites n s f.elevation a b := by
    intro j hj
    induction hj with
    | refl => exact .inl rfl
    | @tail u v _ huv ih =>
      rcases ih with rfl | ih
      · obtain ⟨_, hv, hb⟩ := huv
        obtain rfl | rfl : v = 0 ∨ v = 1 := by omega
        · exact .inl rfl
        · rw [h] at hb
          exact .inr hb
      · exact .inr ih
  rcases key 1 path with h | h
  · omega
  · exact h

/-! ### Split saddles -/

/-- The saddles `gs` made for `f` have two high neighbourhoods each, taken from the neighbourhoods of `f` that
the pairs name. -/
def SplitTree (f : Feature) (T : List (Nat × Nat)) (gs : List Feature) : Prop :=
  JoinsAll f.hpn.length T ∧ List.Forall₂ (fun (g : Feature) (e : Nat × Nat) => SynthOf f g ∧ ∃ a b, g.hpn = [a, b] ∧
    (∀ p ∈ a, p ∈ f.hpn.getD e.2 []) ∧ ∀ p ∈ b, p ∈ f.hpn.getD e.1 []) gs T

theorem children_split {d : DataMap} {fc : PairSearch} (hfc : PairOk d fc) {f : Feature} (hf : FeatOk d f)
    (h2 : 2 ≤ f.hpn.length) {gs : List Feature} (h : generateChildSaddles d fc f = .ok gs) :
    ∃ T, SplitTree f T gs := by
  obtain ⟨query, hyp, dist, hk, rfl, hM⟩ := hfc
  obtain ⟨cs, T, c1, c2, c3⟩ := C23_children d query hyp hk dist f (by
    intro a ha b hb
    obtain ⟨ca, hca, ha⟩ := List.mem_flatten.1 ha
    obtain ⟨cb, hcb, hb⟩ := List.mem_flatten.1 hb
    exact hM a b ((hf.high ca hca).2 a ha).1.1 ((hf.high cb hcb).2 b hb).1.1) h2
    (fun l hl => (hf.high l hl).1) hf.mp
  rw [c1] at h
  cases h
  refine ⟨T, SpanningTree.joins c2, ?_⟩
  have hT := c2.2.1
  clear * - c3 hT
  induction c3 with
  | nil => exact .nil
  | @cons c e cs T h1 _ ih =>
    obtain ⟨l, r, hch, hr, hl⟩ := h1
    obtain ⟨b1, b2⟩ := hT e (by simp)
    refine .cons ⟨hch.synth (mem_flatten_getD b2 hl) (mem_flatten_getD b1 hr), [l], [r], hch.2.2.2.2.1, ?_, ?_⟩
      (ih fun e' he' => hT e' (by simp [he']))
    · intro p hp; rw [List.mem_singleton.1 hp]; exact hl
    · intro p hp; rw [List.mem_singleton.1 hp]; exact hr

theorem single_split {f g : Feature} {a b a' b' : List P3} (hab : f.hpn = [a, b]) (hg : SynthOf f g)
    (hg' : g.hpn = [a', b']) (ha : ∀ p ∈ a', p ∈ a) (hb : ∀ p ∈ b', p ∈ b) : SplitTree f [(1, 0)] [g] := by
  refine ⟨by rw [hab]; exact joinsAll_two, .cons ⟨hg, a', b', hg', ?_, ?_⟩ .nil⟩
  · rw [hab]; exact ha
  · rw [hab]; exact hb

theorem highest_pair {a b : List P3} (hane : a ≠ []) (hbne : b ≠ []) :
    [a, b].mapM highestP3 = .ok [a.filter fun p => decide (∀ q ∈ a, q.e ≤ p.e),
      b.filter fun p => decide (∀ q ∈ b, q.e ≤ p.e)] := by
  rw [List.mapM_cons, List.mapM_cons, List.mapM_nil, highestP3_spec a hane, highestP3_spec b hbne]
  rfl

theorem two_lists {f : Feature} (h : f.hpn.length = 2) : ∃ a b, f.hpn = [a, b] := by
  match h' : f.hpn, h with
  | [a, b], _ => exact ⟨a, b, rfl⟩

theorem synthetic_split {E : SaddleEnv} {sites : List Pt} (hE : SEnvOk E sites) {f : Feature} (hf : FeatOk E.d f)
    {gs : List Feature} (h : generateSynthetic E f = .ok (some gs)) : ∃ T, SplitTree f T gs := by
  have hsy : ∀ g ∈ gs, SynthOf f g := by
    rcases generateSynthetic_spec hE hf with ⟨_, h2⟩ | ⟨_, fs, h2, _, h4⟩
    · rw [h2] at h; cases h
    · rw [h2] at h; cases h; exact h4
  unfold generateSynthetic at h
  by_cases h2 : f.hpn.length < 2
  · rw [if_pos h2] at h; cases h
  · rw [if_neg h2] at h
    by_cases h3 : f.hpn.length > 2
    · rw [if_pos h3] at h
      obtain ⟨cs, h4, h5⟩ := bind_ok h
      cases h5
      exact children_split hE.fc hf (by omega) h4
    · rw [if_neg h3] at h
      obtain ⟨a, b, hab⟩ := two_lists (f := f) (by omega)
      have hane := (hf.high a (by rw [hab]; simp)).1
      have hbne := (hf.high b (by rw [hab]; simp)).1
      have single : ∀ {gs}, (do
          let hs ← f.hpn.mapM highestP3
          pure (some [mkSaddle (f.lat, f.lon) f.elevation none false [] hs]) :
            Except PyErr (Option (List Feature))) = .ok (some gs) → (∀ g ∈ gs, SynthOf f g) →
          ∃ T, SplitTree f T gs := by
        intro gs h hsy
        obtain ⟨hs, h4, h5⟩ := bind_ok h
        rw [hab, highest_pair hane hbne] at h4
        cases h4
        cases h5
        exact ⟨_, single_split hab (hsy _ (by simp)) rfl (fun p hp => (List.mem_filter.1 hp).1)
          fun p hp => (List.mem_filter.1 hp).1⟩
      cases hm : f.multipoint with
      | none => rw [hm] at h; exact single h hsy
      | some ms =>
        rw [hm] at h
        cases ms with
        | nil => exact single h hsy
        | cons m ms =>
          dsimp only at h
          cases a with
          | nil => exact absurd rfl hane
          | cons u0 us =>
            obtain ⟨u, hu, t, ht, mid, _, hp, _⟩ := C26_path_partial (E.find f) (hE.find f) u0 us b [] hbne
            rw [hab, hp] at h
            cases h
            refine ⟨_, single_split hab (hsy _ (by simp)) rfl ?_ ?_⟩
            · intro p hp; rw [List.mem_singleton.1 hp]; exact hu
            · intro p hp; rw [List.mem_singleton.1 hp]; exact ht

theorem rebuilt_split {d : DataMap} {fc : PairSearch} (hfc : PairOk d fc) {f : Feature} (hf : FeatOk d f)
    (h2 : 2 ≤ f.hpn.length) {gs : List Feature} (h : (if f.hpn.length > 2 then generateChildSaddles d fc f
        else do
          let f ← rebuildTwo d fc f
          pure [f] : Except PyErr (List Feature)) = .ok gs) : ∃ T, SplitTree f T gs := by
  by_cases h3 : f.hpn.length > 2
  · rw [if_pos h3] at h
    exact children_split hfc hf h2 h
  · rw [if_neg h3] at h
    obtain ⟨g, g1, g2, _⟩ := rebuildTwo_spec hfc hf (by omega)
    rw [g1] at h
    cases h
    obtain ⟨a, b, hab⟩ := two_lists (f := f) (by omega)
    have hane := (hf.high a (by rw [hab]; simp)).1
    have hbne := (hf.high b (by rw [hab]; simp)).1
    unfold rebuildTwo at g1
    obtain ⟨hs, h4, g1⟩ := bind_ok g1
    rw [hab, highest_pair hane hbne] at h4
    cases h4
    obtain ⟨loc, _, g1⟩ := bind_ok g1
    cases g1
    exact ⟨_, single_split hab g2 rfl (fun p hp => (List.mem_filter.1 hp).1) fun p hp => (List.mem_filter.1 hp).1⟩

theorem forall₂_mem_right {α β : Type} {R : α → β → Prop} {l : List α} {r : List β} (h : List.Forall₂ R l r) {y : β}
    (hy : y ∈ r) : ∃ x ∈ l, R x y := by
  induction h with
  | nil => cases hy
  | @cons a b l' r' hab _ ih =>
    rcases List.mem_cons.1 hy with rfl | hy
    · exact ⟨a, by simp, hab⟩
    · obtain ⟨x, hx, h⟩ := ih hy
      exact ⟨x, by simp [hx], h⟩

theorem alloc_find (s : CSt) {gs : List Feature} {g : Feature} (hg : g ∈ gs) :
    ∃ k ∈ (alloc s gs).2, (alloc s gs).1.objs[k]? = some { f := g } := by
  obtain ⟨i, hi⟩ := List.mem_iff_getElem?.1 hg
  refine ⟨s.objs.length + i, ?_, ?_⟩
  · have := lt_of_getElem? hi
    rw [(alloc_ids s gs).2.2]
    omega
  · simp only [alloc]
    rw [List.getElem?_append_right (by omega), Nat.add_sub_cancel_left, List.getElem?_map, hi]
    rfl

/-! ### Linkers of edge saddles -/

theorem linkEdges_store {E : SaddleEnv} {ig : Bool} {sid : Nat} : ∀ (es : List (List P3)) {s s' : CSt},
    linkEdges E ig sid es s = .ok s' → s'.w = s.w ∧ s.store <+: s'.store ∧ s'.walked = s.walked ∧
      ∀ c ∈ es, ∀ h0, c.head? = some h0 → ∀ D, s.w.lookup h0.xy = some D → ⟨D, sid⟩ ∈ s'.store := by
  intro es
  induction es with
  | nil =>
    intro s s' h
    simp only [linkEdges, Except.ok.injEq] at h
    subst h
    exact ⟨rfl, List.prefix_refl _, rfl, by simp⟩
  | cons e es ih =>
    intro s s' h
    cases e with
    | nil => simp [linkEdges] at h
    | cons x t =>
      unfold linkEdges at h
      cases hl : s.w.lookup x.xy with
      | none =>
        rw [hl] at h
        obtain ⟨a, b, b', c⟩ := ih h
        refine ⟨a, b, b', fun e he h0 hh D hD => ?_⟩
        rcases List.mem_cons.1 he with rfl | he
        · cases hh
          rw [hl] at hD; cases hD
        · exact c e he h0 hh D hD
      | some D' =>
        rw [hl] at h
        obtain ⟨a, b, b', c⟩ := ih h
        have hst : (addLinker E ig s D' sid).store = s.store ++ [⟨D', sid⟩] := rfl
        refine ⟨a, List.IsPrefix.trans (by rw [hst]; exact List.prefix_append _ _) b, b', fun e he h0 hh D hD => ?_⟩
        rcases List.mem_cons.1 he with rfl | he
        · cases hh
          rw [hl] at hD; cases hD
          exact b.subset (by rw [hst]; simp)
        · exact c e he h0 hh D hD

/-- Features stay, and so does the disqualification of all objects but `base`. -/
def KeepsDisq (base : Nat) (objs objs' : List SObj) : Prop :=
  ∀ (k : Nat) (o : SObj), objs[k]? = some o → ∃ o' : SObj, objs'[k]? = some o' ∧ o'.f = o.f ∧
    (k ≠ base → o'.disq = o.disq)

theorem KeepsDisq.refl (base : Nat) (objs : List SObj) : KeepsDisq base objs objs :=
  fun _ o h => ⟨o, h, rfl, fun _ => rfl⟩

theorem KeepsDisq.trans {base : Nat} {a b c : List SObj} (h1 : KeepsDisq base a b) (h2 : KeepsDisq base b c) :
    KeepsDisq base a c := by
  intro k o h
  obtain ⟨o1, e1, e2, e3⟩ := h1 k o h
  obtain ⟨o2, f1, f2, f3⟩ := h2 k o1 e1
  exact ⟨o2, f1, f2.trans e2, fun hk => (f3 hk).trans (e3 hk)⟩

theorem keepsDisq_mod (base : Nat) (objs : List SObj) (k : Nat) (g : SObj → SObj) (hg : ∀ o, (g o).f = o.f)
    (hd : k ≠ base → ∀ o, (g o).disq = o.disq) : KeepsDisq base objs (modObj objs k g) := by
  intro j o h
  obtain ⟨o', e1, e2, e3, e4⟩ := modObj_feat objs k g hg h
  refine ⟨o', e1, e2, fun hj => ?_⟩
  by_cases hk : j = k
  · rw [e4 hk]
    exact hd (by rw [← hk]; exact hj) o
  · rw [e3 hk]

theorem keepsDisq_adopt (base : Nat) (ids : List Nat) (s : CSt) :
    KeepsDisq base s.objs (adoptChildren s base ids).objs := by
  have key : ∀ (ids : List Nat) (objs : List SObj), KeepsDisq base objs
      (ids.foldl (fun objs k => modObj objs k (fun o => { o with parent := some base })) objs) := by
    intro ids
    induction ids with
    | nil => intro objs; exact .refl _ _
    | cons i ids ih =>
      intro objs
      exact (keepsDisq_mod base objs i (fun o => { o with parent := some base }) (fun _ => rfl)
        (fun _ _ => rfl)).trans (ih _)
  exact (key ids s.objs).trans (keepsDisq_mod base _ base (fun o => { o with children := o.children ++ ids })
    (fun _ => rfl) (fun _ _ => rfl))

theorem walkEdgeSaddle_store {E : SaddleEnv} {base sid : Nat} {s s' : CSt}
    (h : walkEdgeSaddle E base s sid = .ok s') : s'.w = s.w ∧ s.store <+: s'.store ∧
      KeepsDisq base s.objs s'.objs ∧
      ∀ o, s.objs[sid]? = some o → ∀ c ∈ o.f.hpn, ∀ h0, c.head? = some h0 → ∀ D, s.w.lookup h0.xy = some D →
        ⟨D, sid⟩ ∈ s'.store := by
  unfold walkEdgeSaddle at h
  cases ho : s.objs[sid]? with
  | none => rw [ho] at h; cases h
  | some o =>
    rw [ho] at h
    obtain ⟨s1, h1, h⟩ := bind_ok h
    cases h
    obtain ⟨a, b, _, c⟩ := linkEdges_store _ h1
    refine ⟨a, b, ?_, fun o' ho' => ?_⟩
    · rw [← linkEdges_objs _ h1]
      exact (keepsDisq_mod base s1.objs sid (fun o => { o with parent := some base }) (fun _ => rfl)
        (fun _ _ => rfl)).trans (keepsDisq_mod base _ base
          (fun o => { o with children := o.children ++ [sid], disq := some true }) (fun _ => rfl)
          (fun hne => absurd rfl hne))
    · cases ho'
      exact c

theorem walkEdgeSaddles_store {E : SaddleEnv} {base : Nat} : ∀ (ids : List Nat) {s s' : CSt},
    ids.foldlM (walkEdgeSaddle E base) s = .ok s' → s'.w = s.w ∧ s.store <+: s'.store ∧
      KeepsDisq base s.objs s'.objs ∧
      ∀ k ∈ ids, ∀ o, s.objs[k]? = some o → ∀ c ∈ o.f.hpn, ∀ h0, c.head? = some h0 → ∀ D,
        s.w.lookup h0.xy = some D → ⟨D, k⟩ ∈ s'.store := by
  intro ids
  induction ids with
  | nil =>
    intro s s' h
    simp only [List.foldlM_nil, pure, Except.pure, Except.ok.injEq] at h
    subst h
    exact ⟨rfl, List.prefix_refl _, .refl _ _, by simp⟩
  | cons i ids ih =>
    intro s s' h
    rw [List.foldlM_cons] at h
    obtain ⟨s1, h1, h⟩ := bind_ok h
    obtain ⟨a1, a2, a3, a4⟩ := walkEdgeSaddle_store h1
    obtain ⟨b1, b2, b0, b3⟩ := ih h
    refine ⟨b1.trans a1, a2.trans b2, a3.trans b0, fun k hk o ho c hc h0 hh D hD => ?_⟩
    rcases List.mem_cons.1 hk with rfl | hk
    · exact b2.subset (a4 o ho c hc h0 hh D hD)
    · obtain ⟨o', f1, f2, _⟩ := a3 k o ho
      exact b3 k hk o' f1 c (by rw [f2]; exact hc) h0 hh D (by rw [a1]; exact hD)

/-! ### One walked saddle -/

theorem walkFeature_spans {E : SaddleEnv} {sites : List Pt} (hE : SEnvOk E sites) {s s' : CSt}
    (hs : CInv E sites s) {base : Nat} {o : SObj} (ho : s.objs[base]? = some o) (hk : o.f.kind = .saddle)
    {n : Nat} (hn : n ≤ s.objs.length) (h : walkFeature E s base = .ok s') : Spans E sites n s' o.f := by
  have hf := hs.objs o (List.mem_of_getElem? ho)
  have h2 := hf.saddle hk
  obtain ⟨gs, g1⟩ : ∃ gs, generateSynthetic E o.f = .ok (some gs) := by
    rcases generateSynthetic_spec hE hf with ⟨h1, _⟩ | ⟨_, fs, h3, _⟩
    · omega
    · exact ⟨fs, h3⟩
  obtain ⟨T, hT, hG⟩ := synthetic_split hE hf g1
  have hsyn : ∀ g ∈ gs, SynthOf o.f g := by
    intro g hg
    obtain ⟨i, hi⟩ := List.mem_iff_getElem?.1 hg
    obtain ⟨_, _, hb, _⟩ := forall₂_getElem? hG hi
    exact hb
  refine ⟨T, hT, fun e he => ?_⟩
  obtain ⟨g, hg, hsy, a, b, hab, ha, hb⟩ := forall₂_mem_right hG he
  refine Bridge.mono (Bridge.symm (a := a) (b := b) ?_) hb ha
  have hane := hsy.ne a (by rw [hab]; simp)
  have hbne := hsy.ne b (by rw [hab]; simp)
  unfold walkFeature at h
  rw [ho] at h
  dsimp only at h
  by_cases hedge : o.f.edge = false
  · rw [if_pos hedge, g1] at h
    dsimp only [bind, Except.bind] at h
    have hids := alloc_ids s gs
    obtain ⟨s'', b1, b2, b3, b4, b5, b6⟩ := walkSynthetics_spec hE (alloc s gs).2 (alloc s gs).1
      (alloc_inv hs fun f hf' => (hsyn f hf').ok hf) hids.1
      (by
        intro k hk
        have hr := (hids.2.2 k).1 hk
        exact ⟨by rw [alloc_len]; exact hr.2, hs.fresh k hr.1⟩)
    have : s' = s'' := by
      have := h.symm.trans b1
      simpa using this
    subst this
    obtain ⟨k, hk1, hk2⟩ := alloc_find s hg
    rw [← b4] at hk2
    have hC := b6 k hk1 _ hk2
    unfold Complete at hC
    dsimp only at hC
    have reach : ∀ c ∈ g.hpn, ∃ p ∈ c, Reaches E sites s' k p.xy := by
      intro c hc
      obtain ⟨i, hi⟩ := List.mem_iff_getElem?.1 hc
      obtain ⟨_, _, h0, D, top, c1, c2, _, c4, c5⟩ := forall₂_getElem? hC hi
      exact ⟨h0, List.mem_of_head? c1, D, List.mem_of_getElem? c2, top, c4, c5⟩
    obtain ⟨p, hp, hpr⟩ := reach a (by rw [hab]; simp)
    obtain ⟨q, hq, hqr⟩ := reach b (by rw [hab]; simp)
    exact ⟨k, _, p, hp, q, hq, hk2, ⟨le_trans hn ((hids.2.2 k).1 hk1).1, rfl, hsy.edge⟩, hsy.kind, by rw [b5]; simp [hk1], hsy.elev, hpr, hqr⟩
  · rw [if_neg hedge] at h
    obtain ⟨w', a1, a2, _, a4⟩ := climbEdges_spec hE o.f.hpn s.w hs.w
      fun e he p hp => ⟨((hf.high e he).2 p hp).1, ((hf.high e he).2 p hp).2.1⟩
    rw [a1] at h
    dsimp only [bind, Except.bind] at h
    rw [if_neg (by rw [hk]; simp)] at h
    have hsw : CInv E sites { s with w := w' } := hs.setW a2
    obtain ⟨s2, ids, d1, d2, d3, _, d5, _⟩ := edgeSynthetic_spec hE hsw (base := base) (o := o) ho
    rw [d1] at h
    dsimp only at h
    have hlt : base < s2.objs.length := lt_of_lt_of_le (lt_of_getElem? ho) d3.len
    obtain ⟨s'', f1, f2, f3, f4, _⟩ := finishEdge_spec hE d2 hlt d5
    have : s' = s'' := by
      have := h.symm.trans f1
      simpa using this
    subst this
    -- the object for g
    have hobj : s2.w = w' ∧ ∃ k ∈ ids, ∃ o', s2.objs[k]? = some o' ∧ o'.f = g ∧ s.objs.length ≤ k ∧
        o'.disq = none := by
      unfold edgeSynthetic at d1
      rw [g1] at d1
      dsimp only [bind, Except.bind] at d1
      obtain ⟨k, hk1, hk2⟩ := alloc_find ({ s with w := w' } : CSt) hg
      have hkl : s.objs.length ≤ k := (((alloc_ids ({ s with w := w' } : CSt) gs).2.2 k).1 hk1).1
      have hkb : k ≠ base := by
        have := lt_of_getElem? ho
        omega
      split at d1
      · cases d1
        refine ⟨rfl, k, hk1, ?_⟩
        obtain ⟨o', e1, e2, e3⟩ := keepsDisq_adopt base (alloc ({ s with w := w' } : CSt) gs).2
          (alloc ({ s with w := w' } : CSt) gs).1 k _ hk2
        exact ⟨o', e1, e2, hkl, e3 hkb⟩
      · cases d1
        exact ⟨rfl, k, hk1, _, hk2, rfl, hkl, rfl⟩
    obtain ⟨hw, k, hk1, o', hk2, hk3, hkl, hkd⟩ := hobj
    have hkb : k ≠ base := by
      have := lt_of_getElem? ho
      omega
    have hfe := f1
    unfold finishEdge at hfe
    obtain ⟨s3, s31, s32⟩ := bind_ok hfe
    cases s32
    obtain ⟨q1, q2, q0, q3⟩ := walkEdgeSaddles_store ids s31
    obtain ⟨o'', e1, e2, e3⟩ := (q0.trans (keepsDisq_mod base s3.objs base (fun o => { o with disq := some true })
      (fun _ => rfl) (fun hne => absurd rfl hne))) k o' hk2
    have reach : ∀ c ∈ g.hpn, ∃ p ∈ c, ∃ D, ⟨D, k⟩ ∈ s3.store ∧ Peaks E.d sites p.xy D := by
      intro c hc
      cases c with
      | nil => exact absurd rfl (hsy.ne _ hc)
      | cons h0 t =>
        obtain ⟨c', hc', hp'⟩ := hsy.high _ hc h0 (by simp)
        obtain ⟨D, hD⟩ := a4 c' hc' h0 hp'
        obtain ⟨_, top, t1, t2⟩ := a2.sound _ D hD
        exact ⟨h0, by simp, D, q3 k hk1 o' hk2 _ (by rw [hk3]; exact hc) h0 rfl D (by rw [hw]; exact hD), top, t1, t2⟩
    obtain ⟨p, hp, hpr⟩ := reach a (by rw [hab]; simp)
    obtain ⟨q, hq, hqr⟩ := reach b (by rw [hab]; simp)
    refine ⟨k, o'', p, hp, q, hq, e1, ⟨le_trans hn hkl, (e3 hkb).trans hkd, by rw [e2, hk3]; exact hsy.edge⟩, by rw [e2, hk3]; exact hsy.kind, by rw [f4]; simp [hk1],
      by rw [e2, hk3]; exact hsy.elev, hpr, hqr⟩

theorem walkFeatures_spans {E : SaddleEnv} {sites : List Pt} (hE : SEnvOk E sites) :
    ∀ (bases : List Nat) (s s' : CSt), CInv E sites s → bases.Nodup → ∀ n, n ≤ s.objs.length →
    (∀ b ∈ bases, b < n) →
    bases.foldlM (walkFeature E) s = .ok s' → ∀ b ∈ bases, ∀ o, s.objs[b]? = some o → o.f.kind = .saddle →
      Spans E sites n s' o.f := by
  intro bases
  induction bases with
  | nil => intro s s' _ _ n _ _ _ b hb; cases hb
  | cons i bases ih =>
    intro s s' hs hn n hnl hlt h b hb o ho hk
    rw [List.foldlM_cons] at h
    obtain ⟨s1, h1, hr⟩ := bind_ok h
    clear h
    have hi := lt_of_lt_of_le (hlt i (by simp)) hnl
    obtain ⟨s1', _, c1, c2, c3, _⟩ := walkFeature_spec hE hs (List.getElem?_eq_getElem hi)
    have : s1 = s1' := by
      have := h1.symm.trans c1
      simpa using this
    subst this
    obtain ⟨hn1, hn2⟩ := List.nodup_cons.1 hn
    have hnl' := le_trans hnl c3.len
    have hlt' : ∀ b ∈ bases, b < n := fun b hb => hlt b (by simp [hb])
    by_cases hbb : b ∈ bases
    · obtain ⟨o', e1, e2, _⟩ := c3.feat b o ho
      have := ih s1 s' c2 hn2 n hnl' hlt' hr b hbb o' e1 (by rw [e2]; exact hk)
      rwa [e2] at this
    · obtain rfl : b = i := by
        rcases List.mem_cons.1 hb with hb | hb
        · exact hb
        · exact absurd hb hbb
      obtain ⟨s2, _, d1, _, d3, _⟩ := walkFeatures_spec hE bases s1 c2 hn2 fun b hb => lt_of_lt_of_le (hlt' b hb) hnl'
      have : s' = s2 := by
        have := hr.symm.trans d1
        simpa using this
      subst this
      refine (walkFeature_spans hE hs ho hk hnl h1).step d3 ?_
      rintro k (hk | hk)
      · exact .inl (hlt' k hk)
      · exact .inr hk

/-! ### Discovered saddles and the objects that stand for them -/

/-- Among the objects `L` are `f` itself, or saddles that connect its high neighbourhoods pairwise. -/
def StandsFor (f : Feature) (objs : List SObj) (L : List Nat) : Prop :=
  (∃ k ∈ L, ∃ o, objs[k]? = some o ∧ o.f = f) ∨ ∃ T, JoinsAll f.hpn.length T ∧ ∀ e ∈ T,
    ∃ k ∈ L, ∃ o a b, objs[k]? = some o ∧ o.f.kind = .saddle ∧ o.f.elevation = f.elevation ∧ o.f.hpn = [a, b] ∧
      (∀ p ∈ a, p ∈ f.hpn.getD e.2 []) ∧ ∀ p ∈ b, p ∈ f.hpn.getD e.1 []

theorem StandsFor.mono {f : Feature} {objs objs' : List SObj} {L L' : List Nat} (h : StandsFor f objs L)
    (ho : ∀ (k : Nat) (o : SObj), objs[k]? = some o → ∃ o' : SObj, objs'[k]? = some o' ∧ o'.f = o.f)
    (hL : ∀ k ∈ L, k ∈ L') : StandsFor f objs' L' := by
  rcases h with ⟨k, hk, o, h1, h2⟩ | ⟨T, h1, h2⟩
  · obtain ⟨o', e1, e2⟩ := ho k o h1
    exact .inl ⟨k, hL k hk, o', e1, e2.trans h2⟩
  · refine .inr ⟨T, h1, fun e he => ?_⟩
    obtain ⟨k, hk, o, a, b, g1, g2, g3, g4, g5⟩ := h2 e he
    obtain ⟨o', e1, e2⟩ := ho k o g1
    exact ⟨k, hL k hk, o', a, b, e1, by rw [e2]; exact g2, by rw [e2]; exact g3, by rw [e2]; exact g4, g5⟩

theorem StandsFor.spans {E : SaddleEnv} {sites : List Pt} {n : Nat} {s : CSt} {f : Feature} {objs : List SObj}
    {L : List Nat} (h : StandsFor f objs L) (hf : f.kind = .saddle)
    (hL : ∀ k ∈ L, ∀ o, objs[k]? = some o → o.f.kind = .saddle → Spans E sites n s o.f) : Spans E sites n s f := by
  rcases h with ⟨k, hk, o, h1, h2⟩ | ⟨T, h1, h2⟩
  · have := hL k hk o h1 (by rw [h2]; exact hf)
    rwa [h2] at this
  · refine ⟨T, h1, fun e he => ?_⟩
    obtain ⟨k, hk, o, a, b, g1, g2, g3, g4, g5, g6⟩ := h2 e he
    have := (hL k hk o g1 g2).two g4
    rw [g3] at this
    exact this.symm.mono g6 g5

theorem rebuildOne_held {d : DataMap} {fc : PairSearch} (hfc : PairOk d fc) {objs objs' : List SObj}
    {k : Nat} {new : List Nat} {o : SObj} (ho : objs[k]? = some o) (hf : FeatOk d o.f)
    (h2 : 2 ≤ o.f.hpn.length) (h : rebuildOne d fc objs k = .ok (objs', new)) : StandsFor o.f objs' new := by
  have hkl := lt_of_getElem? ho
  unfold rebuildOne at h
  rw [ho] at h
  dsimp only at h
  rw [if_neg (by omega)] at h
  obtain ⟨gs, h3, h⟩ := bind_ok h
  obtain ⟨T, hT, hG⟩ := rebuilt_split hfc hf h2 h3
  have find : ∀ (mk : Feature → SObj), (∀ f, (mk f).f = f) → ∀ g ∈ gs, ∃ i ∈ (List.range gs.length).map
      (objs.length + ·), (objs ++ gs.map mk)[i]? = some (mk g) := by
    intro mk _ g hg
    obtain ⟨i, hi⟩ := List.mem_iff_getElem?.1 hg
    refine ⟨objs.length + i, List.mem_map.2 ⟨i, List.mem_range.2 (lt_of_getElem? hi), rfl⟩, ?_⟩
    rw [List.getElem?_append_right (by omega), Nat.add_sub_cancel_left, List.getElem?_map, hi]
    rfl
  by_cases he : o.f.edge = true
  · rw [if_pos he] at h
    cases h
    refine .inr ⟨T, hT, fun e hem => ?_⟩
    obtain ⟨g, hg, hsy, a, b, hab, ha, hb⟩ := forall₂_mem_right hG hem
    obtain ⟨i, hi, hio⟩ := find (fun f => { f := f, parent := some k }) (fun _ => rfl) g hg
    obtain ⟨o', e1, e2, _⟩ := modObj_feat _ k
      (fun o => { o with children := o.children ++ (List.range gs.length).map (objs.length + ·), disq := some true })
      (fun _ => rfl) hio
    exact ⟨i, by simp only [List.mem_append]; exact .inl hi, o', a, b, e1, by rw [e2]; exact hsy.kind,
      by rw [e2]; exact hsy.elev, by rw [e2]; exact hab, ha, hb⟩
  · rw [if_neg he] at h
    cases h
    refine .inr ⟨T, hT, fun e hem => ?_⟩
    obtain ⟨g, hg, hsy, a, b, hab, ha, hb⟩ := forall₂_mem_right hG hem
    obtain ⟨i, hi, hio⟩ := find (fun f => { f := f }) (fun _ => rfl) g hg
    exact ⟨i, hi, _, a, b, hio, hsy.kind, hsy.elev, hab, ha, hb⟩

theorem rebuildSaddles_held {d : DataMap} {fc : PairSearch} (hfc : PairOk d fc) :
    ∀ (ks : List Nat) (objs objs' : List SObj) (L : List Nat), (∀ o ∈ objs, FeatOk d o.f) → ks.Nodup →
    (∀ k ∈ ks, ∃ o, objs[k]? = some o ∧ 2 ≤ o.f.hpn.length) →
    rebuildSaddles d fc ks objs = .ok (objs', L) → ∀ k ∈ ks, ∀ o, objs[k]? = some o → StandsFor o.f objs' L := by
  intro ks
  induction ks with
  | nil => intro objs objs' L _ _ _ _ k hk; cases hk
  | cons i ks ih =>
    intro objs objs' L hobj hn hks h k hk o ho
    unfold rebuildSaddles at h
    obtain ⟨⟨objs1, new⟩, h1, h⟩ := bind_ok h
    obtain ⟨⟨objs2, rest⟩, h2, h⟩ := bind_ok h
    cases h
    obtain ⟨oi, ei, li⟩ := hks i (by simp)
    obtain ⟨objs1', new', a1, a2, a3, _⟩ := rebuildOne_spec hfc hobj ei li
    have hp := h1.symm.trans a1
    simp only [Except.ok.injEq, Prod.mk.injEq] at hp
    obtain ⟨hp1, hp2⟩ := hp
    rw [← hp1] at a2 a3
    obtain ⟨hni, hn'⟩ := List.nodup_cons.1 hn
    have hks' : ∀ k ∈ ks, ∃ o, objs1[k]? = some o ∧ 2 ≤ o.f.hpn.length := by
      intro j hj
      obtain ⟨oj, c1, c2⟩ := hks j (by simp [hj])
      obtain ⟨o', d1, d2, _⟩ := a3.2 j oj c1
      exact ⟨o', d1, by rw [d2]; exact c2⟩
    by_cases hkk : k ∈ ks
    · obtain ⟨o', d1, d2, _⟩ := a3.2 k o ho
      have := ih objs1 _ rest a2 hn' hks' h2 k hkk o' d1
      rw [d2] at this
      exact this.mono (fun _ o h => ⟨o, h, rfl⟩) fun j hj => by simp [hj]
    · have hki : k = i := by
        rcases List.mem_cons.1 hk with hk | hk
        · exact hk
        · exact absurd hk hkk
      rw [hki] at ho
      have hoi : o = oi := by simpa using ho.symm.trans ei
      subst hoi
      obtain ⟨objs2', _, b1, _, b3, _⟩ := rebuildSaddles_spec hfc ks objs1 a2 hn' hks'
      have hp := h2.symm.trans b1
      simp only [Except.ok.injEq, Prod.mk.injEq] at hp
      rw [← hp.1] at b3
      refine (rebuildOne_held hfc ho (hobj o (List.mem_of_getElem? ho)) li h1).mono (fun j oj hj => ?_)
        fun j hj => by simp [hj]
      obtain ⟨o', d1, d2, _⟩ := b3.2 j oj hj
      exact ⟨o', d1, d2⟩

theorem discover_held {d : DataMap} {fc : PairSearch} (hfc : PairOk d fc) {o : Pt → Oracle}
    {order : List Pt} (ho : IsScan d order) {rebuild : Bool} {D : Discovered} {m : DMap}
    (hD : analyze d o order = .ok D) (h : DMap.discover d fc o order rebuild = .ok m) :
    ∀ f ∈ D.saddles, f.kind = .saddle ∧ StandsFor f m.st.objs m.saddles := by
  obtain ⟨D', sites, h1, _, h3, h4⟩ := analyze_walkable d o order ho
  have : D' = D := by simpa using h1.symm.trans hD
  subst this
  obtain ⟨corners, c1, _, c3⟩ := corner_featOk d
  intro f hf
  refine ⟨(h3 f hf).2, ?_⟩
  obtain ⟨i, hi⟩ := List.mem_iff_getElem?.1 hf
  have hil := lt_of_getElem? hi
  unfold DMap.discover at h
  rw [h1, c1] at h
  dsimp only [bind, Except.bind] at h
  generalize hobjs : ((D'.saddles ++ (D'.runoffs ++ corners)).map fun f => ({ f := f } : SObj)) = objs at h
  have hS : ∀ (i : Nat) (f : Feature), D'.saddles[i]? = some f → objs[i]? = some ({ f := f } : SObj) := by
    intro i f hf
    rw [← hobjs, List.getElem?_map, prefix_getElem? (List.prefix_append _ _) hf]
    rfl
  have hobj : ∀ o ∈ objs, FeatOk d o.f := by
    rw [← hobjs]
    intro o' ho'
    obtain ⟨f, hf, rfl⟩ := List.mem_map.1 ho'
    rcases List.mem_append.1 hf with h | h
    · exact (h3 f h).1
    · rcases List.mem_append.1 h with h | h
      · exact (h4 f h).1
      · exact (c3 f h).1
  cases rebuild with
  | false =>
    cases h
    exact .inl ⟨i, List.mem_range.2 hil, _, hS i f hi, rfl⟩
  | true =>
    rw [if_pos rfl] at h
    cases hr : rebuildSaddles d fc (List.range D'.saddles.length) objs with
    | error e => rw [hr] at h; cases h
    | ok r =>
      obtain ⟨objs', L⟩ := r
      rw [hr] at h
      cases h
      refine rebuildSaddles_held hfc _ objs objs' L hobj List.nodup_range (fun k hk => ?_) hr i
        (List.mem_range.2 hil) _ (hS i f hi)
      have hk' := List.mem_range.1 hk
      exact ⟨_, hS k _ (List.getElem?_eq_getElem hk'),
        (h3 _ (List.getElem_mem hk')).1.saddle (h3 _ (List.getElem_mem hk')).2⟩

/-- Discovery reports a saddle for every flat area with several high neighbourhoods. -/
theorem analyze_joins {d : DataMap} {o : Pt → Oracle} {order : List Pt} (ho : IsScan d order) {D : Discovered}
    (hD : analyze d o order = .ok D) : ∀ q, Data d q → ∃ high, IsHigh d q high ∧
      (2 ≤ high.length → ∃ f ∈ D.saddles, f.hpn = high ∧ f.elevation = el d q) := by
  obtain ⟨regs, h1, h2, h3⟩ := analyze_spec d o order ho
  rw [hD] at h3
  simp only [Except.ok.injEq] at h3
  intro q hq
  obtain ⟨r, hr, hf⟩ := h1.all q hq
  obtain ⟨hd, mp, high, lower, str, bps, _, t⟩ := h2 r hr
  obtain ⟨S, hS, hc⟩ := t.isHigh
  refine ⟨high, ⟨S, fun p => by rw [hS p, highRim_congr hd hf], hc⟩, fun hl => ?_⟩
  have hne : high ≠ [] := by rintro rfl; simp at hl
  have put : ∀ pre ll mp' b eps, r.features = pre ++ [mkSaddle ll (el d r.site) mp' b eps high] →
      ∃ f ∈ D.saddles, f.hpn = high ∧ f.elevation = el d r.site := by
    intro pre ll mp' b eps e
    refine ⟨mkSaddle ll (el d r.site) mp' b eps high, ?_, rfl, rfl⟩
    rw [h3]
    exact List.mem_filter.2 ⟨List.mem_flatMap.2 ⟨r, hr, by rw [e]; simp⟩, by simp [mkSaddle]⟩
  rw [(flat_data hd hf).2]
  by_cases hb : OnBorder d r.site
  · by_cases hlo : lower.length ≤ 1
    · have e := t.borderFew hb hne hlo
      rw [if_pos hl] at e
      exact put [] _ _ _ _ e
    · obtain ⟨cs, rs, rem, _, _, _, _, e⟩ := t.borderMany hb hne (by omega)
      rw [if_pos hl] at e
      by_cases hs : ∀ c ∈ str, Separates lower c
      · rw [if_pos hs] at e
        exact put rs _ _ _ _ e
      · rw [if_neg hs] at e
        exact put rs _ _ _ _ e
  · have e := t.interior hb
    rw [if_neg hne, if_pos hl] at e
    exact put [] _ _ _ _ e

/-! ### The network of a run -/

theorem Spec.Crosses.symm {m : DMap} {P : Nat → Prop} {h : Rat} {a b : Nat} (hc : Crosses m P h a b) :
    Crosses m P h b a := by
  obtain ⟨k, o, i, j, h1, h2, h3, h4, h5, h6, h7⟩ := hc
  exact ⟨k, o, j, i, h1, h2, h3, h6, h7, h4, h5⟩

theorem netConnected_level (m : DMap) (P : Nat → Prop) : LevelRel (NetConnected m P) where
  refl _ _ := .refl
  symm _ _ _ h := by
    unfold NetConnected at h ⊢
    induction h with
    | refl => exact .refl
    | tail _ h2 ih => exact .head h2.symm ih
  trans _ _ _ _ h1 h2 := Relation.ReflTransGen.trans h1 h2
  mono _ _ _ _ hl h := Relation.ReflTransGen.mono (fun _ _ hc => by
    obtain ⟨k, o, i, j, h1, h2, h3, h4⟩ := hc
    exact ⟨k, o, i, j, h1, h2, le_trans hl h3, h4⟩) _ _ h

theorem walk_spans {E : SaddleEnv} (hE : RunOk E) {sites : List Pt} {m0 m : DMap} (h0 : Fresh E.d sites m0)
    {r : Option (List Nat × List Nat)} (h : m0.walk E [] = .ok (m, r)) :
    ∀ k ∈ m0.saddles, ∀ o, m0.st.objs[k]? = some o → o.f.kind = .saddle →
      Spans { E with summits := m0.summits } sites m0.st.objs.length m.st o.f := by
  obtain ⟨w, e1, e2, _⟩ := walkInit_spec hE.geo h0.tops
  have hst := h0.start
  have hinv : CInv { E with summits := m0.summits } sites
      { m0.st with w := w, walked := [], linkers := [], doms := [] } := by
    refine ⟨e2, h0.ok, ?_, ?_, ?_, ?_, ?_, ?_, ?_, ?_, ?_, h0.disq⟩ <;> rw [hst] <;> simp [CSt.start]
  unfold DMap.walk at h
  rw [h0.none] at h
  dsimp only at h
  rw [show walkInit E.d (fun _ => none) m0.summits = .ok w from e1] at h
  obtain ⟨w', hw', h⟩ := bind_ok h
  obtain rfl : w = w' := by simpa using hw'
  unfold climbFromSaddles at h
  simp only [List.isEmpty_nil, if_true] at h
  obtain ⟨⟨r', s'⟩, h1, h⟩ := bind_ok h
  obtain ⟨s2, h2, h3⟩ := bind_ok h1
  cases h3
  cases h
  intro k hk o ho hkd
  refine walkFeatures_spans (hE.senv h0.tops) _ _ _ hinv h0.nodup m0.st.objs.length (le_refl _) ?_ h2 k
    (by simp [hk]) o ho hkd
  intro b hb
  rcases List.mem_append.1 hb with hb | hb
  · obtain ⟨o, ho, _⟩ := h0.sad b hb
    exact lt_of_getElem? ho
  · obtain ⟨o, ho, _⟩ := h0.run b hb
    exact lt_of_getElem? ho

/-- A linker stands for a way over the terrain that is nowhere lower than its saddle. -/
theorem link_way {E : SaddleEnv} {sites : List Pt} {summits : List Feature} (hg : Findable E.d)
    (hS : SummitsAt E.d sites summits) {s : CSt} (hs : CInv E sites s) {k : Nat} {o : SObj}
    (ho : s.objs[k]? = some o) : ∃ q, ∀ D, ⟨D, k⟩ ∈ s.store → ∀ p, sites[D]? = some p →
      Passable E.d o.f.elevation q p := by
  have hf := hs.objs o (List.mem_of_getElem? ho)
  have finish : ∀ {x top p : Pt} {D : Nat}, Data E.d x → SummitArea E.d sites D top → Ascends E.d x top →
      sites[D]? = some p → Passable E.d (el E.d x) x p := by
    intro x top p D hx h1 h2 hp
    obtain ⟨p', hp', hfl⟩ := h1
    have : p' = p := by simpa using hp'.symm.trans hp
    subst this
    have dp := (hS.top p' (List.mem_of_getElem? hp)).1
    exact Spec.Ascends.passable hx (Relation.ReflTransGen.trans h2 (hfl.symm dp).ascends)
  by_cases hn : o.f.hpn = []
  · by_cases hex : ∃ q, Data E.d q ∧ LocatedAt E.d q o.f
    · obtain ⟨q, hq, hl⟩ := hex
      refine ⟨q, fun D hD p hp => ?_⟩
      obtain ⟨sf, o', _, h2, _, x, top, h3, h4, h5⟩ := hs.links _ hD
      have : o' = o := by simpa using h2.symm.trans ho
      subst this
      rcases h5 with ⟨c, hc, _⟩ | ⟨_, hx, hxl⟩
      · rw [hn] at hc; cases hc
      · have : x = q := by
          have := (located_xy hg hx.1 hxl).symm.trans (located_xy hg hq.1 hl)
          simpa using this
        subst this
        rw [hl.2.2]
        exact finish hx h3 h4 hp
    · refine ⟨(0, 0), fun D hD p hp => ?_⟩
      obtain ⟨sf, o', _, h2, _, x, top, h3, h4, h5⟩ := hs.links _ hD
      have : o' = o := by simpa using h2.symm.trans ho
      subst this
      rcases h5 with ⟨c, hc, _⟩ | ⟨_, hx, hxl⟩
      · rw [hn] at hc; cases hc
      · exact absurd ⟨x, hx, hxl⟩ hex
  · obtain ⟨q, hq, he, hrim⟩ := hf.area hn
    refine ⟨q, fun D hD p hp => ?_⟩
    obtain ⟨sf, o', _, h2, _, x, top, h3, h4, h5⟩ := hs.links _ hD
    have : o' = o := by simpa using h2.symm.trans ho
    subst this
    rcases h5 with ⟨c, hc, y, hy, rfl⟩ | ⟨hn', _⟩
    · have hr := hrim c hc y hy
      rw [he]
      exact (hr.passable hq).trans ((finish hr.1.1 h3 h4 hp).mono (le_of_lt hr.2))
    · exact absurd hn' hn

/-- What is connected in the network is connected on the terrain. -/
theorem net_way {E : SaddleEnv} {sites : List Pt} {summits : List Feature} (hg : Findable E.d)
    (hS : SummitsAt E.d sites summits) {m : DMap} (hs : CInv E sites m.st) {P : Nat → Prop} {h : Rat}
    {a b : Nat} (hc : NetConnected m P h a b) {p : Pt} (hp : sites[a]? = some p)
    (hh : h ≤ el E.d p) : ∀ q, sites[b]? = some q → Passable E.d h p q := by
  unfold NetConnected at hc
  have lt : ∀ D k, (⟨D, k⟩ : LinkRec) ∈ m.st.store → ∃ x, sites[D]? = some x := by
    intro D k hD
    obtain ⟨_, _, _, _, _, _, _, ⟨x, hx, _⟩, _⟩ := hs.links _ hD
    exact ⟨x, hx⟩
  induction hc with
  | refl =>
    intro q hq
    have : p = q := by simpa using hp.symm.trans hq
    subst this
    exact ⟨(hS.top p (List.mem_of_getElem? hp)).1, hh, .refl⟩
  | @tail b c _ hstep ih =>
    intro q hq
    obtain ⟨k, o, i, j, _, h2, h3, _, h5, _, h7⟩ := hstep
    obtain ⟨x, hx⟩ := lt b k (List.mem_of_getElem? h5)
    obtain ⟨z, hz⟩ := link_way hg hS hs h2
    exact (ih x hx).trans (((hz b (List.mem_of_getElem? h5) x hx).mono h3).symm.trans
      ((hz c (List.mem_of_getElem? h7) q hq).mono h3))

/-- The network of a run joins the high neighbourhoods of every flat area. -/
theorem run_joins {E : SaddleEnv} (hE : RunOk E) (o : Pt → Oracle) (order : List Pt) (ho : IsScan E.d order)
    (rebuild : Bool) : ∃ m sites, DMap.runSparse E o order rebuild = .ok m ∧ SummitsAt E.d sites m.summits ∧
      CInv { E with summits := m.summits } sites m.st ∧ m.linkers = m.st.linkers ∧
      JoinsHigh E.d sites (NetConnected m (LiveSaddle m)) := by
  obtain ⟨D, corners, m0, m, sites, news, h1, _, h3, h4, h5, _, _, h8, h9⟩ := run_spec hE o order ho rebuild
  have hinv := h9.inv
  rw [← h9.summits] at hinv
  refine ⟨m, sites, h8, by rw [h9.summits]; exact h4.tops, hinv, h9.linkers, fun q hq => ?_⟩
  obtain ⟨high, i1, i2⟩ := analyze_joins ho h1 q hq
  refine ⟨high, i1, fun hl => ?_⟩
  obtain ⟨f, f1, f2, f3⟩ := i2 hl
  obtain ⟨g1, g2⟩ := discover_held hE.fc ho h1 h3 f f1
  have hw : ∃ r, m0.walk E [] = .ok (m, r) := by
    unfold DMap.runSparse at h8
    obtain ⟨m1, e1, h8⟩ := bind_ok h8
    obtain ⟨⟨m2, r⟩, e2, h8⟩ := bind_ok h8
    have : m1 = m0 := by simpa using e1.symm.trans h3
    subst this
    cases h8
    exact ⟨r, e2⟩
  obtain ⟨r, hw⟩ := hw
  obtain ⟨T, t1, t2⟩ := g2.spans (E := { E with summits := m0.summits }) (sites := sites) g1 (walk_spans hE h4 hw)
  rw [f2] at t1 t2
  rw [f3] at t2
  refine ⟨T, t1, fun e he => ?_⟩
  obtain ⟨k, ob, p, hp, p', hp', b1, ⟨_, b2, b3⟩, b4, b5, b6, ⟨A, a1, a2⟩, B, c1, c2⟩ := t2 e he
  refine ⟨p, hp, p', hp', A, B, a2, c2, .single ?_⟩
  obtain ⟨i, hi⟩ := List.mem_iff_getElem?.1 a1
  obtain ⟨j, hj⟩ := List.mem_iff_getElem?.1 c1
  refine ⟨k, ob, i, j, ⟨?_, ob, b1, b3, b2⟩, b1, le_of_eq b6.symm, ?_, hi, ?_, hj⟩
  · rw [h9.saddles]
    unfold sortWalked
    dsimp only
    rw [List.mem_filter]
    refine ⟨b5, ?_⟩
    simp [b1, b4]
  · rw [h9.linkers, hinv.lk]
    exact List.mem_range.2 (lt_of_getElem? hi)
  · rw [h9.linkers, hinv.lk]
    exact List.mem_range.2 (lt_of_getElem? hj)

end PyProm
