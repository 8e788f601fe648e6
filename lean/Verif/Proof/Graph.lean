import Verif.Spec.Graph
import Mathlib.Tactic.Tauto

/-
Lemmas on families, soft deletion and purging.
-/
namespace PyProm
open Spec

/-- What deletion of saddles leaves alone. -/
structure SameNet (m m' : DMap) : Prop where
  summits : m'.summits = m.summits
  feat : m'.st.objs.map (·.f) = m.st.objs.map (·.f)
  store : m'.st.store = m.st.store
  sum : m'.st.sumLinks = m.st.sumLinks
  sad : m'.st.sadLinks = m.st.sadLinks
  pts : m'.domPoints = m.domPoints
  saddles : m'.saddles = m.saddles
  runoffs : m'.runoffs = m.runoffs
  linkers : m'.linkers = m.linkers
  domains : m'.domains = m.domains

theorem SameNet.refl (m : DMap) : SameNet m m := ⟨rfl, rfl, rfl, rfl, rfl, rfl, rfl, rfl, rfl, rfl⟩

theorem SameNet.trans {a b c : DMap} (h : SameNet a b) (g : SameNet b c) : SameNet a c :=
  ⟨g.summits.trans h.summits, g.feat.trans h.feat, g.store.trans h.store, g.sum.trans h.sum, g.sad.trans h.sad,
    g.pts.trans h.pts, g.saddles.trans h.saddles, g.runoffs.trans h.runoffs, g.linkers.trans h.linkers,
    g.domains.trans h.domains⟩

theorem SameNet.objF {m m' : DMap} (h : SameNet m m') (k : Nat) :
    m'.st.objs[k]?.map (·.f) = m.st.objs[k]?.map (·.f) := by
  rw [← List.getElem?_map, ← List.getElem?_map, h.feat]

theorem SameNet.feature {m m' : DMap} (h : SameNet m m') : m'.feature = m.feature := by
  funext n
  cases n with
  | summit D => simp [DMap.feature, h.summits]
  | saddle k => exact h.objF k

theorem SameNet.ne {m m' : DMap} (h : SameNet m m') : m'.ne = m.ne := by
  funext a b
  simp [DMap.ne, h.feature]

theorem SameNet.net {m m' : DMap} (h : SameNet m m') : m'.net = m.net := by
  have := congrArg List.length h.feat
  simp only [List.length_map] at this
  simp [DMap.net, h.feature, h.summits, h.store, h.sum, h.sad, this]

theorem modObj_map_f (objs : List SObj) (k : Nat) (g : SObj → SObj) (hg : ∀ o, (g o).f = o.f) :
    (modObj objs k g).map (·.f) = objs.map (·.f) := by
  unfold modObj
  apply List.ext_getElem?
  intro i
  simp only [List.getElem?_map, List.getElem?_modify]
  split <;> cases objs[i]? <;> simp [hg]

theorem samePlace_iff (m : DMap) (j k : Nat) : m.ne (.saddle j) (.saddle k) = false ↔ SamePlace m j k := by
  have h1 : m.feature (.saddle j) = m.st.objs[j]?.map (·.f) := rfl
  have h2 : m.feature (.saddle k) = m.st.objs[k]?.map (·.f) := rfl
  unfold DMap.ne SamePlace
  rw [h1, h2]
  cases m.st.objs[j]? <;> cases m.st.objs[k]? <;> simp [seNe, and_assoc]

theorem SameNet.samePlace {m m' : DMap} (h : SameNet m m') (j k : Nat) : SamePlace m' j k ↔ SamePlace m j k := by
  rw [← samePlace_iff, ← samePlace_iff, h.ne]

theorem lt_of_parent {m : DMap} {k p : Nat} (h : parentOf m k = some p) : ∃ o, m.st.objs[k]? = some o := by
  unfold parentOf at h
  cases ho : m.st.objs[k]? with
  | none => rw [ho] at h; cases h
  | some o => exact ⟨o, rfl⟩

theorem SamePlace.self {m : DMap} {k : Nat} {o : SObj} (h : m.st.objs[k]? = some o) : SamePlace m k k :=
  ⟨o, o, h, h, rfl, rfl, rfl⟩

theorem seEq_round {lat lon e lat' lon' e' : Rat} (h : seEq lat lon e lat' lon' e' = true) :
    round6 lat = round6 lat' ∧ round6 lon = round6 lon' ∧ e = e' := by
  have key : ∀ r r' : Rat, eqCoord r = eqCoord r' → round6 r = round6 r' := by
    intro r r' h
    unfold eqCoord at h
    split at h <;> split at h
    · rename_i a b; rw [a, b]
    · cases h
    · cases h
    · simpa using h
  simp only [seEq, Bool.and_eq_true, decide_eq_true_eq] at h
  exact ⟨key _ _ h.1.1, key _ _ h.1.2, h.2⟩

/-! ### Emancipation -/

theorem emancipate_same (m : DMap) (k : Nat) : SameNet m (m.emancipate k) := by
  unfold DMap.emancipate
  split
  · exact .refl m
  · refine ⟨rfl, ?_, rfl, rfl, rfl, rfl, rfl, rfl, rfl, rfl⟩
    dsimp only
    rw [modObj_map_f, modObj_map_f] <;> intro _ <;> rfl

theorem emancipate_parent (m : DMap) (k j : Nat) :
    parentOf (m.emancipate k) j = if j = k then none else parentOf m j := by
  unfold DMap.emancipate
  split
  · rename_i h
    split
    · rename_i e; rw [e]; exact h
    · rfl
  · rename_i p _
    unfold parentOf modObj
    simp only [List.getElem?_modify]
    by_cases h1 : k = j <;> by_cases h2 : p = j <;> simp only [h1, h2, if_true, if_false] <;>
      cases m.st.objs[j]? <;> simp_all [eq_comm]

theorem emancipate_children (m : DMap) (k j : Nat) :
    childrenOf (m.emancipate k) j =
      if parentOf m k = some j then (childrenOf m j).filter (fun x => m.ne (.saddle x) (.saddle k))
      else childrenOf m j := by
  unfold DMap.emancipate
  split
  · rename_i h
    rw [if_neg (by rw [show parentOf m k = none from h]; simp)]
  · rename_i p h
    rw [show parentOf m k = some p from h]
    unfold childrenOf modObj
    simp only [List.getElem?_modify, Option.some.injEq]
    by_cases h1 : k = j <;> by_cases h2 : p = j <;> simp only [h1, h2, if_true, if_false] <;>
      cases m.st.objs[j]? <;> simp

/-! ### Disowning -/

theorem emancipates_same (l : List Nat) (m : DMap) : SameNet m (l.foldl DMap.emancipate m) := by
  induction l generalizing m with
  | nil => exact .refl m
  | cons a l ih => exact (emancipate_same m a).trans (ih _)

theorem emancipates_parent (l : List Nat) (m : DMap) (j : Nat) :
    parentOf (l.foldl DMap.emancipate m) j = if j ∈ l then none else parentOf m j := by
  induction l generalizing m with
  | nil => simp
  | cons a l ih =>
    rw [List.foldl_cons, ih, emancipate_parent]
    by_cases h1 : j ∈ l <;> by_cases h2 : j = a <;> simp [h1, h2]

theorem emancipates_children (l : List Nat) (m : DMap) (k j : Nat) (hj : j ≠ k)
    (h : ∀ c ∈ l, parentOf m c = some k ∨ parentOf m c = none) :
    childrenOf (l.foldl DMap.emancipate m) j = childrenOf m j := by
  induction l generalizing m with
  | nil => rfl
  | cons a l ih =>
    rw [List.foldl_cons, ih]
    · rw [emancipate_children, if_neg]
      rcases h a (by simp) with h | h <;> rw [h] <;> simp [Ne.symm hj]
    · intro c hc
      rw [emancipate_parent]
      split
      · exact .inr rfl
      · exact h c (by simp [hc])

theorem disown_same (m : DMap) (k : Nat) : SameNet m (m.disown k) := by
  have h := emancipates_same ((m.st.objs[k]?.map (·.children)).getD []) m
  refine h.trans ?_
  refine ⟨rfl, ?_, rfl, rfl, rfl, rfl, rfl, rfl, rfl, rfl⟩
  exact modObj_map_f _ _ _ fun _ => rfl

theorem disown_parent (m : DMap) (k j : Nat) :
    parentOf (m.disown k) j = if j ∈ childrenOf m k then none else parentOf m j := by
  have h := emancipates_parent (childrenOf m k) m j
  rw [← h]
  unfold DMap.disown parentOf modObj childrenOf
  simp only [List.getElem?_modify]
  split
  · generalize (List.foldl DMap.emancipate m _).st.objs[j]? = x
    cases x <;> simp
  · simp

theorem disown_children (m : DMap) (k j : Nat) (h : ∀ c ∈ childrenOf m k, parentOf m c = some k) :
    childrenOf (m.disown k) j = if j = k then [] else childrenOf m j := by
  have h' := fun hj => emancipates_children (childrenOf m k) m k j hj fun c hc => .inl (h c hc)
  split
  · rename_i e
    subst e
    unfold DMap.disown modObj
    rw [childrenOf]
    simp only [List.getElem?_modify, if_true]
    generalize (List.foldl DMap.emancipate m _).st.objs[j]? = x
    cases x <;> simp
  · rename_i e
    rw [← h' e]
    unfold DMap.disown modObj
    conv_lhs => rw [childrenOf]
    simp only [List.getElem?_modify, if_neg (Ne.symm e)]
    unfold childrenOf
    simp

/-! ### Soft deletion -/

theorem softDelete_same (m : DMap) (f : Flags) (k : Nat) : SameNet m (m.softDelete f k).1 := by
  unfold DMap.softDelete
  dsimp only
  split <;> split
  · exact emancipate_same m k
  · exact .refl m
  · exact (disown_same m k).trans (emancipate_same _ k)
  · exact disown_same m k

/-- The two steps of `soft_delete` on the family, without the tests for emptiness. -/
theorem softDelete_family (m : DMap) (f : Flags) (k : Nat) (h : ∀ c ∈ childrenOf m k, parentOf m c = some k) (j : Nat) :
    parentOf (m.softDelete f k).1 j = (if j = k ∨ j ∈ childrenOf m k then none else parentOf m j) ∧
    childrenOf (m.softDelete f k).1 j = (if j = k then [] else
      if parentOf m k = some j then (childrenOf m j).filter (fun x => m.ne (.saddle x) (.saddle k))
      else childrenOf m j) := by
  set m1 := if childrenOf m k = [] then m else m.disown k with hm1
  have h1p : parentOf m1 j = if j ∈ childrenOf m k then none else parentOf m j := by
    rw [hm1]
    split
    · rename_i e; rw [e]; simp
    · exact disown_parent m k j
  have h1k : parentOf m1 k = if k ∈ childrenOf m k then none else parentOf m k := by
    rw [hm1]
    split
    · rename_i e; rw [e]; simp
    · exact disown_parent m k k
  have h1c : childrenOf m1 j = if j = k then [] else childrenOf m j := by
    rw [hm1]
    split
    · rename_i e
      split
      · rename_i e'; rw [e']; exact e
      · rfl
    · exact disown_children m k j h
  have hs : SameNet m m1 := by
    rw [hm1]
    split
    · exact .refl m
    · exact disown_same m k
  have hm2 : (m.softDelete f k).1 = if (parentOf m1 k).isSome then m1.emancipate k else m1 := rfl
  rw [hm2]
  have e2p : parentOf (if (parentOf m1 k).isSome then m1.emancipate k else m1) j =
      if j = k then none else parentOf m1 j := by
    split
    · exact emancipate_parent m1 k j
    · rename_i hn
      split
      · rename_i e; rw [e]; simpa using hn
      · rfl
  have e2c : childrenOf (if (parentOf m1 k).isSome then m1.emancipate k else m1) j =
      if parentOf m1 k = some j then (childrenOf m1 j).filter (fun x => m1.ne (.saddle x) (.saddle k))
      else childrenOf m1 j := by
    split
    · exact emancipate_children m1 k j
    · rename_i hn
      rw [if_neg (by intro hc; rw [hc] at hn; exact hn rfl)]
  rw [e2p, e2c, h1p, h1c, hs.ne, h1k]
  constructor
  · by_cases a : j = k <;> by_cases b : j ∈ childrenOf m k <;> simp [a, b]
  · by_cases a : j = k
    · simp [a]
    · simp only [a, if_false]
      by_cases b : k ∈ childrenOf m k
      · have := h k b
        simp [b, this, Ne.symm a]
      · simp [b]

theorem filter_ne_eq {m : DMap} {l : List Nat} {k : Nat} {o : SObj} (ho : m.st.objs[k]? = some o)
    (h : ∀ x ∈ l, SamePlace m x k → x = k) :
    l.filter (fun x => m.ne (.saddle x) (.saddle k)) = l.filter (fun x => decide (x ≠ k)) := by
  refine List.filter_congr fun x hx => ?_
  by_cases e : x = k
  · subst e
    rw [(samePlace_iff m x x).2 (SamePlace.self ho)]
    simp
  · have : m.ne (.saddle x) (.saddle k) ≠ false := fun hc => e (h x hx ((samePlace_iff m x k).1 hc))
    simp only [Bool.not_eq_false] at this
    simp [this, e]

/-- With consistent families and siblings told apart, soft deletion takes exactly the saddle out. -/
theorem softDelete_exact {m : DMap} (f : Flags) {k : Nat} (hF : FamilyOk m)
    (hk : ∀ p, parentOf m k = some p → ∀ x ∈ childrenOf m p, SamePlace m x k → x = k) (j : Nat) :
    parentOf (m.softDelete f k).1 j = (if j = k ∨ parentOf m j = some k then none else parentOf m j) ∧
    childrenOf (m.softDelete f k).1 j = (if j = k then [] else (childrenOf m j).filter fun x => decide (x ≠ k)) := by
  obtain ⟨h1, h2⟩ := softDelete_family m f k (fun c hc => (hF c k).1 hc) j
  constructor
  · rw [h1]
    by_cases a : j = k
    · simp [a]
    · simp only [a, false_or, hF j k]
  · rw [h2]
    split
    · rfl
    · split
      · rename_i hp
        obtain ⟨o, ho⟩ := lt_of_parent hp
        exact filter_ne_eq ho (hk j hp)
      · rename_i hp
        symm
        rw [List.filter_eq_self]
        intro x hx
        have := (hF x j).1 hx
        simp only [decide_eq_true_eq]
        rintro rfl
        exact hp this

/-! ### Purging -/

theorem removeSaddle_same (m : DMap) (k D : Nat) : SameNet m (m.removeSaddle k D) :=
  ⟨rfl, rfl, rfl, rfl, rfl, rfl, rfl, rfl, rfl, rfl⟩

theorem removeSaddles_spec (k : Nat) : ∀ (l : List Nat) (m : DMap),
    SameNet m (l.foldl (fun m D => m.removeSaddle k D) m) ∧
    (l.foldl (fun m D => m.removeSaddle k D) m).st.objs = m.st.objs ∧
    ∀ E, (l.foldl (fun m D => m.removeSaddle k D) m).st.domSaddles E =
      if E ∈ l then (m.st.domSaddles E).filter (fun x => m.ne (.saddle x) (.saddle k)) else m.st.domSaddles E
  | [], m => ⟨.refl m, rfl, fun E => by simp⟩
  | a :: l, m => by
    obtain ⟨h1, h2, h3⟩ := removeSaddles_spec k l (m.removeSaddle k a)
    have hs := removeSaddle_same m k a
    refine ⟨hs.trans h1, h2, fun E => ?_⟩
    rw [List.foldl_cons, h3, hs.ne]
    have e : (m.removeSaddle k a).st.domSaddles E =
      if E = a then (m.st.domSaddles E).filter (fun x => m.ne (.saddle x) (.saddle k)) else m.st.domSaddles E := rfl
    rw [e]
    by_cases x : E ∈ l <;> by_cases y : E = a <;> simp [x, y, List.filter_filter]

theorem cull_same (mf : DMap × Flags) (k : Nat) : SameNet mf.1 (cull mf k).1 :=
  (softDelete_same mf.1 mf.2 k).trans (removeSaddles_spec k _ _).1

theorem culls_same (l : List Nat) (mf : DMap × Flags) : SameNet mf.1 (l.foldl cull mf).1 := by
  induction l generalizing mf with
  | nil => exact .refl _
  | cons a l ih => exact (cull_same mf a).trans (ih _)

theorem cull_objs (mf : DMap × Flags) (k : Nat) : (cull mf k).1.st.objs = (mf.1.softDelete mf.2 k).1.st.objs :=
  (removeSaddles_spec k _ _).2.1

theorem emancipate_doms (m : DMap) (k : Nat) : (m.emancipate k).st.domSaddles = m.st.domSaddles := by
  unfold DMap.emancipate
  split <;> rfl

theorem emancipates_doms (l : List Nat) (m : DMap) :
    (l.foldl DMap.emancipate m).st.domSaddles = m.st.domSaddles := by
  induction l generalizing m with
  | nil => rfl
  | cons a l ih => rw [List.foldl_cons, ih, emancipate_doms]

theorem softDelete_doms (m : DMap) (f : Flags) (k : Nat) : (m.softDelete f k).1.st.domSaddles = m.st.domSaddles := by
  have hd : (m.disown k).st.domSaddles = m.st.domSaddles := by
    unfold DMap.disown
    exact emancipates_doms _ m
  unfold DMap.softDelete
  dsimp only
  split <;> split
  · exact emancipate_doms m k
  · rfl
  · rw [emancipate_doms, hd]
  · exact hd

theorem cull_doms (mf : DMap × Flags) (k E : Nat) : (cull mf k).1.st.domSaddles E =
    if E ∈ mf.1.domainsOf k then (mf.1.st.domSaddles E).filter (fun x => mf.1.ne (.saddle x) (.saddle k))
    else mf.1.st.domSaddles E := by
  have hs := softDelete_same mf.1 mf.2 k
  have h := (removeSaddles_spec k ((mf.1.softDelete mf.2 k).1.domainsOf k) (mf.1.softDelete mf.2 k).1).2.2 E
  rw [hs.ne, softDelete_doms] at h
  have e : (mf.1.softDelete mf.2 k).1.domainsOf k = mf.1.domainsOf k := by
    unfold DMap.domainsOf
    rw [hs.net, hs.sad, hs.pts]
  rw [e] at h
  rw [← h]
  rw [← e]
  rfl

/-- What culling does to the domains' saddles. -/
theorem culls_doms (l : List Nat) (mf : DMap × Flags) (E : Nat) : (l.foldl cull mf).1.st.domSaddles E =
    (mf.1.st.domSaddles E).filter fun x => l.all fun k =>
      !decide (E ∈ mf.1.domainsOf k) || mf.1.ne (.saddle x) (.saddle k) := by
  induction l generalizing mf with
  | nil => simp
  | cons a l ih =>
    have hs := cull_same mf a
    rw [List.foldl_cons, ih, hs.ne, cull_doms]
    have e : ∀ k, (cull mf a).1.domainsOf k = mf.1.domainsOf k := fun k => by
      unfold DMap.domainsOf
      rw [hs.net, hs.sad, hs.pts]
    simp only [e, List.all_cons]
    split
    · rename_i h
      rw [List.filter_filter]
      refine List.filter_congr fun x _ => ?_
      simp [h, Bool.and_comm]
    · rename_i h
      refine List.filter_congr fun x _ => ?_
      simp [h]

theorem parentOf_congr {m m' : DMap} (h : m'.st.objs = m.st.objs) (k : Nat) : parentOf m' k = parentOf m k := by
  unfold parentOf; rw [h]

theorem childrenOf_congr {m m' : DMap} (h : m'.st.objs = m.st.objs) (k : Nat) : childrenOf m' k = childrenOf m k := by
  unfold childrenOf; rw [h]

/-- What culling does to families. -/
theorem culls_family (l : List Nat) (mf : DMap × Flags) (hF : FamilyOk mf.1) (hA : SiblingsApart mf.1) :
    FamilyOk (l.foldl cull mf).1 ∧ ∀ j,
      parentOf (l.foldl cull mf).1 j =
        (if j ∈ l ∨ (∃ p ∈ l, parentOf mf.1 j = some p) then none else parentOf mf.1 j) ∧
      childrenOf (l.foldl cull mf).1 j = (if j ∈ l then [] else (childrenOf mf.1 j).filter fun x => decide (x ∉ l)) := by
  induction l generalizing mf with
  | nil => exact ⟨hF, fun j => by simp⟩
  | cons a l ih =>
    have hs := cull_same mf a
    have h1 : ∀ j, parentOf (cull mf a).1 j = (if j = a ∨ parentOf mf.1 j = some a then none else parentOf mf.1 j) ∧
        childrenOf (cull mf a).1 j = (if j = a then [] else (childrenOf mf.1 j).filter fun x => decide (x ≠ a)) := by
      intro j
      rw [parentOf_congr (cull_objs mf a), childrenOf_congr (cull_objs mf a)]
      exact softDelete_exact mf.2 hF (fun p hp x hx hpl => hA p x a hx ((hF a p).2 hp) hpl) j
    have hF' : FamilyOk (cull mf a).1 := by
      intro j p
      rw [(h1 j).1, (h1 p).2]
      by_cases e1 : p = a
      · simp only [e1, if_true, List.not_mem_nil, false_iff]
        split
        · simp
        · rename_i hn
          exact fun hc => hn (.inr hc)
      · simp only [e1, if_false, List.mem_filter, decide_eq_true_eq, hF j p]
        constructor
        · rintro ⟨x, y⟩
          rw [if_neg, x]
          rintro (z | z)
          · exact y z
          · rw [x] at z
            exact e1 (by simpa using z)
        · intro h
          split at h
          · cases h
          · rename_i hn
            exact ⟨h, fun z => hn (.inl z)⟩
    have hsub : ∀ p x, x ∈ childrenOf (cull mf a).1 p → x ∈ childrenOf mf.1 p := by
      intro p x hx
      rw [(h1 p).2] at hx
      split at hx
      · cases hx
      · exact (List.mem_filter.1 hx).1
    have hA' : SiblingsApart (cull mf a).1 := fun p x y hx hy hxy =>
      hA p x y (hsub p x hx) (hsub p y hy) ((hs.samePlace x y).1 hxy)
    obtain ⟨g1, g2⟩ := ih (cull mf a) hF' hA'
    refine ⟨g1, fun j => ?_⟩
    rw [List.foldl_cons, (g2 j).1, (g2 j).2]
    constructor
    · simp only [(h1 j).1]
      by_cases e1 : j = a
      · simp [e1]
      · by_cases e2 : parentOf mf.1 j = some a
        · simp [e1, e2]
        · simp only [e1, e2, or_self, if_false, List.mem_cons, false_or]
          have : (j ∈ a :: l ∨ ∃ p ∈ a :: l, parentOf mf.1 j = some p) ↔ (j ∈ l ∨ ∃ p ∈ l, parentOf mf.1 j = some p) := by
            simp only [List.mem_cons, exists_eq_or_imp, e1, e2, false_or]
          by_cases u : j ∈ l ∨ ∃ p ∈ l, parentOf mf.1 j = some p
          · rw [if_pos u, if_pos (this.2 u)]
          · rw [if_neg u, if_neg (fun h => u (this.1 h))]
    · rw [(h1 j).2]
      by_cases e1 : j = a
      · simp [e1]
      · simp only [e1, if_false, List.mem_cons, false_or]
        split
        · rfl
        · rw [List.filter_filter]
          refine List.filter_congr fun x _ => ?_
          by_cases u : x = a <;> by_cases v : x ∈ l <;> simp [u, v]

/-- What culling does to the flags. -/
theorem culls_flags (l : List Nat) (mf : DMap × Flags) :
    (l.foldl cull mf).2.basin = mf.2.basin ∧ (l.foldl cull mf).2.single = mf.2.single ∧
    (∀ j, (l.foldl cull mf).2.over j = if j ∈ l then some true else mf.2.over j) ∧
    (∀ i, (l.foldl cull mf).2.linkDisq i = true ↔ mf.2.linkDisq i = true ∨ ∃ k ∈ l, i ∈ mf.1.st.sadLinks k) := by
  induction l generalizing mf with
  | nil => simp
  | cons a l ih =>
    obtain ⟨h1, h2, h3, h4⟩ := ih (cull mf a)
    have hs := cull_same mf a
    refine ⟨?_, ?_, fun j => ?_, fun i => ?_⟩
    · rw [List.foldl_cons, h1]
      funext j
      simp [cull, DMap.softDelete, disqualifySelf]
    · rw [List.foldl_cons, h2]
      funext j
      simp [cull, DMap.softDelete, disqualifySelf]
    · rw [List.foldl_cons, h3]
      by_cases x : j = a <;> by_cases y : j ∈ l <;> simp [x, y, cull, DMap.softDelete, disqualifySelf]
    · rw [List.foldl_cons, h4, hs.sad]
      have : (cull mf a).2.linkDisq i = true ↔ i ∈ mf.1.st.sadLinks a ∨ mf.2.linkDisq i = true := by
        simp [cull, DMap.softDelete, disqualifySelf, DMap.net]
        exact or_congr decide_eq_true_iff Iff.rfl
      rw [this]
      simp only [List.mem_cons, exists_eq_or_imp]
      tauto

theorem altsFold (m : DMap) (k n : Nat) : ∀ (l : List Node) (g : Node → List Node),
    (l.foldl (fun (a : Node → List Node) b n => if n = b then (a n).filter fun x => m.ne x (.saddle k) else a n) g)
      (.saddle n) = if Node.saddle n ∈ l then (g (.saddle n)).filter (fun x => m.ne x (.saddle k)) else g (.saddle n)
  | [], g => by simp
  | b :: l, g => by
    rw [List.foldl_cons, altsFold m k n l]
    by_cases x : Node.saddle n = b <;> by_cases y : Node.saddle n ∈ l <;> simp [x, y, List.filter_filter]

theorem purgeSelects_iff (f : Flags) (single basin all : Bool) (k : Nat) :
    purgeSelects f single basin all k = true ↔ Selected f single basin all k := by
  unfold purgeSelects Selected
  cases f.basin k <;> cases f.single k <;> cases single <;> cases basin <;> cases all <;> simp

theorem purge_eq (m : DMap) (f : Flags) (single basin all : Bool) :
    m.purge f single basin all =
      ({ ((m.saddles.filter (purgeSelects f single basin all)).foldl cull (m, f)).1 with
          linkers := (m.saddles.filter fun k => !purgeSelects f single basin all k).flatMap m.st.sadLinks
          saddles := m.saddles.filter fun k => !purgeSelects f single basin all k },
        ((m.saddles.filter (purgeSelects f single basin all)).foldl cull (m, f)).2) := rfl

theorem softDelete_alts (m : DMap) (f : Flags) (k n : Nat) : (m.softDelete f k).2.alts (.saddle n) =
    if n = k then [] else if Node.saddle n ∈ f.alts (.saddle k) then
      (f.alts (.saddle n)).filter (fun x => m.ne x (.saddle k)) else f.alts (.saddle n) := by
  have := altsFold m k n (f.alts (.saddle k)) f.alts
  rw [← this]
  unfold DMap.softDelete disqualifySelf
  simp

theorem softDelete_alts_exact {m : DMap} {f : Flags} {k : Nat} {o : SObj} (ho : m.st.objs[k]? = some o)
    (hf : AltsOk m f) (n : Nat) : (m.softDelete f k).2.alts (.saddle n) =
    if n = k then [] else (f.alts (.saddle n)).filter fun x => decide (x ≠ .saddle k) := by
  rw [softDelete_alts]
  split
  · rfl
  · rename_i e
    split
    · rename_i hm
      refine List.filter_congr fun x hx => ?_
      obtain ⟨y, rfl⟩ := hf.saddle n x hx
      by_cases e' : y = k
      · subst e'
        rw [(samePlace_iff m y y).2 (SamePlace.self ho)]
        simp
      · have : m.ne (.saddle y) (.saddle k) ≠ false := fun hc =>
          e' (hf.apart n y k hx ((hf.symm n k).1 hm) ((samePlace_iff m y k).1 hc))
        simp only [Bool.not_eq_false] at this
        simp [this, e']
    · rename_i hm
      symm
      rw [List.filter_eq_self]
      intro x hx
      simp only [decide_eq_true_eq]
      rintro rfl
      exact hm ((hf.symm k n).1 hx)

theorem cull_alts (mf : DMap × Flags) (k : Nat) : (cull mf k).2.alts = (mf.1.softDelete mf.2 k).2.alts := rfl

/-- What culling does to the alternatives. -/
theorem culls_alts (l : List Nat) (mf : DMap × Flags) (hl : ∀ k ∈ l, k < mf.1.st.objs.length)
    (hf : AltsOk mf.1 mf.2) (n : Nat) : (l.foldl cull mf).2.alts (.saddle n) =
    if n ∈ l then [] else (mf.2.alts (.saddle n)).filter fun x => l.all fun k => decide (x ≠ .saddle k) := by
  induction l generalizing mf with
  | nil => simp
  | cons a l ih =>
    have hs := cull_same mf a
    have ha := List.getElem?_eq_getElem (hl a (by simp))
    have h1 : ∀ n, (cull mf a).2.alts (.saddle n) =
        if n = a then [] else (mf.2.alts (.saddle n)).filter fun x => decide (x ≠ .saddle a) :=
      fun n => softDelete_alts_exact ha hf n
    have hsub : ∀ n x, x ∈ (cull mf a).2.alts (.saddle n) ↔ n ≠ a ∧ x ≠ .saddle a ∧ x ∈ mf.2.alts (.saddle n) := by
      intro n x
      rw [h1]
      split
      · rename_i e; simp [e]
      · rename_i e; simp [e, and_comm]
    rw [List.foldl_cons, ih]
    · rw [h1]
      by_cases e : n = a
      · simp [e]
      · by_cases e' : n ∈ l
        · simp [e']
        · simp only [e, e', if_false, List.mem_cons, or_self, List.filter_filter]
          refine List.filter_congr fun x _ => ?_
          simp [Bool.and_comm]
    · intro k hk
      have := congrArg List.length hs.feat
      simp only [List.length_map] at this
      rw [this]
      exact hl k (by simp [hk])
    · refine ⟨fun n x hx => hf.saddle n x ((hsub n x).1 hx).2.2, fun j k => ?_, fun n x y hx hy hxy => ?_⟩
      · rw [hsub, hsub, hf.symm j k]
        simp only [ne_eq, Node.saddle.injEq]
        tauto
      · exact hf.apart n x y ((hsub n _).1 hx).2.2 ((hsub n _).1 hy).2.2 ((hs.samePlace x y).1 hxy)

end PyProm
