import Verif.Proof.DomainMap

/-
Walks that start with an empty `summit_domain_points`: nothing is ever entered, and no linker is made.
-/
namespace PyProm

/-- The hash of the walk is empty. -/
def WSt.Blank (s : WSt) : Prop := ∀ p, s.lookup p = none

theorem prepopulate_known (d : DataMap) (old : Nat → Option (List Pt)) : ∀ (fs : List Feature) (k : Nat) (s : WSt),
    (∀ i, k ≤ i → i < k + fs.length → (old i).isSome) → prepopulate d old k fs s = .ok s
  | [], _, _, _ => rfl
  | f :: fs, k, s, h => by
    have hk := h k (by omega) (by simp)
    cases ho : old k with
    | none => rw [ho] at hk; cases hk
    | some _ =>
      simp only [prepopulate, ho]
      exact prepopulate_known d old fs (k + 1) s fun i hi hl => h i (by omega) (by simp; omega)

theorem assignFlat_blank (m : P3 → Option P3) : ∀ (ps : List P3) (s s' : WSt), s.Blank →
    assignFlat m ps s = .ok s' → s' = s
  | [], s, s', _, h => by cases h; rfl
  | p :: ps, s, s', hb, h => by
    cases hm : m p with
    | none =>
      simp only [assignFlat, hm] at h
      exact assignFlat_blank m ps s s' hb h
    | some hp =>
      simp only [assignFlat, hm] at h
      rw [hb] at h
      cases h

theorem climbAll_blank {loop : WSt → List Pt → P3 → Except PyErr (Option Nat × WSt)}
    (hl : ∀ s c p r, s.Blank → loop s c p = .ok r → r.2 = s) : ∀ (ps : List P3) (s s' : WSt), s.Blank →
    climbAll loop ps s = .ok s' → s' = s
  | [], s, s', _, h => by cases h; rfl
  | p :: ps, s, s', hb, h => by
    simp only [climbAll, hb p.xy] at h
    cases hr : loop s [p.xy] p with
    | error e => rw [hr] at h; cases h
    | ok r =>
      rw [hr] at h
      dsimp only at h
      rw [hl s _ p r hb hr] at h
      exact climbAll_blank hl ps s s' hb h

theorem climbLoop_blank (E : WalkEnv) : ∀ (n : Nat) (s : WSt) (c : List Pt) (p : P3) (r : Option Nat × WSt),
    s.Blank → climbLoop E n s c p = .ok r → r = (none, s)
  | 0, _, _, _, _, _, h => by cases h
  | n + 1, s, c, p, r, hb, h => by
    simp only [climbLoop] at h
    cases hs : steepestNeighbor E.d E.w p.x p.y with
    | error e => rw [hs] at h; cases h
    | ok sn =>
      rw [hs] at h
      cases sn with
      | none => cases h; rfl
      | some sn =>
        dsimp only at h
        rw [hb sn.xy] at h
        dsimp only at h
        by_cases he : sn.e = p.e
        · rw [if_pos he] at h
          cases hB : equalHeightBlob E.d sn.x sn.y sn.e with
          | none => rw [hB] at h; cases h
          | some b =>
            rw [hB] at h
            dsimp only at h
            split at h
            · cases h
            · rename_i s1 h1
              have e1 := climbAll_blank (fun s c p r hb h => by
                rw [climbLoop_blank E n s c p r hb h]) _ _ _ hb h1
              subst e1
              split at h
              · cases h
              · rename_i m hm
                split at h
                · cases h
                · rename_i s2 h2
                  have e2 := assignFlat_blank m _ _ _ hb h2
                  subst e2
                  rw [hb sn.xy] at h
                  cases h
        · rw [if_neg he] at h
          exact climbLoop_blank E n s _ sn r hb h

theorem climbEdges_blank (E : SaddleEnv) : ∀ (es : List (List P3)) (s s' : WSt), s.Blank →
    climbEdges E es s = .ok s' → s' = s
  | [], s, s', _, h => by cases h; rfl
  | e :: es, s, s', hb, h => by
    simp only [climbEdges] at h
    cases hc : climbPoints E.toWalkEnv E.fuel e s with
    | error _ => rw [hc] at h; cases h
    | ok s1 =>
      rw [hc] at h
      dsimp only at h
      have := climbAll_blank (fun s c p r hb h => by
        rw [climbLoop_blank E.toWalkEnv E.fuel s c p r hb h]) _ _ _ hb hc
      subst this
      exact climbEdges_blank E es _ s' hb h

theorem linkEdges_blank (E : SaddleEnv) (dup : Bool) (sid : Nat) : ∀ (es : List (List P3)) (s s' : CSt), s.w.Blank →
    linkEdges E dup sid es s = .ok s' → s' = s
  | [], s, s', _, h => by cases h; rfl
  | [] :: _, _, _, _, h => by cases h
  | (h0 :: _) :: es, s, s', hb, h => by
    simp only [linkEdges, hb h0.xy] at h
    exact linkEdges_blank E dup sid es s s' hb h

/-- Everything but the objects and the list of walked features is kept, and objects keep their number
and what they stand for. -/
structure Idle (s s' : CSt) : Prop where
  w : s'.w = s.w
  store : s'.store = s.store
  sum : s'.sumLinks = s.sumLinks
  sad : s'.sadLinks = s.sadLinks
  linkers : s'.linkers = s.linkers
  doms : s'.doms = s.doms
  domSaddles : s'.domSaddles = s.domSaddles
  objs : ∀ (i : Nat) (o : SObj), s.objs[i]? = some o → ∃ o', s'.objs[i]? = some o' ∧ o'.f = o.f

theorem Idle.refl (s : CSt) : Idle s s := ⟨rfl, rfl, rfl, rfl, rfl, rfl, rfl, fun _ o h => ⟨o, h, rfl⟩⟩

theorem Idle.trans {a b c : CSt} (h : Idle a b) (g : Idle b c) : Idle a c :=
  ⟨g.w.trans h.w, g.store.trans h.store, g.sum.trans h.sum, g.sad.trans h.sad, g.linkers.trans h.linkers,
    g.doms.trans h.doms, g.domSaddles.trans h.domSaddles, fun i o ho => by
      obtain ⟨o1, h1, e1⟩ := h.objs i o ho
      obtain ⟨o2, h2, e2⟩ := g.objs i o1 h1
      exact ⟨o2, h2, e2.trans e1⟩⟩

/-- Objects before and after: each is kept up to family and flag. -/
def ObjsKept (a b : List SObj) : Prop :=
  ∀ (i : Nat) (o : SObj), a[i]? = some o → ∃ o', b[i]? = some o' ∧ o'.f = o.f

theorem ObjsKept.trans {a b c : List SObj} (h : ObjsKept a b) (g : ObjsKept b c) : ObjsKept a c := fun i o ho => by
  obtain ⟨o1, h1, e1⟩ := h i o ho
  obtain ⟨o2, h2, e2⟩ := g i o1 h1
  exact ⟨o2, h2, e2.trans e1⟩

theorem ObjsKept.mod (a : List SObj) (k : Nat) {g : SObj → SObj} (hg : ∀ o, (g o).f = o.f) :
    ObjsKept a (modObj a k g) := fun i o ho => by
  unfold modObj
  rw [List.getElem?_modify, ho]
  by_cases hk : k = i
  · exact ⟨g o, by simp [hk], hg o⟩
  · exact ⟨o, by simp [hk], rfl⟩

theorem ObjsKept.append (a b : List SObj) : ObjsKept a (a ++ b) := fun i o ho =>
  ⟨o, by
    obtain ⟨h, _⟩ := List.getElem?_eq_some_iff.mp ho
    rw [List.getElem?_append_left h]; exact ho, rfl⟩

theorem walkSynthetic_blank {E : SaddleEnv} {s s' : CSt} {k : Nat} (hb : s.w.Blank)
    (h : walkSynthetic E s k = .ok s') : Idle s s' := by
  simp only [walkSynthetic] at h
  split at h
  · cases h
  · rename_i o ho
    obtain ⟨w, hw, h2⟩ := bind_ok h
    have ew := climbEdges_blank E _ _ _ hb hw
    subst ew
    obtain ⟨s1, h1, h3⟩ := bind_ok h2
    have e1 := linkEdges_blank E false k _ _ _ hb h1
    subst e1
    cases h3
    exact ⟨rfl, rfl, rfl, rfl, rfl, rfl, rfl, fun _ o h => ⟨o, h, rfl⟩⟩

theorem walkEdgeSaddle_blank {E : SaddleEnv} {base : Nat} {s s' : CSt} {k : Nat} (hb : s.w.Blank)
    (h : walkEdgeSaddle E base s k = .ok s') : Idle s s' := by
  simp only [walkEdgeSaddle] at h
  split at h
  · cases h
  · rename_i o ho
    obtain ⟨s1, h1, h3⟩ := bind_ok h
    have e1 := linkEdges_blank E true k _ _ _ hb h1
    subst e1
    cases h3
    exact ⟨rfl, rfl, rfl, rfl, rfl, rfl, rfl,
      (ObjsKept.mod s1.objs k (g := fun o => { o with parent := some base }) (fun _ => rfl)).trans
        (ObjsKept.mod _ base (fun _ => rfl))⟩

theorem Idle.foldlM {g : CSt → Nat → Except PyErr CSt}
    (hg : ∀ s s' k, s.w.Blank → g s k = .ok s' → Idle s s') : ∀ (ks : List Nat) (s s' : CSt), s.w.Blank →
    ks.foldlM g s = .ok s' → Idle s s'
  | [], s, s', _, h => by cases h; exact Idle.refl s
  | k :: ks, s, s', hb, h => by
    rw [List.foldlM_cons] at h
    obtain ⟨s1, h1, h⟩ := bind_ok h
    have i1 := hg s s1 k hb h1
    exact i1.trans (Idle.foldlM hg ks s1 s' (i1.w ▸ hb) h)

theorem alloc_idle (s : CSt) (fs : List Feature) : Idle s (alloc s fs).1 :=
  ⟨rfl, rfl, rfl, rfl, rfl, rfl, rfl, ObjsKept.append _ _⟩

theorem finishEdge_blank {E : SaddleEnv} {s s' : CSt} {base : Nat} {ks : List Nat} (hb : s.w.Blank)
    (h : finishEdge E s base ks = .ok s') : Idle s s' := by
  unfold finishEdge at h
  obtain ⟨s1, h1, h⟩ := bind_ok h
  have i1 := Idle.foldlM (fun s s' k => walkEdgeSaddle_blank (E := E) (base := base)) ks s s1 hb h1
  cases h
  exact i1.trans ⟨rfl, rfl, rfl, rfl, rfl, rfl, rfl, ObjsKept.mod _ base (fun _ => rfl)⟩

theorem adoptChildren_idle (s : CSt) (base : Nat) (ks : List Nat) : Idle s (adoptChildren s base ks) := by
  refine ⟨rfl, rfl, rfl, rfl, rfl, rfl, rfl, ?_⟩
  have h1 : ∀ (ks : List Nat) (a : List SObj), ObjsKept a
      (ks.foldl (fun objs k => modObj objs k (fun o => { o with parent := some base })) a) := by
    intro ks
    induction ks with
    | nil => exact fun a i o h => ⟨o, h, rfl⟩
    | cons k ks ih =>
      exact fun a => (ObjsKept.mod a k (g := fun o => { o with parent := some base }) (fun _ => rfl)).trans (ih _)
  exact (h1 ks s.objs).trans (ObjsKept.mod _ base (fun _ => rfl))

theorem edgeSynthetic_idle {E : SaddleEnv} {s : CSt} {base : Nat} {f : Feature} {r : CSt × List Nat}
    (h : edgeSynthetic E s base f = .ok r) : Idle s r.1 := by
  unfold edgeSynthetic at h
  obtain ⟨g, _, h⟩ := bind_ok h
  cases g with
  | none => cases h; exact Idle.refl s
  | some fs =>
    dsimp only at h
    split at h
    · cases h; exact (alloc_idle s fs).trans (adoptChildren_idle _ _ _)
    · cases h; exact alloc_idle s fs

theorem walkFeature_blank {E : SaddleEnv} {s s' : CSt} {base : Nat} (hb : s.w.Blank)
    (h : walkFeature E s base = .ok s') : Idle s s' := by
  simp only [walkFeature] at h
  split at h
  · cases h
  · rename_i o ho
    split at h
    · obtain ⟨g, _, h⟩ := bind_ok h
      cases g with
      | none => exact walkSynthetic_blank hb h
      | some fs =>
        exact (alloc_idle s fs).trans
          (Idle.foldlM (fun s s' k => walkSynthetic_blank (E := E)) _ _ _ (show (alloc s fs).1.w.Blank from hb) h)
    · obtain ⟨w, hw, h4⟩ := bind_ok h
      have ew := climbEdges_blank E _ _ _ hb hw
      subst ew
      clear h
      rename' h4 => h
      split at h
      · split at h
        · split at h
          · cases h
          · rename_i p hp
            rw [hb p] at h
            cases h
            exact ⟨rfl, rfl, rfl, rfl, rfl, rfl, rfl, fun _ o h => ⟨o, h, rfl⟩⟩
        · exact finishEdge_blank hb h
      · obtain ⟨r, hr, h⟩ := bind_ok h
        have i1 := edgeSynthetic_idle hr
        have hb' : r.1.w.Blank := by rw [i1.w]; exact hb
        exact Idle.trans i1 (finishEdge_blank hb' h)

/-- Result of walking a map whose summits all have domains. -/
theorem DMap.walk_blank {E : SaddleEnv} {m m' : DMap} {sel : List Nat} {r : Option (List Nat × List Nat)}
    (hd : ∀ k < m.summits.length, (m.domPoints k).isSome) (h : m.walk E sel = .ok (m', r)) :
    m'.summits = m.summits ∧ m'.linkers = [] ∧ m'.domains = [] ∧
      (∀ k < m.summits.length, m'.domPoints k = m.domPoints k) ∧
      m'.st.store = m.st.store ∧ m'.st.sumLinks = m.st.sumLinks ∧ m'.st.sadLinks = m.st.sadLinks ∧
      m'.st.domSaddles = m.st.domSaddles ∧ ObjsKept m.st.objs m'.st.objs := by
  unfold DMap.walk at h
  obtain ⟨w, hw, h⟩ := bind_ok h
  have ew : walkInit E.d m.domPoints m.summits = .ok w := hw
  unfold walkInit at ew
  rw [prepopulate_known _ _ _ _ _ (fun i _ hi => hd i (by omega))] at ew
  cases ew
  obtain ⟨⟨rr, s⟩, hs, h⟩ := bind_ok h
  unfold climbFromSaddles at hs
  obtain ⟨s1, h1, hs⟩ := bind_ok hs
  cases hs
  have i1 := Idle.foldlM (fun s s' k => walkFeature_blank (E := { E with summits := m.summits })) _ _ _
    (fun _ => rfl) h1
  have hp : ∀ k < m.summits.length, some (s.w.points k) = m.domPoints k := fun k hk => by
    rw [i1.w]
    have := hd k hk
    cases hm : m.domPoints k with
    | none => rw [hm] at this; cases this
    | some l => simp [hm]
  by_cases he : sel.isEmpty
  all_goals
    simp only [he, if_true, if_false, Bool.false_eq_true] at h
    cases h
    exact ⟨rfl, i1.linkers, i1.doms, fun k hk => by
      change (if k < m.summits.length then some (s.w.points k) else none) = _
      rw [if_pos hk, hp k hk], i1.store, i1.sum, i1.sad, i1.domSaddles, i1.objs⟩

end PyProm
