import Verif.Spec.WalkAgain
import Verif.Proof.WalkAgain
import Verif.Proof.Ascent
import Verif.Proof.Places

/-
When a second walk raises.
-/
namespace PyProm
open Spec

/-- One step up the line. -/
theorem risesToPeak_step {d : DataMap} {w : Int → Int → Rat → Rat} {p q : Pt} (h : FirstSteep d w p q) :
    RisesToPeak d w p ↔ RisesToPeak d w q := by
  constructor
  · rintro ⟨t, h1, h2⟩
    rcases Relation.ReflTransGen.cases_head h1 with rfl | ⟨c, h3, h4⟩
    · have := h2 q h.1.1.1 h.1.1.2.1
      exact absurd h.1.2 (not_lt.2 (le_of_lt this))
    · rw [h3.unique h] at h4
      exact ⟨t, h4, h2⟩
  · rintro ⟨t, h1, h2⟩
    exact ⟨t, .head h h1, h2⟩

/-- Climbing with an empty hash ends well exactly if no flat is met. -/
theorem climbLoop_again {E : WalkEnv} (hE : EnvOk E) : ∀ (n : Nat) (s : WSt) (c : List Pt) (p : P3), s.Blank →
    Data E.d p.xy → p.e = el E.d p.xy → above E.d p.e < n →
    ((∃ r, climbLoop E n s c p = .ok r) ↔ RisesToPeak E.d E.w p.xy)
  | 0, _, _, _, _, _, _, hn => absurd hn (Nat.not_lt_zero _)
  | n + 1, s, c, p, hb, hd, hpe, hn => by
    rcases steepest_spec hE.low hE.pos hd with ⟨h', ht⟩ | ⟨sn, h', he, hst⟩
    · have h : climbLoop E (n + 1) s c p = .ok (none, s) := by
        simp only [climbLoop]
        rw [show steepestNeighbor E.d E.w p.x p.y = .ok none from h']
      exact ⟨fun _ => ⟨p.xy, .refl, ht⟩, fun _ => ⟨_, h⟩⟩
    · have hs : steepestNeighbor E.d E.w p.x p.y = .ok (some sn) := h'
      by_cases hf : sn.e = p.e
      · have heq : el E.d sn.xy = el E.d p.xy := by rw [← he, ← hpe, hf]
        constructor
        · rintro ⟨r, h⟩
          exfalso
          simp only [climbLoop, hs, hb sn.xy, if_pos hf] at h
          cases hB : equalHeightBlob E.d sn.x sn.y sn.e with
          | none => rw [hB] at h; cases h
          | some b =>
            rw [hB] at h
            dsimp only at h
            split at h
            · cases h
            · rename_i s1 h1
              have e1 := climbAll_blank (fun s c p r hb h => by
                rw [climbLoop_blank E n s c p r hb h]) _ _ _ hb h1
              subst e1
              split at h
              · cases h
              · rename_i m hm
                split at h
                · cases h
                · rename_i s2 h2
                  have e2 := assignFlat_blank m _ _ _ hb h2
                  subst e2
                  rw [hb sn.xy] at h
                  cases h
        · rintro ⟨t, h1, h2⟩
          exfalso
          rcases Relation.ReflTransGen.cases_head h1 with h | ⟨q, h3, _⟩
          · have := h2 sn.xy (h ▸ hst.1) hst.2.1
            rw [← h, heq] at this
            exact lt_irrefl _ this
          · have := steepest_rises hE.pos h3.1.1.1 hst.1 h3.1.2 hst.2.2.1
              (hst.2.2.2 q h3.1.1.1 h3.1.1.2.1 (le_of_lt h3.1.2))
            rw [heq] at this
            exact lt_irrefl _ this
      · have hrise : el E.d p.xy < el E.d sn.xy :=
          lt_of_le_of_ne hst.2.2.1 fun h => hf (by rw [he, hpe, h])
        have hfs := steepest_first hE.pos hd.1 h' hst he hrise
        have hlt : above E.d sn.e < n := by
          have := above_lt (e := p.e) hst.2.1.1 (by rw [hpe]; exact hrise)
          rw [he]
          omega
        have hloop : climbLoop E (n + 1) s c p = climbLoop E n s (c ++ [sn.xy]) sn := by
          simp only [climbLoop, hs, hb sn.xy, if_neg hf]
        rw [hloop, risesToPeak_step hfs]
        exact climbLoop_again hE n s _ sn hb hst.2.1 he hlt

theorem climbAll_again {E : WalkEnv} (hE : EnvOk E) {n : Nat} (hn : E.d.size < n) {s : WSt} (hb : s.Blank) : ∀ (ps : List P3),
    (∀ p ∈ ps, Data E.d p.xy ∧ p.e = el E.d p.xy) →
    ((∃ s', climbAll (climbLoop E n) ps s = .ok s') ↔ ∀ p ∈ ps, RisesToPeak E.d E.w p.xy)
  | [], _ => ⟨fun _ => by simp, fun _ => ⟨s, rfl⟩⟩
  | p :: ps, h => by
    have hp := climbLoop_again hE n s [p.xy] p hb (h p (by simp)).1 (h p (by simp)).2
      (lt_of_le_of_lt (above_le_size _ _) hn)
    have hps := climbAll_again hE hn hb ps fun q hq => h q (by simp [hq])
    simp only [climbAll, hb p.xy, List.forall_mem_cons]
    rw [← hp, ← hps]
    cases hr : climbLoop E n s [p.xy] p with
    | error e => simp
    | ok r =>
      rw [climbLoop_blank E n s _ p r hb hr]
      simp

theorem climbEdges_again {E : SaddleEnv} (hE : EnvOk E.toWalkEnv) (hn : E.d.size < E.fuel) {s : WSt} (hb : s.Blank) :
    ∀ (es : List (List P3)), (∀ c ∈ es, ∀ p ∈ c, Data E.d p.xy ∧ p.e = el E.d p.xy) →
    ((∃ s', climbEdges E es s = .ok s') ↔ ∀ c ∈ es, ∀ p ∈ c, RisesToPeak E.d E.w p.xy)
  | [], _ => ⟨fun _ => by simp, fun _ => ⟨s, rfl⟩⟩
  | c :: es, h => by
    have hc := climbAll_again hE hn hb c (h c (by simp))
    have hes := climbEdges_again hE hn hb es fun q hq => h q (by simp [hq])
    simp only [climbEdges, List.forall_mem_cons]
    rw [← hc, ← hes]
    unfold climbPoints
    cases hr : climbAll (climbLoop E.toWalkEnv E.fuel) c s with
    | error e => simp
    | ok s1 =>
      have := climbAll_blank (fun s c p r hb h => by
        rw [climbLoop_blank E.toWalkEnv E.fuel s c p r hb h]) _ _ _ hb hr
      subst this
      simp

theorem linkEdges_again (E : SaddleEnv) (dup : Bool) (sid : Nat) : ∀ (es : List (List P3)) (s : CSt), s.w.Blank →
    (∀ c ∈ es, c ≠ []) → linkEdges E dup sid es s = .ok s
  | [], _, _, _ => rfl
  | [] :: _, _, _, h => absurd rfl (h [] (by simp))
  | (h0 :: _) :: es, s, hb, h => by
    simp only [linkEdges, hb h0.xy]
    exact linkEdges_again E dup sid es s hb fun c hc => h c (by simp [hc])

/-- All saddles and runoffs are as they should. -/
def ObjsOk (d : DataMap) (s : CSt) : Prop := ∀ o ∈ s.objs, FeatOk d o.f

theorem ObjsOk.data {d : DataMap} {s : CSt} (h : ObjsOk d s) {k : Nat} {o : SObj} (ho : s.objs[k]? = some o) :
    ∀ c ∈ o.f.hpn, ∀ p ∈ c, Data d p.xy ∧ p.e = el d p.xy := fun c hc p hp =>
  have := ((h o (List.mem_of_getElem? ho)).high c hc).2 p hp
  ⟨this.1, this.2.1⟩

theorem walkSynthetic_again {E : SaddleEnv} (hE : EnvOk E.toWalkEnv) (hn : E.d.size < E.fuel) {s : CSt} (hb : s.w.Blank)
    (hs : ObjsOk E.d s) {k : Nat} {o : SObj} (ho : s.objs[k]? = some o) :
    (∃ s', walkSynthetic E s k = .ok s') ↔ ∀ c ∈ o.f.hpn, ∀ p ∈ c, RisesToPeak E.d E.w p.xy := by
  rw [← climbEdges_again hE hn hb o.f.hpn (hs.data ho)]
  unfold walkSynthetic
  rw [ho]
  dsimp only
  constructor
  · rintro ⟨s', h⟩
    obtain ⟨w, hw, _⟩ := bind_ok h
    exact ⟨w, hw⟩
  · rintro ⟨w, hw⟩
    have := climbEdges_blank E _ _ _ hb hw
    subst this
    rw [hw]
    have hl := linkEdges_again E false k o.f.hpn s hb fun c hc => ((hs o (List.mem_of_getElem? ho)).high c hc).1
    exact ⟨_, by dsimp only [bind, Except.bind]; rw [hl]; rfl⟩

theorem walkEdgeSaddle_again (E : SaddleEnv) (base : Nat) {s : CSt} (hb : s.w.Blank) (hs : ObjsOk E.d s) {k : Nat}
    (hk : k < s.objs.length) : ∃ s', walkEdgeSaddle E base s k = .ok s' := by
  have ho := List.getElem?_eq_getElem hk
  unfold walkEdgeSaddle
  rw [ho]
  dsimp only
  rw [linkEdges_again E true k _ s hb fun c hc => ((hs _ (List.mem_of_getElem? ho)).high c hc).1]
  exact ⟨_, rfl⟩

/-- The objects of the two states stand for the same. -/
def SameFeats (s s' : CSt) : Prop := s'.objs.map (·.f) = s.objs.map (·.f)

theorem ObjsOk.same {d : DataMap} {s s' : CSt} (h : ObjsOk d s) (g : SameFeats s s') : ObjsOk d s' := by
  intro o ho
  have : o.f ∈ s'.objs.map (·.f) := List.mem_map_of_mem ho
  rw [g] at this
  obtain ⟨o', h1, h2⟩ := List.mem_map.1 this
  rw [← h2]
  exact h o' h1

theorem SameFeats.length {s s' : CSt} (g : SameFeats s s') : s'.objs.length = s.objs.length := by
  have := congrArg List.length g
  simpa using this

theorem modObj_same (objs : List SObj) (k : Nat) {g : SObj → SObj} (hg : ∀ o, (g o).f = o.f) :
    (modObj objs k g).map (·.f) = objs.map (·.f) := by
  apply List.ext_getElem?
  intro i
  unfold modObj
  rw [List.getElem?_map, List.getElem?_map, List.getElem?_modify]
  cases objs[i]? with
  | none => simp
  | some o => by_cases h : k = i <;> simp [h, hg]

theorem walkEdgeSaddle_same {E : SaddleEnv} {base : Nat} {s s' : CSt} {k : Nat} (hb : s.w.Blank)
    (h : walkEdgeSaddle E base s k = .ok s') : SameFeats s s' := by
  simp only [walkEdgeSaddle] at h
  split at h
  · cases h
  · obtain ⟨s1, h1, h3⟩ := bind_ok h
    have e1 := linkEdges_blank E true k _ _ _ hb h1
    subst e1
    cases h3
    exact (modObj_same _ base (g := fun o => { o with children := o.children ++ [k], disq := some true }) (fun _ => rfl)).trans
      (modObj_same _ k (g := fun o => { o with parent := some base }) (fun _ => rfl))

theorem walkEdgeSaddles_again (E : SaddleEnv) (base : Nat) : ∀ (ids : List Nat) (s : CSt), s.w.Blank → ObjsOk E.d s →
    (∀ k ∈ ids, k < s.objs.length) → ∃ s', ids.foldlM (walkEdgeSaddle E base) s = .ok s'
  | [], s, _, _, _ => ⟨s, rfl⟩
  | k :: ids, s, hb, hs, hk => by
    obtain ⟨s1, h1⟩ := walkEdgeSaddle_again E base hb hs (hk k (by simp))
    have hsame := walkEdgeSaddle_same hb h1
    obtain ⟨s2, h2⟩ := walkEdgeSaddles_again E base ids s1 (by rw [(walkEdgeSaddle_blank hb h1).w]; exact hb) (hs.same hsame)
      fun j hj => by rw [hsame.length]; exact hk j (by simp [hj])
    exact ⟨s2, by rw [List.foldlM_cons, h1]; exact h2⟩

theorem finishEdge_again (E : SaddleEnv) (base : Nat) {ids : List Nat} {s : CSt} (hb : s.w.Blank) (hs : ObjsOk E.d s)
    (hk : ∀ k ∈ ids, k < s.objs.length) : ∃ s', finishEdge E s base ids = .ok s' := by
  obtain ⟨s1, h1⟩ := walkEdgeSaddles_again E base ids s hb hs hk
  unfold finishEdge
  rw [h1]
  exact ⟨_, rfl⟩

theorem ObjsOk.alloc {d : DataMap} {s : CSt} (h : ObjsOk d s) {fs : List Feature} (hf : ∀ f ∈ fs, FeatOk d f) :
    ObjsOk d (alloc s fs).1 := by
  intro o ho
  rcases List.mem_append.1 ho with ho | ho
  · exact h o ho
  · obtain ⟨f, h1, rfl⟩ := List.mem_map.1 ho
    exact hf f h1

theorem adoptChildren_same (s : CSt) (base : Nat) (ids : List Nat) : SameFeats s (adoptChildren s base ids) := by
  have h1 : ∀ (ks : List Nat) (a : List SObj),
      (ks.foldl (fun objs k => modObj objs k (fun o => { o with parent := some base })) a).map (·.f) = a.map (·.f) := by
    intro ks
    induction ks with
    | nil => exact fun a => rfl
    | cons k ks ih => exact fun a => (ih _).trans (modObj_same _ k fun _ => rfl)
  exact (modObj_same _ base (g := fun o => { o with children := o.children ++ ids }) fun _ => rfl).trans (h1 ids s.objs)

theorem edgeSynthetic_again {E : SaddleEnv} {sites : List Pt} (hE : SEnvOk E sites) {s : CSt} (hs : ObjsOk E.d s) {base : Nat}
    {o : SObj} (ho : s.objs[base]? = some o) :
    ∃ s' ids, edgeSynthetic E s base o.f = .ok (s', ids) ∧ ObjsOk E.d s' ∧ ∀ k ∈ ids, k < s'.objs.length := by
  have hf := hs o (List.mem_of_getElem? ho)
  unfold edgeSynthetic
  rcases generateSynthetic_spec hE hf with ⟨_, h2⟩ | ⟨_, fs, h2, _, h4⟩
  · rw [h2]
    exact ⟨s, [base], rfl, hs, by simpa using lt_of_getElem? ho⟩
  · rw [h2]
    dsimp only [bind, Except.bind]
    have i1 : ObjsOk E.d (alloc s fs).1 := hs.alloc fun f hf' => (h4 f hf').ok hf
    have hlt : ∀ k ∈ (alloc s fs).2, k < (alloc s fs).1.objs.length := fun k hk => by
      rw [alloc_len]; exact (((alloc_ids s fs).2.2 k).1 hk).2
    by_cases hc : (decide (o.f.hpn.length > 2) && o.f.edge) = true
    · refine ⟨adoptChildren (alloc s fs).1 base (alloc s fs).2, (alloc s fs).2, ?_, i1.same (adoptChildren_same _ _ _), ?_⟩
      · show (if _ then _ else _) = _
        rw [if_pos hc]; rfl
      · intro k hk
        rw [(adoptChildren_same (alloc s fs).1 base (alloc s fs).2).length]
        exact hlt k hk
    · refine ⟨(alloc s fs).1, (alloc s fs).2, ?_, i1, hlt⟩
      show (if _ then _ else _) = _
      rw [if_neg hc]; rfl

/-- One feature. -/
theorem walkFeature_again {E : SaddleEnv} {sites : List Pt} (hE : SEnvOk E sites) {s : CSt} (hb : s.w.Blank) (hs : ObjsOk E.d s)
    {base : Nat} {o : SObj} (ho : s.objs[base]? = some o)
    (hi : o.f.edge = false → o.f.hpn.length = 2 ∧ o.f.multipoint = none) :
    (∃ s', walkFeature E s base = .ok s') ↔
      ∀ c ∈ o.f.hpn, ∀ p, ClimbedFrom o.f c p → RisesToPeak E.d E.w p.xy := by
  have hf := hs o (List.mem_of_getElem? ho)
  unfold walkFeature
  rw [ho]
  dsimp only
  by_cases he : o.f.edge = false
  · rw [if_pos he]
    obtain ⟨h2, hm⟩ := hi he
    obtain ⟨a, b, hab⟩ : ∃ a b, o.f.hpn = [a, b] := by
      match h : o.f.hpn, h2 with
      | [a, b], _ => exact ⟨a, b, rfl⟩
    have hane := (hf.high a (by rw [hab]; simp)).1
    have hbne := (hf.high b (by rw [hab]; simp)).1
    let hs' : List (List P3) := [a.filter fun p => decide (∀ q ∈ a, q.e ≤ p.e), b.filter fun p => decide (∀ q ∈ b, q.e ≤ p.e)]
    let g : Feature := mkSaddle (o.f.lat, o.f.lon) o.f.elevation none false [] hs'
    have hg : generateSynthetic E o.f = .ok (some [g]) := by
      unfold generateSynthetic
      rw [if_neg (by omega), if_neg (by omega), hm]
      dsimp only
      rw [hab, List.mapM_cons, List.mapM_cons, List.mapM_nil, highestP3_spec a hane, highestP3_spec b hbne]
      rfl
    have hgok : FeatOk E.d g := by
      rcases generateSynthetic_spec hE hf with ⟨h, _⟩ | ⟨_, fs, h3, _, h4⟩
      · omega
      · rw [hg] at h3
        cases h3
        exact (h4 g (by simp)).ok hf
    rw [hg]
    dsimp only [bind, Except.bind]
    have hget : (alloc s [g]).1.objs[s.objs.length]? = some ({ f := g } : SObj) := by
      simp [alloc]
    have hids : (alloc s [g]).2 = [s.objs.length] := by simp [alloc]
    have key := walkSynthetic_again hE.env hE.fuel (s := (alloc s [g]).1) hb
      (hs.alloc fun f hf => by rw [List.mem_singleton.1 hf]; exact hgok) hget
    have e : (∃ s', (alloc s [g]).2.foldlM (walkSynthetic E) (alloc s [g]).1 = .ok s') ↔
        ∃ s', walkSynthetic E (alloc s [g]).1 s.objs.length = .ok s' := by
      rw [hids]
      simp only [List.foldlM_cons, List.foldlM_nil, bind_pure]
    refine e.trans (key.trans ?_)
    have hgh : g.hpn = hs' := rfl
    show (∀ c ∈ g.hpn, ∀ p ∈ c, RisesToPeak E.d E.w p.xy) ↔ _
    rw [hgh, hab]
    simp only [hs', List.mem_cons, List.not_mem_nil, or_false, forall_eq_or_imp, forall_eq, List.mem_filter, decide_eq_true_eq,
      ClimbedFrom, he, Bool.false_eq_true, false_or]
  · rw [if_neg he]
    have he' : o.f.edge = true := by simpa using he
    have hcl : (∀ c ∈ o.f.hpn, ∀ p, ClimbedFrom o.f c p → RisesToPeak E.d E.w p.xy) ↔
        ∀ c ∈ o.f.hpn, ∀ p ∈ c, RisesToPeak E.d E.w p.xy := by
      simp [ClimbedFrom, he']
    rw [hcl, ← climbEdges_again hE.env hE.fuel hb o.f.hpn (hs.data ho)]
    constructor
    · rintro ⟨s', h⟩
      obtain ⟨w, hw, _⟩ := bind_ok h
      exact ⟨w, hw⟩
    · rintro ⟨w, hw⟩
      have := climbEdges_blank E _ _ _ hb hw
      subst this
      rw [hw]
      dsimp only [bind, Except.bind]
      by_cases hr : o.f.kind = .runoff
      · rw [if_pos hr]
        by_cases hh : o.f.hpn.isEmpty
        · rw [if_pos hh]
          obtain ⟨q, q1, q2⟩ := hf.loc (List.isEmpty_iff.1 hh)
          have hq : E.d.latLongToXY o.f.lat o.f.lon = some q := by
            rw [q2.1, q2.2.1]; exact hE.geo q q1
          rw [hq]
          dsimp only
          rw [hb q]
          exact ⟨_, rfl⟩
        · rw [if_neg hh]
          exact finishEdge_again E base hb hs (by simpa using lt_of_getElem? ho)
      · rw [if_neg hr]
        obtain ⟨s1, ids, h1, h2, h3⟩ := edgeSynthetic_again hE hs ho
        have h1' : edgeSynthetic E { s with w := s.w } base o.f = .ok (s1, ids) := h1
        rw [h1']
        exact finishEdge_again E base (by rw [(edgeSynthetic_idle h1).w]; exact hb) h2 h3

theorem walkFeatures_again {E : SaddleEnv} {sites : List Pt} (hE : SEnvOk E sites) (F : Nat → Feature) : ∀ (bases : List Nat)
    (s : CSt), s.w.Blank → ObjsOk E.d s →
    (∀ k ∈ bases, (∃ o, s.objs[k]? = some o ∧ o.f = F k) ∧ ((F k).edge = false → (F k).hpn.length = 2 ∧ (F k).multipoint = none)) →
    ((∃ s', bases.foldlM (walkFeature E) s = .ok s') ↔
      ∀ k ∈ bases, ∀ c ∈ (F k).hpn, ∀ p, ClimbedFrom (F k) c p → RisesToPeak E.d E.w p.xy)
  | [], s, _, _, _ => ⟨fun _ => by simp, fun _ => ⟨s, rfl⟩⟩
  | k :: ks, s, hb, hs, h => by
    obtain ⟨⟨o, ho, hof⟩, hi⟩ := h k (by simp)
    rw [← hof] at hi
    have hone := walkFeature_again hE hb hs ho hi
    rw [hof] at hone
    rw [List.forall_mem_cons, ← hone, List.foldlM_cons]
    cases hr : walkFeature E s k with
    | error e =>
      constructor
      · rintro ⟨s', h⟩; cases h
      · rintro ⟨⟨s', h⟩, _⟩; cases h
    | ok s1 =>
      have hidle := walkFeature_blank hb hr
      have hf := hs o (List.mem_of_getElem? ho)
      have hg := walkFeature_grows (P := FeatOk E.d) (f := o.f) (fun o' ho' => by
          cases (ho.symm.trans ho' : some _ = some _); rfl)
        (fun _ fs hfs g hgm => by
          rcases generateSynthetic_spec hE hf with ⟨_, h2⟩ | ⟨_, fs', h2, _, h4⟩
          · rw [h2] at hfs; cases hfs
          · rw [h2] at hfs; cases hfs; exact (h4 g hgm).ok hf)
        (fun hk => by
          by_contra he
          have := hf.inner (by simpa using he)
          rw [hk] at this; cases this) hr
      have rest := walkFeatures_again hE F ks s1 (by rw [hidle.w]; exact hb) (hg.2 hs) fun j hj => by
        obtain ⟨⟨o1, h1, h2⟩, h3⟩ := h j (by simp [hj])
        obtain ⟨o2, h4, h5⟩ := hidle.objs j o1 h1
        exact ⟨⟨o2, h4, h5.trans h2⟩, h3⟩
      rw [← rest]
      constructor
      · exact fun h => ⟨⟨s1, rfl⟩, h⟩
      · exact fun h => h.2

end PyProm
