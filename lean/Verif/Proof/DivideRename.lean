import Verif.Model.DivideTree
import Verif.Proof.BasinRename
import Verif.Proof.BasinThin
import Mathlib.Data.List.Forall2

/-
The divide tree step by step on two networks that differ in the names of the saddles only.
-/
namespace PyProm
open Spec

/-- Two states of the chase that differ in the names of saddles: saddles at which paths end are related by `R`. -/
structure ChaseAs (R : Nat → Nat → Prop) (good : Nat → Prop) (φ : Nat → Nat) (c c' : ChaseSt) : Prop where
  exempt : c'.exempt = c.exempt
  paths : List.Forall₂ (fun p' p : LprPath => p'.path = p.path ∧ R p'.saddle p.saddle) c'.paths c.paths
  edge : c'.edge = c.edge
  sumBnd : c'.sumBnd.map φ = c.sumBnd
  sumGood : ∀ P ∈ c'.sumBnd, good P
  sadBnd : ∀ P, good P → c'.sadBnd P = c.sadBnd (φ P)
  busted : c'.busted = c.busted

/-- What the divide tree asks of linkers: the ends of linkers that summits list are related, and flags agree. -/
structure LinksAs (N N' : FNet) (R : Nat → Nat → Prop) (f f' : Flags) : Prop where
  ends : ∀ D, ∀ i ∈ N.sumLinks D, R (N'.link i).2 (N.link i).2 ∧ f'.saddleDisq (N'.link i).2 = f.saddleDisq (N.link i).2
  sum : ∀ D, ∀ i ∈ N.sumLinks D, f'.linkDisq i = f.linkDisq i
  sad : ∀ k, ∀ i ∈ N.sadLinks k, f'.linkDisq i = f.linkDisq i

theorem foldl_rename {α β γ : Type} {R : α → β → Prop} {g : α → γ → α} {g' : β → γ → β} :
    ∀ (l : List γ), (∀ i ∈ l, ∀ a b, R a b → R (g a i) (g' b i)) → ∀ a b, R a b → R (l.foldl g a) (l.foldl g' b)
  | [], _, _, _, h => h
  | i :: l, hs, a, b, h => foldl_rename l (fun j hj => hs j (by simp [hj])) _ _ (hs i (by simp) a b h)

theorem addNew_map {eq eq' : Nat → Nat → Bool} {good : Nat → Prop} {φ : Nat → Nat} {x : Nat} {l : List Nat}
    (hi : ∀ P Q, good P → good Q → φ P = φ Q → P = Q) (he : ∀ a b, good a → good b → eq' a b = eq (φ a) (φ b)) (hx : good x)
    (hl : ∀ y ∈ l, good y) : (addNew eq' x l).map φ = addNew eq (φ x) (l.map φ) ∧ ∀ y ∈ addNew eq' x l, good y := by
  have hany : (l.any fun y => decide (y = x) || eq' y x) = (l.map φ).any fun y => decide (y = φ x) || eq y (φ x) := by
    induction l with
    | nil => rfl
    | cons y l ih =>
      simp only [List.any_cons, List.map_cons]
      rw [ih fun z hz => hl z (by simp [hz]), he y x (hl y (by simp)) hx]
      congr 2
      exact decide_eq_decide.2 ⟨fun h => h ▸ rfl, fun h => hi y x (hl y (by simp)) hx h⟩
  unfold addNew
  rw [hany]
  split
  · exact ⟨rfl, hl⟩
  · refine ⟨by simp, fun y hy => ?_⟩
    rcases List.mem_append.1 hy with h | h
    · exact hl y h
    · rw [List.mem_singleton.1 h]
      exact hx

section
variable {N N' : FNet} {R : Nat → Nat → Prop} {good : Nat → Prop} {φ : Nat → Nat} {f f' : Flags}

theorem rename_summit_eq (h : Renames N N' good φ) :
    (fun a b => N'.eq (.summit a) (.summit b)) = fun a b => N.eq (.summit a) (.summit b) :=
  funext fun a => funext fun b => h.eq (.summit a) (.summit b) trivial trivial

theorem ChaseAs.report {c c' : ChaseSt} (h : ChaseAs R good φ c c') (path : List Nat) {Q k : Nat} (hR : R Q k) (e : Bool) :
    ChaseAs R good φ (c.report path k e) (c'.report path Q e) where
  exempt := h.exempt
  paths := List.rel_append h.paths (.cons ⟨rfl, hR⟩ .nil)
  edge := by simp [ChaseSt.report, h.edge]
  sumBnd := h.sumBnd
  sumGood := h.sumGood
  sadBnd := h.sadBnd
  busted := h.busted

theorem ChaseAs.mark (hr : Renames N N' good φ) {c c' : ChaseSt} (h : ChaseAs R good φ c c') (master : Nat) {Q : Nat} (hQ : good Q) :
    ChaseAs R good φ (c.mark N master (φ Q)) (c'.mark N' master Q) where
  exempt := h.exempt
  paths := h.paths
  edge := h.edge
  sumBnd := by
    have := (addNew_map (eq := fun a b => N.eq (.saddle a) (.saddle b)) (eq' := fun a b => N'.eq (.saddle a) (.saddle b)) hr.inj
      (fun a b ha hb => hr.eq (.saddle a) (.saddle b) ha hb) hQ h.sumGood).1
    rw [h.sumBnd] at this
    exact this
  sumGood := (addNew_map (eq := fun a b => N.eq (.saddle a) (.saddle b)) (eq' := fun a b => N'.eq (.saddle a) (.saddle b)) hr.inj
      (fun a b ha hb => hr.eq (.saddle a) (.saddle b) ha hb) hQ h.sumGood).2
  sadBnd := fun P hP => by
    simp only [ChaseSt.mark]
    rw [rename_summit_eq hr, h.sadBnd Q hQ, h.sadBnd P hP]
    by_cases e : P = Q
    · simp [e]
    · rw [if_neg e, if_neg fun h => e (hr.inj P Q hP hQ h)]
  busted := h.busted

theorem ChaseAs.next (hr : Renames N N' good φ) {go go' : Nat → List Nat → ChaseSt → ChaseSt} {master branch i : Nat} {path : List Nat}
    (hgo : ∀ D p c c', ChaseAs R good φ c c' → ChaseAs R good φ (go D p c) (go' D p c')) (hf : f'.linkDisq i = f.linkDisq i)
    (hRi : R (N'.link i).2 (N.link i).2) (hg : good (N'.link i).2) (hi : φ (N'.link i).2 = (N.link i).2) {j : Nat}
    (hj : (N'.link j).1 = (N.link j).1) {c c' : ChaseSt} (h : ChaseAs R good φ c c') :
    ChaseAs R good φ (chaseNext N f go master branch i path c j) (chaseNext N' f' go' master branch i path c' j) := by
  have el : ∀ D, N'.elev (.summit D) = N.elev (.summit D) := fun D => hr.elev (.summit D) trivial
  have ed : ∀ D, N'.edge (.summit D) = N.edge (.summit D) := fun D => hr.edge (.summit D) trivial
  unfold chaseNext
  simp only [h.exempt, hf, hj, el, ed]
  split
  · exact h
  · split
    · exact h.report _ hRi _
    · split
      · exact hgo _ _ _ _ h
      · split
        · have := (h.report (path ++ [i]) hRi false).mark hr master hg
          rw [hi] at this
          exact this
        · exact h

theorem ChaseAs.linker (hr : Renames N N' good φ) (hl : LinksAs N N' R f f') {go go' : Nat → List Nat → ChaseSt → ChaseSt}
    {master branch : Nat} {path : List Nat}
    (hgo : ∀ D p c c', ChaseAs R good φ c c' → ChaseAs R good φ (go D p c) (go' D p c')) {i : Nat} (hi : i ∈ N.sumLinks branch)
    {c c' : ChaseSt} (h : ChaseAs R good φ c c') :
    ChaseAs R good φ (chaseLinker N f go master branch path c i) (chaseLinker N' f' go' master branch path c' i) := by
  have hd := hl.sum _ i hi
  obtain ⟨hRi, hs⟩ := hl.ends _ i hi
  have hadd : ChaseAs R good φ { c with exempt := c.exempt ++ [i] } { c' with exempt := c'.exempt ++ [i] } :=
    ⟨by simp [h.exempt], h.paths, h.edge, h.sumBnd, h.sumGood, h.sadBnd, h.busted⟩
  unfold chaseLinker
  simp only [hd, hs]
  rw [h.exempt]
  rw [h.exempt] at hadd
  split
  · exact h
  · split
    · exact h
    · split
      · exact hadd
      · rcases hr.toSaddle branch i (by rw [hr.sumLinks]; exact hi) with ⟨hg, hk⟩ | ⟨_, e1, e2, _⟩
        · have he := hr.edge (.saddle (N'.link i).2) hg
          rw [show renameNode φ (.saddle (N'.link i).2) = .saddle (N.link i).2 from congrArg Node.saddle hk] at he
          rw [he]
          split
          · exact hadd.report _ hRi _
          · have hv : N'.linkersViaSaddle f' true true i = N.linkersViaSaddle f true true i := by
              unfold FNet.linkersViaSaddle
              rw [hr.sadLinks _ hg, hk]
              refine List.filter_congr fun j hj => ?_
              simp only [linkerOk, hl.sad _ j hj]
            rw [hv]
            refine foldl_rename _ (fun j hj a b hab => hab.next hr hgo hd hRi hg hk (hr.toSummit _ hg j ?_)) _ _ hadd
            rw [hr.sadLinks _ hg, hk]
            exact (List.mem_filter.1 hj).1
        · rw [if_pos e1, if_pos e2]
          exact hadd.report _ hRi _

theorem chase_rename (hr : Renames N N' good φ) (hl : LinksAs N N' R f f') (master : Nat) : ∀ (left D : Nat) (p : List Nat)
    (c c' : ChaseSt), ChaseAs R good φ c c' → ChaseAs R good φ (chase N f master left D p c) (chase N' f' master left D p c')
  | 0, D, p, c, c', h => by
    refine ⟨h.exempt, h.paths, h.edge, h.sumBnd, h.sumGood, h.sadBnd, ?_⟩
    simp only [chase]
    rw [rename_summit_eq hr, h.busted]
  | left + 1, D, p, c, c', h => by
    simp only [chase]
    rw [hr.sumLinks]
    exact foldl_rename _ (fun i hi a b hab => hab.linker hr hl (chase_rename hr hl master left) hi) _ _ h

/-- Two divide trees that differ in the names of saddles. -/
structure TreeAs (R : Nat → Nat → Prop) (good : Nat → Prop) (φ : Nat → Nat) (t t' : TreeSt) : Prop where
  sumBnd : ∀ D, (t'.sumBnd D).map φ = t.sumBnd D
  sumGood : ∀ D, ∀ P ∈ t'.sumBnd D, good P
  sadBnd : ∀ P, good P → t'.sadBnd P = t.sadBnd (φ P)
  paths : ∀ D, (t'.lprPaths D = none ∧ t.lprPaths D = none) ∨ ∃ ps' ps e, t'.lprPaths D = some (ps', e) ∧
    t.lprPaths D = some (ps, e) ∧ List.Forall₂ (fun p' p : LprPath => p'.path = p.path ∧ R p'.saddle p.saddle) ps' ps
  busted : t'.busted = t.busted

theorem region_rename (hr : Renames N N' good φ) (hl : LinksAs N N' R f f') {t t' : TreeSt} (h : TreeAs R good φ t t') (D : Nat) :
    TreeAs R good φ (localProminentRegion N f t D) (localProminentRegion N' f' t' D) := by
  have hc := chase_rename hr hl D 400 D [] ⟨[], [], false, t.sumBnd D, t.sadBnd, t.busted⟩
    ⟨[], [], false, t'.sumBnd D, t'.sadBnd, t'.busted⟩ ⟨rfl, .nil, rfl, h.sumBnd D, h.sumGood D, h.sadBnd, h.busted⟩
  refine ⟨fun D' => ?_, fun D' => ?_, hc.sadBnd, fun D' => ?_, hc.busted⟩ <;> simp only [localProminentRegion]
  · split
    · exact hc.sumBnd
    · exact h.sumBnd D'
  · split
    · exact hc.sumGood
    · exact h.sumGood D'
  · split
    · exact .inr ⟨_, _, _, rfl, by rw [hc.edge], hc.paths⟩
    · exact h.paths D'

theorem divide_rename (hr : Renames N N' good φ) (hl : LinksAs N N' R f f') {t t' : TreeSt} (h : TreeAs R good φ t t') {sums : List Nat}
    (hs : sums ≠ []) :
    ∃ u u', divideRun N f sums t = .ok u ∧ divideRun N' f' sums t' = .ok u' ∧ TreeAs R good φ u u' := by
  cases sums with
  | nil => exact absurd rfl hs
  | cons D sums =>
    exact ⟨_, _, rfl, rfl, foldl_rename (R := TreeAs R good φ) (D :: sums) (fun i _ a b hab => region_rename hr hl hab i) _ _ h⟩

end

/-- Linkers that are disqualified need not be listed. -/
theorem foldl_skip {α γ : Type} {g : α → γ → α} {b : γ → Bool} : ∀ (l : List γ), (∀ i ∈ l, b i = false → ∀ a, g a i = a) →
    ∀ a, (l.filter b).foldl g a = l.foldl g a
  | [], _, _ => rfl
  | i :: l, h, a => by
    cases hb : b i with
    | true =>
      rw [List.filter_cons_of_pos hb]
      exact foldl_skip l (fun j hj => h j (by simp [hj])) _
    | false =>
      rw [List.filter_cons_of_neg (by simp [hb]), List.foldl_cons, h i (by simp) hb a]
      exact foldl_skip l (fun j hj => h j (by simp [hj])) _

section
variable {N : FNet} {b : Nat → Bool} {f : Flags}

theorem viaSaddle_thin (h : ∀ k, ∀ i ∈ N.sadLinks k, b i = false → f.linkDisq i = true) (i : Nat) :
    (N.thin b).linkersViaSaddle f true true i = N.linkersViaSaddle f true true i := by
  unfold FNet.linkersViaSaddle FNet.thin
  rw [List.filter_filter]
  refine List.filter_congr fun j hj => ?_
  cases hb : b j with
  | true => simp
  | false => simp [linkerOk, h _ j hj hb]

theorem chase_thin (hs : ∀ D, ∀ i ∈ N.sumLinks D, b i = false → f.linkDisq i = true)
    (h : ∀ k, ∀ i ∈ N.sadLinks k, b i = false → f.linkDisq i = true) (master : Nat) : ∀ (left D : Nat) (p : List Nat) (c : ChaseSt),
    chase (N.thin b) f master left D p c = chase N f master left D p c
  | 0, _, _, _ => rfl
  | left + 1, D, p, c => by
    have hl : chaseLinker (N.thin b) f (chase (N.thin b) f master left) master D p =
        chaseLinker N f (chase N f master left) master D p := by
      funext c i
      unfold chaseLinker
      rw [viaSaddle_thin h]
      rw [show chase (N.thin b) f master left = chase N f master left from
        funext fun D => funext fun p => funext fun c => chase_thin hs h master left D p c]
      rfl
    simp only [chase]
    rw [hl]
    refine foldl_skip _ (fun i hi hb a => ?_) c
    unfold chaseLinker
    rw [if_pos (hs D i hi hb)]

theorem divide_thin (hs : ∀ D, ∀ i ∈ N.sumLinks D, b i = false → f.linkDisq i = true)
    (h : ∀ k, ∀ i ∈ N.sadLinks k, b i = false → f.linkDisq i = true) (sums : List Nat) (t : TreeSt) :
    divideRun (N.thin b) f sums t = divideRun N f sums t := by
  have : localProminentRegion (N.thin b) f = localProminentRegion N f := by
    funext t D
    unfold localProminentRegion
    rw [chase_thin hs h]
  unfold divideRun
  rw [this]
  rfl

end

end PyProm
