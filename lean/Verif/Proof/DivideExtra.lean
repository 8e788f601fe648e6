import Verif.Proof.DivideOrder

/-
A search of the divide tree adds the same notes whatever notes there are already.
-/
namespace PyProm

/-- A relation between states of two searches for `M` that is kept by what a search does. -/
structure ChaseRel (N : FNet) (M : Nat) (R : ChaseSt → ChaseSt → Prop) : Prop where
  exempt : ∀ c u, R c u → u.exempt = c.exempt
  report : ∀ c u p k e, R c u → R (c.report p k e) (u.report p k e)
  mark : ∀ c u k, R c u → R (c.mark N M k) (u.mark N M k)
  next : ∀ c u i, R c u → R { c with exempt := c.exempt ++ [i] } { u with exempt := u.exempt ++ [i] }
  bust : ∀ c u, R c u → R { c with busted := addNew (fun a b => N.eq (.summit a) (.summit b)) M c.busted }
    { u with busted := addNew (fun a b => N.eq (.summit a) (.summit b)) M u.busted }

section
variable {N : FNet} {f : Flags} {M : Nat} {R : ChaseSt → ChaseSt → Prop}

theorem foldl_keeps {g : ChaseSt → Nat → ChaseSt} (h : ∀ i c u, R c u → R (g c i) (g u i)) : ∀ (l : List Nat) (c u : ChaseSt), R c u →
    R (l.foldl g c) (l.foldl g u)
  | [], _, _, e => e
  | i :: l, c, u, e => foldl_keeps h l _ _ (h i c u e)

theorem ChaseRel.chase (h : ChaseRel N M R) : ∀ (left D : Nat) (p : List Nat) (c u : ChaseSt), R c u →
    R (chase N f M left D p c) (chase N f M left D p u)
  | 0, _, _, c, u, e => h.bust c u e
  | left + 1, D, p, c, u, e => by
    refine foldl_keeps (fun i c u e => ?_) _ c u e
    unfold chaseLinker
    rw [h.exempt c u e]
    split
    · exact e
    split
    · exact e
    dsimp only
    have e' := h.next c u i e
    rw [h.exempt c u e] at e'
    split
    · exact e'
    split
    · exact h.report _ _ _ _ _ e'
    refine foldl_keeps (fun j c u e => ?_) _ _ _ e'
    unfold chaseNext
    rw [h.exempt c u e]
    split
    · exact e
    dsimp only
    split
    · exact h.report _ _ _ _ _ e
    split
    · exact ChaseRel.chase h left _ _ c u e
    split
    · exact h.mark _ _ _ (h.report _ _ _ _ _ e)
    · exact e

/-- The second search has some notes more. -/
structure MoreNotes (S : Nat → Prop) (K : Nat → Nat → Prop) (c u : ChaseSt) : Prop where
  exempt : u.exempt = c.exempt
  sum : ∀ x, x ∈ u.sumBnd ↔ S x ∨ x ∈ c.sumBnd
  sad : ∀ k x, x ∈ u.sadBnd k ↔ K k x ∨ x ∈ c.sadBnd k

theorem MoreNotes.rel (hM : ∀ y, N.eq (.summit y) (.summit M) = true → y = M)
    (hk : ∀ a b, N.eq (.saddle a) (.saddle b) = true → a = b) (S : Nat → Prop) (K : Nat → Nat → Prop) :
    ChaseRel N M (MoreNotes S K) := by
  refine ⟨fun c u e => e.exempt, fun c u p k b e => ⟨e.exempt, e.sum, e.sad⟩, fun c u k e => ⟨e.exempt, fun x => ?_, fun k' x => ?_⟩,
    fun c u i e => ⟨by simp [e.exempt], e.sum, e.sad⟩, fun c u e => ⟨e.exempt, e.sum, e.sad⟩⟩
  · simp only [ChaseSt.mark]
    rw [mem_addNew_apart (fun y => hk y k), mem_addNew_apart (fun y => hk y k), e.sum x, or_assoc]
  · simp only [ChaseSt.mark]
    split
    · rename_i e'
      rw [mem_addNew_apart hM, mem_addNew_apart hM, e.sad k x, e', or_assoc]
    · exact e.sad k' x

/-- The second tree has what the first has and what is in the third. -/
structure TreeSum (s t u : TreeSt) : Prop where
  sum : ∀ D k, k ∈ u.sumBnd D ↔ k ∈ s.sumBnd D ∨ k ∈ t.sumBnd D
  sad : ∀ k D, D ∈ u.sadBnd k ↔ D ∈ s.sadBnd k ∨ D ∈ t.sadBnd k

theorem region_sum (hD : ∀ a b, N.eq (.summit a) (.summit b) = true → a = b)
    (hk : ∀ a b, N.eq (.saddle a) (.saddle b) = true → a = b) {s t u : TreeSt} (h : TreeSum s t u) (D : Nat) :
    TreeSum s (localProminentRegion N f t D) (localProminentRegion N f u D) := by
  have := (MoreNotes.rel (fun y => hD y D) hk (· ∈ s.sumBnd D) (fun k x => x ∈ s.sadBnd k)).chase (f := f) 400 D []
    ⟨[], [], false, t.sumBnd D, t.sadBnd, t.busted⟩ ⟨[], [], false, u.sumBnd D, u.sadBnd, u.busted⟩
    ⟨rfl, fun x => h.sum D x, fun k x => h.sad k x⟩
  refine ⟨fun D' k => ?_, this.sad⟩
  simp only [localProminentRegion]
  split
  · rename_i e
    rw [e]
    exact this.sum k
  · exact h.sum D' k

theorem regions_sum (hD : ∀ a b, N.eq (.summit a) (.summit b) = true → a = b)
    (hk : ∀ a b, N.eq (.saddle a) (.saddle b) = true → a = b) {s : TreeSt} : ∀ (sums : List Nat) (t u : TreeSt), TreeSum s t u →
    TreeSum s (sums.foldl (localProminentRegion N f) t) (sums.foldl (localProminentRegion N f) u)
  | [], _, _, h => h
  | D :: sums, _, _, h => regions_sum hD hk sums _ _ (region_sum hD hk h D)

end

end PyProm
