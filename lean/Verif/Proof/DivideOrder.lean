import Verif.Proof.DivideAgain

/-
What a search of the divide tree notes for one summit does not depend on the searches for others.
-/
namespace PyProm

/-- The two searches for `master` are at the same point, and `master` is noted at the same saddles. -/
structure SameView (master : Nat) (c u : ChaseSt) : Prop where
  point : SamePoint c u
  sum : u.sumBnd = c.sumBnd
  sad : ∀ k, master ∈ u.sadBnd k ↔ master ∈ c.sadBnd k

/-- A step of the search for `master` that notes only `master` at saddles and reads no other notes. -/
structure Steady (master : Nat) (g : ChaseSt → ChaseSt) : Prop where
  view : ∀ c u, SameView master c u → SameView master (g c) (g u)
  others : ∀ c k x, x ≠ master → (x ∈ (g c).sadBnd k ↔ x ∈ c.sadBnd k)

section
variable {M : Nat}

theorem Steady.id : Steady M fun c => c := ⟨fun _ _ h => h, fun _ _ _ _ => Iff.rfl⟩

theorem Steady.comp {g g' : ChaseSt → ChaseSt} (h : Steady M g) (h' : Steady M g') : Steady M fun c => g' (g c) :=
  ⟨fun _ _ e => h'.view _ _ (h.view _ _ e), fun c k x hx => (h'.others _ k x hx).trans (h.others c k x hx)⟩

theorem Steady.foldl {g : ChaseSt → Nat → ChaseSt} : ∀ l : List Nat, (∀ i, Steady M fun c => g c i) → Steady M fun c => l.foldl g c
  | [], _ => Steady.id
  | i :: l, h => (h i).comp (Steady.foldl l h)

theorem Steady.ite {g g' : ChaseSt → ChaseSt} (p : List Nat → Bool) (h : Steady M g) (h' : Steady M g') :
    Steady M fun c => if p c.exempt = true then g c else g' c := by
  refine ⟨fun c u e => ?_, fun c k x hx => ?_⟩
  · rw [e.point.exempt]
    split
    · exact h.view c u e
    · exact h'.view c u e
  · split
    · exact h.others c k x hx
    · exact h'.others c k x hx

theorem Steady.report (path : List Nat) (k : Nat) (e : Bool) : Steady M fun c => c.report path k e :=
  ⟨fun c u h => ⟨(NoteBlind.report path k e).same c u h.point, h.sum, h.sad⟩, fun _ _ _ _ => Iff.rfl⟩

theorem mem_addNew_apart {eq : Nat → Nat → Bool} {x : Nat} (heq : ∀ y, eq y x = true → y = x) {l : List Nat} {y : Nat} :
    y ∈ addNew eq x l ↔ y ∈ l ∨ y = x := by
  unfold addNew
  split
  · rename_i h
    refine ⟨.inl, fun h' => h'.elim _root_.id fun e => ?_⟩
    obtain ⟨z, h1, h2⟩ := List.any_eq_true.1 h
    rcases Bool.or_eq_true_iff.1 h2 with h2 | h2
    · rw [e, ← of_decide_eq_true h2]
      exact h1
    · rw [e, ← heq z h2]
      exact h1
  · simp

variable {N : FNet} {f : Flags}

theorem Steady.mark (hM : ∀ y, N.eq (.summit y) (.summit M) = true → y = M) (k : Nat) : Steady M fun c => c.mark N M k := by
  refine ⟨fun c u h => ⟨(NoteBlind.mark N M k).same c u h.point, ?_, fun k' => ?_⟩, fun c k' x hx => ?_⟩
  · simp only [ChaseSt.mark, h.sum]
  · simp only [ChaseSt.mark]
    split
    · rw [mem_addNew_apart hM, mem_addNew_apart hM]
      simp
    · exact h.sad k'
  · simp only [ChaseSt.mark]
    split
    · rename_i e
      rw [mem_addNew_apart hM, e]
      simp [hx]
    · rfl

theorem Steady.next (hM : ∀ y, N.eq (.summit y) (.summit M) = true → y = M) {go : Nat → List Nat → ChaseSt → ChaseSt}
    (hg : ∀ D p, Steady M (go D p)) (branch i : Nat) (path : List Nat) (j : Nat) :
    Steady M fun c => chaseNext N f go M branch i path c j := by
  unfold chaseNext
  refine Steady.ite (fun l => decide (j ∈ l) || f.linkDisq i) Steady.id ?_
  dsimp only
  split
  · exact Steady.report _ _ _
  · split
    · exact hg _ _
    · split
      · exact (Steady.report _ _ _).comp (Steady.mark hM _)
      · exact Steady.id

theorem Steady.linker (hM : ∀ y, N.eq (.summit y) (.summit M) = true → y = M) {go : Nat → List Nat → ChaseSt → ChaseSt}
    (hg : ∀ D p, Steady M (go D p)) (branch : Nat) (path : List Nat) (i : Nat) :
    Steady M fun c => chaseLinker N f go M branch path c i := by
  unfold chaseLinker
  split
  · exact Steady.id
  · have hb : Steady M fun s : ChaseSt => if f.saddleDisq (N.link i).2 = true then s
        else if N.edge (.saddle (N.link i).2) = true then s.report (path ++ [i]) (N.link i).2 true
        else (N.linkersViaSaddle f true true i).foldl (chaseNext N f go M branch i path) s := by
      split
      · exact Steady.id
      · split
        · exact Steady.report _ _ _
        · exact Steady.foldl _ fun j => Steady.next hM hg branch i path j
    have he : Steady M fun c : ChaseSt => { c with exempt := c.exempt ++ [i] } :=
      ⟨fun c u h => ⟨(NoteBlind.exempt i).same c u h.point, h.sum, h.sad⟩, fun _ _ _ _ => Iff.rfl⟩
    have := Steady.ite (fun l => decide (i ∈ l)) Steady.id (he.comp hb)
    simpa using this

theorem Steady.chase (hM : ∀ y, N.eq (.summit y) (.summit M) = true → y = M) :
    ∀ (left D : Nat) (p : List Nat), Steady M (chase N f M left D p)
  | 0, _, _ => ⟨fun c u h => ⟨(NoteBlind.bust _ M).same c u h.point, h.sum, h.sad⟩, fun _ _ _ _ => Iff.rfl⟩
  | left + 1, D, p => Steady.foldl (N.sumLinks D) fun i => Steady.linker hM (Steady.chase hM left) D p i

/-- What two trees say of summit `M`. -/
structure TreeView (M : Nat) (t u : TreeSt) : Prop where
  paths : u.lprPaths M = t.lprPaths M
  sum : u.sumBnd M = t.sumBnd M
  sad : ∀ k, M ∈ u.sadBnd k ↔ M ∈ t.sadBnd k

theorem TreeView.trans {a b c : TreeSt} (h : TreeView M a b) (h' : TreeView M b c) : TreeView M a c :=
  ⟨h'.paths.trans h.paths, h'.sum.trans h.sum, fun k => (h'.sad k).trans (h.sad k)⟩

theorem TreeView.symm {a b : TreeSt} (h : TreeView M a b) : TreeView M b a :=
  ⟨h.paths.symm, h.sum.symm, fun k => (h.sad k).symm⟩

theorem region_view (hM : ∀ y, N.eq (.summit y) (.summit M) = true → y = M) {t u : TreeSt} (hs : u.sumBnd M = t.sumBnd M)
    (hk : ∀ k, M ∈ u.sadBnd k ↔ M ∈ t.sadBnd k) :
    TreeView M (localProminentRegion N f t M) (localProminentRegion N f u M) := by
  have h := (Steady.chase (N := N) (f := f) hM 400 M []).view ⟨[], [], false, t.sumBnd M, t.sadBnd, t.busted⟩
    ⟨[], [], false, u.sumBnd M, u.sadBnd, u.busted⟩ ⟨⟨rfl, rfl, rfl⟩, hs, hk⟩
  refine ⟨by simp only [region_paths, if_true], ?_, h.sad⟩
  simp only [localProminentRegion, if_true]
  exact h.sum

theorem region_other {D : Nat} (hD : ∀ y, N.eq (.summit y) (.summit D) = true → y = D) (h : M ≠ D) (t : TreeSt) :
    TreeView M t (localProminentRegion N f t D) := by
  refine ⟨by simp only [region_paths, if_neg h], by simp [localProminentRegion, h], fun k => ?_⟩
  exact (Steady.chase hD 400 D []).others _ k M h

theorem regions_other (hN : ∀ a b, N.eq (.summit a) (.summit b) = true → a = b) : ∀ (sums : List Nat) (t : TreeSt), M ∉ sums →
    TreeView M t (sums.foldl (localProminentRegion N f) t)
  | [], _, _ => ⟨rfl, rfl, fun _ => Iff.rfl⟩
  | D :: sums, t, h => by
    simp only [List.mem_cons, not_or] at h
    exact (region_other (fun y => hN y D) h.1 t).trans (regions_other hN sums _ h.2)

theorem regions_view (hN : ∀ a b, N.eq (.summit a) (.summit b) = true → a = b) : ∀ (sums : List Nat) (t : TreeSt), M ∈ sums →
    TreeView M (localProminentRegion N f t M) (sums.foldl (localProminentRegion N f) t)
  | D :: sums, t, h => by
    rw [List.foldl_cons]
    by_cases e : D = M
    · obtain rfl := e.symm
      by_cases hm : M ∈ sums
      · have h1 := regions_view hN sums (localProminentRegion N f t M) hm
        rw [region_again (TreeIn.refl _) (by simp [region_paths])] at h1
        exact h1
      · exact regions_other hN sums _ hm
    · have hm : M ∈ sums := by
        simp only [List.mem_cons] at h
        exact h.resolve_left fun h' => e h'.symm
      have ho := region_other (N := N) (f := f) (fun y => hN y D) (fun h' => e h'.symm) t
      exact (region_view (fun y => hN y M) ho.sum ho.sad).trans (regions_view hN sums _ hm)

end

end PyProm
