import Verif.Model.DivideTree

/-
What a search of the divide tree does depends on the network only; what it notes on the features stays as it is if it is there already.
-/
namespace PyProm

/-- The list has the element or an equal one. -/
def hasLike (eq : Nat → Nat → Bool) (l : List Nat) (x : Nat) : Bool := l.any fun y => decide (y = x) || eq y x

theorem hasLike_self {eq : Nat → Nat → Bool} {l : List Nat} {x : Nat} (h : x ∈ l) : hasLike eq l x = true :=
  List.any_eq_true.2 ⟨x, h, by simp⟩

theorem addNew_has {eq : Nat → Nat → Bool} {l : List Nat} {x : Nat} (h : hasLike eq l x = true) : addNew eq x l = l := if_pos h

theorem addNew_sub {eq : Nat → Nat → Bool} {l : List Nat} {x y : Nat} (h : y ∈ l) : y ∈ addNew eq x l := by
  unfold addNew
  split
  · exact h
  · exact List.mem_append_left _ h

theorem hasLike_addNew {eq : Nat → Nat → Bool} {l : List Nat} {x : Nat} : hasLike eq (addNew eq x l) x = true := by
  cases h : hasLike eq l x with
  | true => rw [addNew_has h, h]
  | false => exact hasLike_self (by rw [addNew, if_neg (by rw [show List.any l _ = false from h]; simp)]; simp)

theorem hasLike_mono {eq : Nat → Nat → Bool} {l l' : List Nat} (h : ∀ x ∈ l, x ∈ l') {x : Nat} (hx : hasLike eq l x = true) :
    hasLike eq l' x = true := by
  obtain ⟨y, h1, h2⟩ := List.any_eq_true.1 hx
  exact List.any_eq_true.2 ⟨y, h y h1, h2⟩

/-- Everything noted in the first is noted in the second. -/
structure NotedIn (c u : ChaseSt) : Prop where
  sum : ∀ x ∈ c.sumBnd, x ∈ u.sumBnd
  sad : ∀ k, ∀ x ∈ c.sadBnd k, x ∈ u.sadBnd k
  bust : ∀ x ∈ c.busted, x ∈ u.busted

theorem NotedIn.trans {a b c : ChaseSt} (h : NotedIn a b) (h' : NotedIn b c) : NotedIn a c :=
  ⟨fun x hx => h'.sum x (h.sum x hx), fun k x hx => h'.sad k x (h.sad k x hx), fun x hx => h'.bust x (h.bust x hx)⟩

/-- The two searches are at the same point. -/
structure SamePoint (c u : ChaseSt) : Prop where
  exempt : u.exempt = c.exempt
  paths : u.paths = c.paths
  edge : u.edge = c.edge

/-- The notes are unchanged. -/
structure SameNotes (c u : ChaseSt) : Prop where
  sum : u.sumBnd = c.sumBnd
  sad : u.sadBnd = c.sadBnd
  bust : u.busted = c.busted

/-- A step of the search that does not read notes, and writes none that are there already. -/
structure NoteBlind (g : ChaseSt → ChaseSt) : Prop where
  grows : ∀ c, NotedIn c (g c)
  same : ∀ c u, SamePoint c u → SamePoint (g c) (g u)
  kept : ∀ c u, SamePoint c u → NotedIn (g c) u → SameNotes u (g u)

theorem NoteBlind.id : NoteBlind fun c => c :=
  ⟨fun _ => ⟨fun _ h => h, fun _ _ h => h, fun _ h => h⟩, fun _ _ h => h, fun _ _ _ _ => ⟨rfl, rfl, rfl⟩⟩

theorem NoteBlind.comp {g g' : ChaseSt → ChaseSt} (h : NoteBlind g) (h' : NoteBlind g') : NoteBlind fun c => g' (g c) := by
  refine ⟨fun c => (h.grows c).trans (h'.grows _), fun c u e => h'.same _ _ (h.same _ _ e), fun c u e hn => ?_⟩
  obtain ⟨a1, a2, a3⟩ := h.kept c u e ((h'.grows _).trans hn)
  obtain ⟨b1, b2, b3⟩ := h'.kept (g c) (g u) (h.same _ _ e)
    ⟨fun x hx => a1 ▸ hn.sum x hx, fun k x hx => a2 ▸ hn.sad k x hx, fun x hx => a3 ▸ hn.bust x hx⟩
  exact ⟨b1.trans a1, b2.trans a2, b3.trans a3⟩

theorem NoteBlind.foldl {g : ChaseSt → Nat → ChaseSt} : ∀ l : List Nat, (∀ i, NoteBlind fun c => g c i) → NoteBlind fun c => l.foldl g c
  | [], _ => NoteBlind.id
  | i :: l, h => (h i).comp (NoteBlind.foldl l h)

theorem NoteBlind.ite {g g' : ChaseSt → ChaseSt} (p : List Nat → Bool) (h : NoteBlind g) (h' : NoteBlind g') :
    NoteBlind fun c => if p c.exempt = true then g c else g' c := by
  refine ⟨fun c => ?_, fun c u e => ?_, fun c u e hn => ?_⟩
  · split
    · exact h.grows c
    · exact h'.grows c
  · rw [e.exempt]
    split
    · exact h.same c u e
    · exact h'.same c u e
  · rw [e.exempt]
    split at hn
    · rw [if_pos ‹_›]
      exact h.kept c u e hn
    · rw [if_neg ‹_›]
      exact h'.kept c u e hn

theorem NoteBlind.report (path : List Nat) (k : Nat) (e : Bool) : NoteBlind fun c => c.report path k e :=
  ⟨fun _ => ⟨fun _ h => h, fun _ _ h => h, fun _ h => h⟩,
    fun c u h => ⟨h.exempt, by simp [ChaseSt.report, h.paths], by simp [ChaseSt.report, h.edge]⟩, fun _ _ _ _ => ⟨rfl, rfl, rfl⟩⟩

theorem NoteBlind.mark (N : FNet) (master k : Nat) : NoteBlind fun c => c.mark N master k := by
  refine ⟨fun c => ⟨fun x hx => ?_, fun k' x hx => ?_, fun _ h => h⟩, fun _ _ h => ⟨h.exempt, h.paths, h.edge⟩,
    fun c u _ hn => ⟨?_, funext fun k' => ?_, rfl⟩⟩
  · simp only [ChaseSt.mark]
    exact addNew_sub hx
  · simp only [ChaseSt.mark]
    split
    · rename_i e
      exact addNew_sub (e ▸ hx)
    · exact hx
  · have := hn.sum
    simp only [ChaseSt.mark] at this ⊢
    exact addNew_has (hasLike_mono this hasLike_addNew)
  · simp only [ChaseSt.mark]
    split
    · rename_i e
      have := hn.sad k
      simp only [ChaseSt.mark, if_true] at this
      rw [e]
      exact addNew_has (hasLike_mono this hasLike_addNew)
    · rfl

theorem NoteBlind.exempt (i : Nat) : NoteBlind fun c => { c with exempt := c.exempt ++ [i] } :=
  ⟨fun _ => ⟨fun _ h => h, fun _ _ h => h, fun _ h => h⟩, fun c u h => ⟨by simp [h.exempt], h.paths, h.edge⟩,
    fun _ _ _ _ => ⟨rfl, rfl, rfl⟩⟩

theorem NoteBlind.bust (eq : Nat → Nat → Bool) (D : Nat) : NoteBlind fun c => { c with busted := addNew eq D c.busted } :=
  ⟨fun _ => ⟨fun _ h => h, fun _ _ h => h, fun _ h => addNew_sub h⟩, fun _ _ h => ⟨h.exempt, h.paths, h.edge⟩,
    fun _ _ _ hn => ⟨rfl, rfl, addNew_has (hasLike_mono hn.bust hasLike_addNew)⟩⟩

theorem NoteBlind.next {N : FNet} {f : Flags} {go : Nat → List Nat → ChaseSt → ChaseSt} (hg : ∀ D p, NoteBlind (go D p))
    (master branch i : Nat) (path : List Nat) (j : Nat) : NoteBlind fun c => chaseNext N f go master branch i path c j := by
  unfold chaseNext
  refine NoteBlind.ite (fun l => decide (j ∈ l) || f.linkDisq i) NoteBlind.id ?_
  dsimp only
  split
  · exact NoteBlind.report _ _ _
  · split
    · exact hg _ _
    · split
      · exact (NoteBlind.report _ _ _).comp (NoteBlind.mark _ _ _)
      · exact NoteBlind.id

theorem NoteBlind.linker {N : FNet} {f : Flags} {go : Nat → List Nat → ChaseSt → ChaseSt} (hg : ∀ D p, NoteBlind (go D p))
    (master branch : Nat) (path : List Nat) (i : Nat) : NoteBlind fun c => chaseLinker N f go master branch path c i := by
  unfold chaseLinker
  split
  · exact NoteBlind.id
  · have hb : NoteBlind fun s : ChaseSt => if f.saddleDisq (N.link i).2 = true then s
        else if N.edge (.saddle (N.link i).2) = true then s.report (path ++ [i]) (N.link i).2 true
        else (N.linkersViaSaddle f true true i).foldl (chaseNext N f go master branch i path) s := by
      split
      · exact NoteBlind.id
      · split
        · exact NoteBlind.report _ _ _
        · exact NoteBlind.foldl _ fun j => NoteBlind.next hg master branch i path j
    have := NoteBlind.ite (fun l => decide (i ∈ l)) NoteBlind.id ((NoteBlind.exempt i).comp hb)
    simpa using this

theorem NoteBlind.chase (N : FNet) (f : Flags) (master : Nat) : ∀ (left D : Nat) (p : List Nat), NoteBlind (chase N f master left D p)
  | 0, _, _ => NoteBlind.bust _ _
  | left + 1, D, p => NoteBlind.foldl (N.sumLinks D) fun i => NoteBlind.linker (NoteBlind.chase N f master left) master D p i

/-- The search for the region of `D`, with nothing noted so far. -/
def regionOf (N : FNet) (f : Flags) (D : Nat) : List LprPath × Bool :=
  let c := chase N f D 400 D [] ⟨[], [], false, [], fun _ => [], []⟩
  (c.paths, c.edge)

section
variable {N : FNet} {f : Flags}

theorem region_paths (t : TreeSt) (D : Nat) :
    (localProminentRegion N f t D).lprPaths = fun D' => if D' = D then some (regionOf N f D) else t.lprPaths D' := by
  have h := (NoteBlind.chase N f D 400 D []).same ⟨[], [], false, [], fun _ => [], []⟩
    ⟨[], [], false, t.sumBnd D, t.sadBnd, t.busted⟩ ⟨rfl, rfl, rfl⟩
  simp only [localProminentRegion, regionOf, h.paths, h.edge]

/-- What is noted on the features stays there. -/
structure TreeIn (t u : TreeSt) : Prop where
  sum : ∀ D, ∀ x ∈ t.sumBnd D, x ∈ u.sumBnd D
  sad : ∀ k, ∀ x ∈ t.sadBnd k, x ∈ u.sadBnd k
  bust : ∀ x ∈ t.busted, x ∈ u.busted

theorem TreeIn.refl (t : TreeSt) : TreeIn t t := ⟨fun _ _ h => h, fun _ _ h => h, fun _ h => h⟩

theorem TreeIn.trans {a b c : TreeSt} (h : TreeIn a b) (h' : TreeIn b c) : TreeIn a c :=
  ⟨fun D x hx => h'.sum D x (h.sum D x hx), fun k x hx => h'.sad k x (h.sad k x hx), fun x hx => h'.bust x (h.bust x hx)⟩

theorem region_in (t : TreeSt) (D : Nat) : TreeIn t (localProminentRegion N f t D) := by
  have h := (NoteBlind.chase N f D 400 D []).grows ⟨[], [], false, t.sumBnd D, t.sadBnd, t.busted⟩
  refine ⟨fun D' x hx => ?_, h.sad, h.bust⟩
  simp only [localProminentRegion]
  split
  · rename_i e
    exact h.sum x (e ▸ hx)
  · exact hx

theorem regions_in : ∀ (sums : List Nat) (t : TreeSt), TreeIn t (sums.foldl (localProminentRegion N f) t)
  | [], t => TreeIn.refl t
  | D :: sums, t => (region_in t D).trans (regions_in sums _)

theorem regions_paths : ∀ (sums : List Nat) (t : TreeSt) (D : Nat), (sums.foldl (localProminentRegion N f) t).lprPaths D =
    if D ∈ sums then some (regionOf N f D) else t.lprPaths D
  | [], _, _ => rfl
  | E :: sums, t, D => by
    rw [List.foldl_cons, regions_paths sums, region_paths]
    by_cases h : D ∈ sums
    · rw [if_pos h, if_pos (List.mem_cons_of_mem _ h)]
    · rw [if_neg h]
      by_cases e : D = E
      · simp [e]
      · simp [e, h]

/-- A region that was searched before adds nothing. -/
theorem region_again {t u : TreeSt} {D : Nat} (h : TreeIn (localProminentRegion N f t D) u)
    (hp : u.lprPaths D = some (regionOf N f D)) : localProminentRegion N f u D = u := by
  have hk := (NoteBlind.chase N f D 400 D []).kept ⟨[], [], false, t.sumBnd D, t.sadBnd, t.busted⟩
    ⟨[], [], false, u.sumBnd D, u.sadBnd, u.busted⟩ ⟨rfl, rfl, rfl⟩
    ⟨fun x hx => h.sum D x (by simpa [localProminentRegion] using hx), h.sad, h.bust⟩
  have e4 := region_paths (N := N) (f := f) u D
  have e1 : (localProminentRegion N f u D).sumBnd = u.sumBnd := by
    funext D'
    simp only [localProminentRegion]
    split
    · rename_i e
      rw [hk.sum, e]
    · rfl
  have e2 : (localProminentRegion N f u D).sadBnd = u.sadBnd := hk.sad
  have e3 : (localProminentRegion N f u D).busted = u.busted := hk.bust
  have e5 : (localProminentRegion N f u D).lprPaths = u.lprPaths := by
    rw [e4]
    funext D'
    split
    · rename_i e
      rw [e, hp]
    · rfl
  generalize localProminentRegion N f u D = v at e1 e2 e3 e5
  cases v
  cases u
  simp_all

theorem regions_again {u : TreeSt} : ∀ (sums : List Nat) (t : TreeSt), TreeIn (sums.foldl (localProminentRegion N f) t) u →
    (∀ D ∈ sums, u.lprPaths D = some (regionOf N f D)) → sums.foldl (localProminentRegion N f) u = u
  | [], _, _, _ => rfl
  | D :: sums, t, h, hp => by
    rw [List.foldl_cons, region_again ((regions_in sums _).trans h) (hp D (by simp))]
    exact regions_again sums _ h fun E hE => hp E (by simp [hE])

end

end PyProm
