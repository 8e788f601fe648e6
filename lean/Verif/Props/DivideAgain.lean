import Verif.Proof.DivideExtra
import Verif.Props.DivideLoaded
import Mathlib.Data.List.Perm.Basic

/-
C135: running the divide tree again
-/
namespace PyProm
open Spec

theorem divideRun_ok {N : FNet} {f : Flags} {sums : List Nat} {s t : TreeSt} (h : divideRun N f sums s = .ok t) :
    sums ≠ [] ∧ t = sums.foldl (localProminentRegion N f) s := by
  obtain ⟨x, h1, h2⟩ := bind_ok h
  refine ⟨?_, (Except.ok.inj h2).symm⟩
  rintro rfl
  exact absurd h1 (by simp [highestOf])

/-- C135 where nothing changed: run the divide tree a second time on a map and everything stays as the first run left it, on every
network, whatever was noted on the features before the first run. -/
theorem C135_again (N : FNet) (f : Flags) (sums : List Nat) (s t : TreeSt) (h : divideRun N f sums s = .ok t) :
    divideRun N f sums t = .ok t := by
  obtain ⟨h1, rfl⟩ := divideRun_ok h
  obtain ⟨x, h2, _⟩ := bind_ok h
  unfold divideRun
  rw [h2]
  show Except.ok _ = _
  rw [regions_again sums s (TreeIn.refl _) fun D hD => by rw [regions_paths, if_pos hD]]

/-- C135, the paths: the region reported for a summit depends on the network and its disqualifications only: not on what earlier runs
left, nor on which other summits there are and their order. -/
theorem C135_paths (N : FNet) (f : Flags) (sums sums' : List Nat) (s s' t t' : TreeSt) (h : divideRun N f sums s = .ok t)
    (h' : divideRun N f sums' s' = .ok t') (D : Nat) (hD : D ∈ sums) (hD' : D ∈ sums') : t'.lprPaths D = t.lprPaths D := by
  obtain ⟨_, rfl⟩ := divideRun_ok h
  obtain ⟨_, rfl⟩ := divideRun_ok h'
  rw [regions_paths, regions_paths, if_pos hD, if_pos hD']

/-- C135, the order of the summits: if no two summits compare equal it decides only in which order a saddle lists the summits it
bounds. -/
theorem C135_order (N : FNet) (hN : ∀ a b, N.eq (.summit a) (.summit b) = true → a = b) (f : Flags) (sums sums' : List Nat)
    (hp : sums.Perm sums') (s t : TreeSt) (h : divideRun N f sums s = .ok t) :
    ∃ t', divideRun N f sums' s = .ok t' ∧ t'.lprPaths = t.lprPaths ∧ t'.sumBnd = t.sumBnd ∧
      ∀ k D, D ∈ t'.sadBnd k ↔ D ∈ t.sadBnd k := by
  obtain ⟨h1, rfl⟩ := divideRun_ok h
  have hne : sums' ≠ [] := fun e => h1 (by rw [e] at hp; exact hp.eq_nil)
  have hv : ∀ D, TreeView D (sums.foldl (localProminentRegion N f) s) (sums'.foldl (localProminentRegion N f) s) := by
    intro D
    by_cases hD : D ∈ sums
    · exact (regions_view hN sums s hD).symm.trans (regions_view hN sums' s (hp.mem_iff.1 hD))
    · exact (regions_other hN sums s hD).symm.trans (regions_other hN sums' s fun h => hD (hp.mem_iff.2 h))
  refine ⟨sums'.foldl (localProminentRegion N f) s, ?_, funext fun D => (hv D).paths, funext fun D => (hv D).sum, fun k D => (hv D).sad k⟩
  cases sums' with
  | nil => exact absurd rfl hne
  | cons D l => rfl

/-- C135 (where it holds) if the map changed in between, say because basin saddles were detected: if no two summits and no two saddles
compare equal, the regions are those of a first run, and the boundaries those of a first run together with what was noted before.
Missing: the latter should not be there, see below. -/
theorem C135_changed_partial (N : FNet) (hN : ∀ a b, N.eq (.summit a) (.summit b) = true → a = b)
    (hk : ∀ a b, N.eq (.saddle a) (.saddle b) = true → a = b) (f : Flags) (sums : List Nat) (t u : TreeSt)
    (h : divideRun N f sums t = .ok u) :
    ∃ v, divideRun N f sums noTree = .ok v ∧ (∀ D ∈ sums, u.lprPaths D = v.lprPaths D) ∧
      (∀ D k, k ∈ u.sumBnd D ↔ k ∈ t.sumBnd D ∨ k ∈ v.sumBnd D) ∧ ∀ k D, D ∈ u.sadBnd k ↔ D ∈ t.sadBnd k ∨ D ∈ v.sadBnd k := by
  obtain ⟨h1, rfl⟩ := divideRun_ok h
  have h2 : divideRun N f sums noTree = .ok (sums.foldl (localProminentRegion N f) noTree) := by
    cases sums with
    | nil => exact absurd rfl h1
    | cons D l => rfl
  have h3 := regions_sum (N := N) (f := f) hN hk (s := t) sums noTree t ⟨by simp [noTree], by simp [noTree]⟩
  exact ⟨_, h2, fun D hD => C135_paths N f sums sums _ _ _ _ h2 h D hD hD, h3.sum, h3.sad⟩

/-- C135 fails for boundaries if the map changed: whatever is noted on summits and saddles, and the summits that were given up, is
still there after every run, on whatever network with whatever disqualifications. -/
theorem C135_stale_refuted (N : FNet) (f : Flags) (sums : List Nat) (t u : TreeSt) (h : divideRun N f sums t = .ok u) :
    (∀ D, ∀ k ∈ t.sumBnd D, k ∈ u.sumBnd D) ∧ (∀ k, ∀ D ∈ t.sadBnd k, D ∈ u.sadBnd k) ∧ ∀ D ∈ t.busted, D ∈ u.busted := by
  obtain ⟨_, rfl⟩ := divideRun_ok h
  have := regions_in (N := N) (f := f) sums t
  exact ⟨this.sum, this.sad, this.bust⟩

/-- C135 fails on the crater: the divide tree is run before basin saddles are detected and again afterwards. Saddle 9, now a basin saddle, is still
listed by the third summit, although no path of it ends there any more; a tree run only afterwards does not list it. -/
theorem C135_crater_refuted : ∃ m f t u v, exFull exCrater false 99 = .ok (m, f) ∧
    divideRun m.net m.flags (List.range m.summits.length) noTree = .ok t ∧
    divideRun m.net f (List.range m.summits.length) t = .ok u ∧ divideRun m.net f (List.range m.summits.length) noTree = .ok v ∧
    f.basin 9 = true ∧ u.sumBnd 2 = [9, 10] ∧ u.lprPaths 2 = some ([⟨[7, 6, 5], 10⟩], false) ∧ v.sumBnd 2 = [10] ∧
    v.lprPaths 2 = u.lprPaths 2 := by
  have h : (exFull exCrater false 99).toOption.bind (fun r =>
      (divideRun r.1.net r.1.flags (List.range r.1.summits.length) noTree).toOption.bind fun t =>
      (divideRun r.1.net r.2 (List.range r.1.summits.length) t).toOption.bind fun u =>
      (divideRun r.1.net r.2 (List.range r.1.summits.length) noTree).toOption.map fun v =>
        decide (r.2.basin 9 = true ∧ u.sumBnd 2 = [9, 10] ∧ u.lprPaths 2 = some ([⟨[7, 6, 5], 10⟩], false) ∧ v.sumBnd 2 = [10] ∧
          v.lprPaths 2 = u.lprPaths 2)) = some true := by decide +kernel
  have key : ∀ {α : Type} {e : Except PyErr α} {a : α}, e.toOption = some a → e = .ok a := by
    intro α e a h
    cases e with
    | error _ => cases h
    | ok b => exact congrArg _ (Option.some.inj h)
  obtain ⟨⟨m, f⟩, h1, h⟩ := Option.bind_eq_some_iff.1 h
  obtain ⟨t, h2, h⟩ := Option.bind_eq_some_iff.1 h
  obtain ⟨u, h3, h⟩ := Option.bind_eq_some_iff.1 h
  obtain ⟨v, h4, h⟩ := Option.map_eq_some_iff.1 h
  exact ⟨m, f, t, u, v, key h1, key h2, key h3, key h4, of_decide_eq_true h⟩

/-- Instance of `C135_order`: the three summits of heights 100, 50 and 60, the other way round. -/
example : (∀ a b, exDip.eq (.summit a) (.summit b) = true → a = b) ∧ [0, 1, 2].Perm [2, 1, 0] ∧
    (divideRun exDip exNoFlags [0, 1, 2] noTree).toOption.map (fun t => (t.sumBnd 1, t.sadBnd 0)) = some ([0, 1], [1, 2]) ∧
    (divideRun exDip exNoFlags [2, 1, 0] noTree).toOption.map (fun t => (t.sumBnd 1, t.sadBnd 0)) = some ([0, 1], [2, 1]) :=
  ⟨by simp [exDip, exChain], by decide, by decide +kernel, by decide +kernel⟩

/-- Instance of `C135_again` and `C135_changed_partial`: the three summits, where features are equal only to themselves. A note from
before stays. -/
example : (∀ a b, exDip.eq (.summit a) (.summit b) = true → a = b) ∧ (∀ a b, exDip.eq (.saddle a) (.saddle b) = true → a = b) ∧
    (divideRun exDip exNoFlags [0, 1, 2] { noTree with sumBnd := fun D => if D = 0 then [0] else [] }).toOption.map
      (fun t => (t.sumBnd 0, t.sumBnd 1)) = some ([0, 1], [0, 1]) ∧
    (divideRun exDip exNoFlags [0, 1, 2] noTree).toOption.map (fun t => (t.sumBnd 0, t.sumBnd 1)) = some ([1], [0, 1]) :=
  ⟨by simp [exDip, exChain], by simp [exDip, exChain], by decide +kernel, by decide +kernel⟩

end PyProm
