import Verif.Proof.Heights
import Verif.Props.Discovery
import Mathlib.Tactic.Linarith

/-! C95: heights in another unit or above another datum. C96: two analyses of one raster. -/
namespace PyProm
open Spec

/-- The areas of the two analyses, side by side. -/
theorem regions_scaled {φ : Rat → Rat} (hφ : Increasing φ) (d : DataMap) (o o' : Pt → Oracle)
    (order : List Pt) (ho : IsScan d order) :
    ∃ D D', analyze d o order = .ok D ∧ analyze (rescaled φ d) o' order = .ok D' ∧
      List.Forall₂ (SameScaled φ) D.summits D'.summits ∧
      List.Forall₂ (SameScaled φ) D.saddles D'.saddles ∧
      Matched (SameRunoff φ) D.runoffs D'.runoffs := by
  obtain ⟨regs, mets, _, _, s1, m1, f1, e1⟩ := analyze_met d o order ho
  obtain ⟨regs', mets', _, _, s2, m2, f2, e2⟩ := analyze_met (rescaled φ d) o' order ho
  refine ⟨_, _, e1, e2, ?_⟩
  have em : mets = mets' := by
    refine sublist_ext ho.1 s1 s2 fun p => ?_
    rw [m1, m2, firstIn_scaled hφ]
  subst em
  have hf : List.Forall₂ (fun r r' : Region => AreaSame φ r.features r'.features) regs regs' := by
    clear * - hφ f1 f2
    induction f1 generalizing regs' with
    | nil =>
      cases f2
      exact .nil
    | cons h _ ih =>
      cases f2 with
      | cons h' h2 =>
        refine .cons ?_ (ih _ h2)
        obtain ⟨_, r1, mp, high, lower, str, bps, _, a1, t1⟩ := h
        obtain ⟨_, r2, mp', high', lower', str', bps', _, a2, t2⟩ := h'
        rw [reportedFrom_scaled hφ] at r2
        rw [reported_unique r2 r1] at a2 t2
        exact features_scaled hφ a1 a2 t1 t2
  exact ⟨(areas_append hf).summits, (areas_append hf).saddles, (areas_append hf).runoffs⟩

/-- C95: the unit and the datum of heights do not matter. If every height (and the nodata marker) is passed
through an increasing function, the analysis reports the same summits and saddles, in the same order, with
the same places, edge flags, cells, edge points and higher neighbourhoods, and with heights passed through
the function; and runoffs for the same border points. This holds whatever order the sets are iterated in and
whatever the path searches return in either analysis. -/
theorem C95_heights (d : DataMap) (φ : Rat → Rat) (hφ : Increasing φ) (o o' : Pt → Oracle)
    (order : List Pt) (ho : IsScan d order) :
    ∃ D D', analyze d o order = .ok D ∧ analyze (rescaled φ d) o' order = .ok D' ∧
      List.Forall₂ (SameScaled φ) D.summits D'.summits ∧
      List.Forall₂ (SameScaled φ) D.saddles D'.saddles ∧
      Matched (SameRunoff φ) D.runoffs D'.runoffs :=
  regions_scaled hφ d o o' order ho

theorem rescaled_id (d : DataMap) : rescaled id d = d := by
  cases d
  simp [rescaled]

theorem summits_same {d : DataMap} {q : Pt} {mp : Option (List MPt)} {fs fs' : List Feature}
    {high high' lower lower' str str' : List (List P3)} {bps : List P3} (hm : RecordsArea d q mp)
    (t : RegionTable d q mp fs high lower str bps) (t' : RegionTable d q mp fs' high' lower' str' bps) :
    (fs.filter fun f => f.kind = .summit) = fs'.filter fun f => f.kind = .summit := by
  have hnil : high' = [] ↔ high = [] := (high_nil_iff t'.isHigh).trans (high_nil_iff t.isHigh).symm
  by_cases h1 : high = []
  · by_cases hob : OnBorder d q
    · rw [t.borderSummit hob h1, t'.borderSummit hob (hnil.2 h1)]
    · rw [t.interior hob, t'.interior hob, if_pos h1, if_pos (hnil.2 h1)]
  · have ht : ¬ IsTop d q := fun c => h1 ((high_nil_iff t.isHigh).2 c)
    rw [(table_summits hm t).2 ht, (table_summits hm t').2 ht]

/-- C96, the part that holds: two analyses of one raster report identical lists of summits; the saddles are
the same one by one (place, height, edge flag, the cells, edge points and higher neighbourhoods, up to
order); and there is the same number of runoffs, for the same border points. Missing: the place of a
runoff (`C96_runoff_place_refuted`). -/
theorem C96_two_runs_partial (d : DataMap) (o o' : Pt → Oracle) (order : List Pt) (ho : IsScan d order) :
    ∃ D D', analyze d o order = .ok D ∧ analyze d o' order = .ok D' ∧ D'.summits = D.summits ∧
      List.Forall₂ (SameScaled id) D.saddles D'.saddles ∧
      Matched (SameRunoff id) D.runoffs D'.runoffs := by
  obtain ⟨D, D', e, e', _, h2, h3⟩ := regions_scaled (φ := id) (fun _ _ h => h) d o o' order ho
  rw [rescaled_id] at e'
  refine ⟨D, D', e, e', ?_, h2, h3⟩
  obtain ⟨regs, mets, _, _, s1, m1, f1, e1⟩ := analyze_met d o order ho
  obtain ⟨regs', mets', _, _, s2, m2, f2, e2⟩ := analyze_met d o' order ho
  cases (e1.symm.trans e : Except.ok _ = Except.ok _)
  cases (e2.symm.trans e' : Except.ok _ = Except.ok _)
  have em : mets = mets' := sublist_ext ho.1 s1 s2 fun p => by rw [m1, m2]
  subst em
  dsimp only
  clear * - f1 f2
  induction f1 generalizing regs' with
  | nil =>
    cases f2
    rfl
  | cons h _ ih =>
    cases f2 with
    | cons h' h2 =>
      rw [List.flatMap_cons, List.flatMap_cons, List.filter_append, List.filter_append, ih _ h2]
      congr 1
      obtain ⟨_, r1, mp, high, lower, str, bps, k1, a1, t1⟩ := h
      obtain ⟨_, r2, mp', high', lower', str', bps', k2, a2, t2⟩ := h'
      have k := k2.symm.trans k1
      have k3 := congrArg (fun z => z.1) k
      have k4 := congrArg (fun z => z.2.1) k
      have k5 := congrArg (fun z => z.2.2) k
      dsimp only at k3 k4 k5
      subst k4 k5
      rw [k3] at t2
      exact summits_same a1 t2 t1

/-- A ridge with a saddle, and a shelf of three cells on the border of the map. -/
def exShelf : DataMap := DataMap.ofRows
  [[1, 5, 5, 5, 1], [1, 9, 9, 9, 1], [1, 7, 1, 9, 1], [1, 9, 9, 1, 1], [1, 1, 1, 1, 1]]

/-- Another order of the sets: the second element instead of the first. -/
def exSecond : Oracle := ⟨fun _ _ => 1, exOracle.cost⟩

/-- Instance of `C95_heights`: `h ↦ 3 * h + 2` is increasing; summit and saddle are found at the same places. -/
example : Increasing (fun h => 3 * h + 2) ∧
    ((analyze exShelf (fun _ => exOracle) exShelf.cells).toOption.map fun D =>
      ((D.summits ++ D.saddles).map fun f => ((f.lat, f.lon), f.elevation))) =
        some [((-1, 2), 9), ((-2, 1), 7)] ∧
    ((analyze (rescaled (fun h => 3 * h + 2) exShelf) (fun _ => exSecond) exShelf.cells).toOption.map fun D =>
      ((D.summits ++ D.saddles).map fun f => ((f.lat, f.lon), f.elevation))) =
        some [((-1, 2), 29), ((-2, 1), 23)] := by
  refine ⟨fun a b h => by linarith, ?_, ?_⟩ <;> decide +kernel

/-- Not every change of heights is harmless: an order-preserving function that merges two heights (rounding)
is not increasing, and can remove a summit. -/
example : ¬ Increasing (fun h => (h.floor : Rat)) := by
  intro h
  have := h 0 (1 / 2) (by decide +kernel)
  revert this
  decide +kernel

/-- C96 fails for runoffs: with another order of the sets the runoff of the shelf is reported elsewhere. -/
theorem C96_runoff_place_refuted :
    ∃ (d : DataMap) (order : List Pt) (o o' : Pt → Oracle) (D D' : Discovered), IsScan d order ∧
      analyze d o order = .ok D ∧ analyze d o' order = .ok D' ∧
      (D.runoffs.map fun f => (f.lat, f.lon)) ≠ D'.runoffs.map fun f => (f.lat, f.lon) := by
  have h : ((analyze exShelf (fun _ => exOracle) exShelf.cells).toOption.map fun D =>
      D.runoffs.map fun f => (f.lat, f.lon)) = some [(0, 1)] := by decide +kernel
  have h' : ((analyze exShelf (fun _ => exSecond) exShelf.cells).toOption.map fun D =>
      D.runoffs.map fun f => (f.lat, f.lon)) = some [(0, 2)] := by decide +kernel
  cases hD : analyze exShelf (fun _ => exOracle) exShelf.cells with
  | error e => rw [hD] at h; simp [Except.toOption] at h
  | ok D =>
    cases hD' : analyze exShelf (fun _ => exSecond) exShelf.cells with
    | error e => rw [hD'] at h'; simp [Except.toOption] at h'
    | ok D' =>
      rw [hD] at h
      rw [hD'] at h'
      simp only [Except.toOption, Option.map_some, Option.some.injEq] at h h'
      refine ⟨exShelf, exShelf.cells, _, _, D, D', isScan_cells _, hD, hD', ?_⟩
      rw [h, h']
      decide

end PyProm
