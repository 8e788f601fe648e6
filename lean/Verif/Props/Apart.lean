import Verif.Props.DivideProminence
import Verif.Proof.Elsewhere

/-
C122: features are told apart by their locations.
-/
namespace PyProm
open Spec

namespace Spec

/-- The locations differ within six digits. -/
def PlacesApart (f g : Feature) : Prop := ¬ (round6 f.lat = round6 g.lat ∧ round6 f.lon = round6 g.lon)

end Spec

theorem Spec.Coarse.told {d : DataMap} (hd : Coarse d) : Told d := by
  intro p q _ _ h1 h2
  unfold latOf at h1
  unfold lonOf at h2
  simp only [hd.geo.exact] at h1 h2
  rw [hd.geo.gt4, mul_zero, mul_zero, add_zero, round6_grid hd.lat] at h1
  rw [hd.geo.gt2, mul_zero, mul_zero, add_zero, add_zero, round6_grid hd.lon] at h2
  exact Prod.ext h1 h2

theorem located_apart {d : DataMap} (hd : Told d) {p q : Pt} {f g : Feature} (ip : InB d p) (iq : InB d q)
    (hf : LocatedAt d p f) (hg : LocatedAt d q g) (h : p ≠ q) : PlacesApart f g := by
  rintro ⟨h1, h2⟩
  rw [hf.1, hg.1] at h1
  rw [hf.2.1, hg.2.1] at h2
  exact h (hd p q ip iq h1 h2)

/-- C122, discovery: on a raster whose cells have different coordinates to six digits, no two of the summits and
saddles that are found have the same location to six digits. -/
theorem C122_discovery (d : DataMap) (hd : Told d) (o : Pt → Oracle) (order : List Pt) (ho : IsScan d order) :
    ∃ D, analyze d o order = .ok D ∧ (D.summits ++ D.saddles).Pairwise PlacesApart := by
  obtain ⟨D, as, h1, h2, h3, h4, _⟩ := C09_summit_complete d o order ho
  obtain ⟨D', bs, g1, g2, g3, g4, _⟩ := C10_saddles d o order ho
  cases (g1.symm.trans h1 : Except.ok _ = Except.ok _)
  refine ⟨D, h1, ?_⟩
  have hall : List.Forall₂ (fun q f => LocatedAt d q f) (as ++ bs) (D.summits ++ D.saddles) :=
    List.rel_append (h2.imp fun _ _ h => h.located) (g2.imp fun _ _ h => h.1.located)
  have hin : ∀ q ∈ as ++ bs, InB d q := fun q hq => by
    rcases List.mem_append.1 hq with hq | hq
    · exact (h3 q hq).1.1
    · exact (g3 q hq).1.1
  have hne : (as ++ bs).Pairwise (· ≠ ·) := by
    rw [List.pairwise_append]
    refine ⟨h4.imp fun {a b} h (e : a = b) => h (e ▸ .refl), g4.imp fun {a b} h (e : a = b) => h (e ▸ .refl), fun p hp q hq e => ?_⟩
    subst e
    obtain ⟨a, _, ha, _⟩ := (g3 p hq).2
    exact (h3 p hp).2 a ha
  generalize as ++ bs = ps at hall hne hin
  generalize D.summits ++ D.saddles = fs at hall
  clear * - hall hne hin hd
  induction hall with
  | nil => exact .nil
  | cons h hl ih =>
    rw [List.pairwise_cons] at hne ⊢
    refine ⟨fun g hg => ?_, ih hne.2 fun q hq => hin q (List.mem_cons_of_mem _ hq)⟩
    obtain ⟨q, hq, hqg⟩ := forall₂_mem_right hl hg
    exact located_apart hd (hin _ (List.mem_cons_self ..)) (hin q (List.mem_cons_of_mem _ hq)) h hqg (hne.1 q hq)

/-- C122, runs: no two summits of the map have the same location to six digits; a summit is equal to another, by itself or in a
set, only if it is the same summit. -/
theorem C122_summits (E : SaddleEnv) (hE : RunOk E) (hd : Told E.d) (o : Pt → Oracle) (order : List Pt) (ho : IsScan E.d order)
    (rebuild : Bool) :
    ∃ m, DMap.runSparse E o order rebuild = .ok m ∧ m.summits.Pairwise PlacesApart ∧ SummitsApart m.summits ∧
      ∀ a b, a < m.summits.length → b < m.summits.length →
        (m.net.eq (.summit a) (.summit b) = true ↔ a = b) ∧ (m.net.setEq a b = true ↔ a = b) := by
  obtain ⟨D, m, h1, h2, h3⟩ := C21_first_walk_partial E hE o order ho rebuild
  obtain ⟨D', g1, g2⟩ := C122_discovery E.d hd o order ho
  cases (g1.symm.trans h1 : Except.ok _ = Except.ok _)
  have hP : m.summits.Pairwise PlacesApart := by rw [h3]; exact (List.pairwise_append.1 g2).1
  have key : ∀ (a b : Nat) (s t : Feature), m.summits[a]? = some s → m.summits[b]? = some t → round6 s.lat = round6 t.lat →
      round6 s.lon = round6 t.lon → a = b := by
    have lt : ∀ (a b : Nat) (s t : Feature), m.summits[a]? = some s → m.summits[b]? = some t → a < b → PlacesApart s t := by
      intro a b s t hs ht hab
      obtain ⟨ha, rfl⟩ := List.getElem?_eq_some_iff.1 hs
      obtain ⟨hb, rfl⟩ := List.getElem?_eq_some_iff.1 ht
      exact List.pairwise_iff_getElem.1 hP a b ha hb hab
    intro a b s t hs ht e1 e2
    rcases Nat.lt_trichotomy a b with h | h | h
    · exact absurd ⟨e1, e2⟩ (lt a b s t hs ht h)
    · exact h
    · exact absurd ⟨e1.symm, e2.symm⟩ (lt b a t s ht hs h)
  refine ⟨m, h2, hP, fun a b s t hs ht hne hc => hne (key a b s t hs ht hc.1 hc.2.1), fun a b ha hb => ?_⟩
  have hs := List.getElem?_eq_getElem ha
  have ht := List.getElem?_eq_getElem hb
  constructor
  · refine ⟨fun h => ?_, fun h => ?_⟩
    · simp only [DMap.net, DMap.feature, hs, ht, featEq, seEq_iff, Prod.mk.injEq, eqCoord_iff] at h
      exact key a b _ _ hs ht h.1.1 h.2.1.1
    · subst h
      simp [DMap.net, DMap.feature, hs, featEq, seEq]
  · refine ⟨fun h => ?_, fun h => ?_⟩
    · simp only [DMap.net, hs, ht, sumSetEq_iff] at h
      exact key a b _ _ hs ht h.1.1 h.2.1.1
    · subst h
      simp [DMap.net, hs, sumSetEq, seEq, seNe]

/-- C122, complete runs: on such a raster, if no saddle is on the edge or no saddles coincide, detection leaves a forest that shows which summits are
connected on the terrain without going below a height. Nothing is asked of the summits. -/
theorem C122_forest (E : SaddleEnv) (hE : RunOk E) (hd : Told E.d) (o : Pt → Oracle) (order : List Pt) (ho : IsScan E.d order)
    (rebuild : Bool) :
    ∃ D m sites, analyze E.d o order = .ok D ∧ DMap.runSparse E o order rebuild = .ok m ∧ SummitsAt E.d sites m.summits ∧
      (Untwinned D m → ∀ fuel, m.saddles.length + m.st.objs.length < fuel →
        ∃ f, DMap.run E o order rebuild fuel = .ok (m, f) ∧ (∀ c, ¬ Cycle m.net (Alive m.net f) c) ∧
          ∀ (h : Rat) (a b : Nat) (p q : Pt), sites[a]? = some p → sites[b]? = some q → h ≤ el E.d p →
            (ConnectedBy m.net (fun _ => True) (fun k => ¬ SaddleOut f k ∧ h ≤ m.net.elev (.saddle k)) a b ↔ Passable E.d h p q)) := by
  obtain ⟨D, m, sites, h1, h2, h3, h4⟩ := C78_faithful_partial E hE o order ho rebuild
  obtain ⟨m', g1, _, g2, _⟩ := C122_summits E hE hd o order ho rebuild
  cases (g1.symm.trans h2 : Except.ok _ = Except.ok _)
  exact ⟨D, m, sites, h1, h2, h3, fun he => h4 he g2⟩

/-- Two hills of the same height. -/
def exTwinHills : DataMap := DataMap.ofRows [[1, 1, 1, 1, 1], [1, 9, 3, 9, 1], [1, 1, 1, 1, 1]]

/-- Instance of C122: the raster is coarse, and has two summits of the same height and a saddle that is not on the edge. -/
example : Coarse exTwinHills ∧ (analyze exTwinHills (fun _ => exOracle) exTwinHills.cells).toOption.map (fun D =>
    (D.summits ++ D.saddles).map fun f => (f.elevation, f.edge)) = some [(9, false), (9, false), (3, false)] :=
  ⟨⟨⟨by decide +kernel, by decide +kernel, rfl, rfl, fun _ => rfl⟩, by decide +kernel, by decide +kernel⟩, by decide +kernel⟩

/-- The same with cells that are closer together than the sixth decimal. -/
def exTinyHills : DataMap := { exTwinHills with gt0 := 10, gt3 := 50, gt1 := 1 / 10000000, gt5 := - 1 / 10000000 }

/-- The size of cells does matter to C122: the two summits of this map are at different places but compare equal. Its saddle is
disqualified, since it seems to have one summit on both sides, and the summits are no longer connected. -/
theorem C122_only_coarse : ∃ m f, DMap.run (exRun exTinyHills) (fun _ => exOracle) exTinyHills.cells false 99 = .ok (m, f) ∧
    RunOk (exRun exTinyHills) ∧ m.summits.length = 2 ∧ (m.summits.map (·.lon)).Nodup ∧ m.net.eq (.summit 0) (.summit 1) = true ∧
    ¬ m.summits.Pairwise PlacesApart ∧ (∀ k ∈ m.saddles, SaddleOut f k) := by
  have h : (DMap.run (exRun exTinyHills) (fun _ => exOracle) exTinyHills.cells false 99).toOption.map (fun r =>
      (r.1.summits.map fun f => (round6 f.lat, round6 f.lon), decide (r.1.summits.map (·.lon)).Nodup, r.1.net.eq (.summit 0) (.summit 1),
        r.1.saddles.map r.2.saddleDisq)) = some ([(50000000, 10000000), (50000000, 10000000)], true, true, [true]) := by decide +kernel
  cases hr : DMap.run (exRun exTinyHills) (fun _ => exOracle) exTinyHills.cells false 99 with
  | error e => rw [hr] at h; cases h
  | ok r =>
    obtain ⟨m, f⟩ := r
    rw [hr] at h
    simp only [Except.toOption, Option.map_some, Option.some.injEq, Prod.mk.injEq, decide_eq_true_eq] at h
    obtain ⟨h1, h2, h3, h4⟩ := h
    refine ⟨m, f, rfl, exRun_ok _ (by intro v hv; simp [exTinyHills, exTwinHills, DataMap.ofRows] at hv)
      ⟨by decide +kernel, by decide +kernel, rfl, rfl, fun _ => rfl⟩ (by unfold maxsize; decide +kernel), ?_, h2, h3, ?_, fun k hk => ?_⟩
    · simpa using congrArg List.length h1
    · intro hc
      obtain ⟨a, b, hab⟩ := List.length_eq_two.1 (by simpa using congrArg List.length h1 : m.summits.length = 2)
      rw [hab] at h1 hc
      simp only [List.map_cons, List.map_nil, List.cons.injEq, Prod.mk.injEq, and_true] at h1
      exact (List.pairwise_cons.1 hc).1 b (by simp) ⟨h1.1.1.trans h1.2.1.symm, h1.1.2.trans h1.2.2.symm⟩
    · rw [← saddleDisq_iff]
      have : f.saddleDisq k ∈ m.saddles.map f.saddleDisq := List.mem_map_of_mem hk
      rw [h4] at this
      simpa using this

end PyProm
