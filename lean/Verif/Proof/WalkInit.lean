import Verif.Proof.Walk
import Verif.Props.Grid
import Verif.Props.Discovery
import Verif.Props.SaddleNet

/-
The state a walk starts from, for the summits of feature discovery.
-/
namespace PyProm
open Spec

theorem located_xy {d : DataMap} (hg : Findable d) {q : Pt} {f : Feature} (hq : InB d q) (h : LocatedAt d q f) :
    d.latLongToXY f.lat f.lon = some q := by
  rw [h.1, h.2.1]
  exact hg q hq

theorem Unrotated.findable {d : DataMap} (hg : Unrotated d) : Findable d := fun q _ => by
  have := C02_roundtrip d hg.gt1 hg.gt5 hg.gt2 hg.gt4 hg.exact q.1 q.2 0 0
    (by simpa using hg.gt5) (by simpa using hg.gt1)
  simpa [DataMap.xyToLatLon, latOf, lonOf] using this

/-- The cells a summit enters into its domain are those of its flat area, each once. -/
theorem summitCells_spec {d : DataMap} (hg : Findable d) {q : Pt} {f : Feature} (hq : InB d q)
    (h : SummitFor d q f) :
    ∃ cells, summitCells d f = .ok cells ∧ cells.Nodup ∧ ∀ m, m ∈ cells ↔ Flat d q m := by
  unfold summitCells
  rcases h.area with ⟨hm, hall⟩ | ⟨pts, hm, hn, hall, _⟩
  · rw [hm]
    dsimp only
    rw [located_xy hg hq h.located]
    exact ⟨[q], rfl, by simp, fun m => by rw [hall, List.mem_singleton]⟩
  · rw [hm]
    cases pts with
    | nil => exact absurd ((hall q).2 .refl) (by simp)
    | cons p ps =>
      refine ⟨p :: ps, ?_, hn, hall⟩
      simp [Function.comp_def]

theorem prepopulate_spec {d : DataMap} (hg : Findable d) : ∀ (pre sites : List Pt)
    (fs : List Feature) (s : WSt), List.Forall₂ (SummitFor d) sites fs →
    (∀ q ∈ pre ++ sites, Data d q) → (pre ++ sites).Pairwise (fun a b => ¬ Flat d a b) →
    (∀ p k, s.lookup p = some k ↔ SummitArea d pre k p) →
    (∀ k p, p ∈ s.points k ↔ SummitArea d pre k p) → (∀ k, (s.points k).Nodup) →
    ∃ s', prepopulate d (fun _ => none) pre.length fs s = .ok s' ∧
      (∀ p k, s'.lookup p = some k ↔ SummitArea d (pre ++ sites) k p) ∧
      (∀ k p, p ∈ s'.points k ↔ SummitArea d (pre ++ sites) k p) ∧ ∀ k, (s'.points k).Nodup := by
  intro pre sites
  induction sites generalizing pre with
  | nil =>
    intro fs s hf _ _ h1 h2 h3
    cases hf
    exact ⟨s, rfl, by simpa using h1, by simpa using h2, h3⟩
  | cons q sites ih =>
    intro fs s hf hd hp h1 h2 h3
    cases hf with
    | @cons _ f _ fs hqf hf =>
      obtain ⟨cells, hc, hcn, hcm⟩ := summitCells_spec hg (hd q (by simp)).1 hqf
      have hqd : Data d q := hd q (by simp)
      -- cells of q are new
      have hnew : ∀ p, Flat d q p → ∀ k, ¬ SummitArea d pre k p := by
        rintro p hqp k ⟨r, hr, hrp⟩
        have hrm : r ∈ pre := List.mem_of_getElem? hr
        have hrd := hd r (by simp [hrm])
        have : ¬ Flat d r q := (List.pairwise_append.1 hp).2.2 r hrm q (by simp)
        exact this (hrp.trans (Flat.symm hqd hqp))
      have harea : ∀ k p, SummitArea d (pre ++ [q]) k p ↔
          SummitArea d pre k p ∨ (k = pre.length ∧ Flat d q p) := by
        intro k p
        unfold SummitArea
        constructor
        · rintro ⟨r, hr, hrp⟩
          rcases Nat.lt_trichotomy k pre.length with h | h | h
          · rw [List.getElem?_append_left h] at hr
            exact .inl ⟨r, hr, hrp⟩
          · subst h
            simp at hr
            subst hr
            exact .inr ⟨rfl, hrp⟩
          · rw [List.getElem?_eq_none (by simp; omega)] at hr
            simp at hr
        · rintro (⟨r, hr, hrp⟩ | ⟨rfl, h⟩)
          · refine ⟨r, ?_, hrp⟩
            have : k < pre.length := by
              by_contra hk
              rw [List.getElem?_eq_none (by omega)] at hr
              simp at hr
            rw [List.getElem?_append_left this]
            exact hr
          · exact ⟨q, by simp, h⟩
      have hlen : ∀ k p, SummitArea d pre k p → k ≠ pre.length := by
        rintro k p ⟨r, hr, _⟩ rfl
        rw [List.getElem?_eq_none (by omega)] at hr
        simp at hr
      obtain ⟨s', e1, e2, e3, e4⟩ := ih (pre ++ [q]) fs (s.extend pre.length cells) hf
        (by simpa using hd) (by simpa using hp)
        (by
          intro p k
          rw [extend_lookup, harea]
          by_cases hpc : p ∈ cells
          · rw [if_pos hpc]
            have hfl := (hcm p).1 hpc
            simp only [Option.some.injEq]
            constructor
            · rintro rfl; exact .inr ⟨rfl, hfl⟩
            · rintro (h | h)
              · exact absurd h (hnew p hfl k)
              · exact h.1.symm
          · rw [if_neg hpc, h1]
            constructor
            · exact .inl
            · rintro (h | h)
              · exact h
              · exact absurd ((hcm p).2 h.2) hpc)
        (by
          intro k p
          rw [extend_points, harea]
          by_cases hk : k = pre.length
          · rw [if_pos hk, List.mem_append, h2, hcm]
            simp [hk]
          · rw [if_neg hk, h2]
            simp [hk])
        (by
          intro k
          rw [extend_points]
          split
          · rename_i hk
            refine List.nodup_append.2 ⟨h3 k, hcn, ?_⟩
            intro a ha b hb hab
            exact hlen k a ((h2 k a).1 ha) hk
          · exact h3 k)
      refine ⟨s', ?_, by simpa using e2, by simpa using e3, e4⟩
      unfold prepopulate
      dsimp only
      rw [hc]
      dsimp only [bind, Except.bind]
      simpa using e1

theorem walkInit_spec {d : DataMap} (hg : Findable d) {sites : List Pt} {fs : List Feature}
    (h : SummitsAt d sites fs) :
    ∃ s, walkInit d (fun _ => none) fs = .ok s ∧ WInv d (SummitArea d sites) s ∧
      ∀ p k, s.lookup p = some k ↔ SummitArea d sites k p := by
  obtain ⟨s, e1, e2, e3, e4⟩ := prepopulate_spec hg [] sites fs
    { lookup := fun _ => none, points := fun _ => [] } h.each
    (fun q hq => (h.top q (by simpa using hq)).1) (by simpa using h.once)
    (by simp [SummitArea]) (by simp [SummitArea]) (by simp)
  rw [List.nil_append] at e2 e3
  refine ⟨s, e1, ⟨?_, ?_, ?_, e4, ?_, ?_⟩, e2⟩
  · intro p hp ht
    obtain ⟨q, hq, hqp⟩ := h.all p hp ht
    obtain ⟨k, hk⟩ := List.mem_iff_getElem?.1 hq
    exact ⟨k, (e2 p k).2 ⟨q, hk, hqp⟩⟩
  · intro p k hpk
    have ha := (e2 p k).1 hpk
    obtain ⟨q, hq, hqp⟩ := id ha
    exact ⟨(flat_data (h.top q (List.mem_of_getElem? hq)).1 hqp).1, p, ha, .refl⟩
  · intro k p hp
    exact ⟨k, (e2 p k).2 ((e3 k p).1 hp)⟩
  · intro j k p hj hk
    have h1 := (e2 p j).2 ((e3 j p).1 hj)
    have h2 := (e2 p k).2 ((e3 k p).1 hk)
    rw [h1] at h2
    simpa using h2
  · intro k p hp
    have ha := (e3 k p).1 hp
    obtain ⟨q, hq, hqp⟩ := id ha
    exact ⟨(flat_data (h.top q (List.mem_of_getElem? hq)).1 hqp).1, p, ha, .refl⟩

/-- A state obtained from the summits of discovery by any sequence of climbs. -/
structure Explored (E : WalkEnv) (sites : List Pt) (summits : List Feature) (s : WSt) : Prop where
  from_discovery : SummitsAt E.d sites summits
  reached : ∃ s0 fuel ps, walkInit E.d (fun _ => none) summits = .ok s0 ∧ E.d.size < fuel ∧
    (∀ p ∈ ps, Data E.d p.xy ∧ p.e = el E.d p.xy) ∧ climbPoints E fuel ps s0 = .ok s

theorem Explored.inv {E : WalkEnv} (hE : EnvOk E) (hg : Findable E.d) {sites : List Pt}
    {summits : List Feature} {s : WSt} (h : Explored E sites summits s) :
    WInv E.d (SummitArea E.d sites) s := by
  obtain ⟨s0, fuel, ps, h0, hf, hp, hs⟩ := h.reached
  obtain ⟨s0', e1, e2, _⟩ := walkInit_spec hg h.from_discovery
  rw [h0] at e1
  cases e1
  obtain ⟨s', a1, a2, _⟩ := climbAll_spec (climbLoop_spec hE _ fuel) ps s0 e2 (by
    intro p hpm
    obtain ⟨b1, b2⟩ := hp p hpm
    exact ⟨b1, b2, lt_of_le_of_lt (above_le_size _ _) hf⟩)
  unfold climbPoints at hs
  rw [a1] at hs
  cases hs
  exact a2

end PyProm
