import Verif.Props.Turned
import Verif.Proof.Tiles
import Verif.Proof.Faithful

/-! C12 and C15: where features of border areas are misplaced. The parts that hold are in `Props/Discovery.lean`. -/

namespace PyProm

open Spec

theorem forall₂_mem_first {α β : Type} {R : α → β → Prop} {l : List α} {r : List β} (h : List.Forall₂ R l r) {x : α}
    (hx : x ∈ l) : ∃ y ∈ r, R x y := by
  induction h with
  | nil => cases hx
  | cons h _ ih =>
    rcases List.mem_cons.1 hx with rfl | hx
    · exact ⟨_, List.mem_cons_self .., h⟩
    · obtain ⟨y, hy, h⟩ := ih hx
      exact ⟨y, List.mem_cons_of_mem _ hy, h⟩

/-- C12 fails for areas without higher ground that touch the border: wherever the cell from which the area is
reported is not a border cell, the runoff of the area sits there and not at any border cell. -/
theorem C12_top_runoff_refuted (d : DataMap) (hg : Findable d) (o : Pt → Oracle) (order : List Pt) (ho : IsScan d order) :
    ∃ D, analyze d o order = .ok D ∧ ∀ l p l' q, order = l ++ p :: l' → Data d p → (∀ x ∈ l, ¬ Flat d p x) →
      ReportedFrom d p q → OnBorder d q → IsTop d q → ¬ Border d q →
      ∃ f ∈ D.runoffs, BorderList d q f.edgePoints ∧ LocatedAt d q f ∧ ∀ c, InB d c → Border d c → ¬ LocatedAt d c f := by
  obtain ⟨regs, mets, _, h1, _, h2, h3, h4⟩ := analyze_met d o order ho
  refine ⟨_, h4, fun l p l' q e hp hl hr hb ht hn => ?_⟩
  obtain ⟨r, hr1, _, hr2, mp, high, lower, str, bps, _, _, t⟩ := forall₂_mem_first h3 ((h2 p).2 ⟨l, l', e, hp, hl⟩)
  have hq : r.site = q := reported_unique hr2 hr
  rw [hq] at t
  refine ⟨mkRunoff (d.xyToLatLon q.1 q.2) (el d q) mp bps [], ?_, t.isBps, ⟨rfl, rfl, rfl⟩, ?_⟩
  · rw [List.mem_filter, List.mem_flatMap]
    refine ⟨⟨r, hr1, ?_⟩, by simp [mkRunoff]⟩
    rw [t.borderSummit hb ((high_nil_iff t.isHigh).2 ht)]
    simp
  · intro c hi hc hl
    have : c = q := located_cell hg hi (flat_data hp hr.flat).1.1 hl ⟨rfl, rfl, rfl⟩
    exact hn (this ▸ hc)

/-- Here the plateau of height 9 reaches the right border at (1, 3), yet its runoff is at (1, 2). -/
example : ((analyze (DataMap.ofRows [[1, 1, 1, 1], [1, 9, 9, 9], [1, 1, 1, 1]]) (fun _ => exOracle)
    (DataMap.ofRows [[1, 1, 1, 1], [1, 9, 9, 9], [1, 1, 1, 1]]).cells).toOption.map fun D => D.runoffs.map fun f =>
    (f.lat, f.lon)) = some [(-1, 2)] ∧ ¬ Border (DataMap.ofRows [[1, 1, 1, 1], [1, 9, 9, 9], [1, 1, 1, 1]]) (1, 2) := by
  unfold Border; decide +kernel

/-- C15 fails for border saddles: once a runoff has been made for the area, the cells of all its high
neighbourhoods are recorded as cells of the saddle. -/
theorem C15_border_saddle_refuted (d : DataMap) (hg : Findable d) (o : Pt → Oracle) (order : List Pt) (ho : IsScan d order) :
    ∃ D, analyze d o order = .ok D ∧ ∀ f ∈ D.saddles, ∀ r ∈ D.runoffs, ∀ q p, InB d q → LocatedAt d q f → p ∈ r.edgePoints →
      Flat d q p.xy → ∀ pts, f.multipoint = some pts → ∀ m, HighRim d q m →
      ∃ a ∈ pts, (a.x, a.y) = m ∧ f.elevation < el d m := by
  obtain ⟨regs, h1, h2, h3⟩ := analyze_spec d o order ho
  refine ⟨_, h3, fun f hf r hr q p hi hq hp hqp pts hpts m hm => ?_⟩
  rw [List.mem_filter, List.mem_flatMap, decide_eq_true_eq] at hf hr
  obtain ⟨⟨s, hs, hf⟩, hk⟩ := hf
  obtain ⟨⟨s', hs', hr⟩, hk'⟩ := hr
  obtain ⟨hd, mp, high, lower, str, bps, hmp, t⟩ := h2 s hs
  obtain ⟨hd', mp', high', lower', str', bps', hmp', t'⟩ := h2 s' hs'
  obtain ⟨⟨c, c1, c2, c3⟩, a2, _⟩ := table_all hmp t f hf
  have hcq : c = q := located_cell hg (flat_data hd c1).1.1 hi ⟨c2, c3, by rw [a2, (flat_data hd c1).2]⟩ hq
  subst hcq
  have hflat : Flat d s.site s'.site :=
    (c1.trans hqp).trans (((table_all hmp' t' r hr).2.2.2.1 p hp).1.symm hd')
  have hss : s = s' := once_eq (R := fun r r' => Flat d r.site r'.site) h1.once (fun a ha _ _ h => h.symm (h1.data a ha)) s hs s' hs' hflat
  subst hss
  have hmm : HighRim d s.site m := (highRim_congr hd c1 m).2 hm
  rw [a2]
  by_cases hb : OnBorder d s.site
  · by_cases hh : high = []
    · rw [t.borderSummit hb hh] at hf
      simp only [List.mem_cons, List.not_mem_nil, or_false] at hf
      rcases hf with rfl | rfl <;> simp [mkSummit, mkRunoff] at hk
    · by_cases hl : lower.length ≤ 1
      · rw [t.borderFew hb hh hl] at hr
        split at hr
        · simp only [List.mem_singleton] at hr
          subst hr
          simp [mkSaddle] at hk'
        · cases hr
      · obtain ⟨cs, rs, rem, _, h4, _, _, h6⟩ := t.borderMany hb hh (by omega)
        rw [h6, List.mem_append] at hf hr
        have hrs : rs ≠ [] := by
          rintro rfl
          rcases hr with hr | hr
          · cases hr
          · split at hr
            · simp only [List.mem_singleton] at hr
              rw [hr] at hk'
              split at hk' <;> simp [mkSaddle] at hk'
            · cases hr
        have hfs : f.multipoint = grown mp high rs.length := by
          rcases hf with hf | hf
          · obtain ⟨c', _, h, _⟩ := forall₂_mem_right h4 hf
            rw [h.1] at hk
            cases hk
          · split at hf
            · simp only [List.mem_singleton] at hf
              rw [hf]
              split <;> rfl
            · cases hf
        obtain ⟨S, hS, hc⟩ := t.isHigh
        have hin : (⟨m.1, m.2, el d m⟩ : P3) ∈ high.flatten := (hc.mem _).2 ((hS _).2 ⟨hmm, rfl⟩)
        obtain ⟨n, hn⟩ : ∃ n, rs.length = n + 1 := ⟨rs.length - 1, by
          have := List.length_pos_iff.2 hrs
          omega⟩
        rw [hfs, hn, grown, Option.map_eq_some_iff] at hpts
        obtain ⟨pts0, _, rfl⟩ := hpts
        exact ⟨_, List.mem_append_right _ (List.mem_map_of_mem hin), rfl, hmm.2⟩
  · rw [t.interior hb] at hr
    split at hr
    · simp only [List.mem_singleton] at hr
      rw [hr] at hk'
      simp [mkSummit] at hk'
    · split at hr
      · simp only [List.mem_singleton] at hr
        rw [hr] at hk'
        simp [mkSaddle] at hk'
      · cases hr

/-- Here the saddle of height 5 records two cells of height 9. -/
example : ((analyze (DataMap.ofRows [[1, 1, 5, 5, 1, 1], [1, 9, 5, 5, 9, 1], [1, 1, 1, 1, 1, 1]]) (fun _ => exOracle)
    (DataMap.ofRows [[1, 1, 5, 5, 1, 1], [1, 9, 5, 5, 9, 1], [1, 1, 1, 1, 1, 1]]).cells).toOption.map fun D =>
    (D.saddles.filterMap fun f => if f.elevation = 5 then f.multipoint else none, D.runoffs.map fun f => f.edgePoints)) =
    some ([[⟨0, 3, none⟩, ⟨1, 3, none⟩, ⟨1, 2, none⟩, ⟨0, 2, none⟩, ⟨1, 4, some 9⟩, ⟨1, 1, some 9⟩]],
      [[⟨0, 3, 5⟩, ⟨0, 2, 5⟩]]) := by
  decide +kernel

end PyProm
