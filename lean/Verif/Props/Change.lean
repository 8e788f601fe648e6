import Verif.Spec.Change
import Verif.Props.Turned

/-
C118: a change of heights has local effects
-/
namespace PyProm
open Spec

section
variable {d d' : DataMap} (F : SameFrame d d')
include F

theorem frame_inB (p : Pt) : InB d' p ↔ InB d p := by
  unfold InB
  rw [F.maxX, F.maxY]

theorem frame_border (p : Pt) : Border d' p ↔ Border d p := by
  unfold Border
  rw [F.maxX, F.maxY]

theorem frame_data {p : Pt} (h : ¬ Changed d d' p) : Data d' p ↔ Data d p := by
  unfold Data
  rw [frame_inB F, F.nodata]
  refine and_congr_right fun hb => ?_
  rw [not_not.1 fun c => h ⟨hb, c⟩]

omit F in
theorem frame_el {p : Pt} (h : ¬ Changed d d' p) (hb : InB d p) : el d' p = el d p := not_not.1 fun c => h ⟨hb, c⟩

theorem Spec.SameFrame.symm : SameFrame d' d :=
  ⟨F.maxX.symm, F.maxY.symm, F.nodata.symm, F.gt0.symm, F.gt1.symm, F.gt2.symm, F.gt3.symm, F.gt4.symm, F.gt5.symm, F.fl.symm⟩

theorem changed_symm {p : Pt} : Changed d' d p ↔ Changed d d' p := by
  unfold Changed
  rw [frame_inB F, ne_comm]

variable {q : Pt} (hq : Data d q) (hu : ¬ Touched d d' q)
include hq hu

omit F hq in
theorem untouched_at {m : Pt} (hm : Flat d q m) : ¬ Changed d d' m := fun c => hu ⟨m, hm, Or.inl c⟩

omit F hq in
theorem untouched_near {m r : Pt} (hm : Flat d q m) (ha : Adj m r) : ¬ Changed d d' r := fun c => hu ⟨m, hm, Or.inr ⟨r, ha, c⟩⟩

omit F in
theorem untouched_el {m : Pt} (hm : Flat d q m) : el d' m = el d m :=
  frame_el (untouched_at hu hm) (hm.data hq).1

theorem untouched_flat (m : Pt) : Flat d' q m ↔ Flat d q m := by
  constructor
  · intro h
    induction h with
    | refl => exact .refl
    | @tail b c _ h2 ih =>
      have nc := untouched_near hu ih h2.1
      have hd := (frame_data F nc).1 h2.2.1
      refine ih.tail ⟨h2.1, hd, ?_⟩
      rw [← frame_el nc hd.1, h2.2.2, untouched_el hq hu ih]
  · intro h
    induction h with
    | refl => exact .refl
    | @tail b c h1 h2 ih =>
      refine ih.tail ⟨h2.1, (frame_data F (untouched_near hu h1 h2.1)).2 h2.2.1, ?_⟩
      rw [untouched_el hq hu (h1.tail h2), h2.2.2, untouched_el hq hu h1]

theorem untouched_rim (r : Pt) : Rim d' q r ∧ el d' r = el d r ↔ Rim d q r ∧ el d' r = el d r := by
  unfold Rim
  constructor
  · rintro ⟨⟨h1, h2, m, h3, h4⟩, h5⟩
    rw [untouched_flat F hq hu] at h3
    rw [h5, untouched_el hq hu .refl] at h2
    exact ⟨⟨(frame_data F (untouched_near hu h3 h4)).1 h1, h2, m, h3, h4⟩, h5⟩
  · rintro ⟨⟨h1, h2, m, h3, h4⟩, h5⟩
    refine ⟨⟨(frame_data F (untouched_near hu h3 h4)).2 h1, ?_, m, (untouched_flat F hq hu m).2 h3, h4⟩, h5⟩
    rw [h5, untouched_el hq hu .refl]
    exact h2

omit F hq in
theorem rim_el {r : Pt} (h : Rim d q r) : el d' r = el d r := by
  obtain ⟨h1, _, m, h3, h4⟩ := h
  exact frame_el (untouched_near hu h3 h4) h1.1

theorem rim_el' {r : Pt} (h : Rim d' q r) : el d' r = el d r := by
  obtain ⟨h1, _, m, h3, h4⟩ := h
  exact frame_el (untouched_near hu ((untouched_flat F hq hu m).1 h3) h4) ((frame_inB F r).1 h1.1)

theorem untouched_rim_iff (r : Pt) : Rim d' q r ↔ Rim d q r :=
  ⟨fun h => ((untouched_rim F hq hu r).1 ⟨h, rim_el' F hq hu h⟩).1, fun h => ((untouched_rim F hq hu r).2 ⟨h, rim_el hu h⟩).1⟩

theorem untouched_highRim (r : Pt) : HighRim d' q r ↔ HighRim d q r := by
  unfold HighRim
  rw [untouched_rim_iff F hq hu]
  refine and_congr_right fun h => ?_
  rw [rim_el hu h, untouched_el hq hu .refl]

theorem untouched_onBorder : OnBorder d' q ↔ OnBorder d q := by
  unfold OnBorder
  simp only [untouched_flat F hq hu, frame_border F]

theorem untouched_borderList (S : List P3) : BorderList d' q S ↔ BorderList d q S := by
  unfold BorderList
  refine and_congr_right fun _ => forall_congr' fun p => iff_congr Iff.rfl ?_
  rw [untouched_flat F hq hu, frame_border F]
  refine and_congr_right fun h => ?_
  rw [untouched_el hq hu h]

theorem untouched_highList (S : List P3) : HighList d' q S ↔ HighList d q S := by
  unfold HighList
  refine forall_congr' fun p => iff_congr Iff.rfl ?_
  rw [untouched_highRim F hq hu]
  refine and_congr_right fun h => ?_
  rw [rim_el hu h.1]

theorem untouched_borderRimList (S : List P3) : BorderRimList d' q S ↔ BorderRimList d q S := by
  unfold BorderRimList
  refine forall_congr' fun p => iff_congr Iff.rfl ?_
  rw [untouched_rim_iff F hq hu, frame_border F]
  refine and_congr_right fun h => ?_
  rw [rim_el hu h]

theorem untouched_area (mp : Option (List MPt)) : RecordsArea d' q mp ↔ RecordsArea d q mp := by
  unfold RecordsArea
  simp only [untouched_flat F hq hu]

omit hq hu in
theorem frame_latLon (a b : Int) : d'.xyToLatLon a b = d.xyToLatLon a b := by
  unfold DataMap.xyToLatLon
  rw [F.gt0, F.gt1, F.gt2, F.gt3, F.gt4, F.gt5, F.fl]

/-- What was reported for an untouched area after the change is what the area asks for before it. -/
theorem untouched_table {mp : Option (List MPt)} {fs : List Feature} {high lower str : List (List P3)} {bps : List P3}
    (t : RegionTable d' q mp fs high lower str bps) : RegionTable d q mp fs high lower str bps where
  isHigh := by
    obtain ⟨S, h1, h2⟩ := t.isHigh
    exact ⟨S, (untouched_highList F hq hu S).1 h1, h2⟩
  isLower := by
    obtain ⟨S, M, h1, h2, h3⟩ := t.isLower
    rw [untouched_el hq hu .refl] at h3
    exact ⟨S, M, (untouched_borderRimList F hq hu S).1 h1, h2, h3⟩
  isStr := by
    obtain ⟨S, h1, h2⟩ := t.isStr
    exact ⟨S, (untouched_borderList F hq hu S).1 h1, h2⟩
  isBps := (untouched_borderList F hq hu bps).1 t.isBps
  interior := by
    have := t.interior
    rwa [untouched_onBorder F hq hu, frame_latLon F, untouched_el hq hu .refl] at this
  borderSummit := by
    have := t.borderSummit
    rwa [untouched_onBorder F hq hu, frame_latLon F, untouched_el hq hu .refl] at this
  borderFew := by
    have := t.borderFew
    rwa [untouched_onBorder F hq hu, frame_latLon F, untouched_el hq hu .refl] at this
  borderMany := by
    have := t.borderMany
    have e : RunoffsFor d' q mp high = RunoffsFor d q mp high := by
      unfold RunoffsFor RunoffFor latOf lonOf
      rw [untouched_el hq hu .refl, F.gt0, F.gt1, F.gt2, F.gt3, F.gt4, F.gt5, F.fl]
    rwa [untouched_onBorder F hq hu, frame_latLon F, untouched_el hq hu .refl, e] at this

theorem untouched_symm : Data d' q ∧ ¬ Touched d' d q := by
  refine ⟨(frame_data F (untouched_at hu .refl)).2 hq, ?_⟩
  rintro ⟨m, h1, h2⟩
  rw [untouched_flat F hq hu] at h1
  rcases h2 with h2 | ⟨r, h2, h3⟩
  · exact untouched_at hu h1 ((changed_symm F).1 h2)
  · exact untouched_near hu h1 h2 ((changed_symm F).1 h3)

end

theorem touched_flat {d d' : DataMap} {p q : Pt} (hp : Data d p) (h : Flat d p q) : Touched d d' q ↔ Touched d d' p :=
  ⟨fun ⟨m, h1, h2⟩ => ⟨m, h.trans h1, h2⟩, fun ⟨m, h1, h2⟩ => ⟨m, (h.symm hp).trans h1, h2⟩⟩

/-- Everything reported for an area is located in it. -/
theorem table_located {d : DataMap} {q : Pt} (hq : Data d q) {mp : Option (List MPt)} {fs : List Feature}
    {high lower str : List (List P3)} {bps : List P3} (t : RegionTable d q mp fs high lower str bps) :
    ∀ f ∈ fs, ∃ s, Flat d q s ∧ LocatedAt d s f := by
  have here : ∀ f : Feature, (f.lat, f.lon) = d.xyToLatLon q.1 q.2 → f.elevation = el d q → ∃ s, Flat d q s ∧ LocatedAt d s f :=
    fun f h1 h2 => ⟨q, .refl, congrArg Prod.fst h1, congrArg Prod.snd h1, h2⟩
  intro f hf
  by_cases hb : OnBorder d q
  · by_cases hh : high = []
    · rw [t.borderSummit hb hh] at hf
      simp only [List.mem_cons, List.not_mem_nil, or_false] at hf
      rcases hf with rfl | rfl <;> exact here _ rfl rfl
    · by_cases hl : lower.length ≤ 1
      · rw [t.borderFew hb hh hl] at hf
        split at hf
        · rw [List.mem_singleton.1 hf]
          exact here _ rfl rfl
        · exact nomatch hf
      · obtain ⟨cs, rs, rem, h1, h2, _, _, h5⟩ := t.borderMany hb hh (by omega)
        rw [h5, List.mem_append] at hf
        rcases hf with hf | hf
        · obtain ⟨k, hk⟩ := List.getElem?_of_mem hf
          have hlen := h2.length_eq
          have hkl := lt_of_getElem? hk
          rw [← hlen] at hkl
          obtain ⟨g, g1, g2, _⟩ := forall₂_getElem? h2 (List.getElem?_eq_getElem hkl)
          rw [hk] at g1
          cases g1
          obtain ⟨_, e, _, _, _, mid, m1, m2, m3⟩ := g2
          obtain ⟨S, s1, s2⟩ := t.isStr
          have hc := (List.mem_filter.1 (h1.mem_iff.1 (List.getElem_mem hkl))).1
          have hm : mid ∈ S := (s2.mem mid).1 (List.mem_flatten.2 ⟨_, hc, List.mem_of_getElem? m1⟩)
          have := ((s1.2 mid).1 hm).1
          exact ⟨mid.xy, this, m2, m3, by rw [e, (flat_data hq this).2]⟩
        · split at hf
          · rw [List.mem_singleton.1 hf]
            split <;> exact here _ rfl rfl
          · exact nomatch hf
  · rw [t.interior hb] at hf
    split at hf
    · rw [List.mem_singleton.1 hf]
      exact here _ rfl rfl
    · split at hf
      · rw [List.mem_singleton.1 hf]
        exact here _ rfl rfl
      · exact nomatch hf

theorem turned_refl (d : DataMap) : Turned id d d where
  inj _ _ h := h
  onto q := ⟨q, rfl⟩
  adj _ _ := Iff.rfl
  inB _ := Iff.rfl
  border _ := Iff.rfl
  el _ := rfl
  nodata := rfl
  lat _ := rfl
  lon _ := rfl

/-- C118: if heights are changed in some cells, the analysis reports the same summits, saddles and runoffs before and after, apart from
those at flat areas that contain or touch changed cells: as many of them, for the same cells, with the same heights, edge flags,
edge points and higher neighbourhoods; whatever the order of the scans, and whatever order the sets are iterated in. -/
theorem C118_found (d d' : DataMap) (F : SameFrame d d') (o o' : Pt → Oracle) (order order' : List Pt) (ho : IsScan d order)
    (ho' : IsScan d' order') :
    ∃ D D', analyze d o order = .ok D ∧ analyze d' o' order' = .ok D' ∧
      SameApart (SameTurned id d) d d' D.summits D'.summits ∧ SameApart (SameTurned id d) d d' D.saddles D'.saddles ∧
      SameApart (SameOutlet id) d d' D.runoffs D'.runoffs := by
  classical
  obtain ⟨regs, _, c1, k1, _, _, _, e1⟩ := analyze_met d o order ho
  obtain ⟨regs', _, c2, k2, _, _, _, e2⟩ := analyze_met d' o' order' ho'
  refine ⟨_, _, e1, e2, ?_⟩
  have apart := once_eq c1.once fun a ha b _ h => h.symm (c1.data a ha)
  have apart' := once_eq c2.once fun a ha b _ h => h.symm (c2.data a ha)
  have over : ∀ r ∈ regs, ¬ Touched d d' r.site → ∀ r' ∈ regs', Flat d r.site r'.site → Data d r'.site ∧ ¬ Touched d d' r'.site ∧
      ¬ Touched d' d r'.site := by
    intro r hr hu r' hr' hf
    have hd := hf.data (c1.data r hr)
    have hu' : ¬ Touched d d' r'.site := fun c => hu ((touched_flat (c1.data r hr) hf).1 c)
    exact ⟨hd, hu', (untouched_symm F hd hu').2⟩
  have hm : Matched (fun r r' : Region => r ∈ regs ∧ r' ∈ regs' ∧ Flat d r.site r'.site ∧ ¬ Touched d d' r.site)
      (regs.filter fun r => ¬ Touched d d' r.site) (regs'.filter fun r => ¬ Touched d' d r.site) := by
    have n1 : regs.Nodup := c1.once.imp fun {a b} h (e : a = b) => h (e ▸ .refl)
    have n2 : regs'.Nodup := c2.once.imp fun {a b} h (e : a = b) => h (e ▸ .refl)
    refine matched_of_classes (n1.filter _) (n2.filter _) ?_ ?_ ?_ ?_
    · intro a ha
      obtain ⟨ha, hu⟩ := List.mem_filter.1 ha
      have hu := of_decide_eq_true hu
      have hs := untouched_symm F (c1.data a ha) hu
      obtain ⟨b, hb, hf⟩ := c2.all a.site hs.1
      have hf' := (untouched_flat F (c1.data a ha) hu _).1 (hf.symm (c2.data b hb))
      exact ⟨b, List.mem_filter.2 ⟨hb, decide_eq_true (over a ha hu b hb hf').2.2⟩, ha, hb, hf', hu⟩
    · intro b hb
      obtain ⟨hb, hu⟩ := List.mem_filter.1 hb
      have hu := of_decide_eq_true hu
      have hs := untouched_symm F.symm (c2.data b hb) hu
      obtain ⟨a, ha, hf⟩ := c1.all b.site hs.1
      have hua : ¬ Touched d d' a.site := fun c => hs.2 ((touched_flat (c1.data a ha) hf).2 c)
      exact ⟨a, List.mem_filter.2 ⟨ha, decide_eq_true hua⟩, ha, hb, hf, hua⟩
    · intro a ha a' ha' b hb h1 h2
      exact apart a h1.1 a' h2.1 (h1.2.2.1.trans (h2.2.2.1.symm (c1.data a' h2.1)))
    · intro a ha b hb b' hb' h1 h2
      refine apart' b h1.2.1 b' h2.2.1 ?_
      have hf := (h1.2.2.1.symm (c1.data a h1.1)).trans h2.2.2.1
      have hs := over a h1.1 h1.2.2.2 b h1.2.1 h1.2.2.1
      exact (untouched_flat F hs.1 hs.2.1 _).2 hf
  have hf : Matched (SameFound id d) ((regs.filter fun r => ¬ Touched d d' r.site).flatMap Region.features)
      ((regs'.filter fun r => ¬ Touched d' d r.site).flatMap Region.features) := by
    refine hm.flatMap _ _ fun r r' ⟨h1, h2, h3, h4⟩ => ?_
    obtain ⟨a1, _, _, _, _, _, a2, a3⟩ := k1 r h1
    obtain ⟨_, _, _, _, _, _, b2, b3⟩ := k2 r' h2
    have hs := over r h1 h4 r' h2 h3
    exact features_turned (turned_refl d) ⟨a1, h3⟩ a2 ((untouched_area F hs.1 hs.2.1 _).1 b2) a3 (untouched_table F hs.1 hs.2.1 b3)
  have put : ∀ {R : Feature → Feature → Prop} (k : Kind), (∀ f g, f.kind = k → SameFound id d f g → R f g) →
      SameApart R d d' ((regs.flatMap Region.features).filter fun f => f.kind = k)
        ((regs'.flatMap Region.features).filter fun f => f.kind = k) := by
    intro R k hR
    refine ⟨_, _, ((regs.filter fun r => !decide ¬ Touched d d' r.site).flatMap Region.features).filter fun f => f.kind = k,
      ((regs'.filter fun r => !decide ¬ Touched d' d r.site).flatMap Region.features).filter fun f => f.kind = k, ?_, ?_,
      (hf.filter (p := fun f => decide (f.kind = k)) (q := fun f => decide (f.kind = k)) fun a b hab => by
        rw [decide_eq_true_eq, decide_eq_true_eq, hab.1.kind]).imp
        fun a ha b _ h => hR a b (of_decide_eq_true (List.mem_filter.1 ha).2) h, ?_, ?_, ?_, ?_⟩
    · rw [← List.filter_append, ← List.flatMap_append]
      exact ((List.filter_append_perm _ _).symm.flatMap_right _).filter _
    · rw [← List.filter_append, ← List.flatMap_append]
      exact ((List.filter_append_perm _ _).symm.flatMap_right _).filter _
    all_goals
      intro f hf
      obtain ⟨r, hr, hfr⟩ := List.mem_flatMap.1 (List.mem_filter.1 hf).1
      obtain ⟨hr, hu⟩ := List.mem_filter.1 hr
    · obtain ⟨a1, _, _, _, _, _, _, a3⟩ := k1 r hr
      obtain ⟨s, s1, s2⟩ := table_located a1 a3 f hfr
      exact ⟨s, s2, s1.data a1, fun c => of_decide_eq_true hu ((touched_flat a1 s1).1 c)⟩
    · obtain ⟨a1, _, _, _, _, _, _, a3⟩ := k1 r hr
      obtain ⟨s, s1, s2⟩ := table_located a1 a3 f hfr
      exact ⟨s, s2, s1.data a1, (touched_flat a1 s1).2 (by simpa using hu)⟩
    · obtain ⟨a1, _, _, _, _, _, _, a3⟩ := k2 r hr
      obtain ⟨s, s1, s2⟩ := table_located a1 a3 f hfr
      exact ⟨s, s2, s1.data a1, fun c => of_decide_eq_true hu ((touched_flat a1 s1).1 c)⟩
    · obtain ⟨a1, _, _, _, _, _, _, a3⟩ := k2 r hr
      obtain ⟨s, s1, s2⟩ := table_located a1 a3 f hfr
      exact ⟨s, s2, s1.data a1, (touched_flat a1 s1).2 (by simpa using hu)⟩
  exact ⟨put .summit fun f g hk h => h.2 (by rw [hk]; decide), put .saddle fun f g hk h => h.2 (by rw [hk]; decide),
    put .runoff fun f g _ h => h.1⟩

/-! ### Instances -/

/-- A ridge that rises from a saddle to the east, and the same with a gap. -/
def exRidge : DataMap := DataMap.ofRows [[0, 0, 0, 0, 0, 0, 0, 0], [0, 5, 3, 4, 5, 6, 7, 0], [0, 0, 0, 0, 0, 0, 0, 0]]
def exGap : DataMap := DataMap.ofRows [[0, 0, 0, 0, 0, 0, 0, 0], [0, 5, 3, 4, 2, 6, 7, 0], [0, 0, 0, 0, 0, 0, 0, 0]]

theorem exRidge_frame : SameFrame exRidge exGap := ⟨rfl, rfl, rfl, rfl, rfl, rfl, rfl, rfl, rfl, rfl⟩

/-- The gap is a changed cell; the saddle west of it is not affected. -/
theorem exRidge_changed : Changed exRidge exGap (1, 4) ∧ Data exRidge (1, 2) ∧ ¬ Touched exRidge exGap (1, 2) := by
  have h : ∀ p ∈ exRidge.cells, (el exGap p = el exRidge p ∨ p = (1, 4)) ∧ (el exRidge p = el exRidge (1, 2) → p = (1, 2)) := by
    decide +kernel
  have hd : Data exRidge (1, 2) := by unfold Spec.Data Spec.InB; decide +kernel
  have hc : ∀ p, Changed exRidge exGap p → p = (1, 4) := fun p hp =>
    ((h p ((mem_cells _ p).2 hp.1)).1).resolve_left hp.2
  refine ⟨by unfold Spec.Changed Spec.InB; decide +kernel, hd, ?_⟩
  rintro ⟨m, h1, h2⟩
  have hm := flat_data hd h1
  obtain rfl := (h m ((mem_cells _ m).2 hm.1.1)).2 hm.2
  rcases h2 with h2 | ⟨r, h2, h3⟩
  · exact absurd (hc _ h2) (by decide)
  · rw [hc _ h3] at h2
    exact absurd h2.2.2.2.2 (by decide)

/-- The features of the ridge before and after: the gap adds a saddle and a summit beside it. -/
example : ((analyze exRidge (fun _ => exOracle) exRidge.cells).toOption.map fun D =>
      (D.summits.map fun f => (f.lat, f.lon, f.elevation), D.saddles.map fun f => (f.lat, f.lon, f.elevation))) =
      some ([(-1, 1, 5), (-1, 6, 7)], [(-1, 2, 3)]) ∧
    ((analyze exGap (fun _ => exOracle) exGap.cells).toOption.map fun D =>
      (D.summits.map fun f => (f.lat, f.lon, f.elevation), D.saddles.map fun f => (f.lat, f.lon, f.elevation))) =
      some ([(-1, 1, 5), (-1, 3, 4), (-1, 6, 7)], [(-1, 2, 3), (-1, 4, 2)]) := by
  decide +kernel

/-- The limit of C118: only discovery is local. The saddle west of the gap is not affected by it, but linked to another summit: the walk
up from it goes far. -/
theorem C118_only_discovery : ∃ (d d' : DataMap) (s : Pt) (m m' : DMap), SameFrame d d' ∧ Data d s ∧ ¬ Touched d d' s ∧
    RunOk (exRun d) ∧ RunOk (exRun d') ∧ d.xyToLatLon s.1 s.2 = (-1, 2) ∧
    DMap.runSparse (exRun d) (fun _ => exOracle) d.cells false = .ok m ∧
    DMap.runSparse (exRun d') (fun _ => exOracle) d'.cells false = .ok m' ∧
    ((-1, 2), (-1, 6)) ∈ m.linkedPlaces ∧ ((-1, 2), (-1, 6)) ∉ m'.linkedPlaces := by
  have h1 : (DMap.runSparse (exRun exRidge) (fun _ => exOracle) exRidge.cells false).toOption.map DMap.linkedPlaces =
      some [((-1, 2), -1, 6), ((-1, 2), -1, 1)] := by decide +kernel
  have h2 : (DMap.runSparse (exRun exGap) (fun _ => exOracle) exGap.cells false).toOption.map DMap.linkedPlaces =
      some [((-1, 2), -1, 3), ((-1, 2), -1, 1), ((-1, 4), -1, 6), ((-1, 4), -1, 3)] := by decide +kernel
  cases e1 : DMap.runSparse (exRun exRidge) (fun _ => exOracle) exRidge.cells false with
  | error x => rw [e1] at h1; cases h1
  | ok m =>
    cases e2 : DMap.runSparse (exRun exGap) (fun _ => exOracle) exGap.cells false with
    | error x => rw [e2] at h2; cases h2
    | ok m' =>
      rw [e1] at h1
      rw [e2] at h2
      refine ⟨exRidge, exGap, (1, 2), m, m', exRidge_frame, exRidge_changed.2.1, exRidge_changed.2.2,
        exRun_plain _ (by unfold maxsize; decide +kernel), exRun_plain _ (by unfold maxsize; decide +kernel), by decide +kernel, e1, e2, ?_, ?_⟩
      · rw [Option.some.inj h1]
        decide +kernel
      · rw [Option.some.inj h2]
        decide +kernel

end PyProm
