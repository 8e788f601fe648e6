import Verif.Proof.Turned
import Verif.Props.Prominence
import Mathlib.Tactic.Ring

/-! C112: which way up a raster is stored. -/
namespace PyProm
open Spec

/-! ### Ways of storing a terrain -/

theorem turned_upsideDown (d : DataMap) (he : ∀ r, d.fl r = r) : Turned (fun p => (d.maxX - p.1, p.2)) d (upsideDown d) where
  inj := fun p q h => by
    simp only [Prod.mk.injEq] at h
    exact Prod.ext (by omega) h.2
  onto := fun q => ⟨(d.maxX - q.1, q.2), Prod.ext (by simp) rfl⟩
  adj := fun p q => by
    unfold Adj
    simp only [ne_eq, Prod.ext_iff]
    omega
  inB := fun p => by
    unfold InB upsideDown
    dsimp only
    omega
  border := fun p => by
    unfold Border upsideDown
    dsimp only
    omega
  el := fun p => by
    unfold el upsideDown
    simp
  nodata := rfl
  lat := fun p => by
    simp only [latOf, upsideDown, he]
    push_cast
    ring
  lon := fun p => by
    simp only [lonOf, upsideDown, he]
    push_cast
    ring

theorem turned_leftRight (d : DataMap) (he : ∀ r, d.fl r = r) : Turned (fun p => (p.1, d.maxY - p.2)) d (leftRight d) where
  inj := fun p q h => by
    simp only [Prod.mk.injEq] at h
    exact Prod.ext h.1 (by omega)
  onto := fun q => ⟨(q.1, d.maxY - q.2), Prod.ext rfl (by simp)⟩
  adj := fun p q => by
    unfold Adj
    simp only [ne_eq, Prod.ext_iff]
    omega
  inB := fun p => by
    unfold InB leftRight
    dsimp only
    omega
  border := fun p => by
    unfold Border leftRight
    dsimp only
    omega
  el := fun p => by
    unfold el leftRight
    simp
  nodata := rfl
  lat := fun p => by
    simp only [latOf, leftRight, he]
    push_cast
    ring
  lon := fun p => by
    simp only [lonOf, leftRight, he]
    push_cast
    ring

theorem turned_transposed (d : DataMap) (he : ∀ r, d.fl r = r) : Turned Prod.swap d (transposed d) where
  inj := fun p q h => Prod.swap_injective h
  onto := fun q => ⟨q.swap, q.swap_swap⟩
  adj := fun p q => by
    unfold Adj
    simp only [ne_eq, Prod.ext_iff, Prod.fst_swap, Prod.snd_swap]
    omega
  inB := fun p => by
    unfold InB transposed
    simp only [Prod.fst_swap, Prod.snd_swap]
    omega
  border := fun p => by
    unfold Border transposed
    simp only [Prod.fst_swap, Prod.snd_swap]
    omega
  el := fun p => rfl
  nodata := rfl
  lat := fun p => by
    simp only [latOf, transposed, he, Prod.fst_swap, Prod.snd_swap]
    ring
  lon := fun p => by
    simp only [lonOf, transposed, he, Prod.fst_swap, Prod.snd_swap]
    ring

/-- One after the other. -/
theorem Spec.Turned.comp {σ τ : Pt → Pt} {d d' d'' : DataMap} (s : Turned σ d d') (t : Turned τ d' d'') :
    Turned (fun p => τ (σ p)) d d'' where
  inj := fun p q h => s.inj _ _ (t.inj _ _ h)
  onto := fun q => by
    obtain ⟨r, rfl⟩ := t.onto q
    obtain ⟨p, rfl⟩ := s.onto r
    exact ⟨p, rfl⟩
  adj := fun p q => (t.adj _ _).trans (s.adj _ _)
  inB := fun p => (t.inB _).trans (s.inB _)
  border := fun p => (t.border _).trans (s.border _)
  el := fun p => (t.el _).trans (s.el _)
  nodata := t.nodata.trans s.nodata
  lat := fun p => (t.lat _).trans (s.lat _)
  lon := fun p => (t.lon _).trans (s.lon _)

/-! ### C112 -/

/-- C112: it does not matter which way up a raster is stored. If two rasters hold the same terrain, with cells stored in another
arrangement at the same places, their analyses report the same summits and saddles: for the same cells, at one of these cells,
with the same heights, edge flags, edge points and higher neighbourhoods; and runoffs for the same border points. This holds
whatever the order of the scans, and whatever order the sets are iterated in and whatever the path searches return. -/
theorem C112_found (σ : Pt → Pt) (d d' : DataMap) (t : Turned σ d d') (o o' : Pt → Oracle) (order order' : List Pt)
    (ho : IsScan d order) (ho' : IsScan d' order') :
    ∃ D D', analyze d o order = .ok D ∧ analyze d' o' order' = .ok D' ∧
      Matched (SameTurned σ d) D.summits D'.summits ∧ Matched (SameTurned σ d) D.saddles D'.saddles ∧
      Matched (SameOutlet σ) D.runoffs D'.runoffs := by
  obtain ⟨regs, _, c1, k1, _, _, _, e1⟩ := analyze_met d o order ho
  obtain ⟨regs', _, c2, k2, _, _, _, e2⟩ := analyze_met d' o' order' ho'
  refine ⟨_, _, e1, e2, ?_⟩
  have apart := once_eq c1.once fun a ha b _ h => h.symm (c1.data a ha)
  have apart' := once_eq c2.once fun a ha b _ h => h.symm (c2.data a ha)
  have hm : Matched (fun r r' : Region => r ∈ regs ∧ r' ∈ regs' ∧ Flat d' (σ r.site) r'.site) regs regs' := by
    refine matched_of_classes (c1.once.imp fun {a b} h (e : a = b) => h (e ▸ .refl))
      (c2.once.imp fun {a b} h (e : a = b) => h (e ▸ .refl)) ?_ ?_ ?_ ?_
    · intro a ha
      obtain ⟨b, hb, hf⟩ := c2.all (σ a.site) ((data_turned t _).2 (c1.data a ha))
      exact ⟨b, hb, ha, hb, hf.symm (c2.data b hb)⟩
    · intro b hb
      obtain ⟨p, hp⟩ := t.onto b.site
      obtain ⟨a, ha, hf⟩ := c1.all p ((data_turned t _).1 (hp ▸ c2.data b hb))
      exact ⟨a, ha, ha, hb, hp ▸ (flat_turned t _ _).2 hf⟩
    · intro a ha a' ha' b hb h1 h2
      exact apart a ha a' ha' ((flat_turned t _ _).1 (h1.2.2.trans (h2.2.2.symm ((data_turned t _).2 (c1.data a' ha')))))
    · intro a ha b hb b' hb' h1 h2
      exact apart' b hb b' hb' ((h1.2.2.symm ((data_turned t _).2 (c1.data a ha))).trans h2.2.2)
  have hf : Matched (SameFound σ d) (regs.flatMap Region.features) (regs'.flatMap Region.features) := by
    refine hm.flatMap _ _ fun r r' ⟨h1, h2, h3⟩ => ?_
    obtain ⟨a1, _, _, _, _, _, a2, a3⟩ := k1 r h1
    obtain ⟨_, _, _, _, _, _, b2, b3⟩ := k2 r' h2
    exact features_turned t ⟨a1, h3⟩ a2 b2 a3 b3
  have pick : ∀ k : Kind, Matched (SameFound σ d) ((regs.flatMap Region.features).filter fun f => f.kind = k)
      ((regs'.flatMap Region.features).filter fun f => f.kind = k) :=
    fun k => hf.filter fun a b hab => by rw [decide_eq_true_eq, decide_eq_true_eq, hab.1.kind]
  refine ⟨(pick .summit).imp fun a ha _ _ h => h.2 ?_, (pick .saddle).imp fun a ha _ _ h => h.2 ?_,
    (pick .runoff).imp fun a ha _ _ h => h.1⟩
  · rw [of_decide_eq_true (List.mem_filter.1 ha).2]
    decide
  · rw [of_decide_eq_true (List.mem_filter.1 ha).2]
    decide

section
variable {σ : Pt → Pt} {d d' : DataMap} (t : Turned σ d d')
include t

theorem passable_turned (h : Rat) (p q : Pt) : Passable d' h (σ p) (σ q) ↔ Passable d h p q := by
  unfold Passable
  rw [data_turned t, t.el, star_turned t (R := fun a b => Adj a b ∧ Data d b ∧ h ≤ el d b) fun a b => by
    rw [t.adj, data_turned t, t.el]]

omit t in
theorem flat_way {h : Rat} {p q : Pt} (hp : Data d p) (hh : h ≤ el d p) (hf : Flat d p q) : Passable d h p q := by
  refine ⟨hp, hh, ?_⟩
  induction hf with
  | refl => exact .refl
  | tail h1 h2 ih =>
    refine ih.tail ⟨h2.1, h2.2.1, ?_⟩
    rw [h2.2.2, (flat_data hp h1).2]
    exact hh

omit t in
theorem passable_flat {h : Rat} {p q r : Pt} (hp : Data d p) (hf : Flat d p q) : Passable d h q r ↔ Passable d h p r := by
  have e := (flat_data hp hf).2
  constructor
  · intro g
    exact (flat_way hp (e ▸ g.2.1) hf).trans g
  · intro g
    exact (flat_way hp g.2.1 hf).symm.trans g

/-- Ways between corresponding areas. -/
theorem areaOf_passable {p p' q q' : Pt} (hp : AreaOf σ d d' p p') (hq : AreaOf σ d d' q q') (h : Rat) :
    Passable d' h p' q' ↔ Passable d h p q := by
  rw [passable_flat ((data_turned t p).2 hp.data) hp.flat, ← passable_turned t]
  constructor
  · exact fun g => ((passable_flat ((data_turned t q).2 hq.data) hq.flat).1 g.symm).symm
  · exact fun g => ((passable_flat ((data_turned t q).2 hq.data) hq.flat).2 g.symm).symm

theorem areaOf_escapes {p p' : Pt} (hp : AreaOf σ d d' p p') (h : Rat) : Escapes d' p' h ↔ Escapes d p h := by
  unfold Escapes
  rw [areaOf_el t hp]
  constructor
  · rintro ⟨q, h1, h2⟩
    obtain ⟨q, rfl⟩ := t.onto q
    rw [t.el] at h1
    rw [passable_flat ((data_turned t p).2 hp.data) hp.flat, passable_turned t] at h2
    exact ⟨q, h1, h2⟩
  · rintro ⟨q, h1, h2⟩
    refine ⟨σ q, by rw [t.el]; exact h1, ?_⟩
    rw [passable_flat ((data_turned t p).2 hp.data) hp.flat, passable_turned t]
    exact h2

theorem areaOf_isTop {p p' : Pt} (hp : AreaOf σ d d' p p') : IsTop d' p' ↔ IsTop d p := by
  unfold Spec.IsTop
  constructor
  · intro g r hr
    exact g (σ r) ((areaOf_highRim t hp r).2 hr)
  · intro g r hr
    obtain ⟨r, rfl⟩ := t.onto r
    exact g r ((areaOf_highRim t hp r).1 hr)

/-- The summits of the two maps, side by side. -/
theorem sites_turned {sites sites' : List Pt} {ss ss' : List Feature} (h : SummitsAt d sites ss) (h' : SummitsAt d' sites' ss') :
    ∃ π : Nat → Nat, (∀ (a : Nat) (p : Pt), sites[a]? = some p → ∃ p', sites'[π a]? = some p' ∧ AreaOf σ d d' p p') ∧
      (∀ (b : Nat) (p' : Pt), sites'[b]? = some p' → ∃ (a : Nat) (p : Pt), sites[a]? = some p ∧ π a = b) ∧
      ∀ (a b : Nat) (p q : Pt), sites[a]? = some p → sites[b]? = some q → π a = π b → a = b := by
  have h1 : ∀ a : Nat, ∃ b : Nat, ∀ p : Pt, sites[a]? = some p → ∃ p', sites'[b]? = some p' ∧ AreaOf σ d d' p p' := by
    intro a
    cases ha : sites[a]? with
    | none => exact ⟨0, fun _ c => nomatch c⟩
    | some p =>
      obtain ⟨hd, ht⟩ := h.top p (List.mem_of_getElem? ha)
      obtain ⟨q', hq', hf⟩ := h'.all (σ p) ((data_turned t p).2 hd) ((areaOf_isTop t ⟨hd, .refl⟩).2 ht)
      obtain ⟨b, hb⟩ := List.getElem?_of_mem hq'
      refine ⟨b, fun p2 e => ?_⟩
      cases e
      exact ⟨q', hb, hd, hf.symm (h'.top q' hq').1⟩
  choose π hπ using h1
  have inj : ∀ {e : DataMap} {l : List Pt} {k : List Feature}, SummitsAt e l k → ∀ (a b : Nat) (p q : Pt), l[a]? = some p →
      l[b]? = some q → Flat e p q → a = b := by
    intro e l k g a b p q ha hb hf
    have := once_eq g.once (fun a ha b _ h => h.symm (g.top a ha).1) p (List.mem_of_getElem? ha) q (List.mem_of_getElem? hb) hf
    subst this
    have hn : l.Nodup := g.once.imp fun {a b} h (e : a = b) => h (e ▸ .refl)
    exact (List.getElem?_inj (lt_of_getElem? ha) hn).1 (ha.trans hb.symm)
  refine ⟨π, hπ, ?_, ?_⟩
  · intro b p' hb
    obtain ⟨p, rfl⟩ := t.onto p'
    obtain ⟨hd, ht⟩ := h'.top _ (List.mem_of_getElem? hb)
    rw [data_turned t] at hd
    obtain ⟨q, hq, hf⟩ := h.all p hd ((areaOf_isTop t ⟨hd, .refl⟩).1 ht)
    obtain ⟨a, ha⟩ := List.getElem?_of_mem hq
    obtain ⟨q', hq', hA⟩ := hπ a q ha
    refine ⟨a, q, ha, inj h' _ _ _ _ hq' hb ?_⟩
    exact (areaOf_flat t hA p).2 hf
  · intro a b p q ha hb e
    obtain ⟨p', hp', hA⟩ := hπ a p ha
    obtain ⟨q', hq', hB⟩ := hπ b q hb
    rw [e] at hp'
    cases (hp'.symm.trans hq' : some _ = some _)
    exact inj h _ _ _ _ ha hb ((areaOf_flat t hA q).1 (hB.flat.symm ((data_turned t q).2 hB.data)))

end

theorem located_cell {d : DataMap} (hg : Findable d) {p q : Pt} {f : Feature} (ip : InB d p) (iq : InB d q)
    (hp : LocatedAt d p f) (hq : LocatedAt d q f) : p = q :=
  Option.some.inj ((located_xy hg ip hp).symm.trans (located_xy hg iq hq))

theorem sites_same {d : DataMap} (hg : Findable d) {sites sites' : List Pt} {ss : List Feature} (h : SummitsAt d sites ss)
    (h' : SummitsAt d sites' ss) : sites = sites' := by
  have h1 := h.each
  have h2 := h'.each
  have t1 := fun q hq => (h.top q hq).1.1
  have t2 := fun q hq => (h'.top q hq).1.1
  clear h h'
  induction h1 generalizing sites' with
  | nil =>
    cases h2
    rfl
  | cons a _ ih =>
    cases h2 with
    | cons b h2 =>
      rw [located_cell hg (t1 _ (by simp)) (t2 _ (by simp)) a.located b.located,
        ih h2 (fun q hq => t1 q (by simp [hq])) fun q hq => t2 q (by simp [hq])]

/-- The summits of corresponding areas. -/
theorem sameTop_of {σ : Pt → Pt} {d d' : DataMap} (t : Turned σ d d') {p p' : Pt} {f g : Feature} (hA : AreaOf σ d d' p p')
    (hf : SummitFor d p f) (hg : SummitFor d' p' g) : SameTop σ d f g where
  kind := hg.kind.trans hf.kind.symm
  elevation := by rw [hf.located.2.2, hg.located.2.2, areaOf_el t hA]
  edge := by rw [Bool.eq_iff_iff, hf.edge, hg.edge, areaOf_onBorder t hA]
  cells := area_turned t hA hf.area hg.area
  edgePoints := border_turned t hA hf.edgePoints hg.edgePoints
  place := place_turned t hA (Prod.ext hf.located.1 hf.located.2.1) (Prod.ext hg.located.1 hg.located.2.1) hf.located.2.2
    hg.located.2.2

/-- C112, the network: the maps of the two rasters have the same summits, and two summits are connected in one map over live
saddles not lower than `h` exactly if they are in the other; a summit is connected to a higher one over live saddles not lower
than `h` exactly if it is in the other, so that its key col has the same height. Either map may be rebuilt or not, whatever the
choices of the runs. -/
theorem C112_network (σ : Pt → Pt) (E E' : SaddleEnv) (hE : RunOk E) (hE' : RunOk E') (t : Turned σ E.d E'.d)
    (o o' : Pt → Oracle) (order order' : List Pt) (ho : IsScan E.d order) (ho' : IsScan E'.d order') (rebuild rebuild' : Bool) :
    ∃ m m', DMap.runSparse E o order rebuild = .ok m ∧ DMap.runSparse E' o' order' rebuild' = .ok m' ∧ ∃ π : Nat → Nat,
      (∀ (a : Nat) f, m.summits[a]? = some f → ∃ g, m'.summits[π a]? = some g ∧ SameTop σ E.d f g) ∧
      (∀ b < m'.summits.length, ∃ a < m.summits.length, π a = b) ∧
      (∀ a < m.summits.length, ∀ b < m.summits.length, π a = π b → a = b) ∧
      (∀ (a b : Nat) f g, m.summits[a]? = some f → m.summits[b]? = some g → ∀ h ≤ f.elevation,
        (NetConnected m (LiveSaddle m) h a b ↔ NetConnected m' (LiveSaddle m') h (π a) (π b))) ∧
      ∀ (a : Nat) f, m.summits[a]? = some f → ∀ h, (∃ b, HigherSummit m a b ∧ NetConnected m (LiveSaddle m) h a b) ↔
        ∃ b, HigherSummit m' (π a) b ∧ NetConnected m' (LiveSaddle m') h (π a) b := by
  obtain ⟨m, sites, h1, h2, h3⟩ := C77_faithful E hE o order ho rebuild
  obtain ⟨m', sites', g1, g2, g3⟩ := C77_faithful E' hE' o' order' ho' rebuild'
  obtain ⟨m0, sites0, h1', h2', h4⟩ := C103_prominence E hE o order ho rebuild
  cases (h1'.symm.trans h1 : Except.ok _ = Except.ok _)
  obtain ⟨m0', sites0', g1', g2', g4⟩ := C103_prominence E' hE' o' order' ho' rebuild'
  cases (g1'.symm.trans g1 : Except.ok _ = Except.ok _)
  obtain rfl := sites_same hE.geo h2 h2'
  obtain rfl := sites_same hE'.geo g2 g2'
  obtain ⟨π, p1, p2, p3⟩ := sites_turned t h2 g2
  have len := h2.each.length_eq
  have len' := g2.each.length_eq
  have site : ∀ (a : Nat) (f : Feature), m.summits[a]? = some f → ∃ p, sites[a]? = some p ∧ SummitFor E.d p f := by
    intro a f ha
    have hl := lt_of_getElem? ha
    rw [← len] at hl
    obtain ⟨s, s1, s2⟩ := forall₂_getElem? h2.each (List.getElem?_eq_getElem hl)
    rw [ha] at s1
    cases s1
    exact ⟨_, List.getElem?_eq_getElem hl, s2⟩
  refine ⟨m, m', h1, g1, π, ?_, ?_, ?_, ?_, ?_⟩
  · intro a f ha
    obtain ⟨p, hp, hf⟩ := site a f ha
    obtain ⟨p', hp', hA⟩ := p1 a p hp
    obtain ⟨g, e1, e2⟩ := forall₂_getElem? g2.each hp'
    exact ⟨g, e1, sameTop_of t hA hf e2⟩
  · intro b hb
    rw [← len'] at hb
    obtain ⟨a, p, ha, e⟩ := p2 b _ (List.getElem?_eq_getElem hb)
    exact ⟨a, len ▸ lt_of_getElem? ha, e⟩
  · intro a ha b hb e
    rw [← len] at ha hb
    exact p3 a b _ _ (List.getElem?_eq_getElem ha) (List.getElem?_eq_getElem hb) e
  · intro a b f g ha hb h hh
    obtain ⟨p, hp, hf⟩ := site a f ha
    obtain ⟨q, hq, hg⟩ := site b g hb
    obtain ⟨p', hp', hA⟩ := p1 a p hp
    obtain ⟨q', hq', hB⟩ := p1 b q hq
    rw [hf.located.2.2] at hh
    rw [h3 h a b p q hp hq hh, g3 h _ _ p' q' hp' hq' (by rw [areaOf_el t hA]; exact hh), areaOf_passable t hA hB]
  · intro a f ha h
    obtain ⟨p, hp, hf⟩ := site a f ha
    obtain ⟨p', hp', hA⟩ := p1 a p hp
    rw [← (h4 a p hp).1, ← (g4 _ p' hp').1, areaOf_escapes t hA]

/-! ### Instances -/

/-- A summit and a ridge that leads to two others, equally steep. -/
def exFork : List (List Rat) :=
  [[0, 0, 0, 0, 0, 0], [0, 0, 0, 0, 5, 0], [0, 8, 1, 2, 0, 0], [0, 0, 0, 0, 5, 0], [0, 0, 0, 0, 0, 0]]

theorem exFork_ok : RunOk (exRun (DataMap.ofRows exFork)) ∧ RunOk (exRun (upsideDown (DataMap.ofRows exFork))) :=
  ⟨exRun_plain _ (by unfold maxsize; decide +kernel),
    exRun_ok _ (by intro v hv; simp [upsideDown, DataMap.ofRows] at hv)
      ⟨by simp [upsideDown, DataMap.ofRows], by simp [upsideDown, DataMap.ofRows], by simp [upsideDown, DataMap.ofRows],
        by simp [upsideDown, DataMap.ofRows], fun _ => rfl⟩ (by unfold maxsize; decide +kernel)⟩

/-- The ridge, stored with rows from south to north: two maps with the same summits and connections. -/
example : ∃ m m', exMap exFork false = .ok m ∧ DMap.runSparse (exRun (upsideDown (DataMap.ofRows exFork))) (fun _ => exOracle)
      (upsideDown (DataMap.ofRows exFork)).cells true = .ok m' ∧ ∃ π : Nat → Nat,
      ∀ (a b : Nat) f g, m.summits[a]? = some f → m.summits[b]? = some g → ∀ h ≤ f.elevation,
        (NetConnected m (LiveSaddle m) h a b ↔ NetConnected m' (LiveSaddle m') h (π a) (π b)) := by
  obtain ⟨m, m', h1, h2, π, _, _, _, h3, _⟩ := C112_network _ _ _ exFork_ok.1 exFork_ok.2 (turned_upsideDown _ fun _ => rfl)
    (fun _ => exOracle) (fun _ => exOracle) _ _ (isScan_cells _) (isScan_cells _) false true
  exact ⟨m, m', h1, h2, π, h3⟩

/-- The ridge has three summits and saddles at two places; rows from south to north and columns from east to west, and rows and
columns exchanged, so have these. -/
example : ((analyze (DataMap.ofRows exFork) (fun _ => exOracle) (DataMap.ofRows exFork).cells).toOption.map fun D =>
      (D.summits.map fun f => (f.lat, f.lon, f.elevation), (D.saddles.filter fun f => !f.edge).map fun f => (f.lat, f.lon))) =
      some ([(-1, 4, 5), (-2, 1, 8), (-3, 4, 5)], [(-2, 2), (-2, 3)]) ∧
    ((analyze (transposed (leftRight (DataMap.ofRows exFork))) (fun _ => exOracle)
        (transposed (leftRight (DataMap.ofRows exFork))).cells).toOption.map fun D =>
      (D.summits.map fun f => (f.lat, f.lon, f.elevation), (D.saddles.filter fun f => !f.edge).map fun f => (f.lat, f.lon))) =
      some ([(-1, 4, 5), (-3, 4, 5), (-2, 1, 8)], [(-2, 3), (-2, 2)]) := by
  decide +kernel

/-- The places of saddles and summits with a linker between them. -/
def DMap.linkedPlaces (m : DMap) : List ((Rat × Rat) × (Rat × Rat)) :=
  m.linkers.filterMap fun i => m.st.store[i]?.bind fun l => m.summits[l.summit]?.bind fun s =>
    m.st.objs[l.saddle]?.map fun o => ((o.f.lat, o.f.lon), (s.lat, s.lon))

/-- The limits of C112: single linkers can differ, since of equally steep ways up one is taken by its direction in the array. In the map of the ridge
stored from north to south the saddle west of the fork has a linker to the northern summit, stored from south to north to the
southern one. -/
theorem C112_only_connections : ∃ (d : DataMap) (m m' : DMap), RunOk (exRun d) ∧ RunOk (exRun (upsideDown d)) ∧
    DMap.runSparse (exRun d) (fun _ => exOracle) d.cells false = .ok m ∧
    DMap.runSparse (exRun (upsideDown d)) (fun _ => exOracle) (upsideDown d).cells false = .ok m' ∧
    ((-2, 2), (-1, 4)) ∈ m.linkedPlaces ∧ ((-2, 2), (-1, 4)) ∉ m'.linkedPlaces := by
  have h1 : (exMap exFork false).toOption.map DMap.linkedPlaces =
      some [((-2, 2), (-1, 4)), ((-2, 2), (-2, 1)), ((-2, 3), (-1, 4)), ((-2, 3), (-3, 4))] := by decide +kernel
  have h2 : (DMap.runSparse (exRun (upsideDown (DataMap.ofRows exFork))) (fun _ => exOracle)
      (upsideDown (DataMap.ofRows exFork)).cells false).toOption.map DMap.linkedPlaces =
      some [((-2, 2), (-3, 4)), ((-2, 2), (-2, 1)), ((-2, 3), (-3, 4)), ((-2, 3), (-1, 4))] := by decide +kernel
  cases hr : exMap exFork false with
  | error e =>
    rw [hr] at h1
    cases h1
  | ok m =>
    cases hr' : DMap.runSparse (exRun (upsideDown (DataMap.ofRows exFork))) (fun _ => exOracle)
        (upsideDown (DataMap.ofRows exFork)).cells false with
    | error e =>
      rw [hr'] at h2
      cases h2
    | ok m' =>
      rw [hr] at h1
      rw [hr'] at h2
      simp only [Except.toOption, Option.map_some, Option.some.injEq] at h1 h2
      refine ⟨_, m, m', exFork_ok.1, exFork_ok.2, hr, hr', ?_, ?_⟩
      · rw [h1]
        decide
      · rw [h2]
        decide +kernel

end PyProm
