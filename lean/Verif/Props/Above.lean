import Verif.Spec.Above
import Verif.Props.Prominence
import Verif.Props.Turned
import Verif.Props.Tiles

/-
C117: what lies lower does not matter
-/
namespace PyProm
open Spec

section
variable {h : Rat} {x y : Int} {w d : DataMap} (t : AgreeAbove h x y w d)
include t

theorem above_ground (p : Pt) (k : Rat) (hk : h ≤ k) :
    Data w p ∧ k ≤ el w p ↔ Data d (moved x y p) ∧ k ≤ el d (moved x y p) := by
  constructor
  · rintro ⟨h1, h2⟩
    have g := (t.ground p).1 ⟨h1, le_trans hk h2⟩
    exact ⟨g.1, by rw [t.el p h1 (le_trans hk h2)]; exact h2⟩
  · rintro ⟨h1, h2⟩
    have g := (t.ground p).2 ⟨h1, le_trans hk h2⟩
    exact ⟨g.1, by rw [← t.el p g.1 g.2]; exact h2⟩

theorem above_passable (k : Rat) (hk : h ≤ k) (p q : Pt) : Passable w k p q ↔ Passable d k (moved x y p) (moved x y q) := by
  unfold Passable
  rw [← and_assoc, ← and_assoc, above_ground t p k hk]
  refine and_congr_right fun _ => ?_
  constructor
  · intro g
    induction g with
    | refl => exact .refl
    | tail _ h2 ih => exact ih.tail ⟨(adj_moved _ _).2 h2.1, (above_ground t _ k hk).1 h2.2⟩
  · intro g
    have key : ∀ a b, Relation.ReflTransGen (fun u v => Adj u v ∧ Data d v ∧ k ≤ el d v) a b → ∀ p q, a = moved x y p →
        b = moved x y q → Relation.ReflTransGen (fun u v => Adj u v ∧ Data w v ∧ k ≤ el w v) p q := by
      intro a b g
      induction g with
      | refl => intro p q e1 e2; rw [moved_inj (e1.symm.trans e2)]
      | @tail b c _ h2 ih =>
        rintro p q e1 rfl
        have := ih p (b.1 - x, b.2 - y) e1 (moved_back x y b).symm
        rw [← moved_back x y b] at h2
        exact this.tail ⟨(adj_moved _ _).1 h2.1, (above_ground t _ k hk).2 h2.2⟩
    exact key _ _ g p q rfl rfl

theorem above_flat {p : Pt} (hp : Data w p) (hh : h ≤ el w p) (q : Pt) : Flat w p q ↔ Flat d (moved x y p) (moved x y q) := by
  have hd := (t.ground p).1 ⟨hp, hh⟩
  have e := t.el p hp hh
  constructor
  · intro g
    induction g with
    | refl => exact .refl
    | @tail b c h1 h2 ih =>
      have eb := flat_data hp h1
      have e2 := t.el c h2.2.1 (by rw [h2.2.2, eb.2]; exact hh)
      have e1 := t.el b eb.1 (by rw [eb.2]; exact hh)
      exact ih.tail ⟨(adj_moved _ _).2 h2.1, ((t.ground c).1 ⟨h2.2.1, by rw [h2.2.2, eb.2]; exact hh⟩).1, by rw [e2, e1, h2.2.2]⟩
  · intro g
    have key : ∀ b, Flat d (moved x y p) b → ∀ q, b = moved x y q → Flat w p q := by
      intro b g
      induction g with
      | refl => intro q e2; rw [moved_inj e2]; exact .refl
      | @tail b c h1 h2 ih =>
        rintro q rfl
        have := ih (b.1 - x, b.2 - y) (moved_back x y b).symm
        have eb := flat_data hd.1 h1
        have ew := flat_data hp this
        have hq := (t.ground q).2 ⟨h2.2.1, by rw [h2.2.2, eb.2]; exact hd.2⟩
        rw [← moved_back x y b] at h2
        refine this.tail ⟨(adj_moved _ _).1 h2.1, hq.1, ?_⟩
        rw [← t.el q hq.1 hq.2, h2.2.2, moved_back, eb.2, e, ew.2]
    exact key _ g q rfl

theorem above_isTop {p : Pt} (hp : Data w p) (hh : h ≤ el w p) : IsTop w p ↔ IsTop d (moved x y p) := by
  have e := t.el p hp hh
  unfold Spec.IsTop
  constructor
  · rintro g r ⟨⟨h1, _, m, h3, h4⟩, h5⟩
    rw [← moved_back x y r] at h1 h4 h5
    rw [← moved_back x y m] at h3 h4
    rw [e] at h5
    have hr := (t.ground _).2 ⟨h1, le_trans hh (le_of_lt h5)⟩
    rw [t.el _ hr.1 hr.2] at h5
    exact g _ ⟨⟨hr.1, ne_of_gt h5, _, (above_flat t hp hh _).2 h3, (adj_moved _ _).1 h4⟩, h5⟩
  · rintro g r ⟨⟨h1, _, m, h3, h4⟩, h5⟩
    have hr := (t.ground _).1 ⟨h1, le_trans hh (le_of_lt h5)⟩
    have h6 := h5
    rw [← t.el r h1 (le_trans hh (le_of_lt h5)), ← e] at h6
    exact g _ ⟨⟨hr.1, ne_of_gt h6, _, (above_flat t hp hh _).1 h3, (adj_moved _ _).2 h4⟩, h6⟩

/-- Cell `p` of `w` and cell `q` of `d` are of the same hill. -/
structure HillAt (x y : Int) (h : Rat) (w d : DataMap) (p q : Pt) : Prop where
  data : Data w p
  high : h ≤ el w p
  flat : Flat d (moved x y p) q

variable {p q p' q' : Pt}

theorem hillAt_data (hA : HillAt x y h w d p q) : Data d (moved x y p) ∧ Data d q ∧ el d q = el w p := by
  have hd := (t.ground p).1 ⟨hA.data, hA.high⟩
  have := flat_data hd.1 hA.flat
  exact ⟨hd.1, this.1, this.2.trans (t.el p hA.data hA.high)⟩

theorem hillAt_passable (hA : HillAt x y h w d p q) (hB : HillAt x y h w d p' q') (k : Rat) (hk : h ≤ k) :
    Passable d k q q' ↔ Passable w k p p' := by
  rw [passable_flat (hillAt_data t hA).1 hA.flat, above_passable t k hk]
  constructor
  · exact fun g => ((passable_flat (hillAt_data t hB).1 hB.flat).1 g.symm).symm
  · exact fun g => ((passable_flat (hillAt_data t hB).1 hB.flat).2 g.symm).symm

theorem hillAt_escapes (hA : HillAt x y h w d p q) (k : Rat) (hk : h ≤ k) : Escapes d q k ↔ Escapes w p k := by
  unfold Escapes
  have e := (hillAt_data t hA).2.2
  constructor
  · rintro ⟨r, h1, h2⟩
    rw [passable_flat (hillAt_data t hA).1 hA.flat, ← moved_back x y r, ← above_passable t k hk] at h2
    refine ⟨_, ?_, h2⟩
    have hr := h2.symm
    rw [← t.el _ hr.1 (le_trans hk hr.2.1), moved_back, ← e]
    exact h1
  · rintro ⟨r, h1, h2⟩
    refine ⟨moved x y r, ?_, ?_⟩
    · rw [t.el _ h2.symm.1 (le_trans hk h2.symm.2.1), e]
      exact h1
    · rw [passable_flat (hillAt_data t hA).1 hA.flat, ← above_passable t k hk]
      exact h2

theorem hillAt_cells (hA : HillAt x y h w d p q) {mp mp' : Option (List MPt)} (hm : RecordsArea w p mp)
    (hm' : RecordsArea d q mp') :
    (mp = none ∧ mp' = none) ∨ ∃ a b, mp = some a ∧ mp' = some b ∧ b.Perm (a.map (movedM x y)) := by
  have fl : ∀ m, Flat d q (moved x y m) ↔ Flat w p m := by
    intro m
    rw [above_flat t hA.data hA.high]
    exact ⟨fun g => hA.flat.trans g, fun g => (hA.flat.symm (hillAt_data t hA).1).trans g⟩
  have one : (∀ m, Flat w p m ↔ m = p) ↔ ∀ m, Flat d q m ↔ m = q := by
    constructor
    · intro g
      have e : q = moved x y p := by
        have := hA.flat
        rw [← moved_back x y q] at this ⊢
        rw [(g _).1 ((above_flat t hA.data hA.high _).2 this)]
      intro m
      rw [← moved_back x y m, fl, g]
      constructor
      · intro c
        rw [c, e]
      · intro c
        exact moved_inj (c.trans e)
    · intro g
      have e : moved x y p = q := (g _).1 ((fl p).2 .refl)
      intro m
      rw [← fl, g, ← e]
      exact ⟨fun c => moved_inj c, fun c => by rw [c]⟩
  rcases hm with ⟨rfl, h1⟩ | ⟨pts, rfl, n1, m1, z, hz, hzf⟩ <;>
    rcases hm' with ⟨rfl, h2⟩ | ⟨pts', rfl, n2, m2, z', hz', hzf'⟩
  · exact Or.inl ⟨rfl, rfl⟩
  · exact absurd ((one.1 h1 z').1 hzf') hz'
  · exact absurd ((one.2 h2 z).1 hzf) hz
  · refine Or.inr ⟨_, _, rfl, rfl, ?_⟩
    have inj : Function.Injective (moved x y) := fun a b c => moved_inj c
    have : pts'.Perm (pts.map (moved x y)) := by
      refine (List.perm_ext_iff_of_nodup n2 (n1.map inj)).2 fun m => ?_
      rw [← moved_back x y m, m2, fl, List.mem_map_of_injective inj, m1]
    have := this.map fun m : Pt => (⟨m.1, m.2, none⟩ : MPt)
    rw [List.map_map] at this ⊢
    exact this

theorem hillAt_same (hA : HillAt x y h w d p q) {f g : Feature} (hf : SummitFor w p f) (hg : SummitFor d q g) :
    SameHill x y w d f g where
  elevation := by rw [hf.located.2.2, hg.located.2.2, (hillAt_data t hA).2.2]
  cells := hillAt_cells t hA hf.area hg.area
  place := ⟨p, q, hf.located, hg.located, hA.flat⟩

theorem sites_above {sites sites' : List Pt} {ss ss' : List Feature} (hS : SummitsAt w sites ss) (hS' : SummitsAt d sites' ss') :
    ∃ π : Nat → Nat, (∀ (a : Nat) (p : Pt), sites[a]? = some p → h ≤ el w p → ∃ q, sites'[π a]? = some q ∧ HillAt x y h w d p q) ∧
      (∀ (b : Nat) (q : Pt), sites'[b]? = some q → h ≤ el d q → ∃ (a : Nat) (p : Pt), sites[a]? = some p ∧ h ≤ el w p ∧ π a = b) ∧
      ∀ (a b : Nat) (p q : Pt), sites[a]? = some p → sites[b]? = some q → h ≤ el w p → h ≤ el w q → π a = π b → a = b := by
  have h1 : ∀ a : Nat, ∃ b : Nat, ∀ p : Pt, sites[a]? = some p → h ≤ el w p → ∃ q, sites'[b]? = some q ∧ HillAt x y h w d p q := by
    intro a
    cases ha : sites[a]? with
    | none => exact ⟨0, fun _ c => nomatch c⟩
    | some p =>
      by_cases hh : h ≤ el w p
      · obtain ⟨hd, ht⟩ := hS.top p (List.mem_of_getElem? ha)
        obtain ⟨q', hq', hf⟩ := hS'.all (moved x y p) ((t.ground p).1 ⟨hd, hh⟩).1 ((above_isTop t hd hh).1 ht)
        obtain ⟨b, hb⟩ := List.getElem?_of_mem hq'
        refine ⟨b, fun p2 e _ => ?_⟩
        cases e
        exact ⟨q', hb, hd, hh, hf.symm (hS'.top q' hq').1⟩
      · refine ⟨0, fun p2 e c => ?_⟩
        cases e
        exact absurd c hh
  choose π hπ using h1
  have inj : ∀ {e : DataMap} {l : List Pt} {k : List Feature}, SummitsAt e l k → ∀ (a b : Nat) (p q : Pt), l[a]? = some p →
      l[b]? = some q → Flat e p q → a = b := by
    intro e l k g a b p q ha hb hf
    have := once_eq g.once (fun a ha b _ h => h.symm (g.top a ha).1) p (List.mem_of_getElem? ha) q (List.mem_of_getElem? hb) hf
    subst this
    have hn : l.Nodup := g.once.imp fun {a b} h (e : a = b) => h (e ▸ .refl)
    exact (List.getElem?_inj (lt_of_getElem? ha) hn).1 (ha.trans hb.symm)
  refine ⟨π, hπ, ?_, ?_⟩
  · intro b q hb hh
    obtain ⟨hd, ht⟩ := hS'.top _ (List.mem_of_getElem? hb)
    rw [← moved_back x y q] at hd hh ht
    obtain ⟨hd, hh⟩ := (t.ground _).2 ⟨hd, hh⟩
    obtain ⟨r, hr, hf⟩ := hS.all _ hd ((above_isTop t hd hh).2 ht)
    obtain ⟨a, ha⟩ := List.getElem?_of_mem hr
    have hrd := (hS.top r hr).1
    have hrh : h ≤ el w r := by rw [← (flat_data hrd hf).2]; exact hh
    obtain ⟨q', hq', hA⟩ := hπ a r ha hrh
    refine ⟨a, r, ha, hrh, inj hS' _ _ _ _ hq' hb ?_⟩
    have := (above_flat t hrd hrh _).1 hf
    rw [moved_back] at this
    exact (hA.flat.symm (hillAt_data t hA).1).trans this
  · intro a b p q ha hb hp hq e
    obtain ⟨p', hp', hA⟩ := hπ a p ha hp
    obtain ⟨q', hq', hB⟩ := hπ b q hb hq
    rw [e] at hp'
    cases (hp'.symm.trans hq' : some _ = some _)
    refine inj hS _ _ _ _ ha hb ((above_flat t hA.data hA.high q).2 ?_)
    exact hA.flat.trans (hB.flat.symm (hillAt_data t hB).1)

end

/-- C117: two rasters that agree from the height `h` upwards have the same summits not lower than `h`; two of these are connected over
live saddles not lower than `k ≥ h` in one map exactly if they are in the other, and connected with a higher summit that way in one
exactly if in the other, so that a key col not lower than `h` in one map is one in the other, and prominences agree so far. -/
theorem C117_above (h : Rat) (x y : Int) (E E' : SaddleEnv) (hE : RunOk E) (hE' : RunOk E') (t : AgreeAbove h x y E.d E'.d)
    (o o' : Pt → Oracle) (order order' : List Pt) (ho : IsScan E.d order) (ho' : IsScan E'.d order') (rebuild rebuild' : Bool) :
    ∃ m m', DMap.runSparse E o order rebuild = .ok m ∧ DMap.runSparse E' o' order' rebuild' = .ok m' ∧ ∃ π : Nat → Nat,
      (∀ (a : Nat) f, m.summits[a]? = some f → h ≤ f.elevation → ∃ g, m'.summits[π a]? = some g ∧ SameHill x y E.d E'.d f g) ∧
      (∀ (b : Nat) g, m'.summits[b]? = some g → h ≤ g.elevation → ∃ a f, m.summits[a]? = some f ∧ h ≤ f.elevation ∧ π a = b) ∧
      (∀ (a b : Nat) f g, m.summits[a]? = some f → m.summits[b]? = some g → h ≤ f.elevation → h ≤ g.elevation → π a = π b → a = b) ∧
      (∀ (a b : Nat) f g, m.summits[a]? = some f → m.summits[b]? = some g → h ≤ g.elevation → ∀ k, h ≤ k → k ≤ f.elevation →
        (NetConnected m (LiveSaddle m) k a b ↔ NetConnected m' (LiveSaddle m') k (π a) (π b))) ∧
      ∀ (a : Nat) f, m.summits[a]? = some f → h ≤ f.elevation → ∀ k, h ≤ k →
        ((∃ b, HigherSummit m a b ∧ NetConnected m (LiveSaddle m) k a b) ↔
          ∃ b, HigherSummit m' (π a) b ∧ NetConnected m' (LiveSaddle m') k (π a) b) := by
  obtain ⟨m, sites, h1, h2, h3⟩ := C77_faithful E hE o order ho rebuild
  obtain ⟨m', sites', g1, g2, g3⟩ := C77_faithful E' hE' o' order' ho' rebuild'
  obtain ⟨m0, sites0, h1', h2', h4⟩ := C103_prominence E hE o order ho rebuild
  cases (h1'.symm.trans h1 : Except.ok _ = Except.ok _)
  obtain ⟨m0', sites0', g1', g2', g4⟩ := C103_prominence E' hE' o' order' ho' rebuild'
  cases (g1'.symm.trans g1 : Except.ok _ = Except.ok _)
  obtain rfl := sites_same hE.geo h2 h2'
  obtain rfl := sites_same hE'.geo g2 g2'
  obtain ⟨π, p1, p2, p3⟩ := sites_above t h2 g2
  have site : ∀ {d : DataMap} {sites : List Pt} {ss : List Feature}, SummitsAt d sites ss → ∀ (a : Nat) (f : Feature),
      ss[a]? = some f → ∃ p, sites[a]? = some p ∧ SummitFor d p f := by
    intro d sites ss hS a f ha
    have hl := lt_of_getElem? ha
    rw [← hS.each.length_eq] at hl
    obtain ⟨s, s1, s2⟩ := forall₂_getElem? hS.each (List.getElem?_eq_getElem hl)
    rw [ha] at s1
    cases s1
    exact ⟨_, List.getElem?_eq_getElem hl, s2⟩
  refine ⟨m, m', h1, g1, π, ?_, ?_, ?_, ?_, ?_⟩
  · intro a f ha hh
    obtain ⟨p, hp, hf⟩ := site h2 a f ha
    rw [hf.located.2.2] at hh
    obtain ⟨p', hp', hA⟩ := p1 a p hp hh
    obtain ⟨g, e1, e2⟩ := forall₂_getElem? g2.each hp'
    exact ⟨g, e1, hillAt_same t hA hf e2⟩
  · intro b g hb hh
    obtain ⟨q, hq, hg⟩ := site g2 b g hb
    rw [hg.located.2.2] at hh
    obtain ⟨a, p, ha, hp, e⟩ := p2 b q hq hh
    obtain ⟨f, e1, e2⟩ := forall₂_getElem? h2.each ha
    exact ⟨a, f, e1, by rw [e2.located.2.2]; exact hp, e⟩
  · intro a b f g ha hb hf hg e
    obtain ⟨p, hp, hf'⟩ := site h2 a f ha
    obtain ⟨q, hq, hg'⟩ := site h2 b g hb
    rw [hf'.located.2.2] at hf
    rw [hg'.located.2.2] at hg
    exact p3 a b p q hp hq hf hg e
  · intro a b f g ha hb hg k hk hh
    obtain ⟨p, hp, hf'⟩ := site h2 a f ha
    obtain ⟨q, hq, hg'⟩ := site h2 b g hb
    rw [hf'.located.2.2] at hh
    rw [hg'.located.2.2] at hg
    obtain ⟨p', hp', hA⟩ := p1 a p hp (le_trans hk hh)
    obtain ⟨q', hq', hB⟩ := p1 b q hq hg
    rw [h3 k a b p q hp hq hh, g3 k _ _ p' q' hp' hq' (by rw [(hillAt_data t hA).2.2]; exact hh), hillAt_passable t hA hB k hk]
  · intro a f ha hh k hk
    obtain ⟨p, hp, hf⟩ := site h2 a f ha
    rw [hf.located.2.2] at hh
    obtain ⟨p', hp', hA⟩ := p1 a p hp hh
    rw [← (h4 a p hp).1, ← (g4 _ p' hp').1, hillAt_escapes t hA k hk]

theorem agreeAbove_tile {d : DataMap} {x y : Int} {xs ys : Nat} (t : TileOf d x y xs ys) {h : Rat}
    (hw : ∀ p, Data d p → h ≤ el d p → x ≤ p.1 ∧ p.1 < x + xs ∧ y ≤ p.2 ∧ p.2 < y + ys) :
    AgreeAbove h x y (d.subset x y xs ys) d where
  ground p := by
    constructor
    · rintro ⟨h1, h2⟩
      exact ⟨(data_tile t h1.1).1 h1, h2⟩
    · rintro ⟨h1, h2⟩
      have hp := hw _ h1 h2
      have hb : InB (d.subset x y xs ys) p := by
        have := t.hx; have := t.hy
        simp only [DataMap.subset, gdalTranslateWin, InB, moved] at hp ⊢
        omega
      exact ⟨(data_tile t hb).2 h1, h2⟩
  el _ _ _ := rfl

/-- C117, tiles: a part of a raster that contains all ground from the height `h` upwards - an island with sea around it - has the
same summits from this height on, connected alike. -/
theorem C117_tile (E E' : SaddleEnv) (hE : RunOk E) (hE' : RunOk E') (x y : Int) (xs ys : Nat) (hx : 0 < xs) (hy : 0 < ys)
    (h0 : 0 ≤ x) (h1 : 0 ≤ y) (h2 : x + xs ≤ E'.d.maxX + 1) (h3 : y + ys ≤ E'.d.maxY + 1)
    (hd : E.d = E'.d.subset x y xs ys) (h : Rat)
    (hw : ∀ p, Data E'.d p → h ≤ el E'.d p → x ≤ p.1 ∧ p.1 < x + xs ∧ y ≤ p.2 ∧ p.2 < y + ys)
    (o o' : Pt → Oracle) (order order' : List Pt) (ho : IsScan E.d order) (ho' : IsScan E'.d order') (rebuild rebuild' : Bool) :
    ∃ m m', DMap.runSparse E o order rebuild = .ok m ∧ DMap.runSparse E' o' order' rebuild' = .ok m' ∧ ∃ π : Nat → Nat,
      (∀ (a : Nat) f, m.summits[a]? = some f → h ≤ f.elevation → ∃ g, m'.summits[π a]? = some g ∧ SameHill x y E.d E'.d f g) ∧
      (∀ (b : Nat) g, m'.summits[b]? = some g → h ≤ g.elevation → ∃ a f, m.summits[a]? = some f ∧ h ≤ f.elevation ∧ π a = b) ∧
      (∀ (a b : Nat) f g, m.summits[a]? = some f → m.summits[b]? = some g → h ≤ f.elevation → h ≤ g.elevation → π a = π b → a = b) ∧
      (∀ (a b : Nat) f g, m.summits[a]? = some f → m.summits[b]? = some g → h ≤ g.elevation → ∀ k, h ≤ k → k ≤ f.elevation →
        (NetConnected m (LiveSaddle m) k a b ↔ NetConnected m' (LiveSaddle m') k (π a) (π b))) ∧
      ∀ (a : Nat) f, m.summits[a]? = some f → h ≤ f.elevation → ∀ k, h ≤ k →
        ((∃ b, HigherSummit m a b ∧ NetConnected m (LiveSaddle m) k a b) ↔
          ∃ b, HigherSummit m' (π a) b ∧ NetConnected m' (LiveSaddle m') k (π a) b) := by
  refine C117_above h x y E E' hE hE' ?_ o o' order order' ho ho' rebuild rebuild'
  rw [hd]
  exact agreeAbove_tile ⟨hx, hy, h0, h1, h2, h3⟩ hw

/-! ### Instances -/

/-- Two hills with a pass between them, low ground and a small mound around. -/
def exLowland : DataMap := DataMap.ofRows [[0, 0, 0, 0, 0, 0], [0, 5, 3, 9, 0, 0], [0, 0, 0, 0, 0, 0], [0, 0, 0, 0, 1, 0], [0, 0, 0, 0, 0, 0]]

/-- The hills alone. -/
def exCut : DataMap := exLowland.subset 1 1 1 3

theorem exLowland_ok : RunOk (exRun exLowland) ∧ RunOk (exRun exCut) :=
  ⟨exRun_plain _ (by unfold maxsize; decide +kernel),
    exRun_ok _ (by intro v hv; simp [exCut, exLowland, DataMap.subset, gdalTranslateWin, DataMap.ofRows] at hv)
      ⟨by simp [exCut, exLowland, DataMap.subset, gdalTranslateWin, DataMap.ofRows],
        by simp [exCut, exLowland, DataMap.subset, gdalTranslateWin, DataMap.ofRows],
        by simp [exCut, exLowland, DataMap.subset, gdalTranslateWin, DataMap.ofRows],
        by simp [exCut, exLowland, DataMap.subset, gdalTranslateWin, DataMap.ofRows], fun _ => rfl⟩ (by unfold maxsize; decide +kernel)⟩

theorem exLowland_above : ∀ p, Data exLowland p → 2 ≤ el exLowland p → 1 ≤ p.1 ∧ p.1 < 1 + (1 : Nat) ∧ 1 ≤ p.2 ∧ p.2 < 1 + (3 : Nat) := by
  have h : ∀ p ∈ exLowland.cells, 2 ≤ el exLowland p → 1 ≤ p.1 ∧ p.1 < 1 + (1 : Nat) ∧ 1 ≤ p.2 ∧ p.2 < 1 + (3 : Nat) := by decide +kernel
  exact fun p hp => h p ((mem_cells _ p).2 hp.1)

example : ∃ m m', DMap.runSparse (exRun exCut) (fun _ => exOracle) exCut.cells false = .ok m ∧
    DMap.runSparse (exRun exLowland) (fun _ => exOracle) exLowland.cells true = .ok m' ∧ ∃ π : Nat → Nat,
      ∀ (a b : Nat) f g, m.summits[a]? = some f → m.summits[b]? = some g → 2 ≤ g.elevation → ∀ k, 2 ≤ k → k ≤ f.elevation →
        (NetConnected m (LiveSaddle m) k a b ↔ NetConnected m' (LiveSaddle m') k (π a) (π b)) := by
  obtain ⟨m, m', h1, h2, π, _, _, _, h3, _⟩ := C117_tile (exRun exCut) (exRun exLowland) exLowland_ok.2 exLowland_ok.1 1 1 1 3
    (by decide) (by decide) (by decide) (by decide) (by decide +kernel) (by decide +kernel) rfl 2 exLowland_above (fun _ => exOracle)
    (fun _ => exOracle) _ _ (isScan_cells _) (isScan_cells _) false true
  exact ⟨m, m', h1, h2, π, h3⟩

/-- The limits of C117: lower summits and edge flags can differ. The whole raster has a third, low summit, and its hills are not
at the edge. -/
theorem C117_only_above : ∃ (h : Rat) (x y : Int) (w d : DataMap) (m m' : DMap), RunOk (exRun w) ∧ RunOk (exRun d) ∧ AgreeAbove h x y w d ∧
    DMap.runSparse (exRun w) (fun _ => exOracle) w.cells false = .ok m ∧
    DMap.runSparse (exRun d) (fun _ => exOracle) d.cells false = .ok m' ∧
    m.summits.map (fun f => (f.elevation, f.edge)) = [(5, true), (9, true)] ∧
    m'.summits.map (fun f => (f.elevation, f.edge)) = [(5, false), (9, false), (1, false)] := by
  have h1 : (DMap.runSparse (exRun exCut) (fun _ => exOracle) exCut.cells false).toOption.map (fun m => m.summits.map (fun f => (f.elevation, f.edge))) =
      some [(5, true), (9, true)] := by decide +kernel
  have h2 : (DMap.runSparse (exRun exLowland) (fun _ => exOracle) exLowland.cells false).toOption.map (fun m => m.summits.map (fun f => (f.elevation, f.edge))) =
      some [(5, false), (9, false), (1, false)] := by decide +kernel
  cases e1 : DMap.runSparse (exRun exCut) (fun _ => exOracle) exCut.cells false with
  | error x => rw [e1] at h1; cases h1
  | ok m =>
    cases e2 : DMap.runSparse (exRun exLowland) (fun _ => exOracle) exLowland.cells false with
    | error x => rw [e2] at h2; cases h2
    | ok m' =>
      rw [e1] at h1
      rw [e2] at h2
      exact ⟨2, 1, 1, exCut, exLowland, m, m', exLowland_ok.2, exLowland_ok.1,
        agreeAbove_tile ⟨by decide, by decide, by decide, by decide, by decide +kernel, by decide +kernel⟩ exLowland_above, e1, e2,
        Option.some.inj h1, Option.some.inj h2⟩

end PyProm
