import Verif.Proof.Discovery
import Verif.Spec.Tiles
import Mathlib.Tactic.Ring
import Mathlib.Tactic.Linarith

/-! Flat areas of a tile that stay off its outermost ring are flat areas of the map. -/
namespace PyProm
open Spec

section
variable {d : DataMap} {x y : Int} {xs ys : Nat}

/-- The tile lies inside the map. -/
structure TileOf (d : DataMap) (x y : Int) (xs ys : Nat) : Prop where
  hx : 0 < xs
  hy : 0 < ys
  x0 : 0 ≤ x
  y0 : 0 ≤ y
  x1 : x + xs ≤ d.maxX + 1
  y1 : y + ys ≤ d.maxY + 1

theorem adj_moved (p q : Pt) : Adj (moved x y p) (moved x y q) ↔ Adj p q := by
  unfold Adj moved
  have : (x + p.1, y + p.2) ≠ (x + q.1, y + q.2) ↔ p ≠ q := by
    rw [not_iff_not, Prod.ext_iff, Prod.ext_iff]
    dsimp only
    omega
  rw [this]
  dsimp only
  constructor <;> rintro ⟨h, _⟩ <;> exact ⟨h, by omega⟩

theorem moved_inj {p q : Pt} (h : moved x y p = moved x y q) : p = q := by
  unfold moved at h
  rw [Prod.ext_iff] at h ⊢
  dsimp only at h
  omega

theorem moved_back (x y : Int) (m : Pt) : moved x y (m.1 - x, m.2 - y) = m := by
  unfold moved
  rw [Prod.ext_iff]
  dsimp only
  omega

theorem el_tile (p : Pt) : el (d.subset x y xs ys) p = el d (moved x y p) := rfl

theorem inB_tile (t : TileOf d x y xs ys) {p : Pt} (h : InB (d.subset x y xs ys) p) :
    InB d (moved x y p) := by
  have := t.hx; have := t.hy; have := t.x0; have := t.y0; have := t.x1; have := t.y1
  simp only [DataMap.subset, gdalTranslateWin, InB, moved] at h ⊢
  omega

theorem data_tile (t : TileOf d x y xs ys) {p : Pt} (h : InB (d.subset x y xs ys) p) :
    Data (d.subset x y xs ys) p ↔ Data d (moved x y p) := by
  unfold Data
  constructor
  · rintro ⟨a, b⟩
    exact ⟨inB_tile t a, b⟩
  · rintro ⟨_, b⟩
    exact ⟨h, b⟩

/-- A cell of the tile off its outermost ring. -/
def TileInner (w : DataMap) (p : Pt) : Prop := InB w p ∧ ¬ Border w p

theorem tileInner_iff (t : TileOf d x y xs ys) (p : Pt) :
    TileInner (d.subset x y xs ys) p ↔ InnerCell x y xs ys (moved x y p) := by
  have := t.hx; have := t.hy
  simp only [TileInner, DataMap.subset, gdalTranslateWin, InB, Border, moved, InnerCell]
  omega

theorem TileInner.step {w : DataMap} {p q : Pt} (h : TileInner w p) (ha : Adj p q) : InB w q := by
  obtain ⟨h1, h2⟩ := h
  unfold InB Border Adj at *
  omega

theorem level_tile (t : TileOf d x y xs ys) {p q : Pt} (h : TileInner (d.subset x y xs ys) p) :
    Level (d.subset x y xs ys) p q ↔ Level d (moved x y p) (moved x y q) := by
  unfold Level
  rw [adj_moved]
  constructor
  · rintro ⟨a, b, c⟩
    exact ⟨a, (data_tile t b.1).1 b, c⟩
  · rintro ⟨a, b, c⟩
    exact ⟨a, (data_tile t (h.step a)).2 b, c⟩

theorem level_moved {m : Pt} {p : Pt} (_h : Level d (moved x y p) m) : ∃ q, m = moved x y q :=
  ⟨_, (moved_back x y m).symm⟩

/-- The area stays off the outermost ring of the tile. -/
def OffRing (w : DataMap) (p : Pt) : Prop := ∀ m, Flat w p m → TileInner w m

theorem offRing_iff {w : DataMap} {p : Pt} (hd : Data w p) : OffRing w p ↔ ¬ OnBorder w p := by
  unfold OffRing OnBorder TileInner
  constructor
  · rintro h ⟨m, hm, hb⟩
    exact (h m hm).2 hb
  · intro h m hm
    exact ⟨(hm.data hd).1, fun hb => h ⟨m, hm, hb⟩⟩

theorem flat_tile (t : TileOf d x y xs ys) {p q : Pt} (h : OffRing (d.subset x y xs ys) p) :
    Flat (d.subset x y xs ys) p q ↔ Flat d (moved x y p) (moved x y q) := by
  constructor
  · intro hf
    induction hf with
    | refl => exact .refl
    | tail h1 h2 ih => exact ih.tail ((level_tile t (h _ h1)).1 h2)
  · intro hf
    have gen : ∀ m, Flat d (moved x y p) m → ∃ q, m = moved x y q ∧ Flat (d.subset x y xs ys) p q := by
      intro m hm
      induction hm with
      | refl => exact ⟨p, rfl, .refl⟩
      | tail _ h2 ih =>
        obtain ⟨q, rfl, hq⟩ := ih
        obtain ⟨r, rfl⟩ := level_moved h2
        exact ⟨r, rfl, hq.tail ((level_tile t (h _ hq)).2 h2)⟩
    obtain ⟨q', e, hq⟩ := gen _ hf
    rw [moved_inj e]
    exact hq

theorem flat_moved {p : Pt} (m : Pt) (_ : Flat d (moved x y p) m) : ∃ q, m = moved x y q :=
  ⟨_, (moved_back x y m).symm⟩

/-- An area of the map that stays inside the ring of the tile stays inside it in the tile. -/
theorem offRing_of_map (t : TileOf d x y xs ys) {p : Pt}
    (h : ∀ m, Flat d (moved x y p) m → InnerCell x y xs ys m) : OffRing (d.subset x y xs ys) p := by
  have key : ∀ q, Flat (d.subset x y xs ys) p q → Flat d (moved x y p) (moved x y q) := by
    intro q hq
    induction hq with
    | refl => exact .refl
    | tail _ h2 ih => exact ih.tail ((level_tile t ((tileInner_iff t _).2 (h _ ih))).1 h2)
  exact fun m hm => (tileInner_iff t m).2 (h _ (key m hm))

theorem rim_tile (t : TileOf d x y xs ys) {p q : Pt} (h : OffRing (d.subset x y xs ys) p) :
    Rim (d.subset x y xs ys) p q ↔ Rim d (moved x y p) (moved x y q) := by
  unfold Rim
  constructor
  · rintro ⟨a, b, m, hm, hma⟩
    exact ⟨(data_tile t a.1).1 a, b, moved x y m, (flat_tile t h).1 hm, (adj_moved _ _).2 hma⟩
  · rintro ⟨a, b, m, hm, hma⟩
    obtain ⟨m, rfl⟩ := flat_moved m hm
    rw [adj_moved] at hma
    have hm' := (flat_tile t h).2 hm
    exact ⟨(data_tile t ((h m hm').step hma)).2 a, b, m, hm', hma⟩

theorem highRim_tile (t : TileOf d x y xs ys) {p q : Pt} (h : OffRing (d.subset x y xs ys) p) :
    HighRim (d.subset x y xs ys) p q ↔ HighRim d (moved x y p) (moved x y q) := by
  unfold HighRim
  rw [rim_tile t h]
  exact Iff.rfl

theorem isTop_tile (t : TileOf d x y xs ys) {p : Pt} (h : OffRing (d.subset x y xs ys) p) :
    IsTop (d.subset x y xs ys) p ↔ IsTop d (moved x y p) := by
  unfold Spec.IsTop
  constructor
  · intro hh r hr
    rw [← moved_back x y r] at hr
    exact hh _ ((highRim_tile t h).2 hr)
  · intro hh r hr
    exact hh _ ((highRim_tile t h).1 hr)

theorem twoHigh_tile (t : TileOf d x y xs ys) {p : Pt} (h : OffRing (d.subset x y xs ys) p) :
    TwoHigh (d.subset x y xs ys) p ↔ TwoHigh d (moved x y p) := by
  have fwd : ∀ a b, Relation.ReflTransGen (fun u v => Adj u v ∧ HighRim (d.subset x y xs ys) p v) a b →
      Relation.ReflTransGen (fun u v => Adj u v ∧ HighRim d (moved x y p) v) (moved x y a) (moved x y b) := by
    intro a b hab
    induction hab with
    | refl => exact .refl
    | tail _ h2 ih => exact ih.tail ⟨(adj_moved _ _).2 h2.1, (highRim_tile t h).1 h2.2⟩
  have bwd : ∀ a b, Relation.ReflTransGen (fun u v => Adj u v ∧ HighRim d (moved x y p) v) (moved x y a) b →
      ∃ b', b = moved x y b' ∧
        Relation.ReflTransGen (fun u v => Adj u v ∧ HighRim (d.subset x y xs ys) p v) a b' := by
    intro a b hab
    induction hab with
    | refl => exact ⟨a, rfl, .refl⟩
    | @tail u v _ h2 ih =>
      obtain ⟨u', rfl, hu⟩ := ih
      rw [← moved_back x y v] at h2
      exact ⟨_, (moved_back x y v).symm, hu.tail ⟨(adj_moved _ _).1 h2.1, (highRim_tile t h).2 h2.2⟩⟩
  unfold Spec.TwoHigh
  constructor
  · rintro ⟨a, b, ha, hb, hab⟩
    refine ⟨moved x y a, moved x y b, (highRim_tile t h).1 ha, (highRim_tile t h).1 hb, ?_⟩
    intro c
    obtain ⟨b', e, hb'⟩ := bwd _ _ c
    rw [moved_inj e] at hab
    exact hab hb'
  · rintro ⟨a, b, ha, hb, hab⟩
    rw [← moved_back x y a] at ha hab
    rw [← moved_back x y b] at hb hab
    exact ⟨_, _, (highRim_tile t h).2 ha, (highRim_tile t h).2 hb, fun c => hab (fwd _ _ c)⟩

theorem around_moved (p : Pt) : around (moved x y p) = (around p).map (moved x y) := by
  simp only [around, moved, List.map_cons, List.map_nil, List.cons.injEq, Prod.mk.injEq, and_true]
  repeat' apply And.intro
  all_goals first | trivial | ring

theorem reported_tile (t : TileOf d x y xs ys) {p q : Pt} (h : TileInner (d.subset x y xs ys) p)
    (hr : ReportedFrom (d.subset x y xs ys) p q) : ReportedFrom d (moved x y p) (moved x y q) := by
  rcases hr with ⟨rfl, hl⟩ | ⟨l, r, e, hq, hl⟩
  · refine Or.inl ⟨rfl, fun m hm => ?_⟩
    rw [← moved_back x y m] at hm
    exact hl _ ((level_tile t h).2 hm)
  · refine Or.inr ⟨l.map (moved x y), r.map (moved x y), ?_, (level_tile t h).1 hq, ?_⟩
    · rw [around_moved, e]
      simp
    · intro m hm
      obtain ⟨m', hm', rfl⟩ := List.mem_map.1 hm
      exact fun c => hl m' hm' ((level_tile t h).2 c)

/-- A split of a list at the first element with a property. -/
theorem first_split_unique {α : Type} {P : α → Prop} {l l' r r' : List α} {a b : α}
    (e : l ++ a :: r = l' ++ b :: r') (ha : P a) (hb : P b) (hl : ∀ m ∈ l, ¬ P m)
    (hl' : ∀ m ∈ l', ¬ P m) : a = b := by
  induction l generalizing l' with
  | nil =>
    cases l' with
    | nil => exact (List.cons.inj e).1
    | cons c cs =>
      obtain ⟨e1, _⟩ := List.cons.inj e
      exact absurd (e1 ▸ ha) (hl' c (by simp))
  | cons c cs ih =>
    cases l' with
    | nil =>
      obtain ⟨e1, _⟩ := List.cons.inj e
      exact absurd (e1.symm ▸ hb) (hl c (by simp))
    | cons c' cs' =>
      exact ih (List.cons.inj e).2 (fun m hm => hl m (by simp [hm])) (fun m hm => hl' m (by simp [hm]))

theorem reported_unique {p q q' : Pt} (h : ReportedFrom d p q) (h' : ReportedFrom d p q') : q = q' := by
  rcases h with ⟨rfl, hl⟩ | ⟨l, r, e, hq, hl⟩ <;> rcases h' with ⟨rfl, hl'⟩ | ⟨l', r', e', hq', hl'⟩
  · rfl
  · exact absurd hq' (hl _)
  · exact absurd hq (hl' _)
  · exact first_split_unique (e.symm.trans e') hq hq' hl hl'

/-- Row-major order of cells. -/
def Before (p q : Pt) : Prop := p.1 < q.1 ∨ (p.1 = q.1 ∧ p.2 < q.2)

theorem cells_sorted (d : DataMap) : d.cells.Pairwise Before := by
  unfold DataMap.cells
  rw [List.pairwise_flatMap]
  refine ⟨fun i _ => ?_, ?_⟩
  · rw [List.pairwise_map]
    refine List.Pairwise.imp ?_ List.pairwise_lt_range
    intro a b hab
    exact Or.inr ⟨rfl, by simpa using hab⟩
  · refine List.Pairwise.imp ?_ List.pairwise_lt_range
    intro a b hab p hp q hq
    obtain ⟨_, _, rfl⟩ := List.mem_map.1 hp
    obtain ⟨_, _, rfl⟩ := List.mem_map.1 hq
    exact Or.inl (by simpa using hab)

theorem metAt_least {q : Pt} (h : MetAt d d.cells q) :
    ∃ p, Data d p ∧ ReportedFrom d p q ∧ ∀ m, Flat d p m → m = p ∨ Before p m := by
  obtain ⟨p, ⟨l, l', e, hd, hl⟩, hr⟩ := h
  refine ⟨p, hd, hr, fun m hm => ?_⟩
  have hs := cells_sorted d
  have hm' : m ∈ d.cells := (mem_cells d m).2 (hm.data hd).1
  rw [e] at hm' hs
  rcases List.mem_append.1 hm' with hm' | hm'
  · exact absurd hm (hl m hm')
  · rcases List.mem_cons.1 hm' with rfl | hm'
    · exact Or.inl rfl
    · exact Or.inr (List.rel_of_pairwise_cons (List.pairwise_append.1 hs).2.1 hm')

/-- The cell reported for an area off the ring of the tile is the same in tile and map. -/
theorem site_tile (t : TileOf d x y xs ys) {q q' : Pt} (h : OffRing (d.subset x y xs ys) q)
    (hw : MetAt (d.subset x y xs ys) (d.subset x y xs ys).cells q) (hd : MetAt d d.cells q')
    (hf : Flat d q' (moved x y q)) : q' = moved x y q := by
  obtain ⟨p, p1, p2, p3⟩ := metAt_least hw
  obtain ⟨p', s1, s2, s3⟩ := metAt_least hd
  have hp : Flat (d.subset x y xs ys) q p := p2.flat.symm p1
  have off : OffRing (d.subset x y xs ys) p := fun m hm => h m (hp.trans hm)
  have dmp : Data d (moved x y p) := (data_tile t p1.1).1 p1
  have f1 : Flat d p' (moved x y p) := (s2.flat.trans hf).trans ((flat_tile t h).1 hp)
  have e : p' = moved x y p := by
    have a := s3 _ f1
    have f2 : Flat d (moved x y p) p' := f1.symm s1
    obtain ⟨r, rfl⟩ := flat_moved p' f2
    have b := p3 r ((flat_tile t off).2 f2)
    unfold Before moved at a
    unfold Before at b
    unfold moved
    rw [Prod.ext_iff] at a b ⊢
    dsimp only at a b ⊢
    omega
  subst e
  exact reported_unique s2 (reported_tile t (off p .refl) p2)

end

/-! ### Components -/

theorem mem_component {S : List P3} {L : List (List P3)} (h : IsComponents S L) {c : List P3} (hc : c ∈ L)
    {a : P3} (ha : a ∈ c) (b : P3) : b ∈ c ↔ b ∈ S ∧ Conn S a b := by
  have hS : ∀ p ∈ c, p ∈ S := fun p hp => (h.mem p).1 (List.mem_flatten.2 ⟨c, hc, hp⟩)
  constructor
  · intro hb
    exact ⟨hS b hb, (h.sameIff a (hS a ha) b (hS b hb)).1 ⟨c, hc, ha, hb⟩⟩
  · rintro ⟨hb, hab⟩
    obtain ⟨c', hc', ha', hb'⟩ := (h.sameIff a (hS a ha) b hb).2 hab
    obtain ⟨i, hi, rfl⟩ := List.mem_iff_getElem.1 hc
    obtain ⟨j, hj, rfl⟩ := List.mem_iff_getElem.1 hc'
    have e := flatten_nodup_idx L h.nodup i j a
      (by rw [List.getD_eq_getElem?_getD, List.getElem?_eq_getElem hi]; exact ha)
      (by rw [List.getD_eq_getElem?_getD, List.getElem?_eq_getElem hj]; exact ha')
    subst e
    exact hb'

theorem component_nodup {S : List P3} {L : List (List P3)} (h : IsComponents S L) {c : List P3}
    (hc : c ∈ L) : c.Nodup := (List.nodup_flatten.1 h.nodup).1 c hc

/-- Two lists of the components of sets that correspond under a map of points correspond. -/
theorem components_match {S S' : List P3} {L L' : List (List P3)} (g : P3 → P3)
    (hg : ∀ a b, g a = g b → a = b) (hS : ∀ a, a ∈ S ↔ g a ∈ S')
    (hS' : ∀ a' ∈ S', ∃ a, a' = g a)
    (hadj : ∀ a b : P3, Adj (g a).xy (g b).xy ↔ Adj a.xy b.xy)
    (h : IsComponents S L) (h' : IsComponents S' L') :
    (∀ c ∈ L, ∃ c' ∈ L', c'.Perm (c.map g)) ∧ (∀ c' ∈ L', ∃ c ∈ L, c'.Perm (c.map g)) := by
  have conn : ∀ a b, Conn S a b ↔ Conn S' (g a) (g b) := by
    intro a b
    constructor
    · intro hab
      induction hab with
      | refl => exact .refl
      | tail _ h2 ih => exact ih.tail ⟨(hadj _ _).2 h2.1, (hS _).1 h2.2⟩
    · intro hab
      have gen : ∀ b', Conn S' (g a) b' → ∃ b, b' = g b ∧ Conn S a b := by
        intro b' hb'
        induction hb' with
        | refl => exact ⟨a, rfl, .refl⟩
        | @tail u v _ h2 ih =>
          obtain ⟨u, rfl, hu⟩ := ih
          obtain ⟨v, rfl⟩ := hS' v h2.2
          exact ⟨v, rfl, hu.tail ⟨(hadj _ _).1 h2.1, (hS _).2 h2.2⟩⟩
      obtain ⟨b', e, hb⟩ := gen _ hab
      rw [hg _ _ e]
      exact hb
  have perm : ∀ c ∈ L, ∀ c' ∈ L', ∀ a ∈ c, g a ∈ c' → c'.Perm (c.map g) := by
    intro c hc c' hc' a ha ha'
    refine (List.perm_ext_iff_of_nodup (component_nodup h' hc')
      ((component_nodup h hc).map (fun u v e => hg u v e))).2 ?_
    intro b'
    rw [mem_component h' hc' ha', List.mem_map]
    constructor
    · rintro ⟨b1, b2⟩
      obtain ⟨b, rfl⟩ := hS' b' b1
      exact ⟨b, (mem_component h hc ha b).2 ⟨(hS b).2 b1, (conn a b).2 b2⟩, rfl⟩
    · rintro ⟨b, hb, rfl⟩
      obtain ⟨b1, b2⟩ := (mem_component h hc ha b).1 hb
      exact ⟨(hS b).1 b1, (conn a b).1 b2⟩
  constructor
  · intro c hc
    obtain ⟨a, ha⟩ := List.exists_mem_of_ne_nil c (h.nonempty c hc)
    have haS : a ∈ S := (h.mem a).1 (List.mem_flatten.2 ⟨c, hc, ha⟩)
    obtain ⟨c', hc', ha'⟩ := List.mem_flatten.1 ((h'.mem _).2 ((hS a).1 haS))
    exact ⟨c', hc', perm c hc c' hc' a ha ha'⟩
  · intro c' hc'
    obtain ⟨a', ha'⟩ := List.exists_mem_of_ne_nil c' (h'.nonempty c' hc')
    have haS : a' ∈ S' := (h'.mem a').1 (List.mem_flatten.2 ⟨c', hc', ha'⟩)
    obtain ⟨a, rfl⟩ := hS' a' haS
    obtain ⟨c, hc, ha⟩ := List.mem_flatten.1 ((h.mem _).2 ((hS a).2 haS))
    exact ⟨c, hc, perm c hc c' hc' a ha ha'⟩

/-! ### Features of an area -/

section
variable {d : DataMap} {x y : Int} {xs ys : Nat}

theorem area_tile (t : TileOf d x y xs ys) {q : Pt} (h : OffRing (d.subset x y xs ys) q)
    {mp mp' : Option (List MPt)} (hf : RecordsArea (d.subset x y xs ys) q mp)
    (hg : RecordsArea d (moved x y q) mp') :
    (mp = none ∧ mp' = none) ∨ ∃ a b, mp = some a ∧ mp' = some b ∧ b.Perm (a.map (movedM x y)) := by
  rcases hf with ⟨rfl, h1⟩ | ⟨pts, rfl, n1, m1, z, hz, hzf⟩ <;>
    rcases hg with ⟨rfl, h2⟩ | ⟨pts', rfl, n2, m2, z', hz', hzf'⟩
  · exact Or.inl ⟨rfl, rfl⟩
  · exfalso
    obtain ⟨r, rfl⟩ := flat_moved z' hzf'
    have := (h1 r).1 ((flat_tile t h).2 hzf')
    exact hz' (by rw [this])
  · exfalso
    have := (h2 _).1 ((flat_tile t h).1 hzf)
    exact hz (moved_inj this)
  · refine Or.inr ⟨_, _, rfl, rfl, ?_⟩
    have hp : pts'.Perm (pts.map (moved x y)) := by
      refine (List.perm_ext_iff_of_nodup n2 (n1.map (fun u v e => moved_inj e))).2 ?_
      intro m
      rw [m2, List.mem_map]
      constructor
      · intro hm
        obtain ⟨r, rfl⟩ := flat_moved m hm
        exact ⟨r, (m1 r).2 ((flat_tile t h).2 hm), rfl⟩
      · rintro ⟨r, hr, rfl⟩
        exact (flat_tile t h).1 ((m1 r).1 hr)
    have := hp.map fun m : Pt => (⟨m.1, m.2, none⟩ : MPt)
    rw [List.map_map] at this ⊢
    exact this

theorem high_tile (t : TileOf d x y xs ys) {q : Pt} (h : OffRing (d.subset x y xs ys) q)
    {L L' : List (List P3)} (hf : IsHigh (d.subset x y xs ys) q L) (hg : IsHigh d (moved x y q) L') :
    (∀ c ∈ L, ∃ c' ∈ L', c'.Perm (c.map (moved3 x y))) ∧
    (∀ c' ∈ L', ∃ c ∈ L, c'.Perm (c.map (moved3 x y))) := by
  obtain ⟨S, hS, hc⟩ := hf
  obtain ⟨S', hS', hc'⟩ := hg
  refine components_match (moved3 x y) ?_ ?_ ?_ ?_ hc hc'
  · rintro ⟨a1, a2, a3⟩ ⟨b1, b2, b3⟩ e
    simp only [moved3, P3.mk.injEq] at e ⊢
    exact ⟨by omega, by omega, e.2.2⟩
  · intro a
    rw [hS, hS', highRim_tile t h]
    exact Iff.rfl
  · intro a' _
    refine ⟨⟨a'.x - x, a'.y - y, a'.e⟩, ?_⟩
    cases a'
    simp only [moved3, P3.mk.injEq, and_true]
    omega
  · intro a b
    exact adj_moved a.xy b.xy

end

end PyProm
