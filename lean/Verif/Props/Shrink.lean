import Verif.Spec.Shrink
import Verif.Props.Prominence
import Verif.Props.Turned
import Verif.Props.Tiles

/-
C119: only heights and neighbourhoods of cells matter
-/
namespace PyProm
open Spec

section
variable {φ : Pt → Pt} {w d : DataMap} (t : Shows φ w d)
include t

/-- Ways inside the cells that show one cell. -/
theorem shows_flat_one {q r : Pt} (hq : Data w q) (hr : Data w r) (h : φ q = φ r) : Flat w q r := by
  have g := t.whole q r hq hr h
  clear h hr
  suffices ∀ r, Relation.ReflTransGen (fun a b => Adj a b ∧ Data w b ∧ φ b = φ q) q r → Flat w q r ∧ Data w r ∧ φ r = φ q from
    (this r g).1
  clear g r
  intro r g
  induction g with
  | refl => exact ⟨.refl, hq, rfl⟩
  | @tail b c _ h2 ih =>
    exact ⟨ih.1.tail ⟨h2.1, h2.2.1, by rw [t.height c h2.2.1, t.height b ih.2.1, h2.2.2, ih.2.2]⟩, h2.2.1, h2.2.2⟩

theorem shows_flat {q r : Pt} (hq : Data w q) (hr : Data w r) : Flat w q r ↔ Flat d (φ q) (φ r) := by
  constructor
  · intro g
    clear hr
    induction g with
    | refl => exact .refl
    | @tail b c h1 h2 ih =>
      have hb := (flat_data hq h1).1
      rcases t.near b c hb h2.2.1 h2.1 with e | e
      · rw [← e]; exact ih
      · exact ih.tail ⟨e, t.data c h2.2.1, by rw [← t.height c h2.2.1, ← t.height b hb, h2.2.2]⟩
  · intro g
    suffices ∀ b, Flat d (φ q) b → ∀ r, Data w r → φ r = b → Flat w q r from this _ g r hr rfl
    clear g hr r
    intro b g
    induction g with
    | refl => exact fun r hr e => shows_flat_one t hq hr e.symm
    | @tail b c h1 h2 ih =>
      intro r hr e
      have hb := (flat_data (t.data q hq) h1).1
      obtain ⟨u, v, hu, hv, eu, ev, a⟩ := t.touch b c hb h2.2.1 h2.1
      refine ((ih u hu eu).tail ⟨a, hv, ?_⟩).trans (shows_flat_one t hv hr (ev.trans e.symm))
      rw [t.height v hv, t.height u hu, eu, ev, h2.2.2]

theorem shows_passable (k : Rat) {q r : Pt} (hq : Data w q) (hr : Data w r) : Passable w k q r ↔ Passable d k (φ q) (φ r) := by
  unfold Passable
  rw [t.height q hq]
  have := t.data q hq
  constructor
  · rintro ⟨_, h, g⟩
    refine ⟨this, h, ?_⟩
    suffices ∀ r, Relation.ReflTransGen (fun a b => Adj a b ∧ Data w b ∧ k ≤ el w b) q r → Data w r ∧
        Relation.ReflTransGen (fun a b => Adj a b ∧ Data d b ∧ k ≤ el d b) (φ q) (φ r) from (this r g).2
    clear g hr r
    intro r g
    induction g with
    | refl => exact ⟨hq, .refl⟩
    | @tail b c _ h2 ih =>
      refine ⟨h2.2.1, ?_⟩
      rcases t.near b c ih.1 h2.2.1 h2.1 with e | e
      · rw [← e]; exact ih.2
      · exact ih.2.tail ⟨e, t.data c h2.2.1, by rw [← t.height c h2.2.1]; exact h2.2.2⟩
  · rintro ⟨_, h, g⟩
    refine ⟨hq, h, ?_⟩
    have one : ∀ u v, Data w u → Data w v → φ u = φ v → k ≤ el d (φ u) →
        Relation.ReflTransGen (fun a b => Adj a b ∧ Data w b ∧ k ≤ el w b) u v := by
      intro u v hu hv e hk
      exact Relation.ReflTransGen.mono (fun a b c => ⟨c.1, c.2.1, by rw [t.height b c.2.1, c.2.2]; exact hk⟩) _ _ (t.whole u v hu hv e)
    suffices ∀ b, Relation.ReflTransGen (fun a b => Adj a b ∧ Data d b ∧ k ≤ el d b) (φ q) b → (Data d b ∧ k ≤ el d b) ∧ ∀ r, Data w r → φ r = b →
        Relation.ReflTransGen (fun a b => Adj a b ∧ Data w b ∧ k ≤ el w b) q r from (this _ g).2 r hr rfl
    clear g hr r
    intro b g
    induction g with
    | refl => exact ⟨⟨this, h⟩, fun r hr e => one q r hq hr e.symm h⟩
    | @tail b c _ h2 ih =>
      refine ⟨h2.2, fun r hr e => ?_⟩
      obtain ⟨u, v, hu, hv, eu, ev, a⟩ := t.touch b c ih.1.1 h2.2.1 h2.1
      refine ((ih.2 u hu eu).tail ⟨a, hv, ?_⟩).trans (one v r hv hr (ev.trans e.symm) ?_)
      · rw [t.height v hv, ev]; exact h2.2.2
      · rw [ev]; exact h2.2.2

theorem shows_isTop {q : Pt} (hq : Data w q) : IsTop w q ↔ IsTop d (φ q) := by
  unfold Spec.IsTop
  constructor
  · rintro g s ⟨⟨h1, h2, m, h3, h4⟩, h5⟩
    obtain ⟨u, v, hu, hv, rfl, rfl, a⟩ := t.touch m s (flat_data (t.data q hq) h3).1 h1 h4
    rw [← t.height q hq, ← t.height v hv] at h5
    exact g v ⟨⟨hv, ne_of_gt h5, u, (shows_flat t hq hu).2 h3, a⟩, h5⟩
  · rintro g r ⟨⟨h1, h2, m, h3, h4⟩, h5⟩
    have hm := flat_data hq h3
    have h6 := h5
    rw [t.height q hq, t.height r h1] at h6
    rcases t.near m r hm.1 h1 h4 with e | e
    · rw [t.height r h1, ← e, ← t.height m hm.1, hm.2] at h5
      exact absurd h5 (lt_irrefl _)
    · exact g _ ⟨⟨t.data r h1, ne_of_gt h6, _, (shows_flat t hq hm.1).1 h3, e⟩, h6⟩

/-- A cell of `w` and a cell of the area it shows. -/
structure PeakAt (φ : Pt → Pt) (w d : DataMap) (q p : Pt) : Prop where
  data : Data w q
  flat : Flat d p (φ q)
  shown : Data d p

variable {p q p' q' : Pt}

theorem peakAt_el (h : PeakAt φ w d q p) : el w q = el d p := by
  rw [t.height q h.data, (flat_data h.shown h.flat).2]

theorem peakAt_passable (hA : PeakAt φ w d q p) (hB : PeakAt φ w d q' p') (k : Rat) : Passable w k q q' ↔ Passable d k p p' := by
  rw [shows_passable t k hA.data hB.data, passable_flat hA.shown hA.flat]
  exact ⟨fun g => ((passable_flat hB.shown hB.flat).1 g.symm).symm, fun g => ((passable_flat hB.shown hB.flat).2 g.symm).symm⟩

theorem peakAt_escapes (hA : PeakAt φ w d q p) (k : Rat) : Escapes w q k ↔ Escapes d p k := by
  unfold Escapes
  rw [peakAt_el t hA]
  constructor
  · rintro ⟨r, h1, h2⟩
    have hr := h2.symm.1
    exact ⟨φ r, by rw [← t.height r hr]; exact h1, (passable_flat hA.shown hA.flat).1 ((shows_passable t k hA.data hr).1 h2)⟩
  · rintro ⟨s, h1, h2⟩
    obtain ⟨r, hr, rfl⟩ := t.onto s h2.symm.1
    exact ⟨r, by rw [t.height r hr]; exact h1, (shows_passable t k hA.data hr).2 ((passable_flat hA.shown hA.flat).2 h2)⟩

theorem peakAt_same (hA : PeakAt φ w d q p) {f g : Feature} (hf : SummitFor w q f) (hg : SummitFor d p g) : SamePeak φ w d f g := by
  refine ⟨by rw [hf.located.2.2, hg.located.2.2, peakAt_el t hA], q, p, hf, hg, hA.data, hA.shown, fun r hr => ?_⟩
  rw [shows_flat t hA.data hr]
  exact ⟨fun c => hA.flat.trans c, fun c => (hA.flat.symm hA.shown).trans c⟩

theorem sites_shown {sites sites' : List Pt} {ss ss' : List Feature} (hS : SummitsAt w sites ss) (hS' : SummitsAt d sites' ss') :
    ∃ π : Nat → Nat, (∀ (a : Nat) (q : Pt), sites[a]? = some q → ∃ p, sites'[π a]? = some p ∧ PeakAt φ w d q p) ∧
      (∀ (b : Nat) (p : Pt), sites'[b]? = some p → ∃ (a : Nat) (q : Pt), sites[a]? = some q ∧ π a = b) ∧
      ∀ (a b : Nat) (q r : Pt), sites[a]? = some q → sites[b]? = some r → π a = π b → a = b := by
  have h1 : ∀ a : Nat, ∃ b : Nat, ∀ q : Pt, sites[a]? = some q → ∃ p, sites'[b]? = some p ∧ PeakAt φ w d q p := by
    intro a
    cases ha : sites[a]? with
    | none => exact ⟨0, fun _ c => nomatch c⟩
    | some q =>
      obtain ⟨hd, ht⟩ := hS.top q (List.mem_of_getElem? ha)
      obtain ⟨p, hp, hf⟩ := hS'.all (φ q) (t.data q hd) ((shows_isTop t hd).1 ht)
      obtain ⟨b, hb⟩ := List.getElem?_of_mem hp
      refine ⟨b, fun q2 e => ?_⟩
      cases e
      exact ⟨p, hb, hd, hf, (hS'.top p hp).1⟩
  choose π hπ using h1
  have inj : ∀ {e : DataMap} {l : List Pt} {k : List Feature}, SummitsAt e l k → ∀ (a b : Nat) (p q : Pt), l[a]? = some p →
      l[b]? = some q → Flat e p q → a = b := by
    intro e l k g a b p q ha hb hf
    have := once_eq g.once (fun a ha b _ h => h.symm (g.top a ha).1) p (List.mem_of_getElem? ha) q (List.mem_of_getElem? hb) hf
    subst this
    have hn : l.Nodup := g.once.imp fun {a b} h (e : a = b) => h (e ▸ .refl)
    exact (List.getElem?_inj (lt_of_getElem? ha) hn).1 (ha.trans hb.symm)
  refine ⟨π, hπ, ?_, ?_⟩
  · intro b p hb
    obtain ⟨hd, ht⟩ := hS'.top _ (List.mem_of_getElem? hb)
    obtain ⟨r, hr, rfl⟩ := t.onto p hd
    obtain ⟨q, hq, hf⟩ := hS.all r hr ((shows_isTop t hr).2 ht)
    obtain ⟨a, ha⟩ := List.getElem?_of_mem hq
    obtain ⟨p', hp', hA⟩ := hπ a q ha
    refine ⟨a, q, ha, inj hS' _ _ _ _ hp' hb (hA.flat.trans ?_)⟩
    exact (shows_flat t hA.data hr).1 hf
  · intro a b q r ha hb e
    obtain ⟨p, hp, hA⟩ := hπ a q ha
    obtain ⟨p', hp', hB⟩ := hπ b r hb
    rw [e] at hp
    cases (hp.symm.trans hp' : some _ = some _)
    exact inj hS _ _ _ _ ha hb ((shows_flat t hA.data hB.data).2 ((hA.flat.symm hA.shown).trans hB.flat))

end

/-- C119: two rasters that show the same ground, one perhaps with several cells for one of the other, have the same summits, for
corresponding areas; corresponding summits are connected over live saddles not lower than `k` in one map exactly if they are in the
other, and connected with a higher summit that way in one exactly if in the other, so that prominences are the same. -/
theorem C119_shown (φ : Pt → Pt) (E E' : SaddleEnv) (hE : RunOk E) (hE' : RunOk E') (t : Shows φ E.d E'.d)
    (o o' : Pt → Oracle) (order order' : List Pt) (ho : IsScan E.d order) (ho' : IsScan E'.d order') (rebuild rebuild' : Bool) :
    ∃ m m', DMap.runSparse E o order rebuild = .ok m ∧ DMap.runSparse E' o' order' rebuild' = .ok m' ∧ ∃ π : Nat → Nat,
      (∀ (a : Nat) f, m.summits[a]? = some f → ∃ g, m'.summits[π a]? = some g ∧ SamePeak φ E.d E'.d f g) ∧
      (∀ (b : Nat) g, m'.summits[b]? = some g → ∃ a f, m.summits[a]? = some f ∧ π a = b) ∧
      (∀ (a b : Nat) f g, m.summits[a]? = some f → m.summits[b]? = some g → π a = π b → a = b) ∧
      (∀ (a b : Nat) f g, m.summits[a]? = some f → m.summits[b]? = some g → ∀ k, k ≤ f.elevation →
        (NetConnected m (LiveSaddle m) k a b ↔ NetConnected m' (LiveSaddle m') k (π a) (π b))) ∧
      ∀ (a : Nat) f, m.summits[a]? = some f → ∀ k,
        ((∃ b, HigherSummit m a b ∧ NetConnected m (LiveSaddle m) k a b) ↔
          ∃ b, HigherSummit m' (π a) b ∧ NetConnected m' (LiveSaddle m') k (π a) b) := by
  obtain ⟨m, sites, h1, h2, h3⟩ := C77_faithful E hE o order ho rebuild
  obtain ⟨m', sites', g1, g2, g3⟩ := C77_faithful E' hE' o' order' ho' rebuild'
  obtain ⟨m0, sites0, h1', h2', h4⟩ := C103_prominence E hE o order ho rebuild
  cases (h1'.symm.trans h1 : Except.ok _ = Except.ok _)
  obtain ⟨m0', sites0', g1', g2', g4⟩ := C103_prominence E' hE' o' order' ho' rebuild'
  cases (g1'.symm.trans g1 : Except.ok _ = Except.ok _)
  obtain rfl := sites_same hE.geo h2 h2'
  obtain rfl := sites_same hE'.geo g2 g2'
  obtain ⟨π, p1, p2, p3⟩ := sites_shown t h2 g2
  have site : ∀ {d : DataMap} {sites : List Pt} {ss : List Feature}, SummitsAt d sites ss → ∀ (a : Nat) (f : Feature),
      ss[a]? = some f → ∃ p, sites[a]? = some p ∧ SummitFor d p f := by
    intro d sites ss hS a f ha
    have hl := lt_of_getElem? ha
    rw [← hS.each.length_eq] at hl
    obtain ⟨s, s1, s2⟩ := forall₂_getElem? hS.each (List.getElem?_eq_getElem hl)
    rw [ha] at s1
    cases s1
    exact ⟨_, List.getElem?_eq_getElem hl, s2⟩
  refine ⟨m, m', h1, g1, π, ?_, ?_, ?_, ?_, ?_⟩
  · intro a f ha
    obtain ⟨q, hq, hf⟩ := site h2 a f ha
    obtain ⟨p, hp, hA⟩ := p1 a q hq
    obtain ⟨g, e1, e2⟩ := forall₂_getElem? g2.each hp
    exact ⟨g, e1, peakAt_same t hA hf e2⟩
  · intro b g hb
    obtain ⟨p, hp, hg⟩ := site g2 b g hb
    obtain ⟨a, q, ha, e⟩ := p2 b p hp
    obtain ⟨f, e1, e2⟩ := forall₂_getElem? h2.each ha
    exact ⟨a, f, e1, e⟩
  · intro a b f g ha hb e
    obtain ⟨p, hp, _⟩ := site h2 a f ha
    obtain ⟨q, hq, _⟩ := site h2 b g hb
    exact p3 a b p q hp hq e
  · intro a b f g ha hb k hh
    obtain ⟨p, hp, hf'⟩ := site h2 a f ha
    obtain ⟨q, hq, hg'⟩ := site h2 b g hb
    rw [hf'.located.2.2] at hh
    obtain ⟨p', hp', hA⟩ := p1 a p hp
    obtain ⟨q', hq', hB⟩ := p1 b q hq
    rw [h3 k a b p q hp hq hh, g3 k _ _ p' q' hp' hq' (by rw [← peakAt_el t hA]; exact hh), peakAt_passable t hA hB k]
  · intro a f ha k
    obtain ⟨p, hp, hf⟩ := site h2 a f ha
    obtain ⟨p', hp', hA⟩ := p1 a p hp
    rw [← (h4 a p hp).1, ← (g4 _ p' hp').1, peakAt_escapes t hA k]

/-- From cell to cell inside a rectangle. -/
theorem box_way (x0 x1 y0 y1 : Int) : ∀ (n : Nat) (q r : Pt), (r.1 - q.1).natAbs + (r.2 - q.2).natAbs ≤ n →
    x0 ≤ q.1 ∧ q.1 ≤ x1 ∧ y0 ≤ q.2 ∧ q.2 ≤ y1 → x0 ≤ r.1 ∧ r.1 ≤ x1 ∧ y0 ≤ r.2 ∧ r.2 ≤ y1 →
    Relation.ReflTransGen (fun a b => Adj a b ∧ x0 ≤ b.1 ∧ b.1 ≤ x1 ∧ y0 ≤ b.2 ∧ b.2 ≤ y1) q r := by
  intro n
  induction n with
  | zero =>
    intro q r h _ _
    have : q = r := by rw [Prod.ext_iff]; omega
    rw [this]
  | succ n ih =>
    rintro ⟨a, b⟩ ⟨a', b'⟩ h hq hr
    dsimp only at h hq hr
    by_cases e : ((a, b) : Pt) = (a', b')
    · rw [e]
    · rw [Prod.ext_iff] at e
      dsimp only at e
      by_cases ha : a = a'
      · by_cases hb : b < b'
        · exact .head ⟨⟨fun c => by rw [Prod.ext_iff] at c; dsimp only at c; omega, by dsimp only; omega⟩, by dsimp only; omega⟩
            (ih (a, b + 1) (a', b') (by dsimp only; omega) (by dsimp only; omega) hr)
        · exact .head ⟨⟨fun c => by rw [Prod.ext_iff] at c; dsimp only at c; omega, by dsimp only; omega⟩, by dsimp only; omega⟩
            (ih (a, b - 1) (a', b') (by dsimp only; omega) (by dsimp only; omega) hr)
      · by_cases hb : a < a'
        · exact .head ⟨⟨fun c => by rw [Prod.ext_iff] at c; dsimp only at c; omega, by dsimp only; omega⟩, by dsimp only; omega⟩
            (ih (a + 1, b) (a', b') (by dsimp only; omega) (by dsimp only; omega) hr)
        · exact .head ⟨⟨fun c => by rw [Prod.ext_iff] at c; dsimp only at c; omega, by dsimp only; omega⟩, by dsimp only; omega⟩
            (ih (a - 1, b) (a', b') (by dsimp only; omega) (by dsimp only; omega) hr)

/-- The parts a number consists of. -/
theorem part_iff {a : Int} (h : 0 < a) (x k : Int) : x / a = k ↔ a * k ≤ x ∧ x ≤ a * k + (a - 1) := by
  have h1 := Int.mul_ediv_add_emod x a
  have h2 := Int.emod_nonneg x (ne_of_gt h)
  have h3 := Int.emod_lt_of_pos x h
  constructor
  · rintro rfl
    omega
  · rintro ⟨h4, h5⟩
    have : x = (x - a * k) + a * k := by ring
    rw [this, Int.add_mul_ediv_left _ _ (ne_of_gt h), Int.ediv_eq_zero_of_lt (by omega) (by omega), zero_add]

theorem part_near {a : Int} (h : 0 < a) {x y : Int} (h1 : -1 ≤ y - x) (h2 : y - x ≤ 1) : -1 ≤ y / a - x / a ∧ y / a - x / a ≤ 1 := by
  have g1 : y / a ≤ (x + a) / a := Int.ediv_le_ediv h (by omega)
  have g2 : x / a ≤ (y + a) / a := Int.ediv_le_ediv h (by omega)
  rw [Int.add_ediv_of_dvd_right (dvd_refl a), Int.ediv_self (ne_of_gt h)] at g1 g2
  omega

theorem part_touch {a : Int} (h : 0 < a) {k l : Int} (h1 : -1 ≤ l - k) (h2 : l - k ≤ 1) :
    ∃ x y : Int, x / a = k ∧ y / a = l ∧ -1 ≤ y - x ∧ y - x ≤ 1 := by
  have : l = k ∨ l = k + 1 ∨ l = k - 1 := by omega
  rcases this with rfl | rfl | rfl
  · exact ⟨a * l, a * l, (part_iff h _ _).2 (by omega), (part_iff h _ _).2 (by omega), by omega, by omega⟩
  · refine ⟨a * k + (a - 1), a * (k + 1), (part_iff h _ _).2 (by omega), (part_iff h _ _).2 (by omega), ?_, ?_⟩ <;>
      rw [mul_add, mul_one] <;> omega
  · refine ⟨a * k, a * (k - 1) + (a - 1), (part_iff h _ _).2 (by omega), (part_iff h _ _).2 (by omega), ?_, ?_⟩ <;>
      rw [mul_sub, mul_one] <;> omega

/-- Every cell of `d` is a block of cells. -/
theorem blocks_shows {a b : Nat} (ha : 0 < a) (hb : 0 < b) {w d : DataMap} (t : Blocks a b w d) :
    Shows (fun p => (p.1 / (a : Int), p.2 / (b : Int))) w d := by
  have ha' : (0 : Int) < a := by omega
  have hb' : (0 : Int) < b := by omega
  have inb : ∀ q : Pt, InB w q ↔ InB d (q.1 / (a : Int), q.2 / (b : Int)) := by
    intro q
    have e1 : (w.maxX : Int) + 1 = a * (d.maxX + 1) := by exact_mod_cast t.rows
    have e2 : (w.maxY : Int) + 1 = b * (d.maxY + 1) := by exact_mod_cast t.columns
    have k1 : 0 ≤ q.1 / (a : Int) ↔ 0 ≤ q.1 := by rw [Int.le_ediv_iff_mul_le ha', zero_mul]
    have k2 : 0 ≤ q.2 / (b : Int) ↔ 0 ≤ q.2 := by rw [Int.le_ediv_iff_mul_le hb', zero_mul]
    have k3 : q.1 / (a : Int) < d.maxX + 1 ↔ q.1 < w.maxX + 1 := by rw [Int.ediv_lt_iff_lt_mul ha', e1, mul_comm]
    have k4 : q.2 / (b : Int) < d.maxY + 1 ↔ q.2 < w.maxY + 1 := by rw [Int.ediv_lt_iff_lt_mul hb', e2, mul_comm]
    unfold InB
    dsimp only
    omega
  have dat : ∀ q : Pt, Data w q ↔ Data d (q.1 / (a : Int), q.2 / (b : Int)) := by
    intro q
    unfold Data
    rw [t.nodata, ← inb q]
    exact and_congr_right fun h => by rw [t.height q h]
  refine ⟨fun q h => (dat q).1 h, fun q h => t.height q h.1, ?_, ?_, ?_, ?_⟩
  · rintro ⟨k, l⟩ h
    have e : (((a : Int) * k / (a : Int), (b : Int) * l / (b : Int)) : Pt) = (k, l) := by
      rw [Int.mul_ediv_cancel_left _ (ne_of_gt ha'), Int.mul_ediv_cancel_left _ (ne_of_gt hb')]
    exact ⟨((a : Int) * k, (b : Int) * l), (dat _).2 (by rw [e]; exact h), e⟩
  · rintro q r _ _ ⟨_, h1, h2, h3, h4⟩
    have g1 := part_near ha' h1 h2
    have g2 := part_near hb' h3 h4
    by_cases e : ((q.1 / (a : Int), q.2 / (b : Int)) : Pt) = (r.1 / (a : Int), r.2 / (b : Int))
    · exact Or.inl e
    · exact Or.inr ⟨e, g1.1, g1.2, g2.1, g2.2⟩
  · rintro ⟨k, l⟩ ⟨k', l'⟩ h1 h2 ⟨h0, h3, h4, h5, h6⟩
    obtain ⟨x, y, e1, e2, g1, g2⟩ := part_touch ha' h3 h4
    obtain ⟨x', y', e3, e4, g3, g4⟩ := part_touch hb' h5 h6
    dsimp only at e1 e2 e3 e4
    refine ⟨(x, x'), (y, y'), (dat _).2 ?_, (dat _).2 ?_, ?_, ?_, ?_, g1, g2, g3, g4⟩
    · dsimp only; rw [e1, e3]; exact h1
    · dsimp only; rw [e2, e4]; exact h2
    · dsimp only; rw [e1, e3]
    · dsimp only; rw [e2, e4]
    · intro c
      rw [Prod.ext_iff] at c
      dsimp only at c
      apply h0
      rw [← e1, ← e2, ← e3, ← e4, c.1, c.2]
  · rintro q r hq hr e
    rw [Prod.ext_iff] at e
    dsimp only at e
    have c1 := (part_iff ha' q.1 _).1 rfl
    have c2 := (part_iff hb' q.2 _).1 rfl
    have c3 := (part_iff ha' r.1 _).1 e.1.symm
    have c4 := (part_iff hb' r.2 _).1 e.2.symm
    refine Relation.ReflTransGen.mono (fun u v c => ?_) _ _ (box_way _ _ _ _ _ q r (le_refl _) ⟨c1.1, c1.2, c2.1, c2.2⟩ ⟨c3.1, c3.2, c4.1, c4.2⟩)
    have k1 := (part_iff ha' v.1 _).2 ⟨c.2.1, c.2.2.1⟩
    have k2 := (part_iff hb' v.2 _).2 ⟨c.2.2.2.1, c.2.2.2.2⟩
    refine ⟨c.1, (dat v).2 ?_, ?_⟩
    · rw [k1, k2]; exact (dat q).1 hq
    · rw [k1, k2]

theorem framed_shows {x y : Int} {w d : DataMap} (t : Framed x y w d) : Shows (fun p => (p.1 - x, p.2 - y)) w d where
  data q h := (t.data q).1 h
  height := t.height
  onto p h := by
    have e : ((p.1 + x - x, p.2 + y - y) : Pt) = p := by rw [Prod.ext_iff]; dsimp only; omega
    exact ⟨(p.1 + x, p.2 + y), (t.data _).2 (by rw [e]; exact h), e⟩
  near q r _ _ h := by
    obtain ⟨h0, h⟩ := h
    refine Or.inr ⟨fun c => h0 ?_, by dsimp only; omega⟩
    rw [Prod.ext_iff] at c ⊢
    dsimp only at c
    omega
  touch p s h1 h2 h := by
    have e : ∀ p : Pt, ((p.1 + x - x, p.2 + y - y) : Pt) = p := by intro p; rw [Prod.ext_iff]; dsimp only; omega
    refine ⟨(p.1 + x, p.2 + y), (s.1 + x, s.2 + y), (t.data _).2 (by rw [e]; exact h1), (t.data _).2 (by rw [e]; exact h2), e p, e s, ?_⟩
    obtain ⟨h0, h⟩ := h
    refine ⟨fun c => h0 ?_, by dsimp only; omega⟩
    rw [Prod.ext_iff] at c ⊢
    dsimp only at c
    omega
  whole q r _ _ h := by
    have : q = r := by
      rw [Prod.ext_iff] at h ⊢
      dsimp only at h
      omega
    rw [this]

/-- The statement of C119 about two maps. -/
def Spec.SameGround (φ : Pt → Pt) (w d : DataMap) (m m' : DMap) : Prop :=
  ∃ π : Nat → Nat,
    (∀ (a : Nat) f, m.summits[a]? = some f → ∃ g, m'.summits[π a]? = some g ∧ SamePeak φ w d f g) ∧
    (∀ (b : Nat) g, m'.summits[b]? = some g → ∃ a f, m.summits[a]? = some f ∧ π a = b) ∧
    (∀ (a b : Nat) f g, m.summits[a]? = some f → m.summits[b]? = some g → π a = π b → a = b) ∧
    (∀ (a b : Nat) f g, m.summits[a]? = some f → m.summits[b]? = some g → ∀ k, k ≤ f.elevation →
      (NetConnected m (LiveSaddle m) k a b ↔ NetConnected m' (LiveSaddle m') k (π a) (π b))) ∧
    ∀ (a : Nat) f, m.summits[a]? = some f → ∀ k,
      ((∃ b, HigherSummit m a b ∧ NetConnected m (LiveSaddle m) k a b) ↔
        ∃ b, HigherSummit m' (π a) b ∧ NetConnected m' (LiveSaddle m') k (π a) b)

/-- C119, finer rasters: if every cell is replaced by a block of `a` times `b` cells, the result is the same in this sense. -/
theorem C119_blocks (a b : Nat) (ha : 0 < a) (hb : 0 < b) (E E' : SaddleEnv) (hE : RunOk E) (hE' : RunOk E') (t : Blocks a b E.d E'.d)
    (o o' : Pt → Oracle) (order order' : List Pt) (ho : IsScan E.d order) (ho' : IsScan E'.d order') (rebuild rebuild' : Bool) :
    ∃ m m', DMap.runSparse E o order rebuild = .ok m ∧ DMap.runSparse E' o' order' rebuild' = .ok m' ∧
      SameGround (fun p => (p.1 / (a : Int), p.2 / (b : Int))) E.d E'.d m m' :=
  C119_shown _ E E' hE hE' (blocks_shows ha hb t) o o' order order' ho ho' rebuild rebuild'

/-- C119, margins: cells without data around the data, or more or fewer of them, do not matter in this sense. -/
theorem C119_framed (x y : Int) (E E' : SaddleEnv) (hE : RunOk E) (hE' : RunOk E') (t : Framed x y E.d E'.d)
    (o o' : Pt → Oracle) (order order' : List Pt) (ho : IsScan E.d order) (ho' : IsScan E'.d order') (rebuild rebuild' : Bool) :
    ∃ m m', DMap.runSparse E o order rebuild = .ok m ∧ DMap.runSparse E' o' order' rebuild' = .ok m' ∧
      SameGround (fun p => (p.1 - x, p.2 - y)) E.d E'.d m m' :=
  C119_shown _ E E' hE hE' (framed_shows t) o o' order order' ho ho' rebuild rebuild'

/-! ### Instances -/

/-- Two hills with a pass between them. -/
def exPair : DataMap := DataMap.ofRows [[0, 0, 0, 0, 0], [0, 5, 3, 9, 0], [0, 0, 0, 0, 0]]

/-- The same with every cell twice. -/
def exPairs : DataMap :=
  DataMap.ofRows [[0, 0, 0, 0, 0], [0, 0, 0, 0, 0], [0, 5, 3, 9, 0], [0, 5, 3, 9, 0], [0, 0, 0, 0, 0], [0, 0, 0, 0, 0]]

/-- The hills alone, with cells without data around them. -/
def exRimmed : DataMap := DataMap.ofRows [[-1, -1, -1, -1, -1], [-1, 5, 3, 9, -1], [-1, -1, -1, -1, -1]] (some (-1))

/-- The hills alone. -/
def exBare : DataMap := DataMap.ofRows [[5, 3, 9]] (some (-1))

theorem exPairs_blocks : Blocks 2 1 exPairs exPair where
  rows := rfl
  columns := rfl
  height := by
    have h : ∀ p ∈ exPairs.cells, el exPairs p = el exPair (p.1 / (2 : Nat), p.2 / (1 : Nat)) := by decide +kernel
    exact fun p hp => h p ((mem_cells _ p).2 hp)
  nodata := rfl

theorem exRimmed_framed : Framed 1 1 exRimmed exBare := by
  have h1 : ∀ p ∈ exRimmed.cells, some (el exRimmed p) ≠ exRimmed.nodata →
      (p.1 - 1, p.2 - 1) ∈ exBare.cells ∧ some (el exBare (p.1 - 1, p.2 - 1)) ≠ exBare.nodata ∧
        el exRimmed p = el exBare (p.1 - 1, p.2 - 1) := by decide +kernel
  have h2 : ∀ q ∈ exBare.cells, (q.1 + 1, q.2 + 1) ∈ exRimmed.cells ∧ some (el exRimmed (q.1 + 1, q.2 + 1)) ≠ exRimmed.nodata := by
    decide +kernel
  have k : ∀ p, Data exRimmed p → Data exBare (p.1 - 1, p.2 - 1) ∧ el exRimmed p = el exBare (p.1 - 1, p.2 - 1) := by
    intro p hp
    have := h1 p ((mem_cells _ p).2 hp.1) hp.2
    exact ⟨⟨(mem_cells _ _).1 this.1, this.2.1⟩, this.2.2⟩
  refine ⟨fun p => ⟨fun hp => (k p hp).1, fun hp => ?_⟩, fun p hp => (k p hp).2⟩
  have := h2 _ ((mem_cells _ _).2 hp.1)
  have e : ((p.1 - 1 + 1, p.2 - 1 + 1) : Pt) = p := by rw [Prod.ext_iff]; dsimp only; omega
  rw [show ((p.1 - 1, p.2 - 1) : Pt).1 + 1 = p.1 - 1 + 1 from rfl, show ((p.1 - 1, p.2 - 1) : Pt).2 + 1 = p.2 - 1 + 1 from rfl, e] at this
  exact ⟨(mem_cells _ _).1 this.1, this.2⟩

theorem exRimmed_ok : RunOk (exRun exRimmed) ∧ RunOk (exRun exBare) := by
  refine ⟨exRun_ok _ ?_ ⟨by simp [exRimmed, DataMap.ofRows], by simp [exRimmed, DataMap.ofRows], rfl, rfl, fun _ => rfl⟩ (by unfold maxsize; decide +kernel),
    exRun_ok _ ?_ ⟨by simp [exBare, DataMap.ofRows], by simp [exBare, DataMap.ofRows], rfl, rfl, fun _ => rfl⟩ (by unfold maxsize; decide +kernel)⟩
  · intro v hv p hp
    cases hv
    have h : ∀ p ∈ exRimmed.cells, some (el exRimmed p) ≠ exRimmed.nodata → (-1 : Rat) < el exRimmed p := by decide +kernel
    exact h p ((mem_cells _ p).2 hp.1) hp.2
  · intro v hv p hp
    cases hv
    have h : ∀ p ∈ exBare.cells, some (el exBare p) ≠ exBare.nodata → (-1 : Rat) < el exBare p := by decide +kernel
    exact h p ((mem_cells _ p).2 hp.1) hp.2

example : ∃ m m', DMap.runSparse (exRun exPairs) (fun _ => exOracle) exPairs.cells false = .ok m ∧
    DMap.runSparse (exRun exPair) (fun _ => exOracle) exPair.cells true = .ok m' ∧
      SameGround (fun p => (p.1 / ((2 : Nat) : Int), p.2 / ((1 : Nat) : Int))) exPairs exPair m m' :=
  C119_blocks 2 1 (by decide) (by decide) (exRun exPairs) (exRun exPair) (exRun_plain _ (by unfold maxsize; decide +kernel))
    (exRun_plain _ (by unfold maxsize; decide +kernel)) exPairs_blocks _ _ _ _ (isScan_cells _) (isScan_cells _) _ _

example : ∃ m m', DMap.runSparse (exRun exRimmed) (fun _ => exOracle) exRimmed.cells false = .ok m ∧
    DMap.runSparse (exRun exBare) (fun _ => exOracle) exBare.cells false = .ok m' ∧
      SameGround (fun p => (p.1 - 1, p.2 - 1)) exRimmed exBare m m' :=
  C119_framed 1 1 (exRun exRimmed) (exRun exBare) exRimmed_ok.1 exRimmed_ok.2 exRimmed_framed _ _ _ _ (isScan_cells _)
    (isScan_cells _) _ _

/-- The limits of C119: what the edge of the raster brings in - edge flags, edge saddles and runoffs - differs. Here the hills alone
are at the edge and there are more saddles and runoffs than with cells without data around them. -/
theorem C119_only_ground : ∃ (x y : Int) (w d : DataMap) (m m' : DMap), RunOk (exRun w) ∧ RunOk (exRun d) ∧ Framed x y w d ∧
    DMap.runSparse (exRun w) (fun _ => exOracle) w.cells false = .ok m ∧
    DMap.runSparse (exRun d) (fun _ => exOracle) d.cells false = .ok m' ∧
    (m.summits.map (fun f => (f.elevation, f.edge)), m.saddles.length, m.runoffs.length) = ([(5, false), (9, false)], 1, 4) ∧
    (m'.summits.map (fun f => (f.elevation, f.edge)), m'.saddles.length, m'.runoffs.length) = ([(5, true), (9, true)], 2, 12) := by
  have h1 : (DMap.runSparse (exRun exRimmed) (fun _ => exOracle) exRimmed.cells false).toOption.map (fun m =>
      (m.summits.map (fun f => (f.elevation, f.edge)), m.saddles.length, m.runoffs.length)) = some ([(5, false), (9, false)], 1, 4) := by
    decide +kernel
  have h2 : (DMap.runSparse (exRun exBare) (fun _ => exOracle) exBare.cells false).toOption.map (fun m =>
      (m.summits.map (fun f => (f.elevation, f.edge)), m.saddles.length, m.runoffs.length)) = some ([(5, true), (9, true)], 2, 12) := by
    decide +kernel
  cases e1 : DMap.runSparse (exRun exRimmed) (fun _ => exOracle) exRimmed.cells false with
  | error x => rw [e1] at h1; cases h1
  | ok m =>
    cases e2 : DMap.runSparse (exRun exBare) (fun _ => exOracle) exBare.cells false with
    | error x => rw [e2] at h2; cases h2
    | ok m' =>
      rw [e1] at h1
      rw [e2] at h2
      exact ⟨1, 1, exRimmed, exBare, m, m', exRimmed_ok.1, exRimmed_ok.2, exRimmed_framed, e1, e2, Option.some.inj h1, Option.some.inj h2⟩

end PyProm
