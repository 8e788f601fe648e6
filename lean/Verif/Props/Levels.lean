import Verif.Props.KeySaddles
import Verif.Props.Shrink
import Mathlib.Data.List.Perm.Basic

/-
C123: at every height the summits are as many as the saddles that a complete run leaves and the pieces of ground
together; so the heights of the saddles that are left depend on the ground only.
-/
namespace PyProm
open Spec

namespace Spec

/-- `ps` has one cell of every piece of the ground that is not lower than `h`. -/
structure Pieces (d : DataMap) (h : Rat) (ps : List Pt) : Prop where
  data : ∀ p ∈ ps, Data d p ∧ h ≤ el d p
  apart : ps.Pairwise fun p q => ¬ Passable d h p q
  all : ∀ q, Data d q → h ≤ el d q → ∃ p ∈ ps, Passable d h p q

end Spec

theorem passable_end {d : DataMap} {h : Rat} {p q : Pt} (hp : Passable d h p q) : Data d q ∧ h ≤ el d q :=
  ⟨hp.symm.1, hp.symm.2.1⟩

/-- Every raster has pieces at every height. -/
theorem pieces_exist (d : DataMap) (h : Rat) : ∃ ps, Pieces d h ps := by
  classical
  have key : ∀ l : List Pt, ∃ ps : List Pt, (∀ p ∈ ps, Data d p ∧ h ≤ el d p) ∧ (ps.Pairwise fun p q => ¬ Passable d h p q) ∧
      ∀ q ∈ l, Data d q → h ≤ el d q → ∃ p ∈ ps, Passable d h p q := by
    intro l
    induction l with
    | nil => exact ⟨[], by simp, by simp, by simp⟩
    | cons q l ih =>
      obtain ⟨ps, h1, h2, h3⟩ := ih
      by_cases hq : Data d q ∧ h ≤ el d q ∧ ∀ p ∈ ps, ¬ Passable d h p q
      · refine ⟨q :: ps, ?_, .cons (fun p hp hc => hq.2.2 p hp hc.symm) h2, ?_⟩
        · intro p hp
          rcases List.mem_cons.1 hp with rfl | hp
          · exact ⟨hq.1, hq.2.1⟩
          · exact h1 p hp
        · intro r hr hd hh
          rcases List.mem_cons.1 hr with rfl | hr
          · exact ⟨r, by simp, hd, hh, .refl⟩
          · obtain ⟨p, hp, hc⟩ := h3 r hr hd hh
            exact ⟨p, List.mem_cons_of_mem _ hp, hc⟩
      · refine ⟨ps, h1, h2, fun r hr hd hh => ?_⟩
        rcases List.mem_cons.1 hr with rfl | hr
        · by_contra hc
          exact hq ⟨hd, hh, fun p hp hc' => hc ⟨p, hp, hc'⟩⟩
        · exact h3 r hr hd hh
  obtain ⟨ps, h1, h2, h3⟩ := key d.cells
  exact ⟨ps, h1, h2, fun q hq => h3 q ((mem_cells _ _).2 hq.1) hq⟩

/-- Two lists of numbers are the same up to order if of both equally many are not less than any `h`. -/
theorem perm_of_counts : ∀ (l l' : List Rat), (∀ h, (l.filter fun x => decide (h ≤ x)).length = (l'.filter fun x => decide (h ≤ x)).length) →
    l.Perm l' := by
  have top : ∀ l : List Rat, l ≠ [] → ∃ b ∈ l, ∀ c ∈ l, c ≤ b := by
    intro l
    induction l with
    | nil => intro h; exact absurd rfl h
    | cons a l ih =>
      intro _
      by_cases hl : l = []
      · subst hl
        exact ⟨a, by simp, by simp⟩
      · obtain ⟨b, hb, h⟩ := ih hl
        rcases le_total a b with hab | hab
        · exact ⟨b, List.mem_cons_of_mem _ hb, fun c hc => by rcases List.mem_cons.1 hc with rfl | hc; exacts [hab, h c hc]⟩
        · exact ⟨a, List.mem_cons_self .., fun c hc => by rcases List.mem_cons.1 hc with rfl | hc; exacts [le_refl _, le_trans (h c hc) hab]⟩
  suffices key : ∀ (n : Nat) (l l' : List Rat), l.length = n →
      (∀ h, (l.filter fun x => decide (h ≤ x)).length = (l'.filter fun x => decide (h ≤ x)).length) → l.Perm l' from
    fun l l' => key l.length l l' rfl
  intro n
  induction n with
  | zero =>
    intro l l' hl hc
    have : l = [] := List.length_eq_zero_iff.1 hl
    subst this
    cases l' with
    | nil => exact .refl _
    | cons a l' =>
      have := hc a
      simp at this
  | succ n ih =>
    intro l l' hl hc
    have up : ∀ {l l' : List Rat}, (∀ h, (l.filter fun x => decide (h ≤ x)).length = (l'.filter fun x => decide (h ≤ x)).length) →
        ∀ b ∈ l, ∃ b' ∈ l', b ≤ b' := by
      intro l l' hc b hb
      have h1 : 0 < (l.filter fun x => decide (b ≤ x)).length := List.length_pos_of_mem (List.mem_filter.2 ⟨hb, by simp⟩)
      rw [hc b] at h1
      obtain ⟨b', hb'⟩ := List.exists_mem_of_length_pos h1
      exact ⟨b', (List.mem_filter.1 hb').1, by simpa using (List.mem_filter.1 hb').2⟩
    obtain ⟨b, hb, hmax⟩ := top l (fun e => by rw [e] at hl; cases hl)
    obtain ⟨b', hb', hbb⟩ := up hc b hb
    obtain ⟨b2, hb2, h2⟩ := up (fun h => (hc h).symm) b' hb'
    obtain rfl : b = b' := le_antisymm hbb (le_trans h2 (hmax b2 hb2))
    have p1 := List.perm_cons_erase hb
    have p2 := List.perm_cons_erase hb'
    have : (l.erase b).Perm (l'.erase b) := by
      refine ih _ _ (by rw [List.length_erase_of_mem hb, hl]; rfl) fun h => ?_
      have e1 := (p1.filter fun x => decide (h ≤ x)).length_eq
      have e2 := (p2.filter fun x => decide (h ≤ x)).length_eq
      rw [hc h, e2] at e1
      simp only [List.filter_cons] at e1
      split at e1 <;> (try simp only [List.length_cons] at e1) <;> omega
    exact p1.trans ((this.cons b).trans p2.symm)

theorem net_heights (m : DMap) : m.summits.map (·.elevation) = (List.range m.summits.length).map fun a => m.net.elev (.summit a) := by
  refine List.ext_getElem (by simp) fun a h1 h2 => ?_
  have ha : a < m.summits.length := by simpa using h1
  simp [DMap.net, DMap.feature, List.getElem?_eq_getElem ha]

/-- C123: on a raster on which no saddle is on the edge or no saddles coincide, for every height the saddles that a complete run leaves and that
are not lower, together with the pieces of ground that is not lower, are at least as many as the summits that are not lower. They
are exactly as many if and only if there is no cycle of such saddles, with whatever summits of the map. -/
theorem C123_exact (E : SaddleEnv) (hE : RunOk E) (o : Pt → Oracle) (order : List Pt)
    (ho : IsScan E.d order) (rebuild : Bool) :
    ∃ D m, analyze E.d o order = .ok D ∧ DMap.runSparse E o order rebuild = .ok m ∧
      (Untwinned D m → SummitsApart m.summits →
        ∀ fuel, m.saddles.length + m.st.objs.length < fuel → ∃ f, DMap.run E o order rebuild fuel = .ok (m, f) ∧
          (∀ c, ¬ Cycle m.net (Alive m.net f) c) ∧ m.summits = D.summits ∧
          ∀ h ps, Pieces E.d h ps →
            (m.summits.filter fun s => decide (h ≤ s.elevation)).length ≤
              ((liveSaddles m f).filter fun k => decide (h ≤ m.net.elev (.saddle k))).length + ps.length ∧
            (((liveSaddles m f).filter fun k => decide (h ≤ m.net.elev (.saddle k))).length + ps.length =
              (m.summits.filter fun s => decide (h ≤ s.elevation)).length ↔
              ∀ c, ¬ Cycle m.net (fun n => (∀ k, n = .saddle k → k ∈ liveSaddles m f ∧ h ≤ m.net.elev (.saddle k)) ∧
                ∀ a, n = .summit a → a < m.summits.length) c)) := by
  obtain ⟨D, m, sites, h1, h2, g2, hr2, d3, hmain⟩ := live_escapes hE o order ho rebuild
  refine ⟨D, m, h1, h2, fun hU hA fuel hfuel => ?_⟩
  obtain ⟨hN, hmain⟩ := hmain hU hA
  obtain ⟨f, hrun, hf, hacy, hconn, _⟩ := hmain fuel hfuel
  refine ⟨f, hrun, hacy, d3, fun h ps hP => ?_⟩
  have hlen : sites.length = m.summits.length := g2.each.length_eq
  have hsit : ∀ a, a < m.summits.length → ∃ p, sites[a]? = some p ∧ m.net.elev (.summit a) = el E.d p := by
    intro a ha
    refine ⟨_, List.getElem?_eq_getElem (by rw [hlen]; exact ha), ?_⟩
    obtain ⟨s, s1, s2⟩ := forall₂_getElem? g2.each (List.getElem?_eq_getElem (by rw [hlen]; exact ha))
    rw [← s2.located.2.2]
    simp [DMap.net, DMap.feature, s1]
  have hrep : ∀ p : Pt, ∃ a : Nat, Data E.d p → ∃ q, sites[a]? = some q ∧ Passable E.d (el E.d p) p q := by
    intro p
    by_cases hp : Data E.d p
    · obtain ⟨a, q, h1, h2⟩ := summit_of_cell g2 hp
      exact ⟨a, fun _ => ⟨q, h1, h2⟩⟩
    · exact ⟨0, fun h => absurd h hp⟩
  choose rep hrep using hrep
  have hrep' : ∀ p ∈ ps, ∃ q, sites[rep p]? = some q ∧ Passable E.d h p q := fun p hp => by
    obtain ⟨q, e1, e2⟩ := hrep p (hP.data p hp).1
    exact ⟨q, e1, e2.mono (hP.data p hp).2⟩
  -- a summit lower than `h` has no saddle that is not lower
  have hlow : ∀ a b, m.net.elev (.summit a) < h →
      ConnectedBy m.net (fun _ => True) (· ∈ (liveSaddles m f).filter fun k => decide (h ≤ m.net.elev (.saddle k))) a b → b = a := by
    intro a b ha hc
    induction hc with
    | refl => rfl
    | tail _ h3 ih =>
      subst ih
      obtain ⟨_, _, k, hk, l1, l2⟩ := h3
      rw [List.mem_filter, decide_eq_true_eq] at hk
      have := hN.above k _ (mem_liveSaddles.1 hk.1).2.2 l1
      exact absurd (lt_of_le_of_lt hk.2 (lt_trans this ha)) (lt_irrefl _)
  have hpart : PartReps m.net m.summits.length ((liveSaddles m f).filter fun k => decide (h ≤ m.net.elev (.saddle k)))
      (((List.range m.summits.length).filter fun a => decide (m.net.elev (.summit a) < h)) ++ ps.map rep) := by
    refine ⟨?_, ?_, ?_⟩
    · intro r hr
      rcases List.mem_append.1 hr with hr | hr
      · exact List.mem_range.1 (List.mem_filter.1 hr).1
      · obtain ⟨p, hp, rfl⟩ := List.mem_map.1 hr
        obtain ⟨q, hq, _⟩ := hrep' p hp
        rw [← hlen]
        exact lt_of_getElem? hq
    · refine List.pairwise_append.2 ⟨?_, ?_, ?_⟩
      · refine List.Pairwise.imp_of_mem (fun {a b} ha _ hab hc => hab ?_) (List.nodup_range.filter _)
        exact (hlow a b (by simpa using (List.mem_filter.1 ha).2) hc).symm
      · rw [List.pairwise_map]
        refine hP.apart.imp_of_mem fun {p q} hp hq hno hc => hno ?_
        obtain ⟨p', e1, e2⟩ := hrep' p hp
        obtain ⟨q', e3, e4⟩ := hrep' q hq
        exact (e2.trans ((hconn h _ _ _ _ e1 e3 (passable_end e2).2).1 hc)).trans e4.symm
      · intro a ha b hb hc
        obtain ⟨p, hp, rfl⟩ := List.mem_map.1 hb
        have hlt : m.net.elev (.summit a) < h := by simpa using (List.mem_filter.1 ha).2
        have := hlow a _ hlt hc
        subst this
        obtain ⟨q, e1, e2⟩ := hrep' p hp
        obtain ⟨q', e3, e4⟩ := hsit _ (by rw [← hlen]; exact lt_of_getElem? e1)
        cases (e1.symm.trans e3 : some _ = some _)
        exact absurd (passable_end e2).2 (not_le.2 (e4 ▸ hlt))
    · intro a ha
      obtain ⟨p, hp, hep⟩ := hsit a ha
      by_cases hlt : m.net.elev (.summit a) < h
      · exact ⟨a, List.mem_append_left _ (List.mem_filter.2 ⟨List.mem_range.2 ha, by simpa using hlt⟩), .refl⟩
      · have hh : h ≤ el E.d p := hep ▸ not_lt.1 hlt
        obtain ⟨q, hq, hc⟩ := hP.all p (g2.top p (List.mem_of_getElem? hp)).1 hh
        obtain ⟨q', e1, e2⟩ := hrep' q hq
        exact ⟨rep q, List.mem_append_right _ (List.mem_map.2 ⟨q, hq, rfl⟩),
          (hconn h _ _ _ _ hp e1 hh).2 (hc.symm.trans e2)⟩
  have hends : ∀ k ∈ (liveSaddles m f).filter fun k => decide (h ≤ m.net.elev (.saddle k)), TwoEnds m.net m.summits.length k := fun k hk =>
    live_ends hN hf (mem_liveSaddles.1 (List.mem_filter.1 hk).1).1 (mem_liveSaddles.1 (List.mem_filter.1 hk).1).2
  have hnd : ((liveSaddles m f).filter fun k => decide (h ≤ m.net.elev (.saddle k))).Nodup := (hr2.filter _).filter _
  obtain ⟨c1, c2⟩ := forest_count m.net m.summits.length _ _ hnd hends hpart
  have c3 : ∀ c, Cycle m.net (InNet m.summits.length ((liveSaddles m f).filter fun k => decide (h ≤ m.net.elev (.saddle k)))) c → _ := fun c hc =>
    forest_cycle hends (fun k hk => hN.two k (mem_liveSaddles.1 (List.mem_filter.1 hk).1).2.2) hnd hpart hc
  have e1 : (m.summits.filter fun s => decide (h ≤ s.elevation)).length =
      ((List.range m.summits.length).filter fun a => decide (h ≤ m.net.elev (.summit a))).length := by
    have := congrArg (fun l : List Rat => (l.filter fun x => decide (h ≤ x)).length) (net_heights m)
    simpa [List.filter_map, Function.comp_def] using this
  have e2 := List.length_eq_length_filter_add (l := List.range m.summits.length) fun a => decide (h ≤ m.net.elev (.summit a))
  have e3 : ((List.range m.summits.length).filter fun a => !decide (h ≤ m.net.elev (.summit a))) =
      (List.range m.summits.length).filter fun a => decide (m.net.elev (.summit a) < h) := by
    refine List.filter_congr fun a _ => ?_
    by_cases c : h ≤ m.net.elev (.summit a) <;> simp [c, not_lt.2, not_le.1]
  rw [e3, List.length_range] at e2
  rw [List.length_append, List.length_map] at c1 c2 c3
  refine ⟨by omega, fun he c hc => ?_, fun hno => ?_⟩
  · have hc' : Cycle m.net (InNet m.summits.length ((liveSaddles m f).filter fun k => decide (h ≤ m.net.elev (.saddle k)))) c := by
      refine { hc with mem := fun n hn => ?_ }
      obtain ⟨n1, n2⟩ := hc.mem n hn
      cases n with
      | saddle k => exact List.mem_filter.2 ⟨(n1 k rfl).1, decide_eq_true (n1 k rfl).2⟩
      | summit D => exact n2 D rfl
    have := c3 c hc'
    omega
  · have := c2 fun c hc => hno c { hc with mem := fun n hn => ⟨fun k e => ?_, fun a e => ?_⟩ }
    · omega
    · have := hc.mem n hn
      rw [e] at this
      have := List.mem_filter.1 (show k ∈ (liveSaddles m f).filter _ from this)
      exact ⟨this.1, by simpa using this.2⟩
    · have := hc.mem n hn
      rw [e] at this
      exact this

/-- C123: on a raster without summits on the edge, on which no saddle is on the edge or no saddles coincide, for every height the saddles that a complete run leaves and that
are not lower, together with the pieces of ground that is not lower, are as many as the summits that are not lower. -/
theorem C123_level (E : SaddleEnv) (hE : RunOk E) (o : Pt → Oracle) (order : List Pt)
    (ho : IsScan E.d order) (rebuild : Bool) :
    ∃ D m, analyze E.d o order = .ok D ∧ DMap.runSparse E o order rebuild = .ok m ∧
      ((∀ f ∈ D.summits, f.edge = false) → Untwinned D m → SummitsApart m.summits →
        ∀ fuel, m.saddles.length + m.st.objs.length < fuel → ∃ f, DMap.run E o order rebuild fuel = .ok (m, f) ∧
          ∀ h ps, Pieces E.d h ps →
            ((liveSaddles m f).filter fun k => decide (h ≤ m.net.elev (.saddle k))).length + ps.length =
              (m.summits.filter fun s => decide (h ≤ s.elevation)).length) := by
  obtain ⟨D, m, h1, h2, h3⟩ := C123_exact E hE o order ho rebuild
  refine ⟨D, m, h1, h2, fun he hU hA fuel hfuel => ?_⟩
  obtain ⟨f, hrun, hacy, d3, h4⟩ := h3 hU hA fuel hfuel
  refine ⟨f, hrun, fun h ps hP => (h4 h ps hP).2.2 fun c hc => ?_⟩
  refine hacy c { hc with mem := fun n hn => ?_ }
  cases n with
  | summit a =>
    refine ⟨rfl, ?_⟩
    simp only [DMap.net, DMap.feature]
    rcases e : m.summits[a]? with _ | s
    · exact absurd ((hc.mem _ hn).2 a rfl) (not_lt.2 (List.getElem?_eq_none_iff.1 e))
    · exact he _ (d3 ▸ List.mem_of_getElem? e)
  | saddle k => exact (mem_liveSaddles.1 ((hc.mem _ hn).1 k rfl).1).2

/-- Pieces of ground that is shown by another raster. -/
theorem pieces_shown {φ : Pt → Pt} {w d : DataMap} (t : Shows φ w d) {h : Rat} {ps : List Pt} (hP : Pieces w h ps) :
    Pieces d h (ps.map φ) := by
  refine ⟨?_, ?_, ?_⟩
  · intro p hp
    obtain ⟨q, hq, rfl⟩ := List.mem_map.1 hp
    obtain ⟨h1, h2⟩ := hP.data q hq
    exact ⟨t.data q h1, t.height q h1 ▸ h2⟩
  · rw [List.pairwise_map]
    exact hP.apart.imp_of_mem fun {p q} hp hq hno hc => hno ((shows_passable t h (hP.data p hp).1 (hP.data q hq).1).2 hc)
  · intro p hd hh
    obtain ⟨q, hq, rfl⟩ := t.onto p hd
    obtain ⟨r, hr, hc⟩ := hP.all q hq (t.height q hq ▸ hh)
    exact ⟨φ r, List.mem_map.2 ⟨r, hr, rfl⟩, (shows_passable t h (hP.data r hr).1 hq).1 hc⟩

/-- C123: complete runs on two rasters that show the same ground, one perhaps with several cells for one of the other, leave
saddles of the same heights, each height equally often, if neither raster has summits on the edge or saddles that coincide. -/
theorem C123_shown (φ : Pt → Pt) (E E' : SaddleEnv) (hE : RunOk E) (hE' : RunOk E') (t : Shows φ E.d E'.d)
    (o o' : Pt → Oracle) (order order' : List Pt) (ho : IsScan E.d order) (ho' : IsScan E'.d order') (rebuild rebuild' : Bool) :
    ∃ D D' m m', analyze E.d o order = .ok D ∧ analyze E'.d o' order' = .ok D' ∧
      DMap.runSparse E o order rebuild = .ok m ∧ DMap.runSparse E' o' order' rebuild' = .ok m' ∧
      ((∀ f ∈ D.summits, f.edge = false) → (∀ f ∈ D'.summits, f.edge = false) → Untwinned D m → Untwinned D' m' →
        SummitsApart m.summits → SummitsApart m'.summits →
        ∀ fuel, m.saddles.length + m.st.objs.length < fuel → ∀ fuel', m'.saddles.length + m'.st.objs.length < fuel' →
          ∃ f f', DMap.run E o order rebuild fuel = .ok (m, f) ∧ DMap.run E' o' order' rebuild' fuel' = .ok (m', f') ∧
            ((liveSaddles m f).map fun k => m.net.elev (.saddle k)).Perm ((liveSaddles m' f').map fun k => m'.net.elev (.saddle k))) := by
  obtain ⟨D, m, h1, h2, h3⟩ := C123_level E hE o order ho rebuild
  obtain ⟨D', m', h1', h2', h3'⟩ := C123_level E' hE' o' order' ho' rebuild'
  obtain ⟨m0, m0', r1, r1', π, p1, p2, p3, _⟩ := C119_shown φ E E' hE hE' t o o' order order' ho ho' rebuild rebuild'
  cases (r1.symm.trans h2 : Except.ok _ = Except.ok _)
  cases (r1'.symm.trans h2' : Except.ok _ = Except.ok _)
  refine ⟨D, D', m, m', h1, h1', h2, h2', fun he he' hU hU' hA hA' fuel hfuel fuel' hfuel' => ?_⟩
  obtain ⟨f, f1, f2⟩ := h3 he hU hA fuel hfuel
  obtain ⟨f', f1', f2'⟩ := h3' he' hU' hA' fuel' hfuel'
  have hsum : (m.summits.map (·.elevation)).Perm (m'.summits.map (·.elevation)) := by
    have hperm : ((List.range m.summits.length).map π).Perm (List.range m'.summits.length) := by
      refine (List.perm_ext_iff_of_nodup ?_ List.nodup_range).2 fun b => ?_
      · refine List.Nodup.map_on (fun a ha b hb e => ?_) List.nodup_range
        exact p3 a b _ _ (List.getElem?_eq_getElem (List.mem_range.1 ha)) (List.getElem?_eq_getElem (List.mem_range.1 hb)) e
      · rw [List.mem_map, List.mem_range]
        constructor
        · rintro ⟨a, ha, rfl⟩
          obtain ⟨g, g1, _⟩ := p1 a _ (List.getElem?_eq_getElem (List.mem_range.1 ha))
          exact lt_of_getElem? g1
        · intro hb
          obtain ⟨a, f, e1, e2⟩ := p2 b _ (List.getElem?_eq_getElem hb)
          exact ⟨a, List.mem_range.2 (lt_of_getElem? e1), e2⟩
    have e : m.summits.map (·.elevation) = ((List.range m.summits.length).map π).map fun b => m'.net.elev (.summit b) := by
      rw [net_heights, List.map_map]
      refine List.map_congr_left fun a ha => ?_
      have ha := List.getElem?_eq_getElem (List.mem_range.1 ha)
      obtain ⟨g, g1, g2⟩ := p1 a _ ha
      have e2 : m'.net.elev (.summit (π a)) = g.elevation := by simp [DMap.net, DMap.feature, g1]
      refine Eq.trans ?_ (g2.1.trans e2.symm)
      simp [DMap.net, DMap.feature, ha]
    rw [e, net_heights m']
    exact hperm.map _
  refine ⟨f, f', f1, f1', perm_of_counts _ _ fun h => ?_⟩
  obtain ⟨ps, hP⟩ := pieces_exist E.d h
  have c1 := f2 h ps hP
  have c2 := f2' h _ (pieces_shown t hP)
  have c3 := (hsum.filter fun x => decide (h ≤ x)).length_eq
  simp only [List.filter_map, List.length_map, Function.comp_def] at c1 c2 c3 ⊢
  omega

/-- A raster shows itself. -/
theorem shows_self (d : DataMap) : Shows id d d where
  data _ h := h
  height _ _ := rfl
  onto p h := ⟨p, h, rfl⟩
  near _ _ _ _ h := .inr h
  touch p s hp hs h := ⟨p, s, hp, hs, rfl, rfl, h⟩
  whole _ _ _ _ h := by
    cases (h : _ = _)
    exact .refl

/-- C123: two complete runs on one raster without summits on the edge and coinciding saddles, whatever the orders of scanning, the orders of sets and
whether the linkers are rebuilt, leave saddles of the same heights, each height equally often. -/
theorem C123_same (E E' : SaddleEnv) (hE : RunOk E) (hE' : RunOk E') (hd : E'.d = E.d)
    (o o' : Pt → Oracle) (order order' : List Pt) (ho : IsScan E.d order) (ho' : IsScan E.d order') (rebuild rebuild' : Bool) :
    ∃ D D' m m', analyze E.d o order = .ok D ∧ analyze E.d o' order' = .ok D' ∧
      DMap.runSparse E o order rebuild = .ok m ∧ DMap.runSparse E' o' order' rebuild' = .ok m' ∧
      ((∀ f ∈ D.summits, f.edge = false) → (∀ f ∈ D'.summits, f.edge = false) → Untwinned D m → Untwinned D' m' →
        SummitsApart m.summits → SummitsApart m'.summits →
        ∀ fuel, m.saddles.length + m.st.objs.length < fuel → ∀ fuel', m'.saddles.length + m'.st.objs.length < fuel' →
          ∃ f f', DMap.run E o order rebuild fuel = .ok (m, f) ∧ DMap.run E' o' order' rebuild' fuel' = .ok (m', f') ∧
            ((liveSaddles m f).map fun k => m.net.elev (.saddle k)).Perm ((liveSaddles m' f').map fun k => m'.net.elev (.saddle k))) := by
  have := C123_shown id E E' hE hE' (hd.symm ▸ shows_self E.d) o o' order order' ho (hd.symm ▸ ho') rebuild rebuild'
  rw [hd] at this
  exact this

/-- Instance of C123: the crater, scanned in two orders, the second time with linkers rebuilt: the heights of the summits, what
the fuel has to exceed, and the heights of the saddles left. It has no features on the edge, see C120. -/
example : (exFull exCrater false 17).toOption.map (fun r => (r.1.summits.map (·.elevation), r.1.saddles.length + r.1.st.objs.length,
      (liveSaddles r.1 r.2).map fun k => r.1.net.elev (.saddle k))) = some ([9, 8, 7, 6], 16, [3, 4, 5]) ∧
    (DMap.run (exRun (DataMap.ofRows exCrater)) (fun _ => exOracle) (DataMap.ofRows exCrater).cells.reverse true 21).toOption.map (fun r =>
      (r.1.summits.map (·.elevation), r.1.saddles.length + r.1.st.objs.length,
      (liveSaddles r.1 r.2).map fun k => r.1.net.elev (.saddle k))) = some ([6, 7, 8, 9], 20, [5, 4, 3]) := by decide +kernel

theorem pieces_full {d : DataMap} {h : Rat} (hd : ∀ p, InB d p → Data d p ∧ h ≤ el d p) (h0 : InB d (0, 0)) : Pieces d h [(0, 0)] := by
  refine ⟨by simpa using hd _ h0, by simp, fun q hq _ => ⟨(0, 0), by simp, (hd _ h0).1, (hd _ h0).2, ?_⟩⟩
  refine Relation.ReflTransGen.mono ?_ _ _ (box_way 0 d.maxX 0 d.maxY _ (0, 0) q (le_refl _) h0 hq.1)
  exact fun a b hab => ⟨hab.1, hd b hab.2⟩

/-- Instance of `Pieces`: the crater is one piece from its lowest height on. -/
example : Pieces (DataMap.ofRows exCrater) 0 [(0, 0)] := by
  refine pieces_full (fun p hp => ⟨⟨hp, by simp [DataMap.ofRows]⟩, ?_⟩) (by unfold Spec.InB; decide +kernel)
  have : ∀ p ∈ (DataMap.ofRows exCrater).cells, 0 ≤ el (DataMap.ofRows exCrater) p := by decide +kernel
  exact this p ((mem_cells _ _).2 hp)

/-- Features on the edge do matter to C123: this run leaves two saddles, but the raster has two summits and is one
piece of ground. -/
theorem C123_only_off_edge : ∃ m f, exFull exRims false 99 = .ok (m, f) ∧ SummitsApart m.summits ∧ Pieces (DataMap.ofRows exRims) 1 [(0, 0)] ∧
    (m.summits.filter fun s => decide (1 ≤ s.elevation)).length < ((liveSaddles m f).filter fun k => decide (1 ≤ m.net.elev (.saddle k))).length + 1 := by
  have h : (exFull exRims false 99).toOption.map (fun r => (r.1.summits.map (·.elevation),
      (r.1.summits.filter fun s => decide (1 ≤ s.elevation)).length,
      ((liveSaddles r.1 r.2).filter fun k => decide (1 ≤ r.1.net.elev (.saddle k))).length)) = some ([9, 10], 2, 2) := by decide +kernel
  cases hr : exFull exRims false 99 with
  | error e => rw [hr] at h; cases h
  | ok r =>
    obtain ⟨m, f⟩ := r
    rw [hr] at h
    simp only [Except.toOption, Option.map_some, Option.some.injEq, Prod.mk.injEq] at h
    obtain ⟨h1, h2, h3⟩ := h
    refine ⟨m, f, rfl, ?_, ?_, by omega⟩
    · intro a b s t ha hb hne hc
      have e1 := congrArg (·[a]?) h1
      have e2 := congrArg (·[b]?) h1
      simp only [List.getElem?_map, ha, hb, Option.map_some] at e1 e2
      have e3 : s.elevation = t.elevation := hc.2.2
      match a, b, hne, e1, e2 with
      | 0, 0, hne, _, _ => exact hne rfl
      | 1, 1, hne, _, _ => exact hne rfl
      | 0, 1, _, e1, e2 => simp at e1 e2; rw [e1, e2] at e3; norm_num at e3
      | 1, 0, _, e1, e2 => simp at e1 e2; rw [e1, e2] at e3; norm_num at e3
      | a + 2, _, _, e1, _ => simp at e1
      | 0, b + 2, _, _, e2 => simp at e2
      | 1, b + 2, _, _, e2 => simp at e2
    · refine pieces_full (fun p hp => ⟨⟨hp, by simp [DataMap.ofRows]⟩, ?_⟩) (by unfold Spec.InB; decide +kernel)
      have : ∀ p ∈ (DataMap.ofRows exRims).cells, 1 ≤ el (DataMap.ofRows exRims) p := by decide +kernel
      exact this p ((mem_cells _ _).2 hp)

end PyProm
