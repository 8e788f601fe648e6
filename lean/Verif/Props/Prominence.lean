import Verif.Props.Tree

/-
C103: the prominence of a summit can be read off the network of a run.
-/
namespace PyProm
open Spec

namespace Spec

/-- From `p` one can go to a higher cell over touching data cells, none of them lower than `h`. -/
def Escapes (d : DataMap) (p : Pt) (h : Rat) : Prop := ∃ q, el d p < el d q ∧ Passable d h p q

/-- `h` is the height to which one has to descend from `p` to get to a higher cell; the prominence of a
summit at `p` is its height above `h`. -/
def KeyCol (d : DataMap) (p : Pt) (h : Rat) : Prop := Escapes d p h ∧ ∀ h', Escapes d p h' → h' ≤ h

/-- Summit `b` of the map is higher than summit `a`. -/
def HigherSummit (m : DMap) (a b : Nat) : Prop :=
  ∃ sa sb, m.summits[a]? = some sa ∧ m.summits[b]? = some sb ∧ sa.elevation < sb.elevation

end Spec

/-- Two summits are joined by a saddle of at least the height `h`. -/
def Over (e : Nat → Rat) (P : Nat → Prop) (L : Nat → Nat → Prop) (h : Rat) (a b : Nat) : Prop :=
  ∃ k, P k ∧ h ≤ e k ∧ L k a ∧ L k b

/-- Saddle `k` is a lowest one of a way from `a` to `b`. -/
def Lowest (e : Nat → Rat) (P : Nat → Prop) (L : Nat → Nat → Prop) (k a b : Nat) : Prop :=
  ∃ x y, P k ∧ Relation.ReflTransGen (Over e P L (e k)) a x ∧ L k x ∧ L k y ∧ Relation.ReflTransGen (Over e P L (e k)) y b

section
variable {e : Nat → Rat} {P : Nat → Prop} {L : Nat → Nat → Prop}

theorem over_mono {h h' : Rat} {a b : Nat} (hl : h ≤ h') (hc : Relation.ReflTransGen (Over e P L h') a b) :
    Relation.ReflTransGen (Over e P L h) a b :=
  Relation.ReflTransGen.mono (fun _ _ ⟨k, h1, h2, h3⟩ => ⟨k, h1, le_trans hl h2, h3⟩) _ _ hc

/-- Every way has a lowest saddle. -/
theorem exists_lowest {h : Rat} {a b : Nat} (hc : Relation.ReflTransGen (Over e P L h) a b) :
    a = b ∨ ∃ k, h ≤ e k ∧ Lowest e P L k a b := by
  induction hc using Relation.ReflTransGen.head_induction_on with
  | refl => exact .inl rfl
  | @head a c h1 _ ih =>
    obtain ⟨k, k1, k2, k3, k4⟩ := h1
    right
    rcases ih with rfl | ⟨k', e1, x, y, p1, p2, p3, p4, p5⟩
    · exact ⟨k, k2, a, c, k1, .refl, k3, k4, .refl⟩
    · by_cases hle : e k ≤ e k'
      · have hx := over_mono hle p2
        refine ⟨k, k2, a, c, k1, .refl, k3, k4, ?_⟩
        exact (hx.tail ⟨k', p1, hle, p3, p4⟩).trans (over_mono hle p5)
      · have hle : e k' ≤ e k := le_of_lt (not_le.1 hle)
        exact ⟨k', e1, x, y, p1, .head ⟨k, k1, hle, k3, k4⟩ p2, p3, p4, p5⟩

theorem Lowest.over {k a b : Nat} (h : Lowest e P L k a b) : Relation.ReflTransGen (Over e P L (e k)) a b := by
  obtain ⟨x, y, h1, h2, h3, h4, h5⟩ := h
  exact (h2.tail ⟨k, h1, le_refl _, h3, h4⟩).trans h5

/-- The first saddle of a way is linked to its first summit. -/
theorem over_first {h : Rat} {a b : Nat} (hc : Relation.ReflTransGen (Over e P L h) a b) :
    a = b ∨ ∃ k, P k ∧ h ≤ e k ∧ L k a := by
  induction hc using Relation.ReflTransGen.head_induction_on with
  | refl => exact .inl rfl
  | head h1 _ _ =>
    obtain ⟨k, k1, k2, k3, _⟩ := h1
    exact .inr ⟨k, k1, k2, k3⟩

end

theorem exists_greatest (e : Nat → Rat) (Q : Nat → Prop) : ∀ n : Nat, (∃ k < n, Q k) →
    ∃ k < n, Q k ∧ ∀ j < n, Q j → e j ≤ e k := by
  intro n
  induction n with
  | zero => rintro ⟨k, hk, _⟩; omega
  | succ n ih =>
    intro hex
    by_cases h : ∃ k < n, Q k
    · obtain ⟨k, k1, k2, k3⟩ := ih h
      by_cases hn : Q n ∧ e k ≤ e n
      · refine ⟨n, by omega, hn.1, fun j hj hq => ?_⟩
        by_cases hjn : j < n
        · exact le_trans (k3 j hjn hq) hn.2
        · obtain rfl : j = n := by omega
          exact le_refl _
      · refine ⟨k, by omega, k2, fun j hj hq => ?_⟩
        by_cases hjn : j < n
        · exact k3 j hjn hq
        · obtain rfl : j = n := by omega
          by_contra hc
          exact hn ⟨hq, le_of_lt (not_le.1 hc)⟩
    · obtain ⟨k, k1, k2⟩ := hex
      obtain rfl : k = n := by
        by_contra hc
        exact h ⟨k, by omega, k2⟩
      refine ⟨k, k1, k2, fun j hj hq => ?_⟩
      by_cases hjn : j < k
      · exact absurd ⟨j, hjn, hq⟩ h
      · obtain rfl : j = k := by omega
        exact le_refl _

/-- The key saddle of a summit in a network that is faithful to the terrain. -/
theorem key_of_faithful {d : DataMap} {sites : List Pt} {m : DMap} (hS : SummitsAt d sites m.summits)
    {e : Nat → Rat} {P : Nat → Prop} {L : Nat → Nat → Prop} {n : Nat} (hn : ∀ k D, P k → L k D → k < n)
    (hlow : ∀ (k a : Nat) p, P k → L k a → sites[a]? = some p → e k ≤ el d p)
    (hfaith : ∀ (h : Rat) (a b : Nat) (p q : Pt), sites[a]? = some p → sites[b]? = some q → h ≤ el d p →
        (Relation.ReflTransGen (Over e P L h) a b ↔ Passable d h p q))
    (a : Nat) (p : Pt) (ha : sites[a]? = some p) :
    (∀ h, Escapes d p h ↔ ∃ b, HigherSummit m a b ∧ Relation.ReflTransGen (Over e P L h) a b) ∧
      ((∃ h, Escapes d p h) → ∃ k b, KeyCol d p (e k) ∧ HigherSummit m a b ∧ Lowest e P L k a b) := by
  have hat : ∀ {b : Nat} {q : Pt}, sites[b]? = some q → ∃ s, m.summits[b]? = some s ∧ s.elevation = el d q := by
    intro b q hb
    obtain ⟨s, h1, h2⟩ := forall₂_getElem? hS.each hb
    exact ⟨s, h1, h2.located.2.2⟩
  have hne : ∀ {b : Nat}, HigherSummit m a b → a ≠ b := by
    rintro b ⟨sa, sb, h1, h2, h3⟩ rfl
    rw [h1] at h2
    cases h2
    exact absurd h3 (lt_irrefl _)
  have hsite : ∀ {b : Nat}, HigherSummit m a b → ∃ q, sites[b]? = some q ∧ el d p < el d q := by
    rintro b ⟨sa, sb, h1, h2, h3⟩
    obtain ⟨sa', e1, e2⟩ := hat ha
    rw [h1] at e1
    cases e1
    have hlt : b < sites.length := by
      rw [hS.each.length_eq]
      exact lt_of_getElem? h2
    obtain ⟨sb', e3, e4⟩ := hat (List.getElem?_eq_getElem hlt)
    rw [h2] at e3
    cases e3
    exact ⟨_, List.getElem?_eq_getElem hlt, by rw [← e2, ← e4]; exact h3⟩
  have h1 : ∀ h, Escapes d p h ↔ ∃ b, HigherSummit m a b ∧ Relation.ReflTransGen (Over e P L h) a b := by
    intro h
    constructor
    · rintro ⟨q, hq, hp⟩
      have hqd : Data d q := hp.symm.1
      obtain ⟨b, q', hb, hpass⟩ := summit_of_cell hS hqd
      have hlow' : h ≤ el d q := hp.symm.2.1
      obtain ⟨s, s1, s2⟩ := hat hb
      obtain ⟨t, t1, t2⟩ := hat ha
      refine ⟨b, ⟨t, s, t1, s1, ?_⟩, (hfaith h a b p q' ha hb hp.2.1).2 (hp.trans (hpass.mono hlow'))⟩
      rw [t2, s2]
      exact lt_of_lt_of_le hq hpass.symm.2.1
    · rintro ⟨b, hb, hc⟩
      obtain ⟨q, hq, hlt⟩ := hsite hb
      have hle : h ≤ el d p := by
        rcases over_first hc with rfl | ⟨k, k1, k2, k3⟩
        · exact absurd rfl (hne hb)
        · exact le_trans k2 (hlow k a p k1 k3 ha)
      exact ⟨q, hlt, (hfaith h a b p q ha hq hle).1 hc⟩
  refine ⟨h1, fun hex => ?_⟩
  have hkey : ∀ h, Escapes d p h → ∃ k < n, (∃ b, HigherSummit m a b ∧ Lowest e P L k a b) ∧ h ≤ e k := by
    intro h hh
    obtain ⟨b, hb, hc⟩ := (h1 h).1 hh
    rcases exists_lowest hc with rfl | ⟨k, k1, k2⟩
    · exact absurd rfl (hne hb)
    · have : k < n := by
        obtain ⟨x, _, p1, _, p3, _⟩ := k2
        exact hn k x p1 p3
      exact ⟨k, this, ⟨b, hb, k2⟩, k1⟩
  obtain ⟨h0, hh0⟩ := hex
  obtain ⟨k0, a1, a2, _⟩ := hkey h0 hh0
  obtain ⟨k, b1, ⟨b, b2, b3⟩, b4⟩ := exists_greatest e (fun k => ∃ b, HigherSummit m a b ∧ Lowest e P L k a b) n ⟨k0, a1, a2⟩
  refine ⟨k, b, ⟨(h1 (e k)).2 ⟨b, b2, b3.over⟩, fun h' hh' => ?_⟩, b2, b3⟩
  obtain ⟨k', c1, c2, c3⟩ := hkey h' hh'
  exact le_trans c3 (b4 k' c1 c2)

/-- The linkers of the map as a relation between saddles and summits. -/
def DMap.links (m : DMap) (k D : Nat) : Prop := ∃ i ∈ m.linkers, m.st.store[i]? = some ⟨D, k⟩

theorem crosses_iff {m : DMap} {h : Rat} {a b : Nat} : Crosses m (LiveSaddle m) h a b ↔
    Over (fun k => m.net.elev (.saddle k)) (LiveSaddle m) m.links h a b := by
  have hel : ∀ {k : Nat} {ob : SObj}, m.st.objs[k]? = some ob → m.net.elev (.saddle k) = ob.f.elevation := by
    intro k ob hob
    simp [DMap.net, DMap.feature, hob]
  constructor
  · rintro ⟨k, ob, i, j, h1, h2, h3, h4, h5, h6, h7⟩
    exact ⟨k, h1, by show h ≤ m.net.elev _; rw [hel h2]; exact h3, ⟨i, h4, h5⟩, ⟨j, h6, h7⟩⟩
  · rintro ⟨k, h1, h2, ⟨i, h3, h4⟩, ⟨j, h5, h6⟩⟩
    obtain ⟨ob, hob, _⟩ := h1.2
    exact ⟨k, ob, i, j, h1, hob, by rw [← hel hob]; exact h2, h3, h4, h5, h6⟩

theorem netConnected_iff {m : DMap} {h : Rat} {a b : Nat} : NetConnected m (LiveSaddle m) h a b ↔
    Relation.ReflTransGen (Over (fun k => m.net.elev (.saddle k)) (LiveSaddle m) m.links h) a b := by
  unfold NetConnected
  rw [show Crosses m (LiveSaddle m) h = Over (fun k => m.net.elev (.saddle k)) (LiveSaddle m) m.links h from
    funext fun a => funext fun b => propext crosses_iff]

/-- C103: on every raster, in the network of the walked map: from a summit one gets to a higher cell without going below `h` exactly
if the summit is connected over live saddles not lower than `h` with a higher summit; and unless the summit is the highest
point of its area of data cells, the key col has the height of a live saddle of the map, which lies on a way along linkers to a
higher summit that is nowhere lower. -/
theorem C103_prominence (E : SaddleEnv) (hE : RunOk E) (o : Pt → Oracle) (order : List Pt)
    (ho : IsScan E.d order) (rebuild : Bool) :
    ∃ m sites, DMap.runSparse E o order rebuild = .ok m ∧ SummitsAt E.d sites m.summits ∧
      ∀ (a : Nat) (p : Pt), sites[a]? = some p →
        (∀ h, Escapes E.d p h ↔ ∃ b, HigherSummit m a b ∧ NetConnected m (LiveSaddle m) h a b) ∧
        ((∃ h, Escapes E.d p h) → ∃ (k : Nat) (ob : SObj) (b i j x y : Nat), LiveSaddle m k ∧ m.st.objs[k]? = some ob ∧
          KeyCol E.d p ob.f.elevation ∧ HigherSummit m a b ∧
          NetConnected m (LiveSaddle m) ob.f.elevation a x ∧ i ∈ m.linkers ∧ m.st.store[i]? = some ⟨x, k⟩ ∧
          j ∈ m.linkers ∧ m.st.store[j]? = some ⟨y, k⟩ ∧ NetConnected m (LiveSaddle m) ob.f.elevation y b) := by
  obtain ⟨m, sites, h1, h2, h3⟩ := C77_faithful E hE o order ho rebuild
  obtain ⟨m', r1, r2⟩ := C20_linkers_rise_partial E hE o order ho rebuild
  cases (r1.symm.trans h1 : Except.ok _ = Except.ok _)
  refine ⟨m, sites, h1, h2, fun a p ha => ?_⟩
  obtain ⟨g1, g2⟩ := key_of_faithful h2 (e := fun k => m.net.elev (.saddle k)) (P := LiveSaddle m) (L := m.links)
    (n := m.st.objs.length) (fun k D hk _ => by
      obtain ⟨_, ob, hob, _⟩ := hk
      exact lt_of_getElem? hob)
    (fun k a p _ hl ha => by
      obtain ⟨i, i1, i2⟩ := hl
      obtain ⟨l, sf, ob, e1, e2, e3, e4⟩ := r2 i i1
      rw [i2] at e1
      cases e1
      obtain ⟨s, s1, s2⟩ := forall₂_getElem? h2.each ha
      rw [e2] at s1
      cases s1
      have : m.net.elev (.saddle k) = ob.f.elevation := by simp [DMap.net, DMap.feature, e3]
      show m.net.elev (.saddle k) ≤ _
      rw [this, ← s2.located.2.2]
      rcases e4 with ⟨_, e4⟩ | ⟨_, _, e4⟩
      · exact le_of_lt e4
      · exact e4)
    (fun h a b p q hp hq hh => by rw [← netConnected_iff]; exact h3 h a b p q hp hq hh) a p ha
  refine ⟨fun h => by simp only [netConnected_iff]; exact g1 h, fun hex => ?_⟩
  obtain ⟨k, b, k1, k2, x, y, k3, k4, ⟨i, i1, i2⟩, ⟨j, j1, j2⟩, k5⟩ := g2 hex
  obtain ⟨ob, hob, _⟩ := k3.2
  have hel : m.net.elev (.saddle k) = ob.f.elevation := by simp [DMap.net, DMap.feature, hob]
  simp only [hel] at k1 k4 k5
  exact ⟨k, ob, b, i, j, x, y, k3, hob, k1, k2, netConnected_iff.2 k4, i1, i2, j1, j2, netConnected_iff.2 k5⟩

/-- C103 after a complete run, for rasters without saddles on the edge or on which no saddles coincide, if no two summits agree in location and elevation: the
saddles that are left, which form no cycle off the edge, still have the prominence of every summit. Missing: rasters
on which saddles coincide (`C103_edge_saddles_refuted`). -/
theorem C103_run_partial (E : SaddleEnv) (hE : RunOk E) (o : Pt → Oracle) (order : List Pt)
    (ho : IsScan E.d order) (rebuild : Bool) :
    ∃ D m sites, analyze E.d o order = .ok D ∧ DMap.runSparse E o order rebuild = .ok m ∧
      SummitsAt E.d sites m.summits ∧ (Untwinned D m → SummitsApart m.summits →
        ∀ fuel, m.saddles.length + m.st.objs.length < fuel → ∃ f, DMap.run E o order rebuild fuel = .ok (m, f) ∧
          ∀ (a : Nat) (p : Pt), sites[a]? = some p →
            (∀ h, Escapes E.d p h ↔ ∃ b, HigherSummit m a b ∧
              ConnectedBy m.net (fun _ => True) (fun k => ¬ SaddleOut f k ∧ h ≤ m.net.elev (.saddle k)) a b) ∧
            ((∃ h, Escapes E.d p h) → ∃ (k b x y : Nat), ¬ SaddleOut f k ∧ KeyCol E.d p (m.net.elev (.saddle k)) ∧
              HigherSummit m a b ∧ Linked m.net k x ∧ Linked m.net k y ∧
              ConnectedBy m.net (fun _ => True)
                (fun k' => ¬ SaddleOut f k' ∧ m.net.elev (.saddle k) ≤ m.net.elev (.saddle k')) a x ∧
              ConnectedBy m.net (fun _ => True)
                (fun k' => ¬ SaddleOut f k' ∧ m.net.elev (.saddle k) ≤ m.net.elev (.saddle k')) y b)) := by
  obtain ⟨D, m, sites, h1, h2, h3, h4⟩ := C78_faithful_partial E hE o order ho rebuild
  obtain ⟨m', r1, r2⟩ := C20_linkers_rise_partial E hE o order ho rebuild
  cases (r1.symm.trans h2 : Except.ok _ = Except.ok _)
  obtain ⟨m', _, g1, _, g3, g4, _⟩ := run_joins hE o order ho rebuild
  cases (g1.symm.trans h2 : Except.ok _ = Except.ok _)
  refine ⟨D, m, sites, h1, h2, h3, fun he hS fuel hf => ?_⟩
  obtain ⟨f, f1, _, f3⟩ := h4 he hS fuel hf
  have hcon : ∀ (h : Rat) (a b : Nat),
      ConnectedBy m.net (fun _ => True) (fun k => ¬ SaddleOut f k ∧ h ≤ m.net.elev (.saddle k)) a b ↔
      Relation.ReflTransGen (Over (fun k => m.net.elev (.saddle k)) (fun k => ¬ SaddleOut f k) (Linked m.net) h) a b := by
    intro h a b
    unfold ConnectedBy
    constructor
    · exact Relation.ReflTransGen.mono (fun _ _ ⟨_, _, k, ⟨k1, k2⟩, k3, k4⟩ => ⟨k, k1, k2, k3, k4⟩) _ _
    · exact Relation.ReflTransGen.mono (fun _ _ ⟨k, k1, k2, k3, k4⟩ => ⟨trivial, trivial, k, ⟨k1, k2⟩, k3, k4⟩) _ _
  have hlk : ∀ {k D : Nat}, Linked m.net k D → ∃ i ∈ m.linkers, m.st.store[i]? = some ⟨D, k⟩ := by
    rintro k D ⟨i, hi, hD⟩
    obtain ⟨l, e1, e2⟩ := g3.sad k i hi
    refine ⟨i, ?_, ?_⟩
    · rw [g4, g3.lk]
      exact List.mem_range.2 (lt_of_getElem? e1)
    · rw [e1, ← e2, ← hD]
      simp [DMap.net, e1]
  refine ⟨f, f1, fun a p ha => ?_⟩
  obtain ⟨q1, q2⟩ := key_of_faithful h3 (e := fun k => m.net.elev (.saddle k)) (P := fun k => ¬ SaddleOut f k)
    (L := Linked m.net) (n := m.st.objs.length) (fun k D _ hl => by
      obtain ⟨i, i1, i2⟩ := hlk hl
      obtain ⟨l, _, ob, e1, _, e3, _⟩ := r2 i i1
      rw [i2] at e1
      cases e1
      exact lt_of_getElem? e3)
    (fun k a p _ hl ha => by
      obtain ⟨i, i1, i2⟩ := hlk hl
      obtain ⟨l, sf, ob, e1, e2, e3, e4⟩ := r2 i i1
      rw [i2] at e1
      cases e1
      obtain ⟨s, s1, s2⟩ := forall₂_getElem? h3.each ha
      rw [e2] at s1
      cases s1
      have : m.net.elev (.saddle k) = ob.f.elevation := by simp [DMap.net, DMap.feature, e3]
      show m.net.elev (.saddle k) ≤ _
      rw [this, ← s2.located.2.2]
      rcases e4 with ⟨_, e4⟩ | ⟨_, _, e4⟩
      · exact le_of_lt e4
      · exact e4)
    (fun h a b p q hp hq hh => by rw [← hcon]; exact f3 h a b p q hp hq hh) a p ha
  refine ⟨fun h => by simp only [hcon]; exact q1 h, fun hex => ?_⟩
  obtain ⟨k, b, k1, k2, x, y, k3, k4, k5, k6, k7⟩ := q2 hex
  exact ⟨k, b, x, y, k3, k1, k2, k5, k6, (hcon _ _ _).2 k4, (hcon _ _ _).2 k7⟩

/-- A saddle of elevation 2 on the upper edge, and a ring of the summits 9, 10 and 11 with saddles 2, 7 and 1. -/
def exRing3 : List (List Rat) := [[0, 0, 0, 2, 3, 0], [0, 0, 0, 2, 0, 0], [0, 0, 9, 0, 3, 0], [0, 7, 0, 0, 10, 0],
  [0, 11, 1, 1, 0, 0], [0, 0, 0, 0, 0, 0]]

/-- C103 fails where a saddle is on the edge: on this raster one can go from the summit of height 10 to higher ground without
going below 2, but after the run its only connection with a higher summit is over a saddle of height 1. The prominence
read off the map is too large. -/
theorem C103_edge_saddles_refuted : ∃ m f sites p, exFull exRing3 false 99 = .ok (m, f) ∧
    SummitsAt (DataMap.ofRows exRing3) sites m.summits ∧ sites[2]? = some p ∧ el (DataMap.ofRows exRing3) p = 10 ∧
    Escapes (DataMap.ofRows exRing3) p 2 ∧
    (∀ b, HigherSummit m 2 b →
      ¬ ConnectedBy m.net (fun _ => True) (fun k => ¬ SaddleOut f k ∧ 2 ≤ m.net.elev (.saddle k)) 2 b) ∧
    ∃ b, HigherSummit m 2 b ∧
      ConnectedBy m.net (fun _ => True) (fun k => ¬ SaddleOut f k ∧ 1 ≤ m.net.elev (.saddle k)) 2 b := by
  have hE := exRun_plain exRing3 (by unfold maxsize; decide +kernel)
  obtain ⟨_, m0, m, _, _, _, h8, h9, hL, _⟩ := run_links hE (fun _ => exOracle) _ (isScan_cells _) false
  obtain ⟨m', sites, g1, g2, g3, g4, _⟩ := run_joins hE (fun _ => exOracle) _ (isScan_cells _) false
  cases (g1.symm.trans h8 : Except.ok _ = Except.ok _)
  have hA : (exFull exRing3 false 99).toOption.map (fun r => (r.1.st.objs.length,
      (List.range 12).flatMap fun k => (r.1.net.sadLinks k).map fun i => (k, (r.1.net.link i).1))) =
      some (12, [(3, 0), (8, 2), (8, 0), (9, 1), (9, 2), (10, 1), (10, 3), (11, 2), (11, 3)]) := by decide +kernel
  have hB : (exFull exRing3 false 99).toOption.map (fun r => ((r.2.saddleDisq 9, r.2.saddleDisq 11,
      r.1.flags.saddleDisq 9, r.1.flags.saddleDisq 10), (r.1.net.elev (.saddle 9), r.1.net.elev (.saddle 10),
      r.1.net.elev (.saddle 11)), r.1.summits.map (·.elevation))) =
      some ((true, false, false, false), (2, 7, 1), [3, 9, 10, 11]) := by decide +kernel
  cases hr : exFull exRing3 false 99 with
  | error e => rw [hr] at hA; cases hA
  | ok r =>
    obtain ⟨m', f⟩ := r
    have : m' = m := by
      unfold exFull DMap.run at hr
      rw [show DMap.runSparse (exRun (DataMap.ofRows exRing3)) (fun _ => exOracle)
        (DataMap.ofRows exRing3).cells false = .ok m from h8] at hr
      obtain ⟨m1, e1, e2⟩ := bind_ok hr
      obtain ⟨f', _, e2⟩ := bind_ok e2
      cases e1; cases e2; rfl
    subst this
    rw [hr] at hA hB
    simp only [Except.toOption, Option.map_some, Option.some.injEq, Prod.mk.injEq] at hA hB
    obtain ⟨hn, ht⟩ := hA
    obtain ⟨⟨b1, b2, b3, b4⟩, ⟨b5, b6, b7⟩, hsum⟩ := hB
    have hl : ∀ k D, Linked m'.net k D ↔
        (k, D) ∈ [(3, 0), (8, 2), (8, 0), (9, 1), (9, 2), (10, 1), (10, 3), (11, 2), (11, 3)] := by
      intro k D
      rw [← ht]
      simp only [List.mem_flatMap, List.mem_range, List.mem_map, Prod.mk.injEq]
      constructor
      · rintro ⟨i, hi, hD⟩
        refine ⟨k, ?_, i, hi, rfl, hD⟩
        by_contra hk
        have := hL.fresh k (by simp only [CSt.feats, List.length_map]; omega)
        rw [show m'.net.sadLinks k = [] from this] at hi
        cases hi
      · rintro ⟨k', _, i, hi, rfl, hD⟩
        exact ⟨i, hi, hD⟩
    have hout : ∀ (g : Flags) (k : Nat), g.saddleDisq k = false → ¬ SaddleOut g k := by
      intro g k h hc
      rw [(saddleDisq_iff g k).2 hc] at h
      cases h
    have hlen : m'.summits.length = 4 := by simpa using congrArg List.length hsum
    have hel : ∀ (i : Nat) s, m'.summits[i]? = some s → [3, 9, 10, 11][i]? = some s.elevation := by
      intro i s hs
      rw [← hsum, List.getElem?_map, hs]
      rfl
    have hhigh : HigherSummit m' 2 3 := by
      have e2 := List.getElem?_eq_getElem (show 2 < m'.summits.length by omega)
      have e3 := List.getElem?_eq_getElem (show 3 < m'.summits.length by omega)
      refine ⟨_, _, e2, e3, ?_⟩
      have h2 := hel 2 _ e2
      have h3 := hel 3 _ e3
      simp only [List.getElem?_cons_succ, List.getElem?_cons_zero, Option.some.injEq] at h2 h3
      rw [← h2, ← h3]
      norm_num
    have site : ∀ i, i < 4 → ∃ p, sites[i]? = some p := fun i hi =>
      ⟨_, List.getElem?_eq_getElem (by rw [g2.each.length_eq, hlen]; exact hi)⟩
    obtain ⟨p, hp⟩ := site 2 (by omega)
    obtain ⟨q, hq⟩ := site 3 (by omega)
    have hpe : ∀ (i : Nat) (x : Pt), sites[i]? = some x →
        [3, 9, 10, 11][i]? = some (el (DataMap.ofRows exRing3) x) := by
      intro i x hx
      obtain ⟨s, s1, s2⟩ := forall₂_getElem? g2.each hx
      rw [← show s.elevation = el (DataMap.ofRows exRing3) x from s2.located.2.2]
      exact hel i s s1
    have hp10 := hpe 2 p hp
    have hq11 := hpe 3 q hq
    simp only [List.getElem?_cons_succ, List.getElem?_cons_zero, Option.some.injEq] at hp10 hq11
    refine ⟨m', f, sites, p, rfl, g2, hp, hp10.symm, ⟨q, by rw [← hp10, ← hq11]; norm_num, ?_⟩, ?_, 3, hhigh, ?_⟩
    · have hc : ConnectedBy m'.net (fun _ => True)
          (fun k => ¬ SaddleOut m'.flags k ∧ 2 ≤ m'.net.elev (.saddle k)) 2 3 :=
        .tail (b := 1) (.single ⟨trivial, trivial, 9, ⟨hout _ _ b3, by rw [b5]⟩, (hl 9 2).2 (by simp), (hl 9 1).2 (by simp)⟩)
          ⟨trivial, trivial, 10, ⟨hout _ _ b4, by rw [b6]; norm_num⟩, (hl 10 1).2 (by simp), (hl 10 3).2 (by simp)⟩
      exact net_way (E := { exRun (DataMap.ofRows exRing3) with summits := m'.summits }) hE.geo g2 g3
        (connectedBy_net g3 g4 hc) hp (by show (2 : Rat) ≤ el (DataMap.ofRows exRing3) p; rw [← hp10]; norm_num) q hq
    · rintro b ⟨sa, sb, e1, e2, e3⟩ hc
      have key : ∀ x, ConnectedBy m'.net (fun _ => True)
          (fun k => ¬ SaddleOut f k ∧ 2 ≤ m'.net.elev (.saddle k)) 2 x → x = 2 ∨ x = 0 := by
        intro x hx
        induction hx with
        | refl => exact .inl rfl
        | tail _ hs ih =>
          obtain ⟨_, _, k, ⟨hk, he⟩, l1, l2⟩ := hs
          have hk9 : k ≠ 9 := by
            rintro rfl
            exact hk ((saddleDisq_iff f 9).1 b1)
          have hk11 : k ≠ 11 := by
            rintro rfl
            rw [b7] at he
            exact absurd he (by norm_num)
          have m1 := (hl _ _).1 l1
          have m2 := (hl _ _).1 l2
          simp only [List.mem_cons, Prod.mk.injEq, List.not_mem_nil, or_false] at m1 m2
          omega
      have h1 := hel 2 sa e1
      simp only [List.getElem?_cons_succ, List.getElem?_cons_zero, Option.some.injEq] at h1
      rcases key b hc with rfl | rfl
      · rw [e1] at e2
        cases e2
        exact absurd e3 (lt_irrefl _)
      · have h2 := hel 0 sb e2
        simp only [List.getElem?_cons_zero, Option.some.injEq] at h2
        rw [← h1, ← h2] at e3
        exact absurd e3 (by norm_num)
    · exact .single ⟨trivial, trivial, 11, ⟨hout _ _ b2, by rw [b7]⟩, (hl 11 2).2 (by simp), (hl 11 3).2 (by simp)⟩

/-- Instance of C103: in the crater the summit 8 has the key saddle 8, of height 3; see C28 for the conditions. -/
example : (exFull exCrater false 17).toOption.map (fun r => (r.1.summits.map (·.elevation), r.2.saddleDisq 8,
    r.1.net.elev (.saddle 8), (r.1.net.sadLinks 8).map fun i => (r.1.net.link i).1)) =
    some ([9, 8, 7, 6], false, 3, [1, 0]) := by decide +kernel

/-- Instance of C103: from the summit 8 of the crater one gets to higher ground without going below 3. -/
example : Escapes (DataMap.ofRows exCrater) (1, 3) 3 := by
  refine ⟨(1, 1), by decide +kernel, by unfold Spec.Data Spec.InB; decide +kernel, by decide +kernel, ?_⟩
  exact .tail (b := (1, 2)) (.single ⟨by decide +kernel, by unfold Spec.Data Spec.InB; decide +kernel, by decide +kernel⟩)
    ⟨by decide +kernel, by unfold Spec.Data Spec.InB; decide +kernel, by decide +kernel⟩

end PyProm
