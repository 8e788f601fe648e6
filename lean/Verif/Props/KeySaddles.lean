import Verif.Props.Tree
import Verif.Proof.Parts
import Verif.Props.Prominence
import Verif.Props.BasinTerrain

/-
C120: the saddles that a complete run leaves are the key saddles of the summits.
-/
namespace PyProm
open Spec

namespace Spec

/-- Summit heights of the map differ. -/
def HeightsApart (m : DMap) : Prop := ∀ (a b : Nat) (s t : Feature), m.summits[a]? = some s → m.summits[b]? = some t →
  s.elevation = t.elevation → a = b

/-- `as` are the summits whose key col has the height `h`. -/
def KeyAt (d : DataMap) (sites : List Pt) (h : Rat) (as : List Nat) : Prop :=
  as.Nodup ∧ ∀ a, a ∈ as ↔ ∃ p, sites[a]? = some p ∧ KeyCol d p h

end Spec

theorem exists_max_mem (e : Nat → Rat) : ∀ l : List Nat, l ≠ [] → ∃ b ∈ l, ∀ c ∈ l, e c ≤ e b := by
  intro l
  induction l with
  | nil => intro h; exact absurd rfl h
  | cons a l ih =>
    intro _
    by_cases hl : l = []
    · subst hl
      exact ⟨a, by simp, by simp⟩
    · obtain ⟨b, hb, h⟩ := ih hl
      by_cases hab : e a ≤ e b
      · refine ⟨b, List.mem_cons_of_mem _ hb, fun c hc => ?_⟩
        rcases List.mem_cons.1 hc with rfl | hc
        · exact hab
        · exact h c hc
      · refine ⟨a, List.mem_cons_self .., fun c hc => ?_⟩
        rcases List.mem_cons.1 hc with rfl | hc
        · exact le_refl _
        · exact le_trans (h c hc) (le_of_lt (not_le.1 hab))

/-- The highest summits of the parts, if summits differ in height. -/
theorem highest_reps (N : FNet) (n : Nat) (L : List Nat) (e : Nat → Rat) (he : ∀ a b, a < n → b < n → e a = e b → a = b) :
    ∃ reps : List Nat, reps.Nodup ∧ PartReps N n L reps ∧
      ∀ a, a ∈ reps ↔ a < n ∧ ∀ b, b < n → ConnectedBy N (fun _ => True) (· ∈ L) a b → e b ≤ e a := by
  classical
  let top : Nat → Prop := fun a => ∀ b, b < n → ConnectedBy N (fun _ => True) (· ∈ L) a b → e b ≤ e a
  have hmem : ∀ a, a ∈ (List.range n).filter (fun a => decide (top a)) ↔ a < n ∧ top a := by
    intro a
    rw [List.mem_filter, List.mem_range, decide_eq_true_eq]
  have hnd : ((List.range n).filter fun a => decide (top a)).Nodup := List.nodup_range.filter _
  refine ⟨_, hnd, ⟨fun r hr => ((hmem r).1 hr).1, ?_, fun a ha => ?_⟩, hmem⟩
  · refine List.Pairwise.imp_of_mem (fun {a b} ha hb hab hc => hab ?_) hnd
    obtain ⟨ha, ha'⟩ := (hmem a).1 ha
    obtain ⟨hb, hb'⟩ := (hmem b).1 hb
    exact he a b ha hb (le_antisymm (hb' a ha (conn_symm hc)) (ha' b hb hc))
  · obtain ⟨b, hb, h⟩ := exists_max_mem e ((List.range n).filter fun b => decide (ConnectedBy N (fun _ => True) (· ∈ L) a b))
      (List.ne_nil_of_mem (List.mem_filter.2 ⟨List.mem_range.2 ha, decide_eq_true .refl⟩))
    rw [List.mem_filter, List.mem_range, decide_eq_true_eq] at hb
    refine ⟨b, (hmem b).2 ⟨hb.1, fun c hc hbc => h c ?_⟩, hb.2⟩
    rw [List.mem_filter, List.mem_range, decide_eq_true_eq]
    exact ⟨hc, hb.2.trans hbc⟩

/-- What is connected over saddles above `h` is connected over saddles of some greater height. -/
theorem conn_above {N : FNet} {L : List Nat} {h : Rat} {a b : Nat}
    (hc : ConnectedBy N (fun _ => True) (· ∈ L.filter fun k => decide (h < N.elev (.saddle k))) a b) :
    ∃ h', h < h' ∧ ConnectedBy N (fun _ => True) (· ∈ L.filter fun k => decide (h' ≤ N.elev (.saddle k))) a b := by
  induction hc with
  | refl => exact ⟨h + 1, by linarith, .refl⟩
  | tail _ h2 ih =>
    obtain ⟨t, h1, h3⟩ := ih
    obtain ⟨_, _, k, hk, l1, l2⟩ := h2
    rw [List.mem_filter, decide_eq_true_eq] at hk
    refine ⟨min t (N.elev (.saddle k)), lt_min h1 hk.2, ?_⟩
    refine (conn_mono (fun _ h => h) (fun j hj => ?_) h3).tail ⟨trivial, trivial, k, ?_, l1, l2⟩
    · rw [List.mem_filter, decide_eq_true_eq] at hj ⊢
      exact ⟨hj.1, le_trans (min_le_left _ _) hj.2⟩
    · rw [List.mem_filter, decide_eq_true_eq]
      exact ⟨hk.1, min_le_right _ _⟩

theorem cycle_mono {N : FNet} {P Q : Node → Prop} (h : ∀ n, P n → Q n) {c : List Node} (hc : Cycle N P c) : Cycle N Q c :=
  { hc with mem := fun n hn => h n (hc.mem n hn) }

/-- Counting key cols, for a network that shows the terrain: there is a saddle for every one, and no other if the network is a
forest. -/
theorem key_count (N : FNet) (n : Nat) (L : List Nat) (e : Nat → Rat) (he : ∀ a b, a < n → b < n → e a = e b → a = b)
    (hL : L.Nodup) (hT : ∀ k ∈ L, TwoEnds N n k) (Esc : Nat → Rat → Prop)
    (hE : ∀ a h, a < n → (Esc a h ↔ ∃ b, b < n ∧ e a < e b ∧
      ConnectedBy N (fun _ => True) (· ∈ L.filter fun k => decide (h ≤ N.elev (.saddle k))) a b))
    (h : Rat) (as : List Nat) (hn : as.Nodup) (ha : ∀ a, a ∈ as ↔ a < n ∧ Esc a h ∧ ∀ h', Esc a h' → h' ≤ h) :
    as.length ≤ (L.filter fun k => decide (N.elev (.saddle k) = h)).length ∧
      ((∀ c, ¬ Cycle N (InNet n L) c) → as.length = (L.filter fun k => decide (N.elev (.saddle k) = h)).length) := by
  have sub : ∀ (P : Nat → Bool), (L.filter P).Nodup ∧ (∀ k ∈ L.filter P, TwoEnds N n k) ∧
      ((∀ c, ¬ Cycle N (InNet n L) c) → ∀ c, ¬ Cycle N (InNet n (L.filter P)) c) := by
    intro P
    refine ⟨hL.filter _, fun k hk => hT k (List.mem_filter.1 hk).1, fun hac c hc => hac c (cycle_mono ?_ hc)⟩
    intro x hx
    cases x with
    | summit D => exact hx
    | saddle k => exact (List.mem_filter.1 (show k ∈ L.filter P from hx)).1
  obtain ⟨g1, g2, g3⟩ := sub fun k => decide (h ≤ N.elev (.saddle k))
  obtain ⟨t1, t2, t3⟩ := sub fun k => decide (h < N.elev (.saddle k))
  obtain ⟨R, r1, r2, r3⟩ := highest_reps N n (L.filter fun k => decide (h ≤ N.elev (.saddle k))) e he
  obtain ⟨S, s1, s2, s3⟩ := highest_reps N n (L.filter fun k => decide (h < N.elev (.saddle k))) e he
  have hRe : ∀ a, a < n → (a ∈ R ↔ ¬ Esc a h) := by
    intro a han
    rw [r3, hE a h han]
    push Not
    exact ⟨fun h1 b hb hlt hc => absurd (h1.2 b hb hc) (not_le.2 hlt), fun h1 => ⟨han, fun b hb hc => by
      by_contra hlt
      exact h1 b hb (not_le.1 hlt) hc⟩⟩
  have hSe : ∀ a, a < n → (a ∈ S ↔ ∀ h', Esc a h' → h' ≤ h) := by
    intro a han
    rw [s3]
    constructor
    · rintro ⟨_, h1⟩ h' hh'
      by_contra hlt
      obtain ⟨b, hb, hab, hc⟩ := (hE a h' han).1 hh'
      refine absurd (h1 b hb (conn_mono (fun _ h => h) (fun k hk => ?_) hc)) (not_le.2 hab)
      rw [List.mem_filter, decide_eq_true_eq] at hk ⊢
      exact ⟨hk.1, lt_of_lt_of_le (not_le.1 hlt) hk.2⟩
    · intro h1
      refine ⟨han, fun b hb hc => ?_⟩
      by_contra hlt
      obtain ⟨h', e1, e2⟩ := conn_above hc
      exact absurd (h1 h' ((hE a h' han).2 ⟨b, hb, not_le.1 hlt, e2⟩)) (not_le.2 e1)
  have hperm : (as ++ R).Perm S := by
    rw [List.perm_ext_iff_of_nodup _ s1]
    · intro a
      rw [List.mem_append, ha]
      constructor
      · rintro (⟨h1, _, h2⟩ | h1)
        · exact (hSe a h1).2 h2
        · have han := ((r3 a).1 h1).1
          refine (s3 a).2 ⟨han, fun b hb hc => ((r3 a).1 h1).2 b hb (conn_mono (fun _ h => h) (fun k hk => ?_) hc)⟩
          rw [List.mem_filter, decide_eq_true_eq] at hk ⊢
          exact ⟨hk.1, le_of_lt hk.2⟩
      · intro h1
        have han := ((s3 a).1 h1).1
        by_cases hr : a ∈ R
        · exact .inr hr
        · refine .inl ⟨han, ?_, (hSe a han).1 h1⟩
          by_contra hc
          exact hr ((hRe a han).2 hc)
    · rw [List.nodup_append]
      refine ⟨hn, r1, fun a h1 b h2 hab => ?_⟩
      subst hab
      obtain ⟨x1, x2, _⟩ := (ha a).1 h1
      exact (hRe a x1).1 h2 x2
  have hlen := hperm.length_eq
  rw [List.length_append] at hlen
  have hsplit : (L.filter fun k => decide (h ≤ N.elev (.saddle k))).length =
      (L.filter fun k => decide (h < N.elev (.saddle k))).length + (L.filter fun k => decide (N.elev (.saddle k) = h)).length := by
    clear * -
    induction L with
    | nil => rfl
    | cons k L ih =>
      simp only [List.filter_cons]
      rcases lt_trichotomy h (N.elev (.saddle k)) with c | c | c
      · rw [if_pos (by simpa using le_of_lt c), if_pos (by simpa using c), if_neg (by simpa using ne_of_gt c)]
        simp only [List.length_cons]
        omega
      · rw [if_pos (by simpa using le_of_eq c), if_neg (by simp [c]), if_pos (by simp [c])]
        simp only [List.length_cons]
        omega
      · rw [if_neg (by simpa using c), if_neg (by simpa using le_of_lt c), if_neg (by simpa using ne_of_lt c)]
        exact ih
  have hle := parts_le (L.filter fun k => decide (N.elev (.saddle k) = h)) (L.filter fun k => decide (h < N.elev (.saddle k))) R S
    (fun k hk => hT k (List.mem_filter.1 hk).1) (r2.congr fun k => ?_) s2
  · refine ⟨by omega, fun hac => ?_⟩
    have f1 := (forest_count N n _ R g1 g2 r2).2 (g3 hac)
    have f2 := (forest_count N n _ S t1 t2 s2).2 (t3 hac)
    omega
  · simp only [List.mem_append, List.mem_filter, decide_eq_true_eq, ← and_or_left, le_iff_lt_or_eq]
    rw [or_comm, eq_comm]

/-- Counting the summits from which one gets to higher ones at a level. -/
theorem escape_count (N : FNet) (n : Nat) (L : List Nat) (e : Nat → Rat) (he : ∀ a b, a < n → b < n → e a = e b → a = b)
    (hL : L.Nodup) (hT : ∀ k ∈ L, TwoEnds N n k) (h2 : ∀ k ∈ L, (N.sadLinks k).length ≤ 2) (as : List Nat) (hn : as.Nodup)
    (ha : ∀ a, a ∈ as ↔ a < n ∧ ∃ b, b < n ∧ e a < e b ∧ ConnectedBy N (fun _ => True) (· ∈ L) a b) :
    as.length ≤ L.length ∧ (as.length = L.length ↔ ∀ c, ¬ Cycle N (InNet n L) c) := by
  obtain ⟨R, r1, r2, r3⟩ := highest_reps N n L e he
  have hperm : (as ++ R).Perm (List.range n) := by
    rw [List.perm_ext_iff_of_nodup _ List.nodup_range]
    · intro a
      rw [List.mem_append, ha, r3, List.mem_range, ← and_or_left, and_iff_left_iff_imp]
      intro han
      by_cases c : ∃ b, b < n ∧ e a < e b ∧ ConnectedBy N (fun _ => True) (· ∈ L) a b
      · exact .inl c
      · refine .inr fun b hb hc => not_lt.1 fun hlt => c ⟨b, hb, hlt, hc⟩
    · rw [List.nodup_append]
      refine ⟨hn, r1, fun a h1 b h2 hab => ?_⟩
      subst hab
      obtain ⟨_, b, hb, hlt, hc⟩ := (ha a).1 h1
      exact absurd (((r3 a).1 h2).2 b hb hc) (not_le.2 hlt)
  have hlen := hperm.length_eq
  rw [List.length_append, List.length_range] at hlen
  obtain ⟨c1, c2⟩ := forest_count N n L R hL hT r2
  refine ⟨by omega, fun heq c hc => ?_, fun hac => ?_⟩
  · have := forest_cycle hT h2 hL r2 hc
    omega
  · have := c2 hac
    omega

/-- What a complete run without coinciding saddles leaves: a network over which one gets from a summit to higher
ones just as on the terrain, and which is a forest off the edge. -/
theorem live_escapes {E : SaddleEnv} (hE : RunOk E) (o : Pt → Oracle) (order : List Pt) (ho : IsScan E.d order) (rebuild : Bool) :
    ∃ D m sites, analyze E.d o order = .ok D ∧ DMap.runSparse E o order rebuild = .ok m ∧ SummitsAt E.d sites m.summits ∧
      m.saddles.Nodup ∧ m.summits = D.summits ∧
      (Untwinned D m → SummitsApart m.summits → NetOk m.net m.saddles m.flags ∧
        ∀ fuel, m.saddles.length + m.st.objs.length < fuel → ∃ f, DMap.run E o order rebuild fuel = .ok (m, f) ∧
          disqualifyBasinSaddles m.net fuel m.saddles m.flags = .ok f ∧ (∀ c, ¬ Cycle m.net (Alive m.net f) c) ∧
          (∀ (h : Rat) (a b : Nat) (p q : Pt), sites[a]? = some p → sites[b]? = some q → h ≤ el E.d p →
            (ConnectedBy m.net (fun _ => True) (· ∈ (liveSaddles m f).filter fun k => decide (h ≤ m.net.elev (.saddle k))) a b ↔
              Passable E.d h p q)) ∧
          ∀ (a : Nat) (p : Pt), sites[a]? = some p → ∀ h, Escapes E.d p h ↔ ∃ b, HigherSummit m a b ∧
            ConnectedBy m.net (fun _ => True) (· ∈ (liveSaddles m f).filter fun k => decide (h ≤ m.net.elev (.saddle k))) a b) := by
  obtain ⟨D, m, h1, h2, _⟩ := C41_no_edge_saddles_partial E hE o order ho rebuild
  obtain ⟨_, m0, m', _, _, _, h8, h9, hL, _⟩ := run_links hE o order ho rebuild
  cases (h8.symm.trans h2 : Except.ok _ = Except.ok _)
  obtain ⟨m', hr1, hr2⟩ := C65_once E hE o order ho rebuild
  cases (hr1.symm.trans h2 : Except.ok _ = Except.ok _)
  obtain ⟨m', sites, g1, g2, g3, g4, g5⟩ := run_joins hE o order ho rebuild
  cases (g1.symm.trans h2 : Except.ok _ = Except.ok _)
  obtain ⟨D', m', d1, d2, d3⟩ := C21_first_walk_partial E hE o order ho rebuild
  cases (d1.symm.trans h1 : Except.ok _ = Except.ok _)
  cases (d2.symm.trans h2 : Except.ok _ = Except.ok _)
  obtain ⟨m', r1, r2⟩ := C20_linkers_rise_partial E hE o order ho rebuild
  cases (r1.symm.trans h2 : Except.ok _ = Except.ok _)
  refine ⟨D, m, sites, h1, h2, g2, hr2, d3, fun hU hS => ?_⟩
  have hH := run_untwinned hE o order ho rebuild h1 h2 hS hU
  have hN := h9.netOk hL hH hS
  refine ⟨hN, fun fuel hfuel => ?_⟩
  obtain ⟨f, hf, hacy⟩ := C28_acyclic_partial m.net m.saddles m.flags hN fuel hfuel
  obtain ⟨f', hf', hconn⟩ := C29_off_edge_partial m.net m.saddles m.flags hN fuel hfuel
  cases (hf'.symm.trans hf : Except.ok _ = Except.ok _)
  refine ⟨f, ?_, hf, hacy, ?_⟩
  · unfold DMap.run
    rw [h2]
    dsimp only [bind, Except.bind]
    rw [show m.detectBasins fuel m.flags = .ok f from hf]
    rfl
  have hat : ∀ {b : Nat} {q : Pt}, sites[b]? = some q → ∃ s, m.summits[b]? = some s ∧ s.elevation = el E.d q := by
    intro b q hb
    obtain ⟨s, h1, h2⟩ := forall₂_getElem? g2.each hb
    exact ⟨s, h1, h2.located.2.2⟩
  have hlk : ∀ {k D : Nat}, Linked m.net k D → ∃ i ∈ m.linkers, m.st.store[i]? = some ⟨D, k⟩ := by
    rintro k D ⟨i, hi, hD⟩
    obtain ⟨l, e1, e2⟩ := g3.sad k i hi
    refine ⟨i, ?_, ?_⟩
    · rw [g4, g3.lk]
      exact List.mem_range.2 (lt_of_getElem? e1)
    · rw [e1, ← e2, ← hD]
      simp [DMap.net, e1]
  -- live saddles of a level, three ways
  have hfil : ∀ (h : Rat) (a b : Nat),
      ConnectedBy m.net (fun _ => True) (· ∈ (liveSaddles m f).filter fun k => decide (h ≤ m.net.elev (.saddle k))) a b ↔
      Relation.ReflTransGen (Over (fun k => m.net.elev (.saddle k)) (· ∈ liveSaddles m f) (Linked m.net) h) a b := by
    intro h a b
    unfold ConnectedBy
    constructor
    · refine Relation.ReflTransGen.mono (fun _ _ ⟨_, _, k, k1, k3, k4⟩ => ?_) _ _
      have k1 := List.mem_filter.1 (show k ∈ (liveSaddles m f).filter _ from k1)
      rw [decide_eq_true_eq] at k1
      exact ⟨k, k1.1, k1.2, k3, k4⟩
    · exact Relation.ReflTransGen.mono (fun _ _ ⟨k, k1, k2, k3, k4⟩ => ⟨trivial, trivial, k, List.mem_filter.2 ⟨k1, decide_eq_true k2⟩, k3, k4⟩) _ _
  have hfaith : ∀ (h : Rat) (a b : Nat) (p q : Pt), sites[a]? = some p → sites[b]? = some q → h ≤ el E.d p →
      (Relation.ReflTransGen (Over (fun k => m.net.elev (.saddle k)) (· ∈ liveSaddles m f) (Linked m.net) h) a b ↔
        Passable E.d h p q) := by
    intro h a b p q hp hq hh
    rw [← hfil]
    constructor
    · intro hc
      refine net_way (E := { E with summits := m.summits }) hE.geo g2 g3 (connectedBy_net (P := (· ∈ liveSaddles m f)) g3 g4
        (conn_mono (fun _ h => h) (fun k hk => ?_) hc)) hp hh q hq
      rw [List.mem_filter, decide_eq_true_eq] at hk
      exact hk
    · intro hpass
      have hnet := live_connectedBy hH (passable_joined g2 (netConnected_level m (LiveSaddle m)) g5
        hpass a b ⟨p, ⟨p, hp, .refl⟩, .refl⟩ ⟨q, ⟨q, hq, .refl⟩, .refl⟩)
      refine conn_bind (fun k u v hk hu hv _ _ => ?_) ((hconn h a b).2 hnet)
      refine conn_hop (List.mem_filter.2 ⟨mem_liveSaddles.2 ⟨hN.listed k u ⟨fun h => hk.1.1 ((marked_out hf k).2 (.inl h)), hk.1.2⟩ hu,
        hk.1⟩, by simpa using hk.2⟩) hu hv trivial trivial
  refine ⟨fun h a b p q hp hq hh => (hfil h a b).trans (hfaith h a b p q hp hq hh), ?_⟩
  intro a p ha h
  simp only [hfil]
  refine (key_of_faithful g2 (e := fun k => m.net.elev (.saddle k)) (P := (· ∈ liveSaddles m f)) (L := Linked m.net)
    (n := m.st.objs.length) (fun k D _ hl => ?_) (fun k a p _ hl ha => ?_) hfaith a p ha).1 h
  · obtain ⟨i, i1, i2⟩ := hlk hl
    obtain ⟨l, _, ob, e1, _, e3, _⟩ := r2 i i1
    rw [i2] at e1
    cases e1
    exact lt_of_getElem? e3
  · obtain ⟨i, i1, i2⟩ := hlk hl
    obtain ⟨l, sf, ob, e1, e2, e3, e4⟩ := r2 i i1
    rw [i2] at e1
    cases e1
    obtain ⟨s, s1, s2⟩ := forall₂_getElem? g2.each ha
    rw [e2] at s1
    cases s1
    have : m.net.elev (.saddle k) = ob.f.elevation := by simp [DMap.net, DMap.feature, e3]
    show m.net.elev (.saddle k) ≤ _
    rw [this, ← s2.located.2.2]
    rcases e4 with ⟨_, e4⟩ | ⟨_, _, e4⟩
    · exact le_of_lt e4
    · exact e4

/-- C120: on a raster on which no saddle is on the edge or no saddles coincide, and whose summits differ in height, a complete run leaves for
every height at least as many saddles of this height as there are summits from which one has to descend exactly to it
to get to higher ground. For every height the saddles left that are not lower are at least as many as the summits from which one gets to
higher ground without going lower. They are exactly as many if and only if there is no cycle of such saddles. -/
theorem C120_exact (E : SaddleEnv) (hE : RunOk E) (o : Pt → Oracle) (order : List Pt)
    (ho : IsScan E.d order) (rebuild : Bool) :
    ∃ D m sites, analyze E.d o order = .ok D ∧ DMap.runSparse E o order rebuild = .ok m ∧ SummitsAt E.d sites m.summits ∧
      (Untwinned D m → HeightsApart m →
        ∀ fuel, m.saddles.length + m.st.objs.length < fuel → ∃ f, DMap.run E o order rebuild fuel = .ok (m, f) ∧
          (∀ h as, KeyAt E.d sites h as →
            as.length ≤ ((liveSaddles m f).filter fun k => decide (m.net.elev (.saddle k) = h)).length ∧
            ((∀ s ∈ D.summits, s.edge = false) →
              as.length = ((liveSaddles m f).filter fun k => decide (m.net.elev (.saddle k) = h)).length)) ∧
          ∀ (h : Rat) (as : List Nat), as.Nodup → (∀ a, a ∈ as ↔ ∃ p, sites[a]? = some p ∧ Escapes E.d p h) →
            as.length ≤ ((liveSaddles m f).filter fun k => decide (h ≤ m.net.elev (.saddle k))).length ∧
            (as.length = ((liveSaddles m f).filter fun k => decide (h ≤ m.net.elev (.saddle k))).length ↔
              ∀ c, ¬ Cycle m.net (fun n => (∀ k, n = .saddle k → k ∈ liveSaddles m f ∧ h ≤ m.net.elev (.saddle k)) ∧
                ∀ a, n = .summit a → a < m.summits.length) c)) := by
  obtain ⟨D, m, sites, h1, h2, g2, hr2, d3, hmain⟩ := live_escapes hE o order ho rebuild
  refine ⟨D, m, sites, h1, h2, g2, fun hU hA fuel hfuel => ?_⟩
  obtain ⟨hN, hmain⟩ := hmain hU fun a b s t ha hb hne hc => hne (hA a b s t ha hb hc.2.2)
  obtain ⟨f, hrun, hf, hacy, _, hesc⟩ := hmain fuel hfuel
  have hlen : sites.length = m.summits.length := g2.each.length_eq
  have hsit : ∀ a, a < m.summits.length → ∃ p s, sites[a]? = some p ∧ m.summits[a]? = some s ∧ m.net.elev (.summit a) = s.elevation := by
    intro a ha
    refine ⟨_, _, List.getElem?_eq_getElem (by rw [hlen]; exact ha), List.getElem?_eq_getElem ha, ?_⟩
    simp [DMap.net, DMap.feature, List.getElem?_eq_getElem ha]
  have hinj : ∀ a b, a < m.summits.length → b < m.summits.length → m.net.elev (.summit a) = m.net.elev (.summit b) → a = b := by
    intro a b ha hb hab
    obtain ⟨p, s, _, s1, s2⟩ := hsit a ha
    obtain ⟨q, t, _, t1, t2⟩ := hsit b hb
    rw [s2, t2] at hab
    exact hA a b s t s1 t1 hab
  have hends : ∀ k ∈ liveSaddles m f, TwoEnds m.net m.summits.length k := fun k hk =>
    live_ends hN hf (mem_liveSaddles.1 hk).1 (mem_liveSaddles.1 hk).2
  have hEsc : ∀ a h, a < m.summits.length → ((∃ p, sites[a]? = some p ∧ Escapes E.d p h) ↔ ∃ b, b < m.summits.length ∧
      m.net.elev (.summit a) < m.net.elev (.summit b) ∧
      ConnectedBy m.net (fun _ => True) (· ∈ (liveSaddles m f).filter fun k => decide (h ≤ m.net.elev (.saddle k))) a b) := by
    intro a h ha
    obtain ⟨p, s, p1, s1, s2⟩ := hsit a ha
    constructor
    · rintro ⟨p', e1, e2⟩
      obtain ⟨b, ⟨sa, sb, x1, x2, x3⟩, hb⟩ := (hesc a p' e1 h).1 e2
      refine ⟨b, lt_of_getElem? x2, ?_, hb⟩
      obtain ⟨_, t, _, t1, t2⟩ := hsit b (lt_of_getElem? x2)
      cases (x1.symm.trans s1 : some _ = some _)
      cases (x2.symm.trans t1 : some _ = some _)
      rw [s2, t2]
      exact x3
    · rintro ⟨b, hb, hab, hc⟩
      obtain ⟨_, t, _, t1, t2⟩ := hsit b hb
      rw [s2, t2] at hab
      exact ⟨p, p1, (hesc a p p1 h).2 ⟨b, ⟨s, t, s1, t1, hab⟩, hc⟩⟩
  refine ⟨f, hrun, fun h as hKA => ?_, fun h as hnd has => ?_⟩
  · obtain ⟨k1, k2⟩ := key_count m.net m.summits.length (liveSaddles m f) (fun a => m.net.elev (.summit a)) hinj (hr2.filter _) hends
      (fun a h => ∃ p, sites[a]? = some p ∧ Escapes E.d p h) hEsc h as hKA.1 (by
        intro a
        rw [hKA.2]
        constructor
        · rintro ⟨p, p1, p2, p3⟩
          refine ⟨by rw [← hlen]; exact lt_of_getElem? p1, ⟨p, p1, p2⟩, ?_⟩
          rintro h' ⟨p', e1, e2⟩
          cases (e1.symm.trans p1 : some _ = some _)
          exact p3 h' e2
        · rintro ⟨_, ⟨p, p1, p2⟩, p3⟩
          exact ⟨p, p1, p2, fun h' hh => p3 h' ⟨p, p1, hh⟩⟩)
    refine ⟨k1, fun he => k2 fun c hc => hacy c (cycle_mono (fun n hn => ?_) hc)⟩
    cases n with
    | summit D =>
      refine ⟨rfl, ?_⟩
      have hD : D < m.summits.length := hn
      simp only [DMap.net, DMap.feature, List.getElem?_eq_getElem hD, Option.map_some, Option.getD_some]
      exact he _ (d3 ▸ List.getElem_mem hD)
    | saddle k => exact (mem_liveSaddles.1 hn).2
  · obtain ⟨k1, k2⟩ := escape_count m.net m.summits.length ((liveSaddles m f).filter fun k => decide (h ≤ m.net.elev (.saddle k)))
      (fun a => m.net.elev (.summit a)) hinj ((hr2.filter _).filter _) (fun k hk => hends k (List.mem_filter.1 hk).1)
      (fun k hk => hN.two k (mem_liveSaddles.1 (List.mem_filter.1 hk).1).2.2) as hnd (fun a => by
        rw [has]
        constructor
        · intro h1
          have ha : a < m.summits.length := by
            obtain ⟨p, h1, _⟩ := h1
            rw [← hlen]
            exact lt_of_getElem? h1
          exact ⟨ha, (hEsc a h ha).1 h1⟩
        · exact fun h1 => (hEsc a h h1.1).2 h1.2)
    refine ⟨k1, k2.trans (forall_congr' fun c => not_congr ⟨cycle_mono fun n hn => ?_, cycle_mono fun n hn => ?_⟩)⟩
    · refine ⟨fun k e => ?_, fun a e => ?_⟩
      · rw [e] at hn
        have := List.mem_filter.1 (show k ∈ (liveSaddles m f).filter _ from hn)
        exact ⟨this.1, by simpa using this.2⟩
      · rw [e] at hn
        exact hn
    · cases n with
      | summit D => exact hn.2 D rfl
      | saddle k => exact List.mem_filter.2 ⟨(hn.1 k rfl).1, decide_eq_true (hn.1 k rfl).2⟩

/-- C120: on a raster without summits on the edge, on which no saddle is on the edge or no saddles coincide, and whose summits differ in height, the saddles that a complete run
leaves are the key saddles of the summits. For every height there are as many of them as there are summits
from which one has to descend exactly to this height to get to higher ground. -/
theorem C120_count (E : SaddleEnv) (hE : RunOk E) (o : Pt → Oracle) (order : List Pt)
    (ho : IsScan E.d order) (rebuild : Bool) :
    ∃ D m sites, analyze E.d o order = .ok D ∧ DMap.runSparse E o order rebuild = .ok m ∧ SummitsAt E.d sites m.summits ∧
      ((∀ f ∈ D.summits, f.edge = false) → Untwinned D m → HeightsApart m →
        ∀ fuel, m.saddles.length + m.st.objs.length < fuel → ∃ f, DMap.run E o order rebuild fuel = .ok (m, f) ∧
          ∀ h as, KeyAt E.d sites h as →
            as.length = ((liveSaddles m f).filter fun k => decide (m.net.elev (.saddle k) = h)).length) := by
  obtain ⟨D, m, sites, h1, h2, h3, h4⟩ := C120_exact E hE o order ho rebuild
  refine ⟨D, m, sites, h1, h2, h3, fun he hU hA fuel hfuel => ?_⟩
  obtain ⟨f, hrun, h5, _⟩ := h4 hU hA fuel hfuel
  exact ⟨f, hrun, fun h as hK => (h5 h as hK).2 he⟩

/-- C120 for rasters on which the saddles that are left differ in height: every one of them is the key saddle of
exactly one summit. -/
theorem C120_key (E : SaddleEnv) (hE : RunOk E) (o : Pt → Oracle) (order : List Pt)
    (ho : IsScan E.d order) (rebuild : Bool) :
    ∃ D m sites, analyze E.d o order = .ok D ∧ DMap.runSparse E o order rebuild = .ok m ∧ SummitsAt E.d sites m.summits ∧
      ((∀ f ∈ D.summits, f.edge = false) → Untwinned D m → HeightsApart m →
        ∀ fuel, m.saddles.length + m.st.objs.length < fuel → ∃ f, DMap.run E o order rebuild fuel = .ok (m, f) ∧
          ∀ k ∈ liveSaddles m f, (∀ j ∈ liveSaddles m f, m.net.elev (.saddle j) = m.net.elev (.saddle k) → j = k) →
            ∃! a : Nat, ∃ p, sites[a]? = some p ∧ KeyCol E.d p (m.net.elev (.saddle k))) := by
  classical
  obtain ⟨D, m, sites, h1, h2, h3, h4⟩ := C120_count E hE o order ho rebuild
  obtain ⟨m', hr1, hr2⟩ := C65_once E hE o order ho rebuild
  cases (hr1.symm.trans h2 : Except.ok _ = Except.ok _)
  refine ⟨D, m, sites, h1, h2, h3, fun he hU hA fuel hfuel => ?_⟩
  obtain ⟨f, f1, f2⟩ := h4 he hU hA fuel hfuel
  refine ⟨f, f1, fun k hk hu => ?_⟩
  obtain ⟨as, ha⟩ : ∃ as, KeyAt E.d sites (m.net.elev (.saddle k)) as := by
    refine ⟨(List.range sites.length).filter fun a => decide (∃ p, sites[a]? = some p ∧ KeyCol E.d p (m.net.elev (.saddle k))),
      List.nodup_range.filter _, fun a => ?_⟩
    rw [List.mem_filter, List.mem_range, decide_eq_true_eq]
    exact ⟨fun h => h.2, fun h => ⟨by obtain ⟨p, h, _⟩ := h; exact lt_of_getElem? h, h⟩⟩
  have hone : ((liveSaddles m f).filter fun j => decide (m.net.elev (.saddle j) = m.net.elev (.saddle k))).Perm [k] := by
    rw [List.perm_ext_iff_of_nodup (List.Nodup.filter _ (show (liveSaddles m f).Nodup from hr2.filter _)) (List.nodup_singleton k)]
    intro j
    rw [List.mem_filter, decide_eq_true_eq, List.mem_singleton]
    exact ⟨fun h => hu j h.1 h.2, fun h => by rw [h]; exact ⟨hk, rfl⟩⟩
  have hlen := (f2 _ as ha).trans hone.length_eq
  obtain ⟨a, rfl⟩ := List.length_eq_one_iff.1 hlen
  refine ⟨a, (ha.2 a).1 (by simp), fun b hb => ?_⟩
  simpa using (ha.2 b).2 hb

/-- Instance of C120: the crater has no features on the edge, its summits differ in height, and so do the saddles that are left. -/
example : (analyze (DataMap.ofRows exCrater) (fun _ => exOracle) (DataMap.ofRows exCrater).cells).toOption.map (fun D =>
      (D.summits ++ D.saddles).map (·.edge)) = some (List.replicate 8 false) ∧
    (exFull exCrater false 17).toOption.map (fun r => (r.1.summits.map (·.elevation), r.1.saddles.length + r.1.st.objs.length,
      (liveSaddles r.1 r.2).map fun k => r.1.net.elev (.saddle k))) = some ([9, 8, 7, 6], 16, [3, 4, 5]) := by decide +kernel

/-- A raster with two summits of different heights on the edge. -/
def exRims : List (List Rat) := [[1, 1, 9, 2, 1], [2, 9, 1, 3, 1], [2, 9, 2, 2, 10], [1, 8, 3, 1, 3]]

theorem exFull_sparse {rows : List (List Rat)} {rebuild : Bool} {fuel : Nat} {m : DMap} {f : Flags} (h : exFull rows rebuild fuel = .ok (m, f)) :
    DMap.runSparse (exRun (DataMap.ofRows rows)) (fun _ => exOracle) (DataMap.ofRows rows).cells rebuild = .ok m := by
  unfold exFull DMap.run at h
  obtain ⟨m1, e1, h⟩ := bind_ok h
  obtain ⟨f1, _, h⟩ := bind_ok h
  cases h
  exact e1

/-- Features on the edge do matter to C120: of the two saddles left by this run one is not the key saddle of any
summit. -/
theorem C120_only_off_edge : ∃ m f sites, exFull exRims false 99 = .ok (m, f) ∧ SummitsAt (DataMap.ofRows exRims) sites m.summits ∧
    HeightsApart m ∧ ((liveSaddles m f).map fun k => m.net.elev (.saddle k)) = [3, 2] ∧
    ∃ k ∈ liveSaddles m f, ¬ ∃ (a : Nat) (p : Pt), sites[a]? = some p ∧ KeyCol (DataMap.ofRows exRims) p (m.net.elev (.saddle k)) := by
  have h : (exFull exRims false 99).toOption.map (fun r => (r.1.summits.map (·.elevation), liveSaddles r.1 r.2,
      (liveSaddles r.1 r.2).map fun k => r.1.net.elev (.saddle k))) = some ([9, 10], [9, 10], [3, 2]) := by decide +kernel
  cases hr : exFull exRims false 99 with
  | error e => rw [hr] at h; cases h
  | ok r =>
    obtain ⟨m, f⟩ := r
    rw [hr] at h
    simp only [Except.toOption, Option.map_some, Option.some.injEq, Prod.mk.injEq] at h
    obtain ⟨h1, h2, h3⟩ := h
    obtain ⟨m', sites, g1, g2, g3⟩ := C103_prominence _ (exRun_plain exRims (by unfold maxsize; decide +kernel)) (fun _ => exOracle) _
      (isScan_cells _) false
    cases (g1.symm.trans (exFull_sparse hr) : Except.ok _ = Except.ok _)
    have hat : ∀ (a : Nat) s, m.summits[a]? = some s → a = 0 ∧ s.elevation = 9 ∨ a = 1 ∧ s.elevation = 10 := by
      intro a s hs
      have := congrArg (·[a]?) h1
      simp only [List.getElem?_map, hs, Option.map_some] at this
      match a, this with
      | 0, this => simp at this; exact .inl ⟨rfl, this⟩
      | 1, this => simp at this; exact .inr ⟨rfl, this⟩
      | a + 2, this => simp at this
    refine ⟨m, f, sites, rfl, g2, ?_, h3, ?_⟩
    · intro a b s t hs ht he
      rcases hat a s hs with ⟨rfl, e1⟩ | ⟨rfl, e1⟩ <;> rcases hat b t ht with ⟨rfl, e2⟩ | ⟨rfl, e2⟩ <;> first | rfl | (rw [e1, e2] at he; norm_num at he)
    · rw [h2] at h3 ⊢
      simp only [List.map_cons, List.map_nil, List.cons.injEq, and_true] at h3
      have hzero : ∀ (a : Nat) (p : Pt) h, sites[a]? = some p → KeyCol (DataMap.ofRows exRims) p h → a = 0 := by
        intro a p h ha hk
        obtain ⟨b, ⟨sa, sb, e1, e2, e3⟩, _⟩ := ((g3 a p ha).1 h).1 hk.1
        rcases hat a sa e1 with ⟨rfl, x⟩ | ⟨rfl, x⟩
        · rfl
        · rcases hat b sb e2 with ⟨rfl, y⟩ | ⟨rfl, y⟩ <;> rw [x, y] at e3 <;> norm_num at e3
      by_contra hc
      push Not at hc
      obtain ⟨a, p, a1, a2⟩ := hc 9 (by simp)
      obtain ⟨b, q, b1, b2⟩ := hc 10 (by simp)
      rw [h3.1] at a2
      rw [h3.2] at b2
      cases hzero a p _ a1 a2
      cases hzero b q _ b1 b2
      cases (a1.symm.trans b1 : some _ = some _)
      have := b2.2 _ a2.1
      norm_num at this

/-- Equal heights of summits do matter to C120: here a saddle is left, but neither summit has a key col. -/
theorem C120_only_apart : ∃ m f sites, exFull [[1, 1, 1, 1, 1], [1, 9, 3, 9, 1], [1, 1, 1, 1, 1]] false 99 = .ok (m, f) ∧
    SummitsAt (DataMap.ofRows [[1, 1, 1, 1, 1], [1, 9, 3, 9, 1], [1, 1, 1, 1, 1]]) sites m.summits ∧
    (∀ s ∈ m.summits, s.edge = false) ∧ (liveSaddles m f).length = 1 ∧
    ¬ ∃ (a : Nat) (p : Pt) (h : Rat), sites[a]? = some p ∧
      KeyCol (DataMap.ofRows [[1, 1, 1, 1, 1], [1, 9, 3, 9, 1], [1, 1, 1, 1, 1]]) p h := by
  have h : (exFull [[1, 1, 1, 1, 1], [1, 9, 3, 9, 1], [1, 1, 1, 1, 1]] false 99).toOption.map (fun r =>
      (decide (∀ s ∈ r.1.summits, s.elevation = 9 ∧ s.edge = false), (liveSaddles r.1 r.2).length)) = some (true, 1) := by decide +kernel
  cases hr : exFull [[1, 1, 1, 1, 1], [1, 9, 3, 9, 1], [1, 1, 1, 1, 1]] false 99 with
  | error e => rw [hr] at h; cases h
  | ok r =>
    obtain ⟨m, f⟩ := r
    rw [hr] at h
    simp only [Except.toOption, Option.map_some, Option.some.injEq, Prod.mk.injEq, decide_eq_true_eq] at h
    obtain ⟨m', sites, g1, g2, g3⟩ := C103_prominence _ (exRun_plain [[1, 1, 1, 1, 1], [1, 9, 3, 9, 1], [1, 1, 1, 1, 1]]
      (by unfold maxsize; decide +kernel)) (fun _ => exOracle) _ (isScan_cells _) false
    cases (g1.symm.trans (exFull_sparse hr) : Except.ok _ = Except.ok _)
    refine ⟨m, f, sites, rfl, g2, fun s hs => (h.1 s hs).2, h.2, ?_⟩
    rintro ⟨a, p, h', ha, hk⟩
    obtain ⟨b, ⟨sa, sb, e1, e2, e3⟩, _⟩ := ((g3 a p ha).1 h').1 hk.1
    rw [(h.1 sa (List.mem_of_getElem? e1)).1, (h.1 sb (List.mem_of_getElem? e2)).1] at e3
    exact lt_irrefl _ e3

end PyProm
