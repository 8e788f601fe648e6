import Verif.Proof.DivideTree
import Verif.Props.RunBasin
import Mathlib.Tactic.Linarith

/-
C53, C75: the divide tree
-/
namespace PyProm
open Spec

/-- The chase for one summit, from whatever was written before. -/
def chaseFrom (N : FNet) (f : Flags) (D : Nat) (s : TreeSt) : ChaseSt :=
  chase N f D 400 D [] ⟨[], [], false, s.sumBnd D, s.sadBnd, s.busted⟩

theorem chaseFrom_mono (N : FNet) (f : Flags) (D : Nat) (s : TreeSt) (hN : OwnLinkers N) :
    ChaseMono ⟨[], [], false, s.sumBnd D, s.sadBnd, s.busted⟩ (chaseFrom N f D s) :=
  (chase_ok N f D hN 400 D [] _).1.1

/-- The last time summit `D` is treated its paths are written; what is written about saddles and failures stays. -/
theorem divide_fold (N : FNet) (f : Flags) (sums : List Nat) (s : TreeSt) (D : Nat) (hD : D ∈ sums) :
    ∃ s', (sums.foldl (localProminentRegion N f) s).lprPaths D = some ((chaseFrom N f D s').paths, (chaseFrom N f D s').edge) ∧
      (sums.foldl (localProminentRegion N f) s).sumBnd D = (chaseFrom N f D s').sumBnd ∧
      (OwnLinkers N → (∀ k, ∀ x ∈ (chaseFrom N f D s').sadBnd k, x ∈ (sums.foldl (localProminentRegion N f) s).sadBnd k) ∧
        ∀ x ∈ (chaseFrom N f D s').busted, x ∈ (sums.foldl (localProminentRegion N f) s).busted) := by
  induction sums using List.reverseRecOn with
  | nil => cases hD
  | append_singleton l a ih =>
    rw [List.foldl_append, List.foldl_cons, List.foldl_nil]
    generalize hu : l.foldl (localProminentRegion N f) s = u at *
    by_cases e : D = a
    · subst e
      exact ⟨u, by simp [localProminentRegion, chaseFrom], by simp [localProminentRegion, chaseFrom], fun _ =>
        ⟨fun _ _ h => h, fun _ h => h⟩⟩
    · obtain ⟨s', h1, h2, h3⟩ := ih (by simpa [e] using hD)
      refine ⟨s', ?_, ?_, fun hN => ⟨fun k x hx => ?_, fun x hx => ?_⟩⟩
      · simp only [localProminentRegion, if_neg e]; exact h1
      · simp only [localProminentRegion, if_neg e]; exact h2
      · exact (chaseFrom_mono N f a u hN).sadBnd k x ((h3 hN).1 k x hx)
      · exact (chaseFrom_mono N f a u hN).busted x ((h3 hN).2 x hx)

theorem divideRun_eq {N : FNet} {f : Flags} {sums : List Nat} {s t : TreeSt} (h : divideRun N f sums s = .ok t) :
    t = sums.foldl (localProminentRegion N f) s := by
  unfold divideRun at h
  cases sums with
  | nil => cases h
  | cons a l => cases h; rfl

/-! ### C53 -/

/-- C53, first part: after a run every summit has its list of paths. Each starts at the summit, leads over saddles to
summits that are not higher than the one before, and ends at a saddle behind which lies a summit higher than the last one, or
the edge of the map. If the edge is reported then some path ends there.
Missing: that the summit behind the last saddle is higher than the summit itself; see `C53_not_higher_refuted`. -/
theorem C53_paths_partial (N : FNet) (f : Flags) (sums : List Nat) (s t : TreeSt) (h : divideRun N f sums s = .ok t) (D : Nat)
    (hD : D ∈ sums) :
    ∃ ps e, t.lprPaths D = some (ps, e) ∧ (∀ q ∈ ps, EndsAtEdge N f D q ∨ EndsAtRise N f D q) ∧
      (e = true → ∃ q ∈ ps, EndsAtEdge N f D q) := by
  obtain ⟨s', h1, _, _⟩ := divide_fold N f sums s D hD
  rw [divideRun_eq h]
  have hs := chase_sound N f D 400 D [] ⟨[], [], false, s'.sumBnd D, s'.sadBnd, s'.busted⟩ .start
  refine ⟨_, _, h1, fun q hq => ?_, fun he => ?_⟩
  · exact (hs.paths q hq).resolve_left (fun h => nomatch h)
  · exact (hs.edge he).resolve_left (fun h => nomatch h)

/-- C53, second part: unless the run gave up on the summit, all of the boundary of its region is reported, and saddles with a higher summit outside
of the region behind them are recorded with the summit (up to `==`).
Missing: that the run does not give up; see `C53_depth_partial` and `C53_depth_refuted`. -/
theorem C53_complete_partial (N : FNet) (hN : OwnLinkers N) (f : Flags) (sums : List Nat) (s t : TreeSt)
    (h : divideRun N f sums s = .ok t) (D : Nat) (hD : D ∈ sums) (hb : NoneLike N D t.busted) :
    ∃ ps e, t.lprPaths D = some (ps, e) ∧ BoundaryTold N f D ps e ∧
      ∀ b, InRegion N f D b → ∀ i j, Rises N f b i j → ¬ InRegion N f D (N.link j).1 →
        (∃ z ∈ t.sumBnd D, z = (N.link i).2 ∨ N.eq (.saddle z) (.saddle (N.link i).2) = true) ∧
        ∃ z ∈ t.sadBnd (N.link i).2, z = D ∨ N.eq (.summit z) (.summit D) = true := by
  obtain ⟨s', h1, h2, h3⟩ := divide_fold N f sums s D hD
  rw [← divideRun_eq h] at h1 h2 h3
  obtain ⟨h3, h4⟩ := h3 hN
  have hb' : NoneLike N D (chaseFrom N f D s').busted := fun y hy => hb y (h4 y hy)
  have hs := chase_sound N f D 400 D [] ⟨[], [], false, s'.sumBnd D, s'.sadBnd, s'.busted⟩ .start
  have hc : ∀ b, InRegion N f D b → ∀ i ∈ N.sumLinks b, f.linkDisq i = false → Looked N f D (chaseFrom N f D s') i :=
    fun b ⟨p, hp⟩ => (chase_complete hN 400 ⟨[], [], false, s'.sumBnd D, s'.sadBnd, s'.busted⟩ rfl hb' hp).2
  have out : ∀ j, ¬ InRegion N f D (N.link j).1 → j ∉ (chaseFrom N f D s').exempt := by
    intro j hj hx
    rcases hs.exempt j hx with h | ⟨a, ha, hja⟩
    · cases h
    · exact hj (hN a j hja ▸ ha)
  have hr : ∀ b, InRegion N f D b → ∀ i j, Rises N f b i j → ¬ InRegion N f D (N.link j).1 →
      Reported N (chaseFrom N f D s') i ∧ BndMarked N D (chaseFrom N f D s') (N.link i).2 := fun b hb i j he hj =>
    (((hc b hb i he.1.first he.1.open1).inner j).rises ((hN b i he.1.first).symm ▸ he)).resolve_left (out j hj)
  refine ⟨_, _, h1, ⟨fun b hb i he => ?_, fun b hb i j he hj => ?_, fun b hb i j he hj => (hr b hb i j he hj).1⟩, fun b hb i j he hj => ?_⟩
  · obtain ⟨⟨q, hq⟩, e⟩ := (hc b hb i he.1 he.2.1).edge ((hN b i he.1).symm ▸ he)
    exact ⟨e, q, hq⟩
  · obtain ⟨⟨q, hq⟩, e⟩ := (((hc b hb i he.1.1.first he.1.1.open1).inner j).edge ((hN b i he.1.1.first).symm ▸ he)).resolve_left
      (out j hj)
    exact ⟨e, q, hq⟩
  · obtain ⟨_, ⟨z, hz, e1⟩, ⟨y, hy, e2⟩⟩ := hr b hb i j he hj
    exact ⟨⟨z, h2 ▸ hz, e1⟩, ⟨y, h3 _ _ hy, e2⟩⟩

/-- C53, third part: on a network of fewer than 400 linkers the run gives up on no summit.
Missing: larger networks; see `C53_depth_refuted`. -/
theorem C53_depth_partial (N : FNet) (f : Flags) (sums : List Nat) (s t : TreeSt) (h : divideRun N f sums s = .ok t) (ls : List Nat)
    (hls : ∀ D, ∀ i ∈ N.sumLinks D, i ∈ ls) (hn : ls.length < 400) : t.busted = s.busted := by
  rw [divideRun_eq h]
  refine foldl_keep (fun u : TreeSt => u.busted = s.busted) _ _ (fun D _ u hu => ?_) s rfl
  have := (chase_depth N f D ls hls 400 D [] ⟨[], [], false, u.sumBnd D, u.sadBnd, u.busted⟩ List.nodup_nil
    (fun x hx => nomatch hx) (by simpa using hn)).busted
  exact this.trans hu

theorem Spec.Descent.le {N : FNet} {f : Flags} {m : Nat} {p b} (h : Descent N f m p b) : N.elev (.summit b) ≤ N.elev (.summit m) := by
  induction h with
  | start => exact le_refl _
  | step _ hf _ ih => exact le_trans hf.2 ih

/-- The first linker of a path belongs to the summit it starts at. -/
theorem Spec.Descent.head {N : FNet} {f : Flags} {m : Nat} {p b} (h : Descent N f m p b) (i : Nat) (hi : i ∈ N.sumLinks b) :
    ∃ x l, p ++ [i] = x :: l ∧ x ∈ N.sumLinks m := by
  induction h generalizing i with
  | start => exact ⟨i, [], rfl, hi⟩
  | @step p a i' j hp hf _ ih =>
    obtain ⟨x, l, e, hx⟩ := ih i' hf.1.first
    exact ⟨x, l ++ [j, i], by rw [← List.cons_append, ← e]; simp, hx⟩

/-- C53, fourth part: the decline of a reported path is the height of the summit above the saddle where the path ends; unless that
is an edge saddle, it is positive on networks whose saddles are lower than their summits. -/
theorem C53_decline_partial (N : FNet) (hN : OwnLinkers N) (f : Flags) (sums : List Nat) (s t : TreeSt)
    (h : divideRun N f sums s = .ok t) (D : Nat) (hD : D ∈ sums) :
    ∃ ps e, t.lprPaths D = some (ps, e) ∧ ∀ q ∈ ps,
      q.decline N = .ok (N.elev (.summit D) - N.elev (.saddle q.saddle)) ∧
      ((∀ a, ∀ i ∈ N.sumLinks a, N.edge (.saddle (N.link i).2) = false → N.elev (.saddle (N.link i).2) < N.elev (.summit a)) →
        N.edge (.saddle q.saddle) = false → 0 < N.elev (.summit D) - N.elev (.saddle q.saddle)) := by
  obtain ⟨ps, e, h1, h2, _⟩ := C53_paths_partial N f sums s t h D hD
  refine ⟨ps, e, h1, fun q hq => ?_⟩
  have hq' : ∃ p b i, q.path = p ++ [i] ∧ q.saddle = (N.link i).2 ∧ Descent N f D p b ∧ i ∈ N.sumLinks b := by
    rcases h2 q hq with ⟨p, b, i, e1, e2, e3, e4 | ⟨j, e4⟩⟩ | ⟨p, b, i, e1, e2, e3, j, e4⟩
    · exact ⟨p, b, i, e1, e2, e3, e4.1⟩
    · exact ⟨p, b, i, e1, e2, e3, e4.1.1.first⟩
    · exact ⟨p, b, i, e1, e2, e3, e4.1.first⟩
  obtain ⟨p, b, i, e1, e2, e3, e4⟩ := hq'
  obtain ⟨x, l, e5, hx⟩ := e3.head i e4
  refine ⟨?_, fun hl he => ?_⟩
  · unfold LprPath.decline
    rw [e1, e5]
    dsimp only
    rw [hN D x hx]
  · rw [e2] at he ⊢
    have h3 := hl b i e4 he
    have h4 := e3.le
    linarith

/-- C53 on complete runs with fewer than 400 linkers: on every map the divide tree, built with any flags, reports for each
summit all of the boundary of its region and nothing else. -/
theorem C53_runs_partial (E : SaddleEnv) (hE : RunOk E) (o : Pt → Oracle) (order : List Pt) (ho : IsScan E.d order) (rebuild : Bool) :
    ∃ m, DMap.runSparse E o order rebuild = .ok m ∧ (m.linkers.length < 400 → ∀ f s t, s.busted = [] →
      divideRun m.net f (List.range m.summits.length) s = .ok t → ∀ D, D < m.summits.length →
        ∃ ps e, t.lprPaths D = some (ps, e) ∧ BoundaryTold m.net f D ps e ∧
          ∀ q ∈ ps, (EndsAtEdge m.net f D q ∨ EndsAtRise m.net f D q) ∧
            q.decline m.net = .ok (m.net.elev (.summit D) - m.net.elev (.saddle q.saddle)) ∧
            (m.net.edge (.saddle q.saddle) = false → 0 < m.net.elev (.summit D) - m.net.elev (.saddle q.saddle))) := by
  obtain ⟨D, m0, m, sites, news, h1, h8, h9, _⟩ := run_links hE o order ho rebuild
  refine ⟨m, h8, fun hn f s t hs ht D hD => ?_⟩
  have hN : OwnLinkers m.net := fun D i hi => by
    obtain ⟨l, hl, hD⟩ := h9.inv.sum D i hi
    rw [net_link hl]
    exact hD
  have hbu : t.busted = s.busted := C53_depth_partial m.net f _ s t ht m.linkers (fun D i hi => by
    obtain ⟨l, hl, hD⟩ := h9.inv.sum D i hi
    rw [h9.linkers, h9.inv.lk, List.mem_range]
    exact lt_of_getElem? hl) hn
  have hD' : D ∈ List.range m.summits.length := List.mem_range.mpr hD
  have hno : NoneLike m.net D t.busted := by rw [hbu, hs]; exact fun _ h => nomatch h
  obtain ⟨ps, e, g1, g2, _⟩ := C53_complete_partial m.net hN f _ s t ht D hD' hno
  obtain ⟨ps1, e1, k1, k2, _⟩ := C53_paths_partial m.net f _ s t ht D hD'
  obtain ⟨ps2, e2, l1, l2⟩ := C53_decline_partial m.net hN f _ s t ht D hD'
  rw [g1] at k1 l1
  cases k1
  cases l1
  exact ⟨ps, e, g1, g2, fun q hq => ⟨k2 q hq, (l2 q hq).1, (l2 q hq).2 fun a i hi he => (h9.netFin.sum a i hi).2 he⟩⟩

/-! ### Instances and refutations -/

/-- A chain of summits with the given elevations, saddles of elevation 0 between them: linkers `2 k` and `2 k + 1` of saddle `k` lead
to the summits `k` and `k + 1`. -/
def exChain (n : Nat) (e : Nat → Rat) : FNet where
  nSummits := n + 1
  nSaddles := n
  elev
    | .summit D => e D
    | .saddle _ => 0
  edge _ := false
  eq a b := decide (a = b)
  setEq a b := decide (a = b)
  link i := ((i + 1) / 2, i / 2)
  sumLinks D := (if 0 < D then [2 * D - 1] else []) ++ if D < n then [2 * D] else []
  sadLinks k := if k < n then [2 * k, 2 * k + 1] else []
  sumDisq _ := false

def exNoFlags : Flags := ⟨fun _ => false, fun _ => false, fun _ => none, fun _ => false, fun _ => []⟩

def exTree0 : TreeSt := ⟨fun _ => [], fun _ => [], fun _ => none, []⟩

theorem exChain_own (n : Nat) (e : Nat → Rat) : OwnLinkers (exChain n e) := by
  intro D i hi
  simp only [exChain, List.mem_append] at hi ⊢
  rcases hi with hi | hi <;> split at hi <;> simp at hi <;> omega

/-- Three summits of heights 100, 50 and 60. -/
def exDip : FNet := exChain 2 fun D => [100, 50, 60].getD D 0

/-- The run on them: the highest summit reaches the saddle before the third summit; its region is bounded there. -/
example : (divideRun exDip exNoFlags [0, 1, 2] exTree0).toOption.map (fun t => (t.lprPaths 0, t.lprPaths 1, t.lprPaths 2)) =
    some (some ([⟨[0, 1, 2], 1⟩], false), some ([⟨[1], 0⟩, ⟨[2], 1⟩], false), some ([⟨[3, 2, 1], 0⟩], false)) := by decide +kernel

/-- Instance of `C53_runs_partial`: the divide tree of the crater. -/
example : (exMap exCrater false).toOption.bind (fun m =>
    (divideRun m.net m.flags (List.range m.summits.length) exTree0).toOption.map fun t => (t.lprPaths 0, t.lprPaths 2)) =
    some (some ([⟨[1, 0, 4, 5, 6], 11⟩], false), some ([⟨[3], 9⟩, ⟨[7, 6, 5], 10⟩], false)) := by decide +kernel

/-- C53 fails as it stands: the only path reported for the summit of height 100 ends at a saddle between summits of heights 50 and 60,
and nothing here is at the edge of the map. The heights are compared with the last summit of the path. -/
theorem C53_not_higher_refuted : ∃ t q, divideRun exDip exNoFlags [0, 1, 2] exTree0 = .ok t ∧ t.lprPaths 0 = some ([q], false) ∧
    (∀ j ∈ exDip.sadLinks q.saddle, exDip.elev (.summit (exDip.link j).1) < exDip.elev (.summit 0)) ∧ ∀ x, exDip.edge x = false :=
  ⟨_, ⟨[0, 1, 2], 1⟩, rfl, by decide +kernel, by decide +kernel, fun _ => rfl⟩

/-- Heights falling from 1000 by one for 400 summits, then one high summit. -/
def exLongE (D : Nat) : Rat := if D = 401 then 2000 else 1000 - (D : Int)

def exLong : FNet := exChain 401 exLongE

theorem exLong_passage {a i j : Nat} (h : Passage exLong exNoFlags a i j) :
    (i = 2 * a ∧ (exLong.link j).1 = a + 1 ∧ a < 401) ∨ (0 < a ∧ i = 2 * a - 1 ∧ (exLong.link j).1 = a - 1 ∧ a ≤ 401) := by
  obtain ⟨h1, _, _, _, h2, _, h3⟩ := h
  simp only [exLong, exChain, List.mem_append] at h1 h2 ⊢
  rcases h1 with h1 | h1 <;> split at h1 <;> split at h2 <;> simp at h1 h2 <;> omega

theorem exLong_falls {a i j : Nat} (h : Falls exLong exNoFlags a i j) (ha : a ≤ 400) : i = 2 * a ∧ (exLong.link j).1 = a + 1 ∧ a < 400 := by
  have he : exLongE (exLong.link j).1 ≤ exLongE a := h.2
  rcases exLong_passage h.1 with ⟨h1, h2, h3⟩ | ⟨h1, h2, h3, h4⟩
  · refine ⟨h1, h2, ?_⟩
    by_contra hc
    have : a = 400 := by omega
    subst this
    rw [h2] at he
    exact absurd he (by decide +kernel)
  · rw [h3] at he
    unfold exLongE at he
    rw [if_neg (by omega), if_neg (by omega)] at he
    have : ((a - 1 : Nat) : Int) = (a : Int) - 1 := by omega
    rw [this] at he
    push_cast at he
    linarith

theorem exLong_descent {p b} (h : Descent exLong exNoFlags 0 p b) : p.length = 2 * b ∧ b ≤ 400 := by
  induction h with
  | start => simp
  | step _ hf _ ih =>
    obtain ⟨_, h2, h3⟩ := exLong_falls hf ih.2
    rw [h2]
    simp only [List.length_append, List.length_cons, List.length_nil]
    omega

theorem exLong_region (b : Nat) (hb : b ≤ 400) : InRegion exLong exNoFlags 0 b := by
  induction b with
  | zero => exact ⟨[], .start⟩
  | succ b ih =>
    obtain ⟨p, hp⟩ := ih (by omega)
    have e : (exLong.link (2 * b + 1)).1 = b + 1 := by show (2 * b + 1 + 1) / 2 = b + 1; omega
    have hs : (exLong.link (2 * b)).2 = b := by show 2 * b / 2 = b; omega
    have hf : Falls exLong exNoFlags b (2 * b) (2 * b + 1) := by
      refine ⟨⟨?_, rfl, ?_, rfl, ?_, rfl, by omega⟩, ?_⟩
      · simp only [exLong, exChain]
        rw [if_pos (show b < 401 by omega)]
        simp
      · simp [SaddleOut, exNoFlags]
      · rw [hs]
        simp only [exLong, exChain]
        rw [if_pos (show b < 401 by omega)]
        simp
      · rw [e]
        show exLongE (b + 1) ≤ exLongE b
        unfold exLongE
        rw [if_neg (by omega), if_neg (by omega)]
        push_cast
        linarith
    exact ⟨_, e ▸ Descent.step hp hf rfl⟩

/-- C53 fails on large maps: from the first of 401 falling summits the last one is reached, which has a higher neighbour. But however
the divide tree is run, the saddle between them is not among the ends of the paths of the first summit, as the search stops at depth 400. -/
theorem C53_depth_refuted (sums : List Nat) (h0 : 0 ∈ sums) (s t : TreeSt) (h : divideRun exLong exNoFlags sums s = .ok t) :
    ∃ ps e, t.lprPaths 0 = some (ps, e) ∧ ¬ BoundaryTold exLong exNoFlags 0 ps e := by
  obtain ⟨s', h1, _, _⟩ := divide_fold exLong exNoFlags sums s 0 h0
  rw [divideRun_eq h]
  have hs := chase_sound exLong exNoFlags 0 400 0 [] ⟨[], [], false, s'.sumBnd 0, s'.sadBnd, s'.busted⟩ .start
  have hl := chase_short exLong exNoFlags 0 800 400 0 [] ⟨[], [], false, s'.sumBnd 0, s'.sadBnd, s'.busted⟩ (by simp)
    (fun q hq => nomatch hq)
  refine ⟨_, _, h1, fun hB => ?_⟩
  have hr : Rises exLong exNoFlags 400 800 801 :=
    ⟨⟨by decide +kernel, rfl, by simp [SaddleOut, exNoFlags], rfl, by decide +kernel, rfl, by decide⟩, by decide +kernel⟩
  obtain ⟨p, hp⟩ := hB.rises 400 (exLong_region 400 (le_refl _)) 800 801 hr
    (fun ⟨p, hp⟩ => absurd (exLong_descent hp).2 (by decide +kernel))
  have hlen := hl _ hp
  have hb : ∀ b, 800 ∈ exLong.sumLinks b → b = 400 := by
    intro b hb
    have := exChain_own 401 exLongE b 800 hb
    simpa [exChain] using this.symm
  have key : ∀ p' b i, p ++ [800] = p' ++ [i] → Descent exLong exNoFlags 0 p' b → i ∈ exLong.sumLinks b → False := by
    intro p' b i e1 e2 e3
    obtain ⟨e4, e5⟩ := List.append_inj' e1 rfl
    simp only [List.cons.injEq, and_true] at e5
    have := hb b (e5 ▸ e3)
    have h2 := (exLong_descent e2).1
    rw [← e4] at h2
    simp only [List.length_append, List.length_singleton] at hlen
    omega
  rcases (hs.paths _ hp).resolve_left (fun h => nomatch h) with ⟨p', b, i, e1, _, e3, e4 | ⟨j, e4⟩⟩ | ⟨p', b, i, e1, _, e3, j, e4⟩
  · exact key p' b i e1 e3 e4.1
  · exact key p' b i e1 e3 e4.1.1.first
  · exact key p' b i e1 e3 e4.1.first

/-- C53 fails on every network for every summit whose region has a summit that is only reached over more than 400 saddles: the higher
summits beside that one are not told. -/
theorem C53_every_far_refuted (N : FNet) (hN : OwnLinkers N) (f : Flags) (sums : List Nat) (s t : TreeSt)
    (h : divideRun N f sums s = .ok t) (D : Nat) (hD : D ∈ sums) (b i j : Nat) (hb : InRegion N f D b) (hr : Rises N f b i j)
    (hout : ¬ InRegion N f D (N.link j).1) (hfar : ∀ p, Descent N f D p b → 800 ≤ p.length) :
    ∃ ps e, t.lprPaths D = some (ps, e) ∧ (∀ p, ⟨p ++ [i], (N.link i).2⟩ ∉ ps) ∧ ¬ BoundaryTold N f D ps e := by
  obtain ⟨s', h1, _, _⟩ := divide_fold N f sums s D hD
  rw [divideRun_eq h]
  have hs := chase_sound N f D 400 D [] ⟨[], [], false, s'.sumBnd D, s'.sadBnd, s'.busted⟩ .start
  have hl := chase_short N f D 800 400 D [] ⟨[], [], false, s'.sumBnd D, s'.sadBnd, s'.busted⟩ (by simp)
    (fun q hq => nomatch hq)
  have hne : ∀ p, ⟨p ++ [i], (N.link i).2⟩ ∉ (chase N f D 400 D [] ⟨[], [], false, s'.sumBnd D, s'.sadBnd, s'.busted⟩).paths := by
    intro p hp
    have hlen := hl _ hp
    have key : ∀ p' b' i', p ++ [i] = p' ++ [i'] → Descent N f D p' b' → i' ∈ N.sumLinks b' → False := by
      intro p' b' i' e1 e2 e3
      obtain ⟨e4, e5⟩ := List.append_inj' e1 rfl
      simp only [List.cons.injEq, and_true] at e5
      subst e5 e4
      have : b' = b := by rw [← hN b' i e3, hN b i hr.1.first]
      have h2 := hfar p (this ▸ e2)
      simp only [List.length_append, List.length_singleton] at hlen
      omega
    rcases (hs.paths _ hp).resolve_left (fun h => nomatch h) with ⟨p', b', i', e1, _, e3, e4 | ⟨j', e4⟩⟩ | ⟨p', b', i', e1, _, e3, j', e4⟩
    · exact key p' b' i' e1 e3 e4.1
    · exact key p' b' i' e1 e3 e4.1.1.first
    · exact key p' b' i' e1 e3 e4.1.first
  refine ⟨_, _, h1, hne, fun hB => ?_⟩
  obtain ⟨p, hp⟩ := hB.rises b hb i j hr hout
  exact hne p hp

/-- The chain of 401 falling summits meets the hypotheses of `C53_every_far_refuted`. -/
example : OwnLinkers exLong ∧ InRegion exLong exNoFlags 0 400 ∧ Rises exLong exNoFlags 400 800 801 ∧
    ¬ InRegion exLong exNoFlags 0 (exLong.link 801).1 ∧ ∀ p, Descent exLong exNoFlags 0 p 400 → 800 ≤ p.length :=
  ⟨exChain_own _ _, exLong_region 400 (le_refl _),
    ⟨⟨by decide +kernel, rfl, by simp [SaddleOut, exNoFlags], rfl, by decide +kernel, rfl, by decide⟩, by decide +kernel⟩,
    fun ⟨_, hp⟩ => absurd (exLong_descent hp).2 (by decide +kernel), fun p hp => by rw [(exLong_descent hp).1]⟩

/-- C53 fails as it stands on every network for every summit `D` whose region touches, over a saddle between summits lower than `D`, a
summit outside: the saddle is reported although what is behind it is not higher than `D`. -/
theorem C53_every_dip_refuted (N : FNet) (hN : OwnLinkers N) (f : Flags) (sums : List Nat) (s t : TreeSt)
    (h : divideRun N f sums s = .ok t) (D : Nat) (hD : D ∈ sums) (hbust : NoneLike N D t.busted) (b i j : Nat) (hb : InRegion N f D b)
    (hr : Rises N f b i j) (hout : ¬ InRegion N f D (N.link j).1)
    (hlow : ∀ j' ∈ N.sadLinks (N.link i).2, N.elev (.summit (N.link j').1) < N.elev (.summit D)) :
    ∃ ps e q, t.lprPaths D = some (ps, e) ∧ q ∈ ps ∧ N.edge (.saddle q.saddle) = false ∧
      ∀ j' ∈ N.sadLinks q.saddle, N.elev (.summit (N.link j').1) < N.elev (.summit D) := by
  obtain ⟨ps, e, h1, h2, _⟩ := C53_complete_partial N hN f sums s t h D hD hbust
  obtain ⟨p, hp⟩ := h2.rises b hb i j hr hout
  exact ⟨ps, e, _, h1, hp, hr.1.inner, hlow⟩

theorem exDip_region {p b} (h : Descent exDip exNoFlags 0 p b) : b ≤ 1 := by
  induction h with
  | start => simp
  | @step p a i j _ hf _ ih =>
    have e1 : exDip.sumLinks 0 = [0] := by decide +kernel
    have e2 : exDip.sumLinks 1 = [1, 2] := by decide +kernel
    have e3 : exDip.sadLinks 0 = [0, 1] := by decide +kernel
    have e4 : exDip.sadLinks 1 = [2, 3] := by decide +kernel
    obtain ⟨⟨h1, _, _, _, h2, _, h3⟩, h4⟩ := hf
    have ha : a = 0 ∨ a = 1 := by omega
    rcases ha with rfl | rfl
    · rw [e1, List.mem_singleton] at h1
      subst h1
      have : j ∈ exDip.sadLinks 0 := h2
      rw [e3] at this
      simp only [List.mem_cons, List.not_mem_nil, or_false] at this
      rcases this with rfl | rfl <;> decide +kernel
    · rw [e2] at h1
      simp only [List.mem_cons, List.not_mem_nil, or_false] at h1
      rcases h1 with rfl | rfl
      · have : j ∈ exDip.sadLinks 0 := h2
        rw [e3] at this
        simp only [List.mem_cons, List.not_mem_nil, or_false] at this
        rcases this with rfl | rfl <;> decide +kernel
      · have : j ∈ exDip.sadLinks 1 := h2
        rw [e4] at this
        simp only [List.mem_cons, List.not_mem_nil, or_false] at this
        rcases this with rfl | rfl
        · decide +kernel
        · exact absurd h4 (by decide +kernel)

/-- The three summits of heights 100, 50 and 60 meet the hypotheses of `C53_every_dip_refuted`. -/
example : InRegion exDip exNoFlags 0 1 ∧ Rises exDip exNoFlags 1 2 3 ∧ ¬ InRegion exDip exNoFlags 0 (exDip.link 3).1 ∧
    (∀ j' ∈ exDip.sadLinks (exDip.link 2).2, exDip.elev (.summit (exDip.link j').1) < exDip.elev (.summit 0)) ∧
    ∃ t, divideRun exDip exNoFlags [0, 1, 2] exTree0 = .ok t ∧ NoneLike exDip 0 t.busted := by
  refine ⟨⟨_, Descent.step (i := 0) (j := 1) .start ⟨⟨by decide +kernel, rfl, by simp [SaddleOut, exNoFlags], rfl, by decide +kernel, rfl,
      by decide⟩, by decide +kernel⟩ rfl⟩,
    ⟨⟨by decide +kernel, rfl, by simp [SaddleOut, exNoFlags], rfl, by decide +kernel, rfl, by decide⟩, by decide +kernel⟩,
    fun ⟨_, hp⟩ => absurd (exDip_region hp) (by decide +kernel), by decide +kernel, _, rfl, ?_⟩
  rw [show TreeSt.busted _ = [] from by decide +kernel]
  exact fun y hy => nomatch hy

/-! ### C75 -/

/-- C75: if no two summits and no two saddles compare equal then after a run on fresh features a summit lists a saddle as its boundary exactly if the saddle lists
the summit; a path of the summit ends at it, with a higher summit behind.
Missing: features that compare equal; see `C75_equal_saddles_refuted`. -/
theorem C75_both_sides_partial (N : FNet) (hN : OwnLinkers N) (hsum : ∀ a b, N.eq (.summit a) (.summit b) = true → a = b)
    (hsad : ∀ a b, N.eq (.saddle a) (.saddle b) = true → a = b) (f : Flags) (sums : List Nat) (s t : TreeSt)
    (h : divideRun N f sums s = .ok t) (hs : ∀ D, s.sumBnd D = []) (hk : ∀ k, s.sadBnd k = []) (D k : Nat) :
    (k ∈ t.sumBnd D ↔ D ∈ t.sadBnd k) ∧ (k ∈ t.sumBnd D → ∃ q, q.saddle = k ∧ EndsAtRise N f D q) := by
  rw [divideRun_eq h]
  refine foldl_keep (fun u : TreeSt => ∀ D k, (k ∈ u.sumBnd D ↔ D ∈ u.sadBnd k) ∧
    (k ∈ u.sumBnd D → ∃ q, q.saddle = k ∧ EndsAtRise N f D q)) _ _ (fun m _ u hu D k => ?_) s
    (fun D k => by rw [hs, hk]; simp) D k
  have h1 := chase_sym N f m hsum hsad 400 m [] ⟨[], [], false, u.sumBnd m, u.sadBnd, u.busted⟩ (fun k => (hu m k).1)
  have h2 := chase_sound N f m 400 m [] ⟨[], [], false, u.sumBnd m, u.sadBnd, u.busted⟩ .start
  have h3 := chaseFrom_mono N f m u hN
  by_cases e : D = m
  · subst e
    simp only [localProminentRegion, if_true]
    refine ⟨h1 k, fun hk => ?_⟩
    rcases h2.sumBnd k hk with hk | ⟨q, _, e1, e2⟩
    · exact (hu D k).2 hk
    · exact ⟨q, e1, e2⟩
  · simp only [localProminentRegion, if_neg e]
    refine ⟨(hu D k).1.trans ⟨fun hD => h3.sadBnd k D hD, fun hD => ?_⟩, (hu D k).2⟩
    exact (h2.sadBnd k D hD).resolve_right fun h => e h.1

/-- The boundary of the three summits. -/
example : (divideRun exDip exNoFlags [0, 1, 2] exTree0).toOption.map (fun t => ((t.sumBnd 0, t.sumBnd 1, t.sumBnd 2), (t.sadBnd 0, t.sadBnd 1))) =
    some (([1], [0, 1], [0]), ([1, 2], [0, 1])) := by decide +kernel

/-- The three summits with the two saddles at one place, as saddles split off another one are. -/
def exDipSame : FNet := { exDip with
  eq := fun a b => match a, b with
    | .summit a, .summit b => decide (a = b)
    | .saddle _, .saddle _ => true
    | _, _ => false }

/-- C75 fails for saddles that compare equal: the middle summit lists the first of the two only, both saddles list the summit. -/
theorem C75_equal_saddles_refuted : ∃ t, divideRun exDipSame exNoFlags [0, 1, 2] exTree0 = .ok t ∧
    1 ∈ t.sadBnd 1 ∧ 1 ∉ t.sumBnd 1 :=
  ⟨_, rfl, by decide +kernel, by decide +kernel⟩

end PyProm
