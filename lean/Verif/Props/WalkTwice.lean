import Verif.Proof.WalkTwice
import Verif.Props.WalkAgain
import Verif.Props.RunLinks

/-
C93: when walking a finished map again raises.
-/
namespace PyProm
open Spec

/-- What is walked off the edge has two high neighbourhoods and no area. -/
theorem walked_inner {E : SaddleEnv} {sites : List Pt} {m0 m : DMap} {news : List (List Nat)} (h9 : WalkedMap E sites m0 m news)
    {k : Nat} (hk : k ∈ m.st.walked) {ob : SObj} (hob : m.st.objs[k]? = some ob) (he : ob.f.edge = false) :
    ob.f.hpn.length = 2 ∧ ob.f.multipoint = none := by
  rw [h9.walked] at hk
  obtain ⟨new, hn, hkn⟩ := List.mem_flatten.1 hk
  obtain ⟨i, hi⟩ := List.mem_iff_getElem?.1 hn
  have hil : i < (m0.saddles ++ m0.runoffs).length := by rw [h9.outcomes.length_eq]; exact lt_of_getElem? hi
  obtain ⟨new', e1, o2, e2, e3, _⟩ := forall₂_getElem? h9.outcomes (List.getElem?_eq_getElem hil)
  cases (e1.symm.trans hi : some _ = some _)
  obtain ⟨o3, g1, g2, _⟩ := h9.step.feat _ _ e2
  have synth : SynthOf o2.f ob.f → ob.f.hpn.length = 2 ∧ ob.f.multipoint = none := fun h => ⟨h.two, h.mp⟩
  unfold Outcome at e3
  split at e3
  · obtain ⟨o', f1, f2, _⟩ := e3.2.2 k hkn
    cases (hob.symm.trans f1 : some _ = some _)
    exact synth f2
  · rename_i hedge
    have base : k = (m0.saddles ++ m0.runoffs)[i] → False := by
      rintro rfl
      cases (hob.symm.trans g1 : some _ = some _)
      rw [g2] at he
      exact hedge he
    split at e3
    · exfalso
      rcases e3 with ⟨e3, _⟩ | ⟨_, e3⟩ <;> (rw [e3] at hkn; simp at hkn; exact base hkn)
    · obtain ⟨ids, g1, _, _, g4, _⟩ := e3
      rw [g1, List.mem_append, List.mem_singleton] at hkn
      rcases hkn with hkn | hkn
      · obtain ⟨o', f1, f2, _⟩ := g4 k hkn
        cases (hob.symm.trans f1 : some _ = some _)
        exact synth f2
      · exact absurd hkn base

/-- C93, when it raises, exactly: walking a finished map a second time goes through if and only if every climb, from the high
points of its saddles and runoffs, rises strictly to a single cell; that is, if none meets a flat, be it a shelf or a summit of
several cells. -/
theorem C93_again_partial (E : SaddleEnv) (hE : RunOk E) (o : Pt → Oracle) (order : List Pt) (ho : IsScan E.d order)
    (rebuild : Bool) :
    ∃ m, DMap.runSparse E o order rebuild = .ok m ∧
      ((∃ r, m.walk E [] = .ok r) ↔ ∀ k ∈ m.saddles ++ m.runoffs, ∀ ob, m.st.objs[k]? = some ob →
        ∀ c ∈ ob.f.hpn, ∀ p, ClimbedFrom ob.f c p → RisesToPeak E.d E.w p.xy) := by
  obtain ⟨_, _, m0, m, sites, news, _, _, h3, h4, _, _, _, h8, h9⟩ := run_spec hE o order ho rebuild
  refine ⟨m, h8, ?_⟩
  have hwalked : ∀ k ∈ m.saddles ++ m.runoffs, k ∈ m.st.walked := by
    intro k hk
    rw [h9.saddles, h9.runoffs] at hk
    rcases List.mem_append.1 hk with h | h <;> exact (List.mem_filter.1 h).1
  let F : Nat → Feature := fun k => ((m.st.objs[k]?).map (·.f)).getD (mkSaddle (0, 0) 0 none false [] [])
  have hF : ∀ k ob, m.st.objs[k]? = some ob → F k = ob.f := fun k ob h => by simp [F, h]
  have hdom : ∀ k < m.summits.length, (m.domPoints k).isSome := by
    intro k hk
    rw [h9.summits] at hk
    rw [h9.points, if_pos hk]; rfl
  have hinit : walkInit E.d m.domPoints m.summits =
      .ok { lookup := fun _ => none, points := fun k => (m.domPoints k).getD [] } := by
    unfold walkInit
    exact prepopulate_known _ _ _ _ _ fun i _ hi => hdom i (by omega)
  have hsen : SEnvOk { E with summits := m.summits } sites := by
    rw [h9.summits]; exact hE.senv h4.tops
  have key := walkFeatures_again hsen F (m.saddles ++ m.runoffs)
    { m.st with w := { lookup := fun _ => none, points := fun k => (m.domPoints k).getD [] }, walked := [], linkers := [], doms := [] }
    (fun _ => rfl) h9.inv.objs (fun k hk => by
      have hw := hwalked k hk
      have hob := List.getElem?_eq_getElem (h9.inv.walked k hw)
      refine ⟨⟨_, hob, (hF k _ hob).symm⟩, fun he => ?_⟩
      rw [hF k _ hob] at he ⊢
      exact walked_inner h9 hw hob he)
  have hl : (∃ r, m.walk E [] = .ok r) ↔ ∃ s', (m.saddles ++ m.runoffs).foldlM (walkFeature { E with summits := m.summits })
      { m.st with w := { lookup := fun _ => none, points := fun k => (m.domPoints k).getD [] }, walked := [], linkers := [], doms := [] } =
      .ok s' := by
    constructor
    · rintro ⟨r, h⟩
      unfold DMap.walk at h
      obtain ⟨w, hw, h⟩ := bind_ok h
      cases ((show walkInit E.d m.domPoints m.summits = .ok w from hw).symm.trans hinit : Except.ok _ = Except.ok _)
      obtain ⟨⟨rr, s⟩, hs, h⟩ := bind_ok h
      unfold climbFromSaddles at hs
      obtain ⟨s1, h1, _⟩ := bind_ok hs
      exact ⟨s1, h1⟩
    · rintro ⟨s', h⟩
      unfold DMap.walk
      dsimp only
      rw [hinit]
      dsimp only [bind, Except.bind]
      unfold climbFromSaddles
      simp only [List.isEmpty_nil, if_true]
      rw [h]
      exact ⟨_, rfl⟩
  rw [hl, key]
  constructor
  · intro h k hk ob hob c hc p hp
    refine h k hk c ?_ p ?_ <;> rw [hF k ob hob] <;> assumption
  · intro h k hk c hc p hp
    have hob := List.getElem?_eq_getElem (h9.inv.walked k (hwalked k hk))
    rw [hF k _ hob] at hc hp
    exact h k hk _ hob c hc p hp

/-- C93 fails on every raster without single highest cells, such as one whose summits all are flats, that has a saddle: walking its
map a second time raises. -/
theorem C93_every_flat_refuted (E : SaddleEnv) (hE : RunOk E) (o : Pt → Oracle) (order : List Pt) (ho : IsScan E.d order)
    (rebuild : Bool) (hflat : ∀ t, Data E.d t → ¬ Peak E.d t) :
    ∃ m, DMap.runSparse E o order rebuild = .ok m ∧ (m.saddles ≠ [] → ∃ e, m.walk E [] = .error e) := by
  obtain ⟨m, h1, h2⟩ := C93_again_partial E hE o order ho rebuild
  refine ⟨m, h1, fun hne => ?_⟩
  cases hr : m.walk E [] with
  | error e => exact ⟨e, rfl⟩
  | ok r =>
    exfalso
    have hall := h2.1 ⟨r, hr⟩
    obtain ⟨_, _, m0, m', sites, news, _, _, h3, h4, _, _, _, h8, h9⟩ := run_spec hE o order ho rebuild
    cases (h1.symm.trans h8 : Except.ok _ = Except.ok _)
    obtain ⟨k, hk⟩ := List.exists_mem_of_ne_nil _ hne
    have hk' := hk
    rw [h9.saddles] at hk'
    obtain ⟨hw, hkind⟩ := List.mem_filter.1 hk'
    obtain ⟨ob, hob⟩ : ∃ ob, m.st.objs[k]? = some ob := ⟨_, List.getElem?_eq_getElem (h9.inv.walked k hw)⟩
    dsimp only at hkind
    rw [hob] at hkind
    dsimp only at hkind
    have hf := h9.inv.objs _ (List.mem_of_getElem? hob)
    have hsad : ob.f.kind = .saddle := by
      have h5 := hf.kind
      cases hkd : ob.f.kind with
      | saddle => rfl
      | summit => exact absurd hkd h5
      | runoff => rw [hkd] at hkind; simp at hkind
    have h2' := hf.saddle hsad
    obtain ⟨c, hc⟩ := List.exists_mem_of_length_pos (by omega : 0 < ob.f.hpn.length)
    obtain ⟨p, hp⟩ := exists_highest c (hf.high c hc).1
    obtain ⟨hp1, hp2⟩ := List.mem_filter.1 hp
    obtain ⟨t, ht1, ht2⟩ := hall k (by simp [hk]) _ hob c hc p ⟨hp1, .inr (by simpa using hp2)⟩
    refine hflat t ?_ ht2
    rcases Relation.ReflTransGen.cases_tail ht1 with h | ⟨q, _, h⟩
    · rw [h]; exact ((hf.high c hc).2 p hp1).1
    · exact h.1.1.2.1

/-- Where no two touching data cells are equally high a second walk never raises. -/
theorem C93_no_flats_partial (E : SaddleEnv) (hE : RunOk E) (o : Pt → Oracle) (order : List Pt) (ho : IsScan E.d order)
    (rebuild : Bool) (hN : NoFlats E.d) :
    ∃ m m', DMap.runSparse E o order rebuild = .ok m ∧ m.walk E [] = .ok (m', none) ∧ LinksKept m m' := by
  obtain ⟨m, h1, h2⟩ := C93_again_partial E hE o order ho rebuild
  have hrise : ∀ (n : Nat) (p : Pt), Data E.d p → above E.d (el E.d p) < n → RisesToPeak E.d E.w p := by
    intro n
    induction n with
    | zero => intro p _ h; omega
    | succ n ih =>
      intro p hd hn
      rcases steepest_spec hE.env.low hE.env.pos hd with ⟨_, ht⟩ | ⟨sn, h', he, hst⟩
      · exact ⟨p, .refl, ht⟩
      · have hlt : el E.d p < el E.d sn.xy := lt_of_le_of_ne hst.2.2.1 (hN p sn.xy hd hst.2.1 hst.1)
        have := above_lt (e := el E.d p) hst.2.1.1 hlt
        exact (risesToPeak_step (steepest_first hE.env.pos hd.1 h' hst he hlt)).2 (ih _ hst.2.1 (by omega))
  obtain ⟨_, _, m0, m', sites, news, _, _, h3, h4, _, _, _, h8, h9⟩ := run_spec hE o order ho rebuild
  cases (h1.symm.trans h8 : Except.ok _ = Except.ok _)
  obtain ⟨⟨m2, r⟩, hr⟩ := h2.2 fun k hk ob hob c hc p hp => by
    have := ((h9.inv.objs _ (List.mem_of_getElem? hob)).high c hc).2 p hp.1
    exact hrise _ p.xy this.1 (Nat.lt_succ_self _)
  obtain ⟨x, hx⟩ := run_walk h3 h8
  refine ⟨m, m2, h1, ?_, C93_links_partial E E m0 m m2 [] [] x r hx hr⟩
  have hn : r = none := by
    have h := hr
    unfold DMap.walk at h
    obtain ⟨w, _, h⟩ := bind_ok h
    obtain ⟨⟨rr, s⟩, _, h⟩ := bind_ok h
    cases h
    rfl
  rw [hr, hn]

/-- Two summits of two cells each and a saddle between them. -/
def exFlatTops : List (List Rat) := [[1, 1, 1, 1, 1, 1, 1], [1, 9, 9, 5, 8, 8, 1], [1, 1, 1, 1, 1, 1, 1]]

/-- Instance for the second: no cell is higher than all around it, there is a saddle, and the second walk raises. -/
example : RunOk (exRun (DataMap.ofRows exFlatTops)) ∧ (∀ t, Data (DataMap.ofRows exFlatTops) t → ¬ Peak (DataMap.ofRows exFlatTops) t) ∧
    (DMap.runSparse (exRun (DataMap.ofRows exFlatTops)) (fun _ => exOracle) (DataMap.ofRows exFlatTops).cells false).toOption.map
      (fun m => (m.saddles.length, (m.walk (exRun (DataMap.ofRows exFlatTops)) []).toOption.isSome)) = some (1, false) := by
  refine ⟨exRun_plain _ (by unfold maxsize; decide +kernel), fun t ht hp => ?_, by decide +kernel⟩
  have key : ∀ t ∈ (DataMap.ofRows exFlatTops).cells, ∃ q ∈ ring t, q ∈ (DataMap.ofRows exFlatTops).cells ∧
      el (DataMap.ofRows exFlatTops) t ≤ el (DataMap.ofRows exFlatTops) q := by decide +kernel
  obtain ⟨q, h1, h2, h3⟩ := key t ((mem_cells _ t).2 ht.1)
  refine absurd (hp q ?_ ⟨(mem_cells _ q).1 h2, by simp [DataMap.ofRows]⟩) (not_lt.2 h3)
  simp only [ring, List.mem_cons, List.not_mem_nil, or_false] at h1
  obtain ⟨x, y⟩ := t
  rcases h1 with rfl | rfl | rfl | rfl | rfl | rfl | rfl | rfl <;> simp [Adj] <;> omega

/-- Instance for the third: two summits, a saddle, and no two touching cells of one height. -/
def exUneven : List (List Rat) := [[1, 2, 3, 4, 5], [6, 19, 15, 18, 7], [8, 9, 10, 11, 12]]

example : RunOk (exRun (DataMap.ofRows exUneven)) ∧ NoFlats (DataMap.ofRows exUneven) ∧
    (DMap.runSparse (exRun (DataMap.ofRows exUneven)) (fun _ => exOracle) (DataMap.ofRows exUneven).cells false).toOption.map
      (fun m => (m.saddles.length, (m.walk (exRun (DataMap.ofRows exUneven)) []).toOption.isSome)) = some (1, true) := by
  refine ⟨exRun_plain _ (by unfold maxsize; decide +kernel), fun p q hp hq ha h => ?_, by decide +kernel⟩
  have key : ∀ p ∈ (DataMap.ofRows exUneven).cells, ∀ q ∈ (DataMap.ofRows exUneven).cells,
      el (DataMap.ofRows exUneven) p = el (DataMap.ofRows exUneven) q → p = q := by decide +kernel
  have := key p ((mem_cells _ p).2 hp.1) q ((mem_cells _ q).2 hq.1) h
  subst this
  simp [Adj] at ha

end PyProm
