import Verif.Proof.Entry
import Verif.Props.Heights

/-
C96: the place of every runoff between high ground and two lower sides depends on the order of sets.
-/
namespace PyProm
open Spec

theorem Spec.Conn.mono' {S S' : List P3} {a b : P3} (h : Conn S a b) (hs : ∀ p ∈ S, p ∈ S') : Conn S' a b := by
  induction h with
  | refl => exact .refl
  | tail _ hab ih => exact ih.tail ⟨hab.1, hs _ hab.2⟩

/-- C96 fails for every runoff of every raster that has higher ground and more than one border point: if the set of border points
yields another point first the runoff is reported elsewhere, and no runoff is reported at its place any more. -/
theorem C96_every_runoff_refuted (d : DataMap) (hg : Findable d) (o : Pt → Oracle) (order : List Pt) (ho : IsScan d order)
    (D : Discovered) (hD : analyze d o order = .ok D) (f : Feature) (hf : f ∈ D.runoffs) (hh : f.hpn ≠ [])
    (h2 : 2 ≤ f.edgePoints.length) :
    ∃ o' D', analyze d o' order = .ok D' ∧ ∀ g ∈ D'.runoffs, ¬ (g.lat = f.lat ∧ g.lon = f.lon) := by
  obtain ⟨regs, _, hr, e⟩ := analyze_spec d o order ho
  cases (e.symm.trans hD : Except.ok _ = Except.ok _)
  rw [List.mem_filter, List.mem_flatMap, decide_eq_true_eq] at hf
  obtain ⟨⟨r, hrm, hf⟩, hk⟩ := hf
  obtain ⟨hd, mp, high, lower, str, bps, hm, t⟩ := hr r hrm
  obtain ⟨_, b2⟩ := table_runoffs t f hf hk
  rcases b2 with b2 | ⟨hnt, c, hc, _, b2, _⟩
  · exact absurd b2.2.2.2.2.2 hh
  obtain ⟨_, _, _, r4, _, X, r6, r7, r8⟩ := b2
  rw [r4] at h2
  obtain ⟨S, hS, hcomp⟩ := t.isStr
  have hXc : X ∈ c := List.mem_of_getElem? r6
  have hinS : ∀ p ∈ c, p ∈ S := fun p hp => (hcomp.mem p).1 (List.mem_flatten.2 ⟨c, hc, hp⟩)
  obtain ⟨hXf, _, hXe⟩ := (hS.2 X).1 (hinS X hXc)
  have hcn : c.Nodup := (List.nodup_flatten.1 hcomp.nodup).1 c hc
  obtain ⟨Y, hY, hYX⟩ : ∃ Y ∈ c, Y ≠ X := by
    by_contra hno
    have hall : ∀ Y ∈ c, Y = X := fun Y hY => by
      by_contra hne; exact hno ⟨Y, hY, hne⟩
    match c, h2, hcn, hall with
    | a :: b :: _, _, hn, ha =>
      have ha' := ha a (by simp)
      have hb' := ha b (by simp)
      rw [ha', hb'] at hn
      simp at hn
  refine ⟨fun p => (o p).entering X, ?_⟩
  obtain ⟨regs', _, hr', e'⟩ := analyze_spec d (fun p => (o p).entering X) order ho
  have hen := analyze_entry e'
  refine ⟨_, e', fun g hgm ⟨g1, g2⟩ => ?_⟩
  have hge := hen g hgm
  rw [List.mem_filter, List.mem_flatMap, decide_eq_true_eq] at hgm
  obtain ⟨⟨r', hrm', hgf⟩, hgk⟩ := hgm
  obtain ⟨hd', mp', high', lower', str', bps', hm', t'⟩ := hr' r' hrm'
  obtain ⟨_, b2'⟩ := table_runoffs t' g hgf hgk
  have hXd := (flat_data hd hXf).1
  have hat : ∀ q, InB d q → g.lat = latOf d q → g.lon = lonOf d q → q = X.xy := by
    intro q hq a b
    have e1 := hg q hq
    have e2 := hg X.xy hXd.1
    rw [← a, ← b, g1, g2, r7, r8] at e1
    exact Option.some.inj (e1.symm.trans e2)
  rcases b2' with b2' | ⟨_, c', hc', _, b2', _⟩
  · have := hat r'.site hd'.1 b2'.2.1.1 b2'.2.1.2.1
    refine hnt fun p hp => b2'.1 p ?_
    rw [this]
    exact (highRim_congr hd hXf p).1 hp
  · obtain ⟨_, _, _, s4, s5, M, s6, s7, s8⟩ := b2'
    obtain ⟨S', hS', hcomp'⟩ := t'.isStr
    have hMc : M ∈ c' := List.mem_of_getElem? s6
    obtain ⟨hMf, _, hMe⟩ := (hS'.2 M).1 ((hcomp'.mem M).1 (List.mem_flatten.2 ⟨c', hc', hMc⟩))
    have hMX' : M.xy = X.xy := hat M.xy (flat_data hd' hMf).1.1 s7 s8
    have hMX : M = X := by
      have : M.e = X.e := by rw [hMe, hXe, hMX']
      cases M; cases X
      simp only [P3.xy, Prod.mk.injEq] at hMX' this
      simp only [P3.mk.injEq]
      exact ⟨hMX'.1, hMX'.2, this⟩
    subst hMX
    -- the two areas have the same border points
    have hflat : ∀ q, Flat d r.site q → Flat d r'.site q := fun q hq =>
      hMf.trans ((Flat.symm hd hXf).trans hq)
    have hsub : ∀ p ∈ S, p ∈ S' := fun p hp => by
      obtain ⟨a, b⟩ := (hS.2 p).1 hp
      exact (hS'.2 p).2 ⟨hflat _ a, b⟩
    have hconn : Conn S M Y := (hcomp.sameIff M (hinS M hXc) Y (hinS Y hY)).1 ⟨c, hc, hXc, hY⟩
    have hconn' : Conn S' M Y := hconn.mono' hsub
    obtain ⟨c2, hc2, m1, m2⟩ := (hcomp'.sameIff M (hsub M (hinS M hXc)) Y (hsub Y (hinS Y hY))).2 hconn'
    have hcc : c2 = c' := by
      obtain ⟨i, hi⟩ := List.mem_iff_getElem?.1 hc2
      obtain ⟨j, hj⟩ := List.mem_iff_getElem?.1 hc'
      have hij := flatten_nodup_idx _ hcomp'.nodup i j M
        (by rw [List.getD_eq_getElem?_getD, hi]; exact m1) (by rw [List.getD_eq_getElem?_getD, hj]; exact hMc)
      rw [hij, hj] at hi
      exact (Option.some.inj hi).symm
    subst hcc
    have hhead := hge hgk s5 (by rw [s4]; exact hMc)
    rw [s4] at hhead
    have hcn' : c2.Nodup := (List.nodup_flatten.1 hcomp'.nodup).1 c2 hc2
    match c2, hhead, s6, m2, hcn' with
    | [a], hh, _, hy, _ =>
      simp only [List.head?_cons, Option.some.injEq] at hh
      rw [List.mem_singleton, hh] at hy
      exact hYX hy
    | a :: b :: l, hh, hs, _, hn =>
      simp only [List.head?_cons, Option.some.injEq] at hh
      subst hh
      have hlt : (a :: b :: l).length / 2 = ((l.length) / 2) + 1 := by simp only [List.length_cons]; omega
      rw [hlt, List.getElem?_cons_succ] at hs
      exact (List.nodup_cons.1 hn).1 (List.mem_of_getElem? hs)

/-- Instance: the runoff of the shelf lists three border points. -/
example : ∃ o' D', analyze exShelf o' exShelf.cells = .ok D' ∧ ∀ g ∈ D'.runoffs, ¬ (g.lat = 0 ∧ g.lon = 1) := by
  have h : ((analyze exShelf (fun _ => exOracle) exShelf.cells).toOption.map fun D =>
      D.runoffs.map fun f => ((f.lat, f.lon), f.hpn.isEmpty, f.edgePoints.length)) = some [((0, 1), false, 3)] := by decide +kernel
  cases hD : analyze exShelf (fun _ => exOracle) exShelf.cells with
  | error e => rw [hD] at h; simp [Except.toOption] at h
  | ok D =>
    rw [hD] at h
    simp only [Except.toOption, Option.map_some, Option.some.injEq] at h
    obtain ⟨f, hf⟩ := List.length_eq_one_iff.1 (by simpa using congrArg List.length h : D.runoffs.length = 1)
    rw [hf] at h
    simp only [List.map_cons, List.map_nil, List.cons.injEq, and_true, Prod.mk.injEq] at h
    obtain ⟨⟨h1, h2⟩, h3, h4⟩ := h
    obtain ⟨o', D', e, hno⟩ := C96_every_runoff_refuted exShelf (Unrotated.findable
      ⟨by simp [exShelf, DataMap.ofRows], by simp [exShelf, DataMap.ofRows], rfl, rfl, fun _ => rfl⟩) _ _ (isScan_cells _) D hD f (by rw [hf]; simp)
      (by intro c; rw [c] at h3; cases h3) (by omega)
    exact ⟨o', D', e, by rw [← h1, ← h2]; exact hno⟩

end PyProm
