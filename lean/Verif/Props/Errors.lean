import Verif.Spec.Errors
import Verif.Props.Prominence
import Verif.Props.Turned
import Mathlib.Tactic.Linarith

/-
C116: errors of heights do limited harm
-/
namespace PyProm
open Spec

variable {d d' : DataMap} {ε : Rat}

theorem Spec.Measures.symm (h : Measures ε d d') : Measures ε d' d :=
  ⟨fun p => (h.data p).symm, fun p hp => by rw [abs_sub_comm]; exact h.off p ((h.data p).1 hp)⟩

theorem Spec.Measures.low (h : Measures ε d d') {p : Pt} (hp : Data d p) : el d p - ε ≤ el d' p := by
  have := (abs_le.1 (h.off p hp)).1
  linarith

theorem Spec.Measures.high (h : Measures ε d d') {p : Pt} (hp : Data d p) : el d' p ≤ el d p + ε := by
  have := (abs_le.1 (h.off p hp)).2
  linarith

/-- What can be passed at one level can be passed on the other raster, lower by the error. -/
theorem Spec.Measures.passable (h : Measures ε d d') {t : Rat} {p q : Pt} (hp : Passable d t p q) : Passable d' (t - ε) p q := by
  refine ⟨(h.data p).2 hp.1, ?_, Relation.ReflTransGen.mono (fun a b hs => ⟨hs.1, (h.data b).2 hs.2.1, ?_⟩) _ _ hp.2.2⟩
  · have := h.low hp.1
    have := hp.2.1
    linarith
  · have := h.low hs.2.1
    have := hs.2.2
    linarith

theorem exists_max_on {α : Type} (f : α → Rat) (P : α → Prop) (l : List α) (h : ∃ x ∈ l, P x) :
    ∃ x ∈ l, P x ∧ ∀ y ∈ l, P y → f y ≤ f x := by
  induction l with
  | nil => obtain ⟨x, hx, _⟩ := h; exact absurd hx (by simp)
  | cons a l ih =>
    by_cases hl : ∃ x ∈ l, P x
    · obtain ⟨x, h1, h2, h3⟩ := ih hl
      by_cases ha : P a ∧ f x ≤ f a
      · refine ⟨a, by simp, ha.1, fun y hy hp => ?_⟩
        rcases List.mem_cons.1 hy with rfl | hy
        · exact le_refl _
        · exact le_trans (h3 y hy hp) ha.2
      · refine ⟨x, by simp [h1], h2, fun y hy hp => ?_⟩
        rcases List.mem_cons.1 hy with rfl | hy
        · by_contra hc
          exact ha ⟨hp, le_of_lt (not_le.1 hc)⟩
        · exact h3 y hy hp
    · obtain ⟨x, h1, h2⟩ := h
      rcases List.mem_cons.1 h1 with rfl | h1
      · refine ⟨x, by simp, h2, fun y hy hp => ?_⟩
        rcases List.mem_cons.1 hy with rfl | hy
        · exact le_refl _
        · exact absurd ⟨y, hy, hp⟩ hl
      · exact absurd ⟨x, h1, h2⟩ hl

/-- The highest place that can be reached from `p` without going below `t` is a summit. -/
theorem reach_top {sites : List Pt} {summits : List Feature} (hS : SummitsAt d sites summits) {t : Rat} {p : Pt} (hp : Data d p)
    (ht : t ≤ el d p) : ∃ (a : Nat) (q : Pt), sites[a]? = some q ∧ Passable d t p q ∧ ∀ r, Passable d t p r → el d r ≤ el d q := by
  obtain ⟨x, _, h2, h3⟩ := exists_max_on (el d) (Passable d t p) d.cells ⟨p, (mem_cells d p).2 hp.1, hp, ht, .refl⟩
  have hmax : ∀ r, Passable d t p r → el d r ≤ el d x := fun r hr => h3 r ((mem_cells d r).2 hr.symm.1.1) hr
  have hx := h2.symm.1
  have htop : IsTop d x := by
    rintro r ⟨⟨hr, _, y, hy, ha⟩, hlt⟩
    have hxy := flat_way hx (le_refl _) hy
    have e := (flat_data hx hy).2
    have h4 : Passable d t p r := by
      have h5 := h2.trans (hxy.mono h2.symm.2.1)
      exact ⟨h5.1, h5.2.1, h5.2.2.tail ⟨ha, hr, le_trans h2.symm.2.1 (le_of_lt hlt)⟩⟩
    exact absurd (hmax r h4) (not_le.2 hlt)
  obtain ⟨q, hq, hf⟩ := hS.all x hx htop
  obtain ⟨a, ha⟩ := List.getElem?_of_mem hq
  have hqd := (hS.top q hq).1
  have e := (flat_data hqd hf).2
  have h6 : Passable d t x q := (flat_way hqd (by rw [← e]; exact h2.symm.2.1) hf).symm
  exact ⟨a, q, ha, h2.trans h6, fun r hr => by rw [← e]; exact hmax r hr⟩

/-- C116, heights: every summit of the one map has a counterpart in the other, to which one can go without descending; it is not
lower than the summit by more than the error. -/
theorem C116_counterparts (E E' : SaddleEnv) (hE : RunOk E) (hE' : RunOk E') (o o' : Pt → Oracle) (order order' : List Pt)
    (ho : IsScan E.d order) (ho' : IsScan E'.d order') (rebuild rebuild' : Bool) (ε : Rat) (hn : Measures ε E.d E'.d) :
    ∃ m m' sites sites', DMap.runSparse E o order rebuild = .ok m ∧ DMap.runSparse E' o' order' rebuild' = .ok m' ∧
      SummitsAt E.d sites m.summits ∧ SummitsAt E'.d sites' m'.summits ∧
      ∀ (a : Nat) (p : Pt), sites[a]? = some p → ∃ (a' : Nat) (p' : Pt), sites'[a']? = some p' ∧ UpTo E'.d p p' ∧
        el E.d p - ε ≤ el E'.d p' := by
  obtain ⟨m, sites, h1, h2, _⟩ := C77_faithful E hE o order ho rebuild
  obtain ⟨m', sites', g1, g2, _⟩ := C77_faithful E' hE' o' order' ho' rebuild'
  refine ⟨m, m', sites, sites', h1, g1, h2, g2, fun a p ha => ?_⟩
  have hp := (h2.top p (List.mem_of_getElem? ha)).1
  obtain ⟨a', p', e1, e2, _⟩ := reach_top g2 ((hn.data p).2 hp) (le_refl _)
  exact ⟨a', p', e1, e2, le_trans (hn.low hp) e2.symm.2.1⟩

/-- C116, connections: where two summits are connected over saddles not lower than `h`, their counterparts are connected over
saddles not lower than `h - ε`; where they are separated by lower ground, so are their counterparts. -/
theorem C116_connections (E E' : SaddleEnv) (hE : RunOk E) (hE' : RunOk E') (o o' : Pt → Oracle) (order order' : List Pt)
    (ho : IsScan E.d order) (ho' : IsScan E'.d order') (rebuild rebuild' : Bool) (ε : Rat) (hn : Measures ε E.d E'.d) :
    ∃ m m' sites sites', DMap.runSparse E o order rebuild = .ok m ∧ DMap.runSparse E' o' order' rebuild' = .ok m' ∧
      SummitsAt E.d sites m.summits ∧ SummitsAt E'.d sites' m'.summits ∧
      ∀ (a b a' b' : Nat) (p q p' q' : Pt), sites[a]? = some p → sites[b]? = some q → sites'[a']? = some p' →
        sites'[b']? = some q' → UpTo E'.d p p' → UpTo E'.d q q' → ∀ h,
          (h ≤ el E.d p → NetConnected m (LiveSaddle m) h a b → NetConnected m' (LiveSaddle m') (h - ε) a' b') ∧
          (h ≤ el E.d p - 2 * ε → h ≤ el E.d q - 2 * ε → NetConnected m' (LiveSaddle m') (h + ε) a' b' →
            NetConnected m (LiveSaddle m) h a b) := by
  obtain ⟨m, sites, h1, h2, h3⟩ := C77_faithful E hE o order ho rebuild
  obtain ⟨m', sites', g1, g2, g3⟩ := C77_faithful E' hE' o' order' ho' rebuild'
  refine ⟨m, m', sites, sites', h1, g1, h2, g2, fun a b a' b' p q p' q' ha hb ha' hb' hpp hqq h => ⟨fun hh hc => ?_, fun hp hq hc => ?_⟩⟩
  · have hw := (h3 h a b p q ha hb hh).1 hc
    have l1 := hn.low hw.1
    have l2 := hn.low hw.symm.1
    have l3 := hw.symm.2.1
    have w1 : Passable E'.d (h - ε) p p' := hpp.mono (by linarith)
    have w2 : Passable E'.d (h - ε) q q' := hqq.mono (by linarith)
    exact (g3 (h - ε) a' b' p' q' ha' hb' w1.symm.2.1).2 ((w1.symm.trans (hn.passable hw)).trans w2)
  · have dp := (h2.top p (List.mem_of_getElem? ha)).1
    have dq := (h2.top q (List.mem_of_getElem? hb)).1
    have l1 := hn.low dp
    have l2 := hn.low dq
    have w1 : Passable E'.d (h + ε) p p' := hpp.mono (by linarith)
    have w2 : Passable E'.d (h + ε) q q' := hqq.mono (by linarith)
    have hw := (w1.trans ((g3 (h + ε) a' b' p' q' ha' hb' w1.symm.2.1).1 hc)).trans w2.symm
    have := hn.symm.passable hw
    rw [add_sub_cancel_right] at this
    exact (h3 h a b p q ha hb this.2.1).2 this

/-- C116, prominence: a summit that rises more than `2 ε` above the saddles that connect it with higher summits has a counterpart in
the other map, reached without going below these saddles, that differs in height by at most `ε` and is not connected with higher
summits over saddles that are higher by more than `ε`. -/
theorem C116_prominence (E E' : SaddleEnv) (hE : RunOk E) (hE' : RunOk E') (o o' : Pt → Oracle) (order order' : List Pt)
    (ho : IsScan E.d order) (ho' : IsScan E'.d order') (rebuild rebuild' : Bool) (ε : Rat) (hn : Measures ε E.d E'.d) :
    ∃ m m' sites sites', DMap.runSparse E o order rebuild = .ok m ∧ DMap.runSparse E' o' order' rebuild' = .ok m' ∧
      SummitsAt E.d sites m.summits ∧ SummitsAt E'.d sites' m'.summits ∧
      ∀ (a : Nat) (p : Pt) (c : Rat), sites[a]? = some p → c ≤ el E.d p - 2 * ε →
        (∀ b, HigherSummit m a b → ¬ NetConnected m (LiveSaddle m) c a b) →
        ∃ (a' : Nat) (p' : Pt), sites'[a']? = some p' ∧ Passable E'.d (c + ε) p p' ∧ |el E'.d p' - el E.d p| ≤ ε ∧
          ∀ b', HigherSummit m' a' b' → ¬ NetConnected m' (LiveSaddle m') (c + ε) a' b' := by
  obtain ⟨m, sites, h1, h2, h3⟩ := C103_prominence E hE o order ho rebuild
  obtain ⟨m', sites', g1, g2, g3⟩ := C103_prominence E' hE' o' order' ho' rebuild'
  refine ⟨m, m', sites, sites', h1, g1, h2, g2, fun a p c ha hc hb => ?_⟩
  have hp := (h2.top p (List.mem_of_getElem? ha)).1
  have hno : ¬ Escapes E.d p c := fun he => by
    obtain ⟨b, b1, b2⟩ := ((h3 a p ha).1 c).1 he
    exact hb b b1 b2
  have l1 := hn.low hp
  obtain ⟨a', p', e1, e2, e3⟩ := reach_top g2 (t := c + ε) ((hn.data p).2 hp) (by linarith)
  have hle : el E'.d p' ≤ el E.d p + ε := by
    have hw := hn.symm.passable e2
    rw [add_sub_cancel_right] at hw
    have := hn.high hw.symm.1
    by_contra hx
    exact hno ⟨p', by linarith [not_le.1 hx], hw⟩
  have hge : el E'.d p ≤ el E'.d p' := e3 p ⟨e2.1, e2.2.1, .refl⟩
  refine ⟨a', p', e1, e2, abs_le.2 ⟨by linarith, by linarith⟩, fun b' b1 b2 => ?_⟩
  obtain ⟨r, r1, r2⟩ := ((g3 a' p' e1).1 (c + ε)).2 ⟨b', b1, b2⟩
  exact absurd (e3 r (e2.trans r2)) (not_le.2 r1)

/-- C116, different summits: two summits of different heights that both rise more than `P` above the saddles that connect them with
higher ones have no place in common among those reached as `C116_prominence` says, so their counterparts are different. -/
theorem C116_apart (E E' : SaddleEnv) (hE : RunOk E) (o : Pt → Oracle) (order : List Pt)
    (ho : IsScan E.d order) (rebuild : Bool) (ε : Rat) (hn : Measures ε E.d E'.d) :
    ∃ m sites, DMap.runSparse E o order rebuild = .ok m ∧ SummitsAt E.d sites m.summits ∧
      ∀ (a b : Nat) (p q : Pt) (P : Rat), sites[a]? = some p → sites[b]? = some q → el E.d p < el E.d q →
        (∀ x, HigherSummit m a x → ¬ NetConnected m (LiveSaddle m) (el E.d p - P) a x) →
        ∀ r, Passable E'.d (el E.d p - P + ε) p r → ¬ Passable E'.d (el E.d q - P + ε) q r := by
  obtain ⟨m, sites, h1, h2, h3⟩ := C103_prominence E hE o order ho rebuild
  refine ⟨m, sites, h1, h2, fun a b p q P ha _ hpq hno r hp hq => ?_⟩
  have hw := hn.symm.passable (hp.trans (hq.mono (by linarith)).symm)
  rw [add_sub_cancel_right] at hw
  obtain ⟨x, x1, x2⟩ := ((h3 a p ha).1 _).1 ⟨q, hpq, hw⟩
  exact hno x x1 x2

theorem within_cells (h0 : d'.cells = d.cells) (h : ∀ p ∈ d.cells, Data d' p ∧ Data d p ∧ |el d' p - el d p| ≤ ε) :
    Measures ε d d' :=
  ⟨fun p => ⟨fun hp => (h p (by rw [← h0]; exact (mem_cells d' p).2 hp.1)).2.1, fun hp => (h p ((mem_cells d p).2 hp.1)).1⟩,
    fun p hp => (h p ((mem_cells d p).2 hp.1)).2.2⟩

/-- Two summits, and the same terrain measured otherwise. -/
def exMeasured : List (List Rat) := [[0, 0, 0, 0, 0], [0, 5, 3, 9, 0], [0, 0, 0, 0, 0]]
def exRemeasured : List (List Rat) := [[0, 0, 0, 0, 0], [0, 4, 4, 8, 0], [0, 0, 0, 0, 0]]
def exNearby : List (List Rat) := [[0, 0, 0, 0, 0], [0, 11 / 2, 5 / 2, 17 / 2, 0], [0, 0, 0, 0, 0]]

example : RunOk (exRun (DataMap.ofRows exMeasured)) ∧ RunOk (exRun (DataMap.ofRows exNearby)) ∧
    Measures (1 / 2) (DataMap.ofRows exMeasured) (DataMap.ofRows exNearby) ∧
    (exMap exMeasured false).toOption.map (fun m => m.summits.map (·.elevation)) = some [5, 9] ∧
    (exMap exNearby false).toOption.map (fun m => m.summits.map (·.elevation)) = some [11 / 2, 17 / 2] :=
  ⟨exRun_plain _ (by unfold maxsize; decide +kernel), exRun_plain _ (by unfold maxsize; decide +kernel),
    within_cells (by decide +kernel) (by unfold Spec.Data Spec.InB; decide +kernel), by decide +kernel, by decide +kernel⟩

/-- C116, limit: a summit that rises just `2 ε` above the saddle may have no counterpart: the ridge 5, 3, 9, measured as
4, 4, 8, has one summit, far higher than the lost one. -/
theorem C116_only_twice : ∃ (d d' : DataMap) (m m' : DMap), RunOk (exRun d) ∧ RunOk (exRun d') ∧ Measures 1 d d' ∧
    DMap.runSparse (exRun d) (fun _ => exOracle) d.cells false = .ok m ∧
    DMap.runSparse (exRun d') (fun _ => exOracle) d'.cells false = .ok m' ∧
    m.summits.map (·.elevation) = [5, 9] ∧ m.saddles.map (fun k => m.st.objs[k]?.map (·.f.elevation)) = [some 3] ∧ m'.summits.map (·.elevation) = [8] := by
  have h1 : (exMap exMeasured false).toOption.map (fun m => (m.summits.map (·.elevation), m.saddles.map fun k => m.st.objs[k]?.map (·.f.elevation))) =
      some ([5, 9], [some 3]) := by decide +kernel
  have h2 : (exMap exRemeasured false).toOption.map (fun m => m.summits.map (·.elevation)) = some [8] := by decide +kernel
  cases e1 : exMap exMeasured false with
  | error x => rw [e1] at h1; cases h1
  | ok m =>
    cases e2 : exMap exRemeasured false with
    | error x => rw [e2] at h2; cases h2
    | ok m' =>
      rw [e1] at h1
      rw [e2] at h2
      have h1 := Option.some.inj h1
      exact ⟨DataMap.ofRows exMeasured, DataMap.ofRows exRemeasured, m, m', exRun_plain _ (by unfold maxsize; decide +kernel),
        exRun_plain _ (by unfold maxsize; decide +kernel),
        within_cells (by decide +kernel) (by unfold Spec.Data Spec.InB; decide +kernel), e1, e2,
        congrArg Prod.fst h1, congrArg Prod.snd h1, Option.some.inj h2⟩

end PyProm
