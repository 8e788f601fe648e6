import Verif.Model.LoadedMap
import Verif.Proof.WalkTwice
import Verif.Props.RunSerial

/-
A loaded run as a map that can be walked.
-/
namespace PyProm
open Spec

/-- Walking a map whose summits all have domains goes through exactly if every climb rises to a single cell. -/
theorem DMap.walk_again_iff {E : SaddleEnv} {m : DMap} {sites : List Pt} (hsen : SEnvOk { E with summits := m.summits } sites)
    (hdom : ∀ k < m.summits.length, (m.domPoints k).isSome) (hobjs : ∀ o ∈ m.st.objs, FeatOk E.d o.f)
    (hin : ∀ k ∈ m.saddles ++ m.runoffs, ∃ ob, m.st.objs[k]? = some ob ∧
      (ob.f.edge = false → ob.f.hpn.length = 2 ∧ ob.f.multipoint = none)) :
    (∃ r, m.walk E [] = .ok r) ↔ ∀ k ∈ m.saddles ++ m.runoffs, ∀ ob, m.st.objs[k]? = some ob →
      ∀ c ∈ ob.f.hpn, ∀ p, ClimbedFrom ob.f c p → RisesToPeak E.d E.w p.xy := by
  let F : Nat → Feature := fun k => ((m.st.objs[k]?).map (·.f)).getD (mkSaddle (0, 0) 0 none false [] [])
  have hF : ∀ k ob, m.st.objs[k]? = some ob → F k = ob.f := fun k ob h => by simp [F, h]
  have hinit : walkInit E.d m.domPoints m.summits =
      .ok { lookup := fun _ => none, points := fun k => (m.domPoints k).getD [] } := by
    unfold walkInit
    exact prepopulate_known _ _ _ _ _ fun i _ hi => hdom i (by omega)
  have key := walkFeatures_again hsen F (m.saddles ++ m.runoffs)
    { m.st with w := { lookup := fun _ => none, points := fun k => (m.domPoints k).getD [] }, walked := [], linkers := [], doms := [] }
    (fun _ => rfl) hobjs (fun k hk => by
      obtain ⟨ob, hob, h⟩ := hin k hk
      refine ⟨⟨_, hob, (hF k _ hob).symm⟩, fun he => ?_⟩
      rw [hF k _ hob] at he ⊢
      exact h he)
  have hl : (∃ r, m.walk E [] = .ok r) ↔ ∃ s', (m.saddles ++ m.runoffs).foldlM (walkFeature { E with summits := m.summits })
      { m.st with w := { lookup := fun _ => none, points := fun k => (m.domPoints k).getD [] }, walked := [], linkers := [], doms := [] } =
      .ok s' := by
    constructor
    · rintro ⟨r, h⟩
      unfold DMap.walk at h
      obtain ⟨w, hw, h⟩ := bind_ok h
      cases ((show walkInit E.d m.domPoints m.summits = .ok w from hw).symm.trans hinit : Except.ok _ = Except.ok _)
      obtain ⟨⟨rr, s⟩, hs, h⟩ := bind_ok h
      unfold climbFromSaddles at hs
      obtain ⟨s1, h1, _⟩ := bind_ok hs
      exact ⟨s1, h1⟩
    · rintro ⟨s', h⟩
      unfold DMap.walk
      dsimp only
      rw [hinit]
      dsimp only [bind, Except.bind]
      unfold climbFromSaddles
      simp only [List.isEmpty_nil, if_true]
      rw [h]
      exact ⟨_, rfl⟩
  rw [hl, key]
  constructor
  · intro h k hk ob hob c hc p hp
    refine h k hk c ?_ p ?_ <;> rw [hF k ob hob] <;> assumption
  · intro h k hk c hc p hp
    obtain ⟨ob, hob, _⟩ := hin k hk
    rw [hF k _ hob] at hc hp
    exact h k hk _ hob c hc p hp

/-- The area of a loaded feature. -/
theorem areaShown_cells {d : DataMap} {f : Feature} {mp : Option MultiObj} (h : AreaShown d f mp) :
    mp.map MultiObj.cells = f.multipoint.map fun l => l.map fun p => ⟨p.x, p.y, none⟩ := by
  unfold AreaShown at h
  cases hf : f.multipoint with
  | none =>
    rw [hf] at h
    cases mp with
    | none => rfl
    | some n => exact h.elim
  | some pts =>
    rw [hf] at h
    cases mp with
    | none => exact h.elim
    | some n =>
      have h1 := h.1
      have := congrArg (List.map fun p : Int × Int => (⟨p.1, p.2, none⟩ : MPt)) h1
      rw [List.map_map, List.map_map] at this
      exact congrArg some this

theorem summitShown_for {d : DataMap} {id : Nat} {f : Feature} {t : LSummit} (h : SummitShown d id f t) {q : Pt}
    (hf : SummitFor d q f) : SummitFor d q t.feature := by
  refine ⟨rfl, ?_, ?_, ?_, ?_⟩
  · obtain ⟨a, b, c⟩ := hf.located
    exact ⟨h.lat.trans a, h.lon.trans b, h.ele.trans c⟩
  · change RecordsArea d q (t.mp.map MultiObj.cells)
    rw [areaShown_cells h.area]
    rcases hf.area with ⟨e, g⟩ | ⟨pts, e, g⟩
    · rw [e]; exact .inl ⟨rfl, g⟩
    · rw [e]
      refine .inr ⟨pts, ?_, g⟩
      rw [Option.map_some, List.map_map]
      rfl
  · exact (show t.edge = true ↔ _ by rw [h.edge]; exact hf.edge)
  · change BorderList d q t.edgePoints
    rw [h.edgePoints]; exact hf.edgePoints

theorem saddleShown_ok {d : DataMap} {fl : Flags} {k id : Nat} {f : Feature} {t : LSaddle} (h : SaddleShown d fl k id f t)
    (hf : FeatOk d f) : FeatOk d t.feature ∧ t.feature.kind = f.kind := by
  have hk : t.feature.kind = f.kind := by
    change (if t.runoff = true then Kind.runoff else Kind.saddle) = f.kind
    by_cases hr : t.runoff = true
    · rw [if_pos hr, h.runoff.1 hr]
    · rw [if_neg hr]
      cases hc : f.kind with
      | saddle => rfl
      | runoff => exact absurd (h.runoff.2 hc) hr
      | summit => exact absurd hc hf.kind
  have e1 : t.feature.hpn = f.hpn := h.hpn
  have e2 : t.feature.elevation = f.elevation := h.ele
  have e3 : t.feature.edge = f.edge := h.edge
  refine ⟨⟨?_, ?_, ?_, ?_, ?_, ?_, ?_⟩, hk⟩
  · rw [e1, e2]; exact hf.high
  · intro m ms hm
    change t.mp.map MultiObj.cells = _ at hm
    rw [areaShown_cells h.area] at hm
    obtain ⟨l, _, hl⟩ := Option.map_eq_some_iff.1 hm
    cases l with
    | nil => cases hl
    | cons a as => cases hl; rfl
  · intro hn
    rw [e1] at hn
    obtain ⟨q, hq, a, b, c⟩ := hf.loc hn
    exact ⟨q, hq, h.lat.trans a, h.lon.trans b, h.ele.trans c⟩
  · rw [hk, e1]; exact hf.saddle
  · rw [hk, e3]; exact hf.inner
  · rw [hk]; exact hf.kind
  · rw [e1, e2]; exact hf.area

end PyProm
