import Verif.Spec.Marker
import Verif.Proof.RunHeightsBasin

/-! Runs on a raster with another nodata marker. -/
namespace PyProm
open Spec

section
variable {φ : Rat → Rat} {E E' : SaddleEnv}

theorem climbable_ground {d : DataMap} (hφ : Increasing φ) (hl : NodataLow d) : Climbable d φ (Ground d) where
  inc := hφ
  up := by
    rintro h k ⟨p, h1, rfl⟩ h3 (⟨q, hq, rfl⟩ | hk)
    · refine ⟨q, ⟨hq, fun hv => ?_⟩, rfl⟩
      exact absurd h3 (not_le.2 (hl _ hv.symm p h1))
    · exact absurd h3 (not_le.2 (hl _ hk p h1))
  off := .inr fun v hv ⟨p, h1, h2⟩ => absurd h2 (ne_of_gt (hl v hv p h1))

theorem featOk_firm {sites : List Pt} (hE : SEnvOk E sites) :
    Firm E (Ground E.d) (FeatOk E.d) where
  foot := by
    intro f hf c hc p hp h hh
    have h1 := ((hf.high c hc).2 p hp).1
    have := get_data (p := p.xy) h1.1
    rw [show E.d.get p.x p.y = _ from this] at hh
    cases hh
    exact ⟨p.xy, h1, rfl⟩
  split := by
    intro f fs hf h g hg
    rcases generateSynthetic_spec hE hf with ⟨_, h1⟩ | ⟨_, fs', h1, _, h2⟩
    · cases (h.symm.trans h1 : Except.ok _ = Except.ok _)
    · cases (h.symm.trans h1 : Except.ok _ = Except.ok _)
      exact (h2 g hg).ok hf

theorem runSparse_marker (hR : RunOk E) (hφ : Increasing φ) (hE : SameChoices φ E E')
    (hw : SameSlopes φ (Ground E.d) E.w E'.w)
    {o o' : Pt → Oracle} (ho : ∀ p, SameOrders φ (o p) (o' p)) (order : List Pt) (hs : IsScan E.d order)
    (rebuild : Bool) :
    DMap.runSparse E' o' order rebuild = (DMap.runSparse E o order rebuild).map (scaleMap φ) := by
  obtain ⟨D, corners, m, sites, _, _, h3, h4, _⟩ := discover_spec hR.fc o order hs rebuild
  unfold DMap.runSparse
  rw [hE.raster, discover_scaled hφ E.d hE.pairs ho, h3]
  simp only [bind, Except.bind, Except.map]
  rw [walk_firm hE m [] (climbable_ground hφ hR.env.low) hw (featOk_firm (hR.senv h4.tops)) h4.ok]
  cases m.walk E [] <;> rfl

theorem run_marker (hR : RunOk E) (hφ : Increasing φ) (hE : SameChoices φ E E')
    (hw : SameSlopes φ (Ground E.d) E.w E'.w)
    {o o' : Pt → Oracle} (ho : ∀ p, SameOrders φ (o p) (o' p)) (order : List Pt) (hs : IsScan E.d order)
    (rebuild : Bool) (fuel : Nat) :
    DMap.run E' o' order rebuild fuel =
      (DMap.run E o order rebuild fuel).map fun r => (scaleMap φ r.1, r.2) := by
  unfold DMap.run
  rw [runSparse_marker hR hφ hE hw ho order hs]
  simp only [bind, Except.bind]
  cases hm : DMap.runSparse E o order rebuild with
  | error e => rfl
  | ok m =>
    simp only [Except.map]
    rw [flags_scaled, detectBasins_scaled hφ (saddles_inRange hm)]
    cases m.detectBasins fuel m.flags <;> rfl

/-- Heights of features are heights of data, except for runoffs in corners without data. -/
theorem run_heights (hR : RunOk E) {o : Pt → Oracle} {order : List Pt} (hs : IsScan E.d order) {rebuild : Bool}
    {m : DMap} (hm : DMap.runSparse E o order rebuild = .ok m) {n : Node} {f : Feature} (hf : m.feature n = some f) :
    (f.kind ≠ .summit → ∀ c ∈ f.hpn, ∀ p ∈ c, Data E.d p.xy ∧ p.e = el E.d p.xy) ∧
    ((∃ p, Data E.d p ∧ f.elevation = el E.d p) ∨
      f.kind = .runoff ∧ ∃ q, InB E.d q ∧ some (el E.d q) = E.d.nodata ∧ LocatedAt E.d q f) := by
  obtain ⟨D, corners, m0, m', sites, news, _, _, _, h4, _, _, _, h8, h9⟩ := run_spec hR o order hs rebuild
  cases (hm.symm.trans h8 : Except.ok _ = Except.ok _)
  cases n with
  | summit k =>
    have hk : m.summits[k]? = some f := hf
    rw [h9.summits] at hk
    obtain ⟨q, hq, hq'⟩ := forall₂_getElem? (List.Forall₂.flip h4.tops.each) hk
    exact ⟨fun h => absurd hq'.kind h, .inl ⟨q, (h4.tops.top q (List.mem_of_getElem? hq)).1, hq'.located.2.2⟩⟩
  | saddle k =>
    obtain ⟨o, ho, rfl⟩ := Option.map_eq_some_iff.1 (hf : m.st.objs[k]?.map (·.f) = some f)
    have hok : FeatOk E.d o.f := h9.inv.objs o (List.mem_of_getElem? ho)
    refine ⟨fun _ c hc p hp => ⟨((hok.high c hc).2 p hp).1, ((hok.high c hc).2 p hp).2.1⟩, ?_⟩
    by_cases hn : o.f.hpn = []
    · obtain ⟨q, h1, h2⟩ := hok.loc hn
      by_cases hd : some (el E.d q) = E.d.nodata
      · refine .inr ⟨?_, q, h1, hd, h2⟩
        cases hk : o.f.kind with
        | runoff => rfl
        | summit => exact absurd hk hok.kind
        | saddle =>
          have := hok.saddle hk
          rw [hn] at this
          simp at this
      · exact .inl ⟨q, ⟨h1, hd⟩, h2.2.2⟩
    · obtain ⟨q, h1, h2, _⟩ := hok.area hn
      exact .inl ⟨q, h1, h2⟩

end

end PyProm
