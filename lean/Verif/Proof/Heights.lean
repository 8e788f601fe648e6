import Verif.Spec.Heights
import Verif.Proof.Tiles
import Mathlib.Data.List.Nodup

/-! Correspondence between the analyses of a raster and of the same raster with other heights. -/
namespace PyProm
open Spec

/-! ### Matched lists -/

section
variable {α β : Type} {R : α → β → Prop}

theorem Spec.Matched.of_forall₂ {l : List α} {l' : List β} (h : List.Forall₂ R l l') : Matched R l l' :=
  ⟨l', h, .refl _⟩

theorem Spec.Matched.length {l : List α} {l' : List β} (h : Matched R l l') : l'.length = l.length := by
  obtain ⟨m, h1, h2⟩ := h
  rw [← h2.length_eq, h1.length_eq]

theorem Spec.Matched.perm_left {l k : List α} {l' : List β} (hp : k.Perm l) (h : Matched R l l') :
    Matched R k l' := by
  obtain ⟨m, h1, h2⟩ := h
  obtain ⟨m', h3, h4⟩ := List.perm_comp_forall₂ hp h1
  exact ⟨m', h3, h4.trans h2⟩

theorem Spec.Matched.perm_right {l : List α} {l' k' : List β} (h : Matched R l l') (hp : l'.Perm k') :
    Matched R l k' := by
  obtain ⟨m, h1, h2⟩ := h
  exact ⟨m, h1, h2.trans hp⟩

theorem Spec.Matched.append {l k : List α} {l' k' : List β} (h : Matched R l l') (h' : Matched R k k') :
    Matched R (l ++ k) (l' ++ k') := by
  obtain ⟨m, h1, h2⟩ := h
  obtain ⟨m', h3, h4⟩ := h'
  exact ⟨m ++ m', List.rel_append h1 h3, h2.append h4⟩

theorem Spec.Matched.filter {l : List α} {l' : List β} (h : Matched R l l') {p : α → Bool} {q : β → Bool}
    (hpq : ∀ a b, R a b → (p a = true ↔ q b = true)) : Matched R (l.filter p) (l'.filter q) := by
  obtain ⟨m, h1, h2⟩ := h
  exact ⟨m.filter q, List.rel_filter (fun a b hab => hpq a b hab) h1, h2.filter _⟩

theorem Spec.Matched.left {l : List α} {l' : List β} (h : Matched R l l') : ∀ a ∈ l, ∃ b ∈ l', R a b := by
  obtain ⟨m, h1, h2⟩ := h
  intro a ha
  have : ∃ b ∈ m, R a b := by
    clear h2
    induction h1 with
    | nil => simp at ha
    | cons h _ ih =>
      rcases List.mem_cons.1 ha with rfl | ha
      · exact ⟨_, by simp, h⟩
      · obtain ⟨b, hb, hab⟩ := ih ha
        exact ⟨b, by simp [hb], hab⟩
  obtain ⟨b, hb, hab⟩ := this
  exact ⟨b, h2.mem_iff.1 hb, hab⟩

theorem Spec.Matched.right {l : List α} {l' : List β} (h : Matched R l l') : ∀ b ∈ l', ∃ a ∈ l, R a b := by
  obtain ⟨m, h1, h2⟩ := h
  intro b hb
  replace hb := h2.mem_iff.2 hb
  clear h2
  induction h1 with
  | nil => simp at hb
  | cons h _ ih =>
    rcases List.mem_cons.1 hb with rfl | hb
    · exact ⟨_, by simp, h⟩
    · obtain ⟨a, ha, hab⟩ := ih hb
      exact ⟨a, by simp [ha], hab⟩

end

theorem components_nodup {S : List P3} {L : List (List P3)} (h : IsComponents S L) : L.Nodup := by
  have hd := (List.nodup_flatten.1 h.nodup).2
  have hn := h.nonempty
  clear h
  induction L with
  | nil => simp
  | cons c cs ih =>
    rw [List.pairwise_cons] at hd
    rw [List.nodup_cons]
    refine ⟨fun hc => ?_, ih hd.2 (fun c hc => hn c (by simp [hc]))⟩
    obtain ⟨a, ha⟩ := List.exists_mem_of_ne_nil c (hn c (by simp))
    exact hd.1 c hc ha ha

theorem components_eq {S : List P3} {L : List (List P3)} (h : IsComponents S L) {c c' : List P3} (hc : c ∈ L)
    (hc' : c' ∈ L) {a : P3} (ha : a ∈ c) (ha' : a ∈ c') : c = c' := by
  obtain ⟨i, hi, rfl⟩ := List.mem_iff_getElem.1 hc
  obtain ⟨j, hj, rfl⟩ := List.mem_iff_getElem.1 hc'
  have e := flatten_nodup_idx L h.nodup i j a
    (by rw [List.getD_eq_getElem?_getD, List.getElem?_eq_getElem hi]; exact ha)
    (by rw [List.getD_eq_getElem?_getD, List.getElem?_eq_getElem hj]; exact ha')
  subst e
  rfl

/-- As `components_match`, one to one. -/
theorem components_matched {S S' : List P3} {L L' : List (List P3)} (g : P3 → P3)
    (hg : ∀ a b, g a = g b → a = b) (hS : ∀ a, a ∈ S ↔ g a ∈ S')
    (hS' : ∀ a' ∈ S', ∃ a, a' = g a)
    (hadj : ∀ a b : P3, Adj (g a).xy (g b).xy ↔ Adj a.xy b.xy)
    (h : IsComponents S L) (h' : IsComponents S' L') :
    Matched (fun c c' => c'.Perm (c.map g)) L L' := by
  classical
  obtain ⟨h1, h2⟩ := components_match g hg hS hS' hadj h h'
  have hF : ∀ c, ∃ c' : List P3, c ∈ L → c' ∈ L' ∧ c'.Perm (c.map g) := by
    intro c
    by_cases hc : c ∈ L
    · obtain ⟨c', hc', hp⟩ := h1 c hc
      exact ⟨c', fun _ => ⟨hc', hp⟩⟩
    · exact ⟨[], fun c => absurd c hc⟩
  choose F hF using hF
  refine ⟨L.map F, ?_, (List.perm_ext_iff_of_nodup ?_ (components_nodup h')).2 ?_⟩
  · clear h h' hS hS' h1 h2
    induction L with
    | nil => exact .nil
    | cons c cs ih =>
      refine .cons (hF c (by simp)).2 (ih fun c hc => hF c (by simp [hc]))
  · refine List.Nodup.map_on ?_ (components_nodup h)
    intro c hc c' hc' e
    obtain ⟨_, p⟩ := hF c hc
    obtain ⟨_, p'⟩ := hF c' hc'
    rw [← e] at p'
    obtain ⟨a, ha⟩ := List.exists_mem_of_ne_nil c (h.nonempty c hc)
    have : g a ∈ c'.map g := (p'.mem_iff).1 (p.mem_iff.2 (List.mem_map_of_mem ha))
    obtain ⟨b, hb, e'⟩ := List.mem_map.1 this
    rw [hg _ _ e'] at hb
    exact components_eq h hc hc' ha hb
  · intro c'
    rw [List.mem_map]
    constructor
    · rintro ⟨c, hc, rfl⟩
      exact (hF c hc).1
    · intro hc'
      obtain ⟨c, hc, p⟩ := h2 c' hc'
      obtain ⟨q1, q2⟩ := hF c hc
      obtain ⟨a, ha⟩ := List.exists_mem_of_ne_nil c (h.nonempty c hc)
      exact ⟨c, hc, components_eq h' q1 hc' (q2.mem_iff.2 (List.mem_map_of_mem ha))
        (p.mem_iff.2 (List.mem_map_of_mem ha))⟩

/-! ### The terrain of a rescaled raster -/

section
variable {φ : Rat → Rat} (hφ : Increasing φ) (d : DataMap)
include hφ

theorem inc_inj {a b : Rat} : φ a = φ b ↔ a = b := by
  constructor
  · intro e
    rcases lt_trichotomy a b with h | h | h
    · exact absurd e (ne_of_lt (hφ _ _ h))
    · exact h
    · exact absurd e.symm (ne_of_lt (hφ _ _ h))
  · rintro rfl
    rfl

theorem inc_lt {a b : Rat} : φ a < φ b ↔ a < b := by
  refine ⟨fun h => ?_, hφ a b⟩
  rcases lt_trichotomy a b with c | c | c
  · exact c
  · subst c
    exact absurd h (lt_irrefl _)
  · exact absurd (h.trans (hφ _ _ c)) (lt_irrefl _)

theorem data_scaled : Data (rescaled φ d) = Data d := by
  funext p
  apply propext
  have : some (el (rescaled φ d) p) ≠ (rescaled φ d).nodata ↔ some (el d p) ≠ d.nodata := by
    unfold rescaled el
    dsimp only
    cases d.nodata with
    | none => simp
    | some n => simp [inc_inj hφ]
  exact and_congr Iff.rfl this

theorem level_scaled : Level (rescaled φ d) = Level d := by
  funext p q
  apply propext
  unfold Level
  rw [data_scaled hφ]
  exact and_congr Iff.rfl (and_congr Iff.rfl (inc_inj hφ))

theorem flat_scaled : Flat (rescaled φ d) = Flat d := by
  unfold Flat
  rw [level_scaled hφ]

theorem rim_scaled : Rim (rescaled φ d) = Rim d := by
  funext p q
  apply propext
  unfold Rim
  rw [data_scaled hφ, flat_scaled hφ]
  exact and_congr Iff.rfl (and_congr (not_congr (inc_inj hφ)) Iff.rfl)

theorem highRim_scaled : HighRim (rescaled φ d) = HighRim d := by
  funext p q
  apply propext
  unfold HighRim
  rw [rim_scaled hφ]
  exact and_congr Iff.rfl (inc_lt hφ)

theorem onBorder_scaled : OnBorder (rescaled φ d) = OnBorder d := by
  funext q
  unfold OnBorder
  rw [flat_scaled hφ]
  rfl

theorem reportedFrom_scaled : ReportedFrom (rescaled φ d) = ReportedFrom d := by
  funext p q
  unfold ReportedFrom
  rw [level_scaled hφ]

theorem firstIn_scaled : FirstIn (rescaled φ d) = FirstIn d := by
  funext ps p
  unfold FirstIn
  rw [data_scaled hφ, flat_scaled hφ]

theorem scale3_inj {a b : P3} (h : scale3 φ a = scale3 φ b) : a = b := by
  cases a
  cases b
  simp only [scale3, P3.mk.injEq, inc_inj hφ] at h ⊢
  exact h

variable {d}

theorem high_scaled {q : Pt} {L L' : List (List P3)} (h : IsHigh d q L) (h' : IsHigh (rescaled φ d) q L') :
    Matched (SamePoints φ) L L' := by
  obtain ⟨S, hS, hc⟩ := h
  obtain ⟨S', hS', hc'⟩ := h'
  refine components_matched (scale3 φ) (fun a b => scale3_inj hφ) ?_ ?_ (fun _ _ => Iff.rfl) hc hc'
  · intro a
    rw [hS, hS', highRim_scaled hφ]
    exact and_congr Iff.rfl (inc_inj hφ).symm
  · intro a' ha'
    obtain ⟨_, e⟩ := (hS' a').1 ha'
    refine ⟨⟨a'.x, a'.y, el d a'.xy⟩, ?_⟩
    cases a'
    simp only [scale3, P3.mk.injEq, true_and]
    exact e

theorem lower_scaled {q : Pt} {L L' : List (List P3)} (h : IsLower d q L) (h' : IsLower (rescaled φ d) q L') :
    Matched (SamePoints φ) L L' := by
  obtain ⟨S, M, hS, hc, rfl⟩ := h
  obtain ⟨S', M', hS', hc', rfl⟩ := h'
  have hm : Matched (SamePoints φ) M M' := by
    refine components_matched (scale3 φ) (fun a b => scale3_inj hφ) ?_ ?_ (fun _ _ => Iff.rfl) hc hc'
    · intro a
      rw [hS, hS', rim_scaled hφ]
      exact and_congr Iff.rfl (and_congr Iff.rfl (inc_inj hφ).symm)
    · intro a' ha'
      obtain ⟨_, _, e⟩ := (hS' a').1 ha'
      refine ⟨⟨a'.x, a'.y, el d a'.xy⟩, ?_⟩
      cases a'
      simp only [scale3, P3.mk.injEq, true_and]
      exact e
  refine hm.filter fun c c' hcc => ?_
  rw [decide_eq_true_eq, decide_eq_true_eq]
  constructor
  · intro hl p hp
    obtain ⟨p0, hp0, rfl⟩ := List.mem_map.1 (hcc.mem_iff.1 hp)
    exact hφ _ _ (hl p0 hp0)
  · intro hl p hp
    exact (inc_lt hφ).1 (hl (scale3 φ p) (hcc.mem_iff.2 (List.mem_map_of_mem hp)))

theorem stretches_scaled {q : Pt} {L L' : List (List P3)} (h : IsStretches d q L)
    (h' : IsStretches (rescaled φ d) q L') : Matched (SamePoints φ) L L' := by
  obtain ⟨S, ⟨_, hS⟩, hc⟩ := h
  obtain ⟨S', ⟨_, hS'⟩, hc'⟩ := h'
  refine components_matched (scale3 φ) (fun a b => scale3_inj hφ) ?_ ?_ (fun _ _ => Iff.rfl) hc hc'
  · intro a
    rw [hS, hS', flat_scaled hφ]
    exact and_congr Iff.rfl (and_congr Iff.rfl (inc_inj hφ).symm)
  · intro a' ha'
    obtain ⟨_, _, e⟩ := (hS' a').1 ha'
    refine ⟨⟨a'.x, a'.y, el d a'.xy⟩, ?_⟩
    cases a'
    simp only [scale3, P3.mk.injEq, true_and]
    exact e

theorem border_scaled {q : Pt} {S S' : List P3} (h : BorderList d q S) (h' : BorderList (rescaled φ d) q S') :
    SamePoints φ S S' := by
  refine (List.perm_ext_iff_of_nodup h'.1 (h.1.map fun a b => scale3_inj hφ)).2 ?_
  intro p'
  rw [h'.2, List.mem_map, flat_scaled hφ]
  constructor
  · rintro ⟨a, b, c⟩
    refine ⟨⟨p'.x, p'.y, el d p'.xy⟩, (h.2 _).2 ⟨a, b, rfl⟩, ?_⟩
    cases p'
    simp only [scale3, P3.mk.injEq, true_and]
    exact c.symm
  · rintro ⟨p, hp, rfl⟩
    obtain ⟨a, b, c⟩ := (h.2 p).1 hp
    exact ⟨a, b, congrArg φ c⟩

theorem area_scaled {q : Pt} {mp mp' : Option (List MPt)} (h : RecordsArea d q mp)
    (h' : RecordsArea (rescaled φ d) q mp') :
    (mp = none ∧ mp' = none) ∨ ∃ a b, mp = some a ∧ mp' = some b ∧ b.Perm (a.map (scaleM φ)) := by
  unfold RecordsArea at h'
  rw [flat_scaled hφ] at h'
  rcases h with ⟨rfl, h1⟩ | ⟨pts, rfl, n1, m1, z, hz, hzf⟩ <;>
    rcases h' with ⟨rfl, h2⟩ | ⟨pts', rfl, n2, m2, z', hz', hzf'⟩
  · exact Or.inl ⟨rfl, rfl⟩
  · exact absurd ((h1 z').1 hzf') hz'
  · exact absurd ((h2 z).1 hzf) hz
  · refine Or.inr ⟨_, _, rfl, rfl, ?_⟩
    rw [List.map_map]
    refine List.Perm.map _ ((List.perm_ext_iff_of_nodup n2 n1).2 fun m => ?_)
    rw [m1, m2]

omit hφ in
theorem touch_scaled {c c' l l' : List P3} (hc : SamePoints φ c c') (hl : SamePoints φ l l') :
    ListsTouch c l ↔ ListsTouch c' l' := by
  constructor
  · rintro ⟨p, hp, q, hq, h⟩
    exact ⟨scale3 φ p, hc.mem_iff.2 (List.mem_map_of_mem hp), scale3 φ q,
      hl.mem_iff.2 (List.mem_map_of_mem hq), h⟩
  · rintro ⟨p, hp, q, hq, h⟩
    obtain ⟨p0, hp0, rfl⟩ := List.mem_map.1 (hc.mem_iff.1 hp)
    obtain ⟨q0, hq0, rfl⟩ := List.mem_map.1 (hl.mem_iff.1 hq)
    exact ⟨p0, hp0, q0, hq0, h⟩

omit hφ in
theorem separates_scaled {lower lower' : List (List P3)} (hl : Matched (SamePoints φ) lower lower')
    {c c' : List P3} (hc : SamePoints φ c c') : Separates lower c ↔ Separates lower' c' := by
  unfold Separates touchCount
  rw [(hl.filter (p := fun l => decide (ListsTouch c l)) (q := fun l => decide (ListsTouch c' l))
    fun a b hab => by
      rw [decide_eq_true_eq, decide_eq_true_eq]
      exact touch_scaled hc hab).length]

omit hφ in
theorem flatten_scaled {L L' : List (List P3)} (h : Matched (SamePoints φ) L L') :
    L'.flatten.Perm (L.flatten.map (scale3 φ)) := by
  obtain ⟨m, h1, h2⟩ := h
  refine h2.flatten.symm.trans ?_
  clear h2
  induction h1 with
  | nil => exact .refl _
  | cons h _ ih =>
    rw [List.flatten_cons, List.flatten_cons, List.map_append]
    exact h.append ih

omit hφ in
theorem grown_scaled {mp mp' : Option (List MPt)} {L L' : List (List P3)} (h : Matched (SamePoints φ) L L')
    (hm : (mp = none ∧ mp' = none) ∨ ∃ a b, mp = some a ∧ mp' = some b ∧ b.Perm (a.map (scaleM φ)))
    (k : Nat) :
    (grown mp L k = none ∧ grown mp' L' k = none) ∨
      ∃ a b, grown mp L k = some a ∧ grown mp' L' k = some b ∧ b.Perm (a.map (scaleM φ)) := by
  induction k with
  | zero => exact hm
  | succ k ih =>
    rcases ih with ⟨a, b⟩ | ⟨a, b, ha, hb, hp⟩
    · left
      simp [grown, a, b]
    · right
      refine ⟨_, _, by rw [grown, ha]; rfl, by rw [grown, hb]; rfl, ?_⟩
      rw [List.map_append]
      refine hp.append ?_
      have := (flatten_scaled h).map MPt.ofP3
      rw [List.map_map] at this ⊢
      exact this

end

/-! ### Features of an area -/

/-- The features reported for one area correspond. -/
structure AreaSame (φ : Rat → Rat) (fs fs' : List Feature) : Prop where
  summits : List.Forall₂ (SameScaled φ) (fs.filter fun f => f.kind = .summit)
    (fs'.filter fun f => f.kind = .summit)
  saddles : List.Forall₂ (SameScaled φ) (fs.filter fun f => f.kind = .saddle)
    (fs'.filter fun f => f.kind = .saddle)
  runoffs : Matched (SameRunoff φ) (fs.filter fun f => f.kind = .runoff)
    (fs'.filter fun f => f.kind = .runoff)

theorem areaSame_nil (φ : Rat → Rat) : AreaSame φ [] [] := ⟨.nil, .nil, .of_forall₂ .nil⟩

theorem areaSame_one {φ : Rat → Rat} {f g : Feature} (h : SameScaled φ f g) (hk : f.kind ≠ .runoff) :
    AreaSame φ [f] [g] := by
  have hk' := h.kind
  cases hf : f.kind with
  | runoff => exact absurd hf hk
  | summit =>
    rw [hf] at hk'
    exact ⟨by simp [hf, hk', h], by simp [hf, hk'], by simp only [List.filter, hf, hk']; exact .of_forall₂ .nil⟩
  | saddle =>
    rw [hf] at hk'
    exact ⟨by simp [hf, hk'], by simp [hf, hk', h], by simp only [List.filter, hf, hk']; exact .of_forall₂ .nil⟩

theorem AreaSame.append {φ : Rat → Rat} {fs fs' gs gs' : List Feature} (h : AreaSame φ fs fs')
    (h' : AreaSame φ gs gs') : AreaSame φ (fs ++ gs) (fs' ++ gs') := by
  refine ⟨?_, ?_, ?_⟩
  · rw [List.filter_append, List.filter_append]
    exact List.rel_append h.summits h'.summits
  · rw [List.filter_append, List.filter_append]
    exact List.rel_append h.saddles h'.saddles
  · rw [List.filter_append, List.filter_append]
    exact h.runoffs.append h'.runoffs

theorem areaSame_runoffs {φ : Rat → Rat} {rs rs' : List Feature} (h : Matched (SameRunoff φ) rs rs')
    (hk : ∀ f ∈ rs, f.kind = .runoff) : AreaSame φ rs rs' := by
  have hk' : ∀ f ∈ rs', f.kind = .runoff := by
    intro g hg
    obtain ⟨f, hf, hfg⟩ := h.right g hg
    rw [hfg.kind, hk f hf]
  have e : ∀ (l : List Feature) (k : Kind), (∀ f ∈ l, f.kind = .runoff) → k ≠ .runoff →
      (l.filter fun f => decide (f.kind = k)) = [] := by
    intro l k hl hne
    rw [List.filter_eq_nil_iff]
    intro f hf
    rw [decide_eq_true_eq, hl f hf]
    exact hne.symm
  refine ⟨?_, ?_, ?_⟩
  · rw [e rs .summit hk (by decide), e rs' .summit hk' (by decide)]
    exact .nil
  · rw [e rs .saddle hk (by decide), e rs' .saddle hk' (by decide)]
    exact .nil
  · rw [List.filter_eq_self.2 fun f hf => decide_eq_true (hk f hf),
      List.filter_eq_self.2 fun f hf => decide_eq_true (hk' f hf)]
    exact h

/-- The features of one area of a raster and of the rescaled raster, for any order of the sets. -/
theorem features_scaled {φ : Rat → Rat} (hφ : Increasing φ) {d : DataMap} {q : Pt}
    {mp mp' : Option (List MPt)} {fs fs' : List Feature} {high high' lower lower' str str' : List (List P3)}
    {bps bps' : List P3} (hm : RecordsArea d q mp) (hm' : RecordsArea (rescaled φ d) q mp')
    (t : RegionTable d q mp fs high lower str bps)
    (t' : RegionTable (rescaled φ d) q mp' fs' high' lower' str' bps') : AreaSame φ fs fs' := by
  have ha := area_scaled hφ hm hm'
  have hb := border_scaled hφ t.isBps t'.isBps
  have hh := high_scaled hφ t.isHigh t'.isHigh
  have hl := lower_scaled hφ t.isLower t'.isLower
  have hs := stretches_scaled hφ t.isStr t'.isStr
  have hnil : high' = [] ↔ high = [] := by
    rw [← List.length_eq_zero_iff, ← List.length_eq_zero_iff, hh.length]
  have ob : OnBorder (rescaled φ d) q ↔ OnBorder d q := by rw [onBorder_scaled hφ]
  by_cases hob : OnBorder d q
  · by_cases h1 : high = []
    · rw [t.borderSummit hob h1, t'.borderSummit (ob.2 hob) (hnil.2 h1)]
      refine AreaSame.append (fs := [_]) (fs' := [_]) (areaSame_one ⟨rfl, rfl, rfl, rfl, rfl, ha, hb, .of_forall₂ .nil⟩ (by simp [mkSummit]))
        (areaSame_runoffs (.of_forall₂ (.cons ⟨rfl, rfl, rfl, ha, hb⟩ .nil)) (by simp [mkRunoff]))
    · by_cases h2 : lower.length ≤ 1
      · rw [t.borderFew hob h1 h2, t'.borderFew (ob.2 hob) (fun c => h1 (hnil.1 c)) (by rw [hl.length]; exact h2),
          hh.length]
        by_cases h3 : 2 ≤ high.length
        · rw [if_pos h3, if_pos h3]
          exact areaSame_one ⟨rfl, rfl, rfl, rfl, rfl, ha, hb, hh⟩ (by simp [mkSaddle])
        · rw [if_neg h3, if_neg h3]
          exact areaSame_nil φ
      · obtain ⟨cs, rs, rem, p1, p2, p3, p4, rfl⟩ := t.borderMany hob h1 (by omega)
        obtain ⟨cs', rs', rem', p1', p2', p3', p4', rfl⟩ := t'.borderMany (ob.2 hob) (fun c => h1 (hnil.1 c))
          (by rw [hl.length]; omega)
        have hcs : Matched (SamePoints φ) cs cs' :=
          ((hs.filter (p := fun c => decide (Separates lower c)) (q := fun c => decide (Separates lower' c))
            fun a b hab => by
              rw [decide_eq_true_eq, decide_eq_true_eq]
              exact separates_scaled hl hab).perm_left p1).perm_right p1'.symm
        have hrs : Matched (SameRunoff φ) rs rs' := by
          obtain ⟨m, m1, m2⟩ := hcs
          obtain ⟨r, r1, r2⟩ := List.perm_comp_forall₂ m2 p2'
          refine ⟨r, ?_, r2⟩
          clear * - m1 r1 p2
          induction m1 generalizing rs r with
          | nil =>
            cases p2
            cases r1
            exact .nil
          | cons h _ ih =>
            cases p2 with
            | cons a1 a2 =>
              cases r1 with
              | cons b1 b2 =>
                refine .cons ?_ (ih _ a2 _ b2)
                obtain ⟨⟨k1, k2, k3, k4, k5, _⟩, _⟩ := a1
                obtain ⟨⟨k1', k2', k3', k4', k5', _⟩, _⟩ := b1
                refine ⟨by rw [k1, k1'], by rw [k2, k2']; rfl, by rw [k3, k3'], Or.inl ⟨k5, k5'⟩, ?_⟩
                rw [k4, k4']
                exact h
        have hk : ∀ f ∈ rs, f.kind = .runoff := by
          clear * - p2
          intro f hf
          induction p2 with
          | nil => simp at hf
          | cons h _ ih =>
            rcases List.mem_cons.1 hf with rfl | hf
            · exact h.1.1
            · exact ih hf
        refine AreaSame.append (areaSame_runoffs hrs hk) ?_
        rw [hh.length, hrs.length]
        by_cases h3 : 2 ≤ high.length
        · rw [if_pos h3, if_pos h3]
          have hall : (∀ c ∈ str', Separates lower' c) ↔ ∀ c ∈ str, Separates lower c := by
            constructor
            · intro h c hc
              obtain ⟨c', hc', hcc⟩ := hs.left c hc
              exact (separates_scaled hl hcc).2 (h c' hc')
            · intro h c' hc'
              obtain ⟨c, hc, hcc⟩ := hs.right c' hc'
              exact (separates_scaled hl hcc).1 (h c hc)
          have hg := grown_scaled hh ha rs.length
          by_cases h4 : ∀ c ∈ str, Separates lower c
          · rw [if_pos h4, if_pos (hall.2 h4)]
            exact areaSame_one ⟨rfl, rfl, rfl, rfl, rfl, hg, .refl _, hh⟩ (by simp [mkSaddle])
          · rw [if_neg h4, if_neg (fun c => h4 (hall.1 c))]
            refine areaSame_one ⟨rfl, rfl, rfl, rfl, rfl, hg, ?_, hh⟩ (by simp [mkSaddle])
            refine (List.perm_ext_iff_of_nodup p3' (p3.map fun a b => scale3_inj hφ)).2 ?_
            have hfl := flatten_scaled hcs
            intro p'
            rw [p4', hb.mem_iff, hfl.mem_iff, List.mem_map, List.mem_map, List.mem_map]
            constructor
            · rintro ⟨⟨p, hp, rfl⟩, hn⟩
              exact ⟨p, (p4 p).2 ⟨hp, fun c => hn ⟨p, c, rfl⟩⟩, rfl⟩
            · rintro ⟨p, hp, rfl⟩
              obtain ⟨a, b⟩ := (p4 p).1 hp
              refine ⟨⟨p, a, rfl⟩, ?_⟩
              rintro ⟨p2, c, e⟩
              exact b (scale3_inj hφ e ▸ c)
        · rw [if_neg h3, if_neg h3]
          exact areaSame_nil φ
  · rw [t.interior hob, t'.interior (fun c => hob (ob.1 c))]
    by_cases h1 : high = []
    · rw [if_pos h1, if_pos (hnil.2 h1)]
      exact areaSame_one ⟨rfl, rfl, rfl, rfl, rfl, ha, .refl _, .of_forall₂ .nil⟩ (by simp [mkSummit])
    · rw [if_neg h1, if_neg (fun c => h1 (hnil.1 c)), hh.length]
      by_cases h2 : 2 ≤ high.length
      · rw [if_pos h2, if_pos h2]
        exact areaSame_one ⟨rfl, rfl, rfl, rfl, rfl, ha, .refl _, hh⟩ (by simp [mkSaddle])
      · rw [if_neg h2, if_neg h2]
        exact areaSame_nil φ

/-- Two sublists of a list without repetitions with the same members are equal. -/
theorem sublist_ext {α : Type} {l a b : List α} (hn : l.Nodup) (ha : a.Sublist l) (hb : b.Sublist l)
    (h : ∀ x, x ∈ a ↔ x ∈ b) : a = b := by
  classical
  have hf : (l.filter fun x => decide (x ∈ a)).Perm a :=
    (List.perm_ext_iff_of_nodup (hn.filter _) (hn.sublist ha)).2 fun x => by
      rw [List.mem_filter, decide_eq_true_eq]
      exact ⟨fun h => h.2, fun h => ⟨ha.subset h, h⟩⟩
  have ea : a = l.filter fun x => decide (x ∈ a) := by
    have := ha.filter fun x => decide (x ∈ a)
    rw [List.filter_eq_self.2 fun x hx => decide_eq_true hx] at this
    exact this.eq_of_length hf.length_eq.symm
  have hf' : (l.filter fun x => decide (x ∈ a)).Perm b :=
    hf.trans ((List.perm_ext_iff_of_nodup (hn.sublist ha) (hn.sublist hb)).2 h)
  have eb : b = l.filter fun x => decide (x ∈ a) := by
    have := hb.filter fun x => decide (x ∈ a)
    rw [List.filter_eq_self.2 fun x hx => decide_eq_true ((h x).2 hx)] at this
    exact this.eq_of_length hf'.length_eq.symm
  rw [ea, ← eb]

/-- Features of all areas. -/
theorem areas_append {φ : Rat → Rat} {regs regs' : List Region}
    (h : List.Forall₂ (fun r r' : Region => AreaSame φ r.features r'.features) regs regs') :
    AreaSame φ (regs.flatMap Region.features) (regs'.flatMap Region.features) := by
  induction h with
  | nil => exact areaSame_nil φ
  | cons h _ ih =>
    rw [List.flatMap_cons, List.flatMap_cons]
    exact h.append ih

end PyProm
