import Verif.Spec.Turned
import Verif.Proof.Heights

/-! Correspondence between the analyses of one terrain stored in two ways. -/
namespace PyProm
open Spec

/-! ### Matched lists -/

/-- Lists whose members correspond one to one. -/
theorem matched_of_classes {α β : Type} {R : α → β → Prop} {l : List α} {l' : List β} (hn : l.Nodup) (hn' : l'.Nodup)
    (h1 : ∀ a ∈ l, ∃ b ∈ l', R a b) (h2 : ∀ b ∈ l', ∃ a ∈ l, R a b)
    (u : ∀ a ∈ l, ∀ a' ∈ l, ∀ b ∈ l', R a b → R a' b → a = a')
    (u' : ∀ a ∈ l, ∀ b ∈ l', ∀ b' ∈ l', R a b → R a b' → b = b') : Matched R l l' := by
  classical
  by_cases hne : Nonempty β
  · have hF : ∀ a, ∃ b, a ∈ l → b ∈ l' ∧ R a b := by
      intro a
      by_cases ha : a ∈ l
      · obtain ⟨b, hb⟩ := h1 a ha
        exact ⟨b, fun _ => hb⟩
      · exact ⟨hne.some, fun c => absurd c ha⟩
    choose F hF using hF
    refine ⟨l.map F, ?_, (List.perm_ext_iff_of_nodup ?_ hn').2 ?_⟩
    · clear * - hF
      induction l with
      | nil => exact .nil
      | cons c cs ih => exact .cons (hF c (by simp)).2 (ih fun c hc => by
          obtain ⟨a, b⟩ := hF c (by simp [hc])
          exact ⟨a, b⟩)
    · refine List.Nodup.map_on (fun a ha a' ha' e => ?_) hn
      obtain ⟨x1, x2⟩ := hF a ha
      obtain ⟨_, y2⟩ := hF a' ha'
      rw [← e] at y2
      exact u a ha a' ha' _ x1 x2 y2
    · intro b
      rw [List.mem_map]
      constructor
      · rintro ⟨a, ha, rfl⟩
        exact (hF a ha).1
      · intro hb
        obtain ⟨a, ha, hab⟩ := h2 b hb
        exact ⟨a, ha, u' a ha _ (hF a ha).1 b hb (hF a ha).2 hab⟩
  · have e : l = [] := List.eq_nil_iff_forall_not_mem.2 fun a ha => by
      obtain ⟨b, _⟩ := h1 a ha
      exact hne ⟨b⟩
    have e' : l' = [] := List.eq_nil_iff_forall_not_mem.2 fun b _ => hne ⟨b⟩
    rw [e, e']
    exact .of_forall₂ .nil

theorem once_eq {α : Type} {R : α → α → Prop} {l : List α} (h : l.Pairwise fun a b => ¬ R a b)
    (hs : ∀ a ∈ l, ∀ b ∈ l, R a b → R b a) : ∀ a ∈ l, ∀ b ∈ l, R a b → a = b := by
  induction h with
  | nil => exact fun a ha => nomatch ha
  | @cons c cs h1 _ ih =>
    intro a ha b hb hab
    rcases List.mem_cons.1 ha with rfl | ha' <;> rcases List.mem_cons.1 hb with rfl | hb'
    · rfl
    · exact absurd hab (h1 b hb')
    · exact absurd (hs _ ha _ hb hab) (h1 a ha')
    · exact ih (fun a ha b hb => hs a (by simp [ha]) b (by simp [hb])) a ha' b hb' hab

theorem Spec.Matched.flatMap {α β γ δ : Type} {R : α → β → Prop} {S : γ → δ → Prop} {l : List α} {l' : List β}
    (h : Matched R l l') (F : α → List γ) (G : β → List δ) (hR : ∀ a b, R a b → Matched S (F a) (G b)) :
    Matched S (l.flatMap F) (l'.flatMap G) := by
  obtain ⟨m, h1, h2⟩ := h
  refine Matched.perm_right ?_ (List.Perm.flatMap_right G h2)
  clear h2
  induction h1 with
  | nil => exact .of_forall₂ .nil
  | cons h _ ih =>
    rw [List.flatMap_cons, List.flatMap_cons]
    exact (hR _ _ h).append ih

theorem Spec.Matched.imp {α β : Type} {R S : α → β → Prop} {l : List α} {l' : List β} (h : Matched R l l')
    (hRS : ∀ a ∈ l, ∀ b ∈ l', R a b → S a b) : Matched S l l' := by
  obtain ⟨m, h1, h2⟩ := h
  refine ⟨m, ?_, h2⟩
  replace hRS : ∀ a ∈ l, ∀ b ∈ m, R a b → S a b := fun a ha b hb => hRS a ha b (h2.mem_iff.1 hb)
  clear h2
  induction h1 with
  | nil => exact .nil
  | cons h _ ih =>
    exact .cons (hRS _ (by simp) _ (by simp) h) (ih fun a ha b hb => hRS a (by simp [ha]) b (by simp [hb]))

/-! ### The terrain -/

section
variable {σ : Pt → Pt} {d d' : DataMap} (t : Turned σ d d')
include t

theorem data_turned (p : Pt) : Data d' (σ p) ↔ Data d p := by
  unfold Data
  rw [t.inB, t.el, t.nodata]

theorem level_turned (p q : Pt) : Level d' (σ p) (σ q) ↔ Level d p q := by
  unfold Level
  rw [t.adj, data_turned t, t.el, t.el]

/-- Relations that correspond step by step have corresponding closures. -/
theorem star_turned {R R' : Pt → Pt → Prop} (h : ∀ p q, R' (σ p) (σ q) ↔ R p q) (p q : Pt) :
    Relation.ReflTransGen R' (σ p) (σ q) ↔ Relation.ReflTransGen R p q := by
  constructor
  · intro g
    have gen : ∀ r, Relation.ReflTransGen R' (σ p) r → ∃ s, σ s = r ∧ Relation.ReflTransGen R p s := by
      intro r hr
      induction hr with
      | refl => exact ⟨p, rfl, .refl⟩
      | @tail u v _ h2 ih =>
        obtain ⟨u, rfl, hu⟩ := ih
        obtain ⟨v, rfl⟩ := t.onto v
        exact ⟨v, rfl, hu.tail ((h _ _).1 h2)⟩
    obtain ⟨s, e, hs⟩ := gen _ g
    rw [← t.inj _ _ e]
    exact hs
  · intro g
    induction g with
    | refl => exact .refl
    | tail _ h2 ih => exact ih.tail ((h _ _).2 h2)

theorem flat_turned (p q : Pt) : Flat d' (σ p) (σ q) ↔ Flat d p q := star_turned t (level_turned t) p q

/-- The area of the other raster is that of cell `q`. -/
structure AreaOf (σ : Pt → Pt) (d d' : DataMap) (q q' : Pt) : Prop where
  data : Data d q
  flat : Flat d' (σ q) q'

variable {q q' : Pt} (h : AreaOf σ d d' q q')
include h

theorem areaOf_flat (m : Pt) : Flat d' q' (σ m) ↔ Flat d q m := by
  rw [← flat_turned t]
  exact ⟨fun g => h.flat.trans g, fun g => (h.flat.symm ((data_turned t q).2 h.data)).trans g⟩

theorem areaOf_el : el d' q' = el d q := by
  rw [← t.el, (flat_data ((data_turned t q).2 h.data) h.flat).2]

theorem areaOf_rim (r : Pt) : Rim d' q' (σ r) ↔ Rim d q r := by
  unfold Rim
  rw [data_turned t, t.el, areaOf_el t h]
  refine and_congr Iff.rfl (and_congr Iff.rfl ⟨?_, ?_⟩)
  · rintro ⟨m, h1, h2⟩
    obtain ⟨m, rfl⟩ := t.onto m
    exact ⟨m, (areaOf_flat t h m).1 h1, (t.adj _ _).1 h2⟩
  · rintro ⟨m, h1, h2⟩
    exact ⟨σ m, (areaOf_flat t h m).2 h1, (t.adj _ _).2 h2⟩

theorem areaOf_highRim (r : Pt) : HighRim d' q' (σ r) ↔ HighRim d q r := by
  unfold HighRim
  rw [areaOf_rim t h, t.el, areaOf_el t h]

theorem areaOf_onBorder : OnBorder d' q' ↔ OnBorder d q := by
  constructor
  · rintro ⟨m, h1, h2⟩
    obtain ⟨m, rfl⟩ := t.onto m
    exact ⟨m, (areaOf_flat t h m).1 h1, (t.border m).1 h2⟩
  · rintro ⟨m, h1, h2⟩
    exact ⟨σ m, (areaOf_flat t h m).2 h1, (t.border m).2 h2⟩

omit h in
theorem turn3_inj {a b : P3} (e : turn3 σ a = turn3 σ b) : a = b := by
  cases a with | mk ax ay ae =>
  cases b with | mk bx by' be =>
  simp only [turn3, P3.mk.injEq] at e
  have := t.inj _ _ (Prod.ext e.1 e.2.1)
  simp only [P3.xy, Prod.mk.injEq] at this
  rw [P3.mk.injEq]
  exact ⟨this.1, this.2, e.2.2⟩

omit t h in
theorem turn3_xy (a : P3) : (turn3 σ a).xy = σ a.xy := rfl

omit h in
/-- A point with the height of its cell comes from one. -/
theorem turn3_back (a' : P3) : ∃ a, a' = turn3 σ a := by
  obtain ⟨p, hp⟩ := t.onto a'.xy
  refine ⟨⟨p.1, p.2, a'.e⟩, ?_⟩
  cases a'
  simp only [turn3, hp, P3.xy]

omit h in
theorem components_turned {S S' : List P3} {L L' : List (List P3)} (hS : ∀ a, a ∈ S ↔ turn3 σ a ∈ S') (h : IsComponents S L)
    (h' : IsComponents S' L') : Matched (fun c c' => c'.Perm (c.map (turn3 σ))) L L' :=
  components_matched (turn3 σ) (fun _ _ => turn3_inj t) hS (fun a' _ => turn3_back t a') (fun a b => t.adj a.xy b.xy) h h'

theorem high_turned {L L' : List (List P3)} (hL : IsHigh d q L) (hL' : IsHigh d' q' L') :
    Matched (fun c c' => c'.Perm (c.map (turn3 σ))) L L' := by
  obtain ⟨S, hS, hc⟩ := hL
  obtain ⟨S', hS', hc'⟩ := hL'
  refine components_turned t (fun a => ?_) hc hc'
  rw [hS, hS', turn3_xy, areaOf_highRim t h, t.el]
  exact Iff.rfl

theorem lower_turned {L L' : List (List P3)} (hL : IsLower d q L) (hL' : IsLower d' q' L') :
    Matched (fun c c' => c'.Perm (c.map (turn3 σ))) L L' := by
  obtain ⟨S, M, hS, hc, rfl⟩ := hL
  obtain ⟨S', M', hS', hc', rfl⟩ := hL'
  refine (components_turned t (fun a => ?_) hc hc').filter fun c c' hcc => ?_
  · rw [hS, hS', turn3_xy, areaOf_rim t h, t.border, t.el]
    exact Iff.rfl
  · rw [decide_eq_true_eq, decide_eq_true_eq, areaOf_el t h]
    constructor
    · intro hl p hp
      obtain ⟨p0, hp0, rfl⟩ := List.mem_map.1 (hcc.mem_iff.1 hp)
      exact hl p0 hp0
    · intro hl p hp
      exact hl (turn3 σ p) (hcc.mem_iff.2 (List.mem_map_of_mem hp))

theorem stretches_turned {L L' : List (List P3)} (hL : IsStretches d q L) (hL' : IsStretches d' q' L') :
    Matched (fun c c' => c'.Perm (c.map (turn3 σ))) L L' := by
  obtain ⟨S, ⟨_, hS⟩, hc⟩ := hL
  obtain ⟨S', ⟨_, hS'⟩, hc'⟩ := hL'
  refine components_turned t (fun a => ?_) hc hc'
  rw [hS, hS', turn3_xy, areaOf_flat t h, t.border, t.el]
  exact Iff.rfl

theorem border_turned {S S' : List P3} (hS : BorderList d q S) (hS' : BorderList d' q' S') : S'.Perm (S.map (turn3 σ)) := by
  refine (List.perm_ext_iff_of_nodup hS'.1 (hS.1.map fun a b => turn3_inj t)).2 fun p' => ?_
  obtain ⟨p, rfl⟩ := turn3_back t p'
  rw [List.mem_map_of_injective fun a b => turn3_inj t, hS'.2, hS.2, turn3_xy, areaOf_flat t h, t.border, t.el]
  exact Iff.rfl

theorem area_turned {mp mp' : Option (List MPt)} (hm : RecordsArea d q mp) (hm' : RecordsArea d' q' mp') :
    (mp = none ∧ mp' = none) ∨ ∃ a b, mp = some a ∧ mp' = some b ∧ b.Perm (a.map (turnM σ)) := by
  have one : (∀ m, Flat d q m ↔ m = q) ↔ ∀ m, Flat d' q' m ↔ m = q' := by
    constructor
    · intro g
      obtain ⟨r, rfl⟩ := t.onto q'
      obtain rfl : r = q := (g r).1 ((flat_turned t q r).1 h.flat)
      intro m
      obtain ⟨m, rfl⟩ := t.onto m
      rw [areaOf_flat t h, g]
      exact ⟨fun e => by rw [e], fun e => t.inj _ _ e⟩
    · intro g
      have e : σ q = q' := (g _).1 ((areaOf_flat t h q).2 .refl)
      intro m
      rw [← areaOf_flat t h, g, ← e]
      exact ⟨fun e => t.inj _ _ e, fun e => by rw [e]⟩
  rcases hm with ⟨rfl, h1⟩ | ⟨pts, rfl, n1, m1, z, hz, hzf⟩ <;>
    rcases hm' with ⟨rfl, h2⟩ | ⟨pts', rfl, n2, m2, z', hz', hzf'⟩
  · exact Or.inl ⟨rfl, rfl⟩
  · exact absurd ((one.1 h1 z').1 hzf') hz'
  · exact absurd ((one.2 h2 z).1 hzf) hz
  · refine Or.inr ⟨_, _, rfl, rfl, ?_⟩
    have : pts'.Perm (pts.map σ) := by
      refine (List.perm_ext_iff_of_nodup n2 (n1.map fun a b => t.inj a b)).2 fun m => ?_
      obtain ⟨m, rfl⟩ := t.onto m
      rw [m2, areaOf_flat t h, List.mem_map_of_injective fun a b => t.inj a b, m1]
    have := this.map fun m : Pt => (⟨m.1, m.2, none⟩ : MPt)
    rw [List.map_map] at this ⊢
    exact this

omit h in
theorem touch_turned {c c' l l' : List P3} (hc : c'.Perm (c.map (turn3 σ))) (hl : l'.Perm (l.map (turn3 σ))) :
    ListsTouch c l ↔ ListsTouch c' l' := by
  constructor
  · rintro ⟨p, hp, q, hq, h⟩
    exact ⟨turn3 σ p, hc.mem_iff.2 (List.mem_map_of_mem hp), turn3 σ q, hl.mem_iff.2 (List.mem_map_of_mem hq), (t.adj _ _).2 h⟩
  · rintro ⟨p, hp, q, hq, h⟩
    obtain ⟨p0, hp0, rfl⟩ := List.mem_map.1 (hc.mem_iff.1 hp)
    obtain ⟨q0, hq0, rfl⟩ := List.mem_map.1 (hl.mem_iff.1 hq)
    exact ⟨p0, hp0, q0, hq0, (t.adj _ _).1 h⟩

omit h in
theorem separates_turned {lower lower' : List (List P3)} (hl : Matched (fun c c' => c'.Perm (c.map (turn3 σ))) lower lower')
    {c c' : List P3} (hc : c'.Perm (c.map (turn3 σ))) : Separates lower c ↔ Separates lower' c' := by
  unfold Separates touchCount
  rw [(hl.filter (p := fun l => decide (ListsTouch c l)) (q := fun l => decide (ListsTouch c' l)) fun a b hab => by
    rw [decide_eq_true_eq, decide_eq_true_eq]
    exact touch_turned t hc hab).length]

omit t h in
theorem flatten_turned {L L' : List (List P3)} (h : Matched (fun c c' => c'.Perm (c.map (turn3 σ))) L L') :
    L'.flatten.Perm (L.flatten.map (turn3 σ)) := by
  obtain ⟨m, h1, h2⟩ := h
  refine h2.flatten.symm.trans ?_
  clear h2
  induction h1 with
  | nil => exact .refl _
  | cons h _ ih =>
    rw [List.flatten_cons, List.flatten_cons, List.map_append]
    exact h.append ih

omit t h in
theorem grown_turned {mp mp' : Option (List MPt)} {L L' : List (List P3)}
    (h : Matched (fun c c' => c'.Perm (c.map (turn3 σ))) L L')
    (hm : (mp = none ∧ mp' = none) ∨ ∃ a b, mp = some a ∧ mp' = some b ∧ b.Perm (a.map (turnM σ))) (k : Nat) :
    (grown mp L k = none ∧ grown mp' L' k = none) ∨
      ∃ a b, grown mp L k = some a ∧ grown mp' L' k = some b ∧ b.Perm (a.map (turnM σ)) := by
  induction k with
  | zero => exact hm
  | succ k ih =>
    rcases ih with ⟨a, b⟩ | ⟨a, b, ha, hb, hp⟩
    · left
      simp [grown, a, b]
    · right
      refine ⟨_, _, by rw [grown, ha]; rfl, by rw [grown, hb]; rfl, ?_⟩
      rw [List.map_append]
      refine hp.append ?_
      have := (flatten_turned h).map MPt.ofP3
      rw [List.map_map] at this ⊢
      exact this

end

/-! ### Features of an area -/

/-- Features that correspond. -/
def SameFound (σ : Pt → Pt) (d : DataMap) (f g : Feature) : Prop :=
  SameOutlet σ f g ∧ (f.kind ≠ .runoff → SameTurned σ d f g)

theorem sameFound_of {σ : Pt → Pt} {d : DataMap} {f g : Feature} (h : SameTurned σ d f g) (he : g.elevation = f.elevation) :
    SameFound σ d f g := ⟨⟨h.kind, he, h.edge, h.cells, h.edgePoints⟩, fun _ => h⟩

theorem place_turned {σ : Pt → Pt} {d d' : DataMap} (t : Turned σ d d') {q q' : Pt} (h : AreaOf σ d d' q q') {f g : Feature}
    (hf : (f.lat, f.lon) = d.xyToLatLon q.1 q.2) (hg : (g.lat, g.lon) = d'.xyToLatLon q'.1 q'.2)
    (hef : f.elevation = el d q) (heg : g.elevation = el d' q') : ∃ p r, LocatedAt d p f ∧ LocatedAt d r g ∧ Flat d p r := by
  obtain ⟨r, rfl⟩ := t.onto q'
  have hr := (flat_turned t q r).1 h.flat
  refine ⟨q, r, ⟨congrArg Prod.fst hf, congrArg Prod.snd hf, hef⟩, ⟨?_, ?_, ?_⟩, hr⟩
  · rw [← t.lat]
    exact congrArg Prod.fst hg
  · rw [← t.lon]
    exact congrArg Prod.snd hg
  · rw [heg, t.el]

/-- The features of one area. -/
theorem features_turned {σ : Pt → Pt} {d d' : DataMap} (T : Turned σ d d') {q q' : Pt} (h : AreaOf σ d d' q q')
    {mp mp' : Option (List MPt)} {fs fs' : List Feature} {high high' lower lower' str str' : List (List P3)}
    {bps bps' : List P3} (hm : RecordsArea d q mp) (hm' : RecordsArea d' q' mp')
    (t : RegionTable d q mp fs high lower str bps) (t' : RegionTable d' q' mp' fs' high' lower' str' bps') :
    Matched (SameFound σ d) fs fs' := by
  have ha := area_turned T h hm hm'
  have hb := border_turned T h t.isBps t'.isBps
  have hh := high_turned T h t.isHigh t'.isHigh
  have hl := lower_turned T h t.isLower t'.isLower
  have hs := stretches_turned T h t.isStr t'.isStr
  have he := areaOf_el T h
  have hnil : high' = [] ↔ high = [] := by
    rw [← List.length_eq_zero_iff, ← List.length_eq_zero_iff, hh.length]
  have ob := areaOf_onBorder T h
  have summit : ∀ (e : Bool) (b b' : List P3), b'.Perm (b.map (turn3 σ)) →
      SameFound σ d (mkSummit (d.xyToLatLon q.1 q.2) (el d q) mp e b) (mkSummit (d'.xyToLatLon q'.1 q'.2) (el d' q') mp' e b') :=
    fun e b b' hb => sameFound_of ⟨rfl, place_turned T h rfl rfl rfl rfl, rfl, ha, hb, .of_forall₂ .nil⟩ he
  have saddle : ∀ (m m' : Option (List MPt)) (e : Bool) (b b' : List P3), b'.Perm (b.map (turn3 σ)) →
      ((m = none ∧ m' = none) ∨ ∃ a b, m = some a ∧ m' = some b ∧ b.Perm (a.map (turnM σ))) →
      SameFound σ d (mkSaddle (d.xyToLatLon q.1 q.2) (el d q) m e b high)
        (mkSaddle (d'.xyToLatLon q'.1 q'.2) (el d' q') m' e b' high') :=
    fun m m' e b b' hb ha => sameFound_of ⟨rfl, place_turned T h rfl rfl rfl rfl, rfl, ha, hb, hh⟩ he
  by_cases hob : OnBorder d q
  · by_cases h1 : high = []
    · rw [t.borderSummit hob h1, t'.borderSummit (ob.2 hob) (hnil.2 h1)]
      exact .of_forall₂ (.cons (summit true bps bps' hb) (.cons ⟨⟨rfl, he, rfl, ha, hb⟩, fun c => absurd rfl c⟩ .nil))
    · by_cases h2 : lower.length ≤ 1
      · rw [t.borderFew hob h1 h2, t'.borderFew (ob.2 hob) (fun c => h1 (hnil.1 c)) (by rw [hl.length]; exact h2), hh.length]
        by_cases h3 : 2 ≤ high.length
        · rw [if_pos h3, if_pos h3]
          exact .of_forall₂ (.cons (saddle mp mp' true bps bps' hb ha) .nil)
        · rw [if_neg h3, if_neg h3]
          exact .of_forall₂ .nil
      · obtain ⟨cs, rs, rem, p1, p2, p3, p4, rfl⟩ := t.borderMany hob h1 (by omega)
        obtain ⟨cs', rs', rem', p1', p2', p3', p4', rfl⟩ := t'.borderMany (ob.2 hob) (fun c => h1 (hnil.1 c))
          (by rw [hl.length]; omega)
        have hcs : Matched (fun c c' => c'.Perm (c.map (turn3 σ))) cs cs' :=
          ((hs.filter (p := fun c => decide (Separates lower c)) (q := fun c => decide (Separates lower' c))
            fun a b hab => by
              rw [decide_eq_true_eq, decide_eq_true_eq]
              exact separates_turned T hl hab).perm_left p1).perm_right p1'.symm
        have hrs : Matched (SameFound σ d) rs rs' := by
          obtain ⟨m, m1, m2⟩ := hcs
          obtain ⟨r, r1, r2⟩ := List.perm_comp_forall₂ m2 p2'
          refine ⟨r, ?_, r2⟩
          clear * - m1 r1 p2 he
          induction m1 generalizing rs r with
          | nil =>
            cases p2
            cases r1
            exact .nil
          | cons h _ ih =>
            cases p2 with
            | cons a1 a2 =>
              cases r1 with
              | cons b1 b2 =>
                refine .cons ?_ (ih _ a2 _ b2)
                obtain ⟨⟨k1, k2, k3, k4, k5, _⟩, _⟩ := a1
                obtain ⟨⟨k1', k2', k3', k4', k5', _⟩, _⟩ := b1
                refine ⟨⟨by rw [k1, k1'], by rw [k2, k2', he], by rw [k3, k3'], Or.inl ⟨k5, k5'⟩, ?_⟩, fun c => absurd k1 c⟩
                rw [k4, k4']
                exact h
        refine hrs.append ?_
        rw [hh.length, hrs.length]
        by_cases h3 : 2 ≤ high.length
        · rw [if_pos h3, if_pos h3]
          have hall : (∀ c ∈ str', Separates lower' c) ↔ ∀ c ∈ str, Separates lower c := by
            constructor
            · intro h c hc
              obtain ⟨c', hc', hcc⟩ := hs.left c hc
              exact (separates_turned T hl hcc).2 (h c' hc')
            · intro h c' hc'
              obtain ⟨c, hc, hcc⟩ := hs.right c' hc'
              exact (separates_turned T hl hcc).1 (h c hc)
          have hg := grown_turned hh ha rs.length
          by_cases h4 : ∀ c ∈ str, Separates lower c
          · rw [if_pos h4, if_pos (hall.2 h4)]
            exact .of_forall₂ (.cons (saddle _ _ false [] [] (.refl _) hg) .nil)
          · rw [if_neg h4, if_neg (fun c => h4 (hall.1 c))]
            refine .of_forall₂ (.cons (saddle _ _ true rem rem' ?_ hg) .nil)
            refine (List.perm_ext_iff_of_nodup p3' (p3.map fun a b => turn3_inj T)).2 ?_
            have hfl := flatten_turned hcs
            intro p'
            rw [p4', hb.mem_iff, hfl.mem_iff, List.mem_map, List.mem_map, List.mem_map]
            constructor
            · rintro ⟨⟨p, hp, rfl⟩, hn⟩
              exact ⟨p, (p4 p).2 ⟨hp, fun c => hn ⟨p, c, rfl⟩⟩, rfl⟩
            · rintro ⟨p, hp, rfl⟩
              obtain ⟨a, b⟩ := (p4 p).1 hp
              refine ⟨⟨p, a, rfl⟩, ?_⟩
              rintro ⟨p2, c, e⟩
              exact b (turn3_inj T e ▸ c)
        · rw [if_neg h3, if_neg h3]
          exact .of_forall₂ .nil
  · rw [t.interior hob, t'.interior (fun c => hob (ob.1 c))]
    by_cases h1 : high = []
    · rw [if_pos h1, if_pos (hnil.2 h1)]
      exact .of_forall₂ (.cons (summit false [] [] (.refl _)) .nil)
    · rw [if_neg h1, if_neg (fun c => h1 (hnil.1 c)), hh.length]
      by_cases h2 : 2 ≤ high.length
      · rw [if_pos h2, if_pos h2]
        exact .of_forall₂ (.cons (saddle mp mp' false [] [] (.refl _) ha) .nil)
      · rw [if_neg h2, if_neg h2]
        exact .of_forall₂ .nil

end PyProm
