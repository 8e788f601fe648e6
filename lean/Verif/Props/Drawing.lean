import Verif.Spec.Drawing
import Verif.Props.Kml
import Verif.Props.DivideTree
import Verif.Props.RunFamily
import Verif.Props.History

/-
Properties of drawings of maps and regions (C110)
-/
namespace PyProm
open Spec

/-! ### Folders of a document -/

theorem folder_mem (s : KmlSt) (n : List Char) (ps : List Placemark) : (n, ps) ∈ s.document.folders ↔
    ((n = "Saddles".toList ∧ ps = s.saddles) ∨ (n = "Summits".toList ∧ ps = s.summits) ∨
      (n = "SpotElevations".toList ∧ ps = s.spots) ∨ (n = "Runoffs".toList ∧ ps = s.runoffs) ∨
      (n = "Linkers".toList ∧ ps = s.linkers) ∨ (n = "SummitDomains".toList ∧ ps = s.domains)) ∧ ps ≠ [] := by
  unfold KmlSt.document
  simp only [List.mem_filter, List.mem_cons, List.not_mem_nil, or_false, Prod.mk.injEq, Bool.not_eq_true', ne_eq,
    List.isEmpty_eq_false_iff]

theorem inFolder_of {s : KmlSt} {n : String} {ps : List Placemark}
    (h : ∀ qs, (n.toList, qs) ∈ s.document.folders ↔ qs = ps ∧ qs ≠ []) (p : Placemark) :
    InFolder s.document n p ↔ p ∈ ps := by
  constructor
  · rintro ⟨qs, h1, h2⟩
    rw [← ((h qs).1 h1).1]
    exact h2
  · intro hp
    exact ⟨ps, (h ps).2 ⟨rfl, fun e => by rw [e] at hp; cases hp⟩, hp⟩

theorem folder_saddles (s : KmlSt) (qs : List Placemark) :
    ("Saddles".toList, qs) ∈ s.document.folders ↔ qs = s.saddles ∧ qs ≠ [] := by
  rw [folder_mem]; simp

theorem folder_summits (s : KmlSt) (qs : List Placemark) :
    ("Summits".toList, qs) ∈ s.document.folders ↔ qs = s.summits ∧ qs ≠ [] := by
  rw [folder_mem]; simp

theorem folder_spots (s : KmlSt) (qs : List Placemark) :
    ("SpotElevations".toList, qs) ∈ s.document.folders ↔ qs = s.spots ∧ qs ≠ [] := by
  rw [folder_mem]; simp

theorem folder_runoffs (s : KmlSt) (qs : List Placemark) :
    ("Runoffs".toList, qs) ∈ s.document.folders ↔ qs = s.runoffs ∧ qs ≠ [] := by
  rw [folder_mem]; simp

theorem folder_linkers (s : KmlSt) (qs : List Placemark) :
    ("Linkers".toList, qs) ∈ s.document.folders ↔ qs = s.linkers ∧ qs ≠ [] := by
  rw [folder_mem]; simp

theorem folder_domains (s : KmlSt) (qs : List Placemark) :
    ("SummitDomains".toList, qs) ∈ s.document.folders ↔ qs = s.domains ∧ qs ≠ [] := by
  rw [folder_mem]; simp

/-! ### What was passed and what is shown -/

theorem mem_marks {w : Wkt} {ts : List FType} {L : List KLeaf} {p : Placemark} :
    p ∈ marks w ts L ↔ ∃ t f, t ∈ ts ∧ (∃ l ∈ L, l.filed = some (t, f)) ∧ p = spotPm w t f := by
  unfold marks
  simp only [List.mem_filterMap, Prod.exists]
  constructor
  · rintro ⟨t, f, ⟨l, hl, e⟩, h⟩
    by_cases ht : t ∈ ts
    · rw [if_pos ht] at h
      exact ⟨t, f, ht, ⟨l, hl, e⟩, (Option.some.inj h).symm⟩
    · rw [if_neg ht] at h
      cases h
  · rintro ⟨t, f, ht, ⟨l, hl, e⟩, rfl⟩
    exact ⟨t, f, ⟨l, hl, e⟩, by rw [if_pos ht]⟩

/-- A feature that was passed is shown. -/
theorem firsts_shown {w : Wkt} {ts : List FType} {L : List KLeaf} {l : KLeaf} {t : FType} {f : KSpot} (hl : l ∈ L)
    (h : l.filed = some (t, f)) (ht : t ∈ ts) :
    ∃ p ∈ firsts pmKey (marks w ts L), p.kind = some t ∧ p.geometry = w.point f.lon f.lat := by
  have hm : spotPm w t f ∈ marks w ts L := mem_marks.2 ⟨t, f, ht, ⟨l, hl, h⟩, rfl⟩
  obtain ⟨p, hp, e⟩ := List.mem_map.1 ((firsts_keys pmKey _ _).2 (List.mem_map_of_mem hm))
  exact ⟨p, hp, congrArg Prod.fst e, congrArg Prod.snd e⟩

/-- What is shown was passed. -/
theorem firsts_passed {w : Wkt} {ts : List FType} {L : List KLeaf} {p : Placemark} (hp : p ∈ firsts pmKey (marks w ts L)) :
    ∃ t f, t ∈ ts ∧ (∃ l ∈ L, l.filed = some (t, f)) ∧ p = spotPm w t f :=
  mem_marks.1 ((firsts_sublist _ _).subset hp)

theorem Holds.shown {w : Wkt} {L : List KLeaf} {s : KmlSt} (h : Holds w L s) {l : KLeaf} {t : FType} {f : KSpot} (hl : l ∈ L)
    (hf : l.filed = some (t, f)) :
    ∃ p, InFolder s.document (folderName t) p ∧ p.kind = some t ∧ p.geometry = w.point f.lon f.lat := by
  cases t
  · obtain ⟨p, h1, h2⟩ := firsts_shown (w := w) (ts := [.summit]) hl hf (by simp)
    exact ⟨p, (inFolder_of (folder_summits s) p).2 (h.summits ▸ h1), h2⟩
  · obtain ⟨p, h1, h2⟩ := firsts_shown (w := w) (ts := [.runoff]) hl hf (by simp)
    exact ⟨p, (inFolder_of (folder_runoffs s) p).2 (h.runoffs ▸ h1), h2⟩
  · obtain ⟨p, h1, h2⟩ := firsts_shown (w := w) (ts := [.basin, .saddle]) hl hf (by simp)
    exact ⟨p, (inFolder_of (folder_saddles s) p).2 (h.saddles ▸ h1), h2⟩
  · obtain ⟨p, h1, h2⟩ := firsts_shown (w := w) (ts := [.basin, .saddle]) hl hf (by simp)
    exact ⟨p, (inFolder_of (folder_saddles s) p).2 (h.saddles ▸ h1), h2⟩
  · obtain ⟨p, h1, h2⟩ := firsts_shown (w := w) (ts := [.spot]) hl hf (by simp)
    exact ⟨p, (inFolder_of (folder_spots s) p).2 (h.spots ▸ h1), h2⟩

theorem Holds.line_shown {w : Wkt} {L : List KLeaf} {s : KmlSt} (h : Holds w L s) {i : Nat} {a b : KSpot}
    (hl : .linker i a b ∈ L) : ∃ p, InFolder s.document "Linkers" p ∧ p.geometry = lineOf w a b := by
  have hm : (⟨none, lineOf w a b, 0⟩ : Placemark) ∈ (L.filterMap asLine).map fun p => ⟨none, lineOf w p.2.1 p.2.2, 0⟩ :=
    List.mem_map.2 ⟨(i, a, b), List.mem_filterMap.2 ⟨_, hl, rfl⟩, rfl⟩
  obtain ⟨p, hp, e⟩ := List.mem_map.1 ((firsts_keys pmKey _ _).2 (List.mem_map_of_mem (f := pmKey) hm))
  exact ⟨p, (inFolder_of (folder_linkers s) p).2 (h.linkers ▸ hp), congrArg Prod.snd e⟩

theorem Holds.line_passed {w : Wkt} {L : List KLeaf} {s : KmlSt} (h : Holds w L s) {p : Placemark}
    (hp : InFolder s.document "Linkers" p) : ∃ i a b, .linker i a b ∈ L ∧ p.geometry = lineOf w a b := by
  have := (inFolder_of (folder_linkers s) p).1 hp
  rw [h.linkers] at this
  obtain ⟨⟨i, a, b⟩, h1, h2⟩ := List.mem_map.1 ((firsts_sublist _ _).subset this)
  obtain ⟨l, hl, e⟩ := List.mem_filterMap.1 h1
  cases l <;> simp only [asLine, Option.some.injEq, Prod.mk.injEq, reduceCtorEq] at e
  obtain ⟨rfl, rfl, rfl⟩ := e
  exact ⟨_, _, _, hl, by rw [← h2]⟩

theorem lineOf_drawn (w : Wkt) (a b : Feature) (i j : Nat) : lineOf w (a.drawn i) (b.drawn j) = lineText w a b := rfl

/-! ### The leaves of a map -/

variable {m : DMap} {fl : Flags}

theorem drawSaddle_filed {k : Nat} {o : SObj} (ho : m.st.objs[k]? = some o) (t : FType) (f : KSpot) :
    (m.drawSaddle fl k).filed = some (t, f) ↔ ShownAs fl k o t ∧ f = o.f.drawn k := by
  unfold DMap.drawSaddle
  rw [ho]
  dsimp only
  by_cases hk : o.f.kind = .runoff
  · rw [if_pos hk]
    constructor
    · rintro ⟨⟩; exact ⟨.runoff hk, rfl⟩
    · rintro ⟨h, rfl⟩
      cases h with
      | runoff => rfl
      | basin h => exact absurd hk h
      | saddle h => exact absurd hk h
  · rw [if_neg hk]
    by_cases hs : SaddleOut fl k
    · rw [(saddleDisq_iff fl k).2 hs]
      constructor
      · rintro ⟨⟩; exact ⟨.basin hk hs, rfl⟩
      · rintro ⟨h, rfl⟩
        cases h with
        | runoff h => exact absurd h hk
        | basin => rfl
        | saddle _ h => exact absurd hs h
    · rw [Bool.eq_false_iff.2 fun h => hs ((saddleDisq_iff fl k).1 h)]
      constructor
      · rintro ⟨⟩; exact ⟨.saddle hk hs, rfl⟩
      · rintro ⟨h, rfl⟩
        cases h with
        | runoff h => exact absurd h hk
        | basin _ h => exact absurd h hs
        | saddle => rfl

theorem drawSaddle_ne {k : Nat} {o : SObj} (ho : m.st.objs[k]? = some o) : m.drawSaddle fl k ≠ .other ∧
    asLine (m.drawSaddle fl k) = none ∧ asDomain (m.drawSaddle fl k) = none := by
  unfold DMap.drawSaddle
  rw [ho]
  dsimp only
  split <;> exact ⟨nofun, rfl, rfl⟩

theorem drawSummit_some {D : Nat} {f : Feature} (h : m.summits[D]? = some f) : m.drawSummit D = .summit (f.drawn D) := by
  unfold DMap.drawSummit
  rw [h]

theorem drawDomain_some {D : Nat} {f : Feature} (h : m.summits[D]? = some f) : m.drawDomain D = .domain D (f.drawn D) := by
  unfold DMap.drawDomain
  rw [h]

theorem drawLinker_some {i : Nat} {l : LinkRec} {o : SObj} {f : Feature} (h1 : m.st.store[i]? = some l)
    (h2 : m.st.objs[l.saddle]? = some o) (h3 : m.summits[l.summit]? = some f) :
    m.drawLinker i = .linker i (o.f.drawn l.saddle) (f.drawn l.summit) := by
  unfold DMap.drawLinker
  rw [h1]
  dsimp only
  rw [h2, h3]

/-- The references of the map lead to objects of the map, and summits are at different places. -/
structure Spec.Drawable (m : DMap) : Prop where
  saddles : ∀ k ∈ m.saddles ++ m.runoffs, ∃ o, m.st.objs[k]? = some o
  linkers : ∀ i ∈ m.linkers, ∃ l o f, m.st.store[i]? = some l ∧ m.st.objs[l.saddle]? = some o ∧ m.summits[l.summit]? = some f ∧
    l.saddle ∈ m.saddles ++ m.runoffs
  domains : ∀ D ∈ m.domains, D < m.summits.length
  summits : m.summits.Pairwise fun f g => ¬ (f.lat = g.lat ∧ f.lon = g.lon)

theorem mem_drawing {l : KLeaf} : l ∈ [m.drawing fl].flatMap features ↔
    (∃ i ∈ m.linkers, l = m.drawLinker i) ∨ (∃ k ∈ m.saddles ++ m.runoffs, l = m.drawSaddle fl k) ∨
    (∃ D, D < m.summits.length ∧ l = m.drawSummit D) ∨ ∃ D ∈ m.domains, l = m.drawDomain D := by
  simp only [List.flatMap_cons, List.flatMap_nil, List.append_nil, DMap.drawing, features, List.mem_append, List.mem_map,
    List.mem_range, eq_comm (a := l)]
  constructor
  · rintro ((((h | ⟨k, h, e⟩) | h) | ⟨k, h, e⟩) | h)
    · exact .inl h
    · exact .inr (.inl ⟨k, .inl h, e⟩)
    · exact .inr (.inr (.inl h))
    · exact .inr (.inl ⟨k, .inr h, e⟩)
    · exact .inr (.inr (.inr h))
  · rintro (h | ⟨k, h | h, e⟩ | h | h)
    · exact .inl (.inl (.inl (.inl h)))
    · exact .inl (.inl (.inl (.inr ⟨k, h, e⟩)))
    · exact .inl (.inr ⟨k, h, e⟩)
    · exact .inl (.inl (.inr h))
    · exact .inr h

theorem range_lookup {α : Type} (l : List α) : (List.range l.length).filterMap (fun i => l[i]?) = l := by
  induction l using List.reverseRecOn with
  | nil => rfl
  | append_singleton l a ih =>
    rw [List.length_append, List.length_singleton, List.range_succ, List.filterMap_append,
      show (List.range l.length).filterMap (fun i => (l ++ [a])[i]?) = (List.range l.length).filterMap fun i => l[i]? from
        List.filterMap_congr fun i hi => List.getElem?_append_left (List.mem_range.1 hi), ih]
    simp

theorem marks_append (w : Wkt) (ts : List FType) (a b : List KLeaf) : marks w ts (a ++ b) = marks w ts a ++ marks w ts b := by
  unfold marks
  rw [List.filterMap_append, List.filterMap_append]

theorem marks_none {w : Wkt} {ts : List FType} {L : List KLeaf} (h : ∀ l ∈ L, ∀ t f, l.filed = some (t, f) → t ∉ ts) :
    marks w ts L = [] := by
  refine List.eq_nil_iff_forall_not_mem.2 fun p hp => ?_
  obtain ⟨t, f, ht, ⟨l, hl, e⟩, _⟩ := mem_marks.1 hp
  exact h l hl t f e ht

theorem marks_summits (w : Wkt) : marks w [.summit] ((List.range m.summits.length).map m.drawSummit) =
    m.summits.map fun f => ⟨some .summit, placeText w f, f.elevation⟩ := by
  rw [marks_summit, List.filterMap_map, List.map_filterMap]
  conv_rhs => rw [← range_lookup m.summits, List.map_filterMap]
  refine List.filterMap_congr fun D _ => ?_
  rw [Function.comp_apply]
  unfold DMap.drawSummit
  cases m.summits[D]? <;> rfl

theorem drawLinker_filed (h : Spec.Drawable m) {i : Nat} (hi : i ∈ m.linkers) : (m.drawLinker i).filed = none ∧
    m.drawLinker i ≠ .other ∧ asDomain (m.drawLinker i) = none := by
  obtain ⟨l, o, f, h1, h2, h3, _⟩ := h.linkers i hi
  rw [drawLinker_some h1 h2 h3]
  exact ⟨rfl, nofun, rfl⟩

theorem drawDomain_filed (h : Spec.Drawable m) {D : Nat} (hD : D ∈ m.domains) : (m.drawDomain D).filed = none ∧
    m.drawDomain D ≠ .other ∧ asLine (m.drawDomain D) = none := by
  rw [drawDomain_some (List.getElem?_eq_getElem (h.domains D hD))]
  exact ⟨rfl, nofun, rfl⟩

theorem drawing_ok (h : Spec.Drawable m) : KLeaf.other ∉ [m.drawing fl].flatMap features := by
  intro hm
  rcases mem_drawing.1 hm with ⟨i, hi, e⟩ | ⟨k, hk, e⟩ | ⟨D, hD, e⟩ | ⟨D, hD, e⟩
  · exact (drawLinker_filed h hi).2.1 e.symm
  · obtain ⟨o, ho⟩ := h.saddles k hk
    exact (drawSaddle_ne ho).1 e.symm
  · rw [drawSummit_some (List.getElem?_eq_getElem hD)] at e
    cases e
  · exact (drawDomain_filed h hD).2.1 e.symm

/-- The types under which the leaves of a map are filed. -/
theorem drawing_filed (h : Spec.Drawable m) {l : KLeaf} (hl : l ∈ [m.drawing fl].flatMap features) {t : FType} {f : KSpot}
    (hf : l.filed = some (t, f)) : (∃ (D : Nat) (g : Feature), m.summits[D]? = some g ∧ t = .summit ∧ f = g.drawn D) ∨
      ∃ k ∈ m.saddles ++ m.runoffs, ∃ o, m.st.objs[k]? = some o ∧ ShownAs fl k o t ∧ f = o.f.drawn k := by
  rcases mem_drawing.1 hl with ⟨i, hi, rfl⟩ | ⟨k, hk, rfl⟩ | ⟨D, hD, rfl⟩ | ⟨D, hD, rfl⟩
  · rw [(drawLinker_filed h hi).1] at hf
    cases hf
  · obtain ⟨o, ho⟩ := h.saddles k hk
    exact .inr ⟨k, hk, o, ho, (drawSaddle_filed ho t f).1 hf⟩
  · rw [drawSummit_some (List.getElem?_eq_getElem hD)] at hf
    cases hf
    exact .inl ⟨D, _, List.getElem?_eq_getElem hD, rfl, rfl⟩
  · rw [(drawDomain_filed h hD).1] at hf
    cases hf

theorem Spec.ShownAs.cases {k : Nat} {o : SObj} {t : FType} (h : ShownAs fl k o t) : t = .runoff ∨ t = .basin ∨ t = .saddle := by
  cases h <;> simp

/-- C110 for every map whose references lead to objects of the map. -/
theorem drawable_drawn (h : Spec.Drawable m) (w : Wkt) (hw : WktOk w) :
    ∃ s, ({} : KmlSt).extend w [m.drawing fl] = (s, true) ∧ MapDrawn w s.document m fl := by
  obtain ⟨s, hs⟩ := extend_ok w [m.drawing fl] {} (drawing_ok h)
  refine ⟨s, hs, ?_⟩
  have H := holds_extend [m.drawing fl] (holds_start w) hs
  rw [List.nil_append] at H
  have hsum : s.summits = m.summits.map fun f => ⟨some .summit, placeText w f, f.elevation⟩ := by
    have e : marks w [.summit] ([m.drawing fl].flatMap features) =
        m.summits.map fun f => ⟨some .summit, placeText w f, f.elevation⟩ := by
      have hno : ∀ ks : List Nat, (∀ k ∈ ks, k ∈ m.saddles ++ m.runoffs) →
          marks w [.summit] (ks.map (m.drawSaddle fl)) = [] := by
        intro ks hks
        refine marks_none fun l hl t f hf ht => ?_
        obtain ⟨k, hk, rfl⟩ := List.mem_map.1 hl
        obtain ⟨o, ho⟩ := h.saddles k (hks k hk)
        rw [List.mem_singleton] at ht
        subst ht
        have := ((drawSaddle_filed ho _ _).1 hf).1.cases
        simp at this
      simp only [List.flatMap_cons, List.flatMap_nil, List.append_nil, DMap.drawing, features, marks_append]
      rw [marks_summits, hno _ fun k hk => List.mem_append_left _ hk, hno _ fun k hk => List.mem_append_right _ hk,
        marks_none (L := m.linkers.map m.drawLinker), marks_none (L := m.domains.map m.drawDomain)]
      · simp
      · intro l hl t f hf
        obtain ⟨D, hD, rfl⟩ := List.mem_map.1 hl
        rw [(drawDomain_filed h hD).1] at hf
        cases hf
      · intro l hl t f hf
        obtain ⟨i, hi, rfl⟩ := List.mem_map.1 hl
        rw [(drawLinker_filed h hi).1] at hf
        cases hf
    rw [H.summits, e, firsts_of_nodup]
    rw [List.map_map, List.nodup_iff_pairwise_ne, List.pairwise_map]
    refine h.summits.imp fun {f g} hfg e => hfg ?_
    obtain ⟨e1, e2⟩ := hw.point _ _ _ _ (congrArg Prod.snd e)
    exact ⟨e2, e1⟩
  have hshown : ∀ k ∈ m.saddles ++ m.runoffs, ∀ o, m.st.objs[k]? = some o → ∀ t, ShownAs fl k o t →
      Drawn w s.document t o.f := by
    intro k hk o ho t ht
    exact H.shown (mem_drawing.2 (.inr (.inl ⟨k, hk, rfl⟩))) ((drawSaddle_filed ho t _).2 ⟨ht, rfl⟩)
  have hsumShown : ∀ (D : Nat) (f : Feature), m.summits[D]? = some f → Drawn w s.document .summit f := by
    intro D f hf
    refine H.shown (mem_drawing.2 (.inr (.inr (.inl ⟨D, lt_of_getElem? hf, rfl⟩)))) (f := f.drawn D) ?_
    rw [drawSummit_some hf]
    rfl
  refine ⟨fun p => ?_, fun ps hps => ?_, fun k hk => ?_, fun p hp => ?_, fun i hi => ?_, fun p hp => ?_, fun p => ?_,
    fun p hp => ?_⟩
  · rw [inFolder_of (folder_summits s), hsum, List.mem_map]
    simp only [eq_comm]
  · rw [((folder_summits s ps).1 hps).1, hsum, List.length_map]
  · obtain ⟨o, ho⟩ := h.saddles k hk
    exact ⟨o, ho, hshown k hk o ho⟩
  · have : ∃ t f, t ≠ .summit ∧ (∃ l ∈ [m.drawing fl].flatMap features, l.filed = some (t, f)) ∧ p = spotPm w t f := by
      rcases hp with hp | hp
      · rw [inFolder_of (folder_saddles s), H.saddles] at hp
        obtain ⟨t, f, ht, h1, h2⟩ := firsts_passed hp
        exact ⟨t, f, by rintro rfl; simp at ht, h1, h2⟩
      · rw [inFolder_of (folder_runoffs s), H.runoffs] at hp
        obtain ⟨t, f, ht, h1, h2⟩ := firsts_passed hp
        exact ⟨t, f, by rintro rfl; simp at ht, h1, h2⟩
    obtain ⟨t, f, ht, ⟨l, hl, hf⟩, rfl⟩ := this
    rcases drawing_filed h hl hf with ⟨_, _, _, e, _⟩ | ⟨k, hk, o, ho, hsh, rfl⟩
    · exact absurd e ht
    · exact ⟨k, hk, o, t, ho, hsh, rfl⟩
  · obtain ⟨l, o, f, h1, h2, h3, h4⟩ := h.linkers i hi
    refine ⟨l, o, f, h1, h2, h3, ?_, hsumShown _ _ h3, hshown _ h4 o h2⟩
    exact H.line_shown (i := i) (a := o.f.drawn l.saddle) (b := f.drawn l.summit)
      (mem_drawing.2 (.inl ⟨i, hi, (drawLinker_some h1 h2 h3).symm⟩))
  · obtain ⟨i, a, b, hl, hg⟩ := H.line_passed hp
    rcases mem_drawing.1 hl with ⟨j, hj, e⟩ | ⟨k, hk, e⟩ | ⟨D, hD, e⟩ | ⟨D, hD, e⟩
    · obtain ⟨l, o, f, h1, h2, h3, h4⟩ := h.linkers j hj
      rw [drawLinker_some h1 h2 h3] at e
      cases e
      exact ⟨i, hj, l, o, f, h1, h2, h3, hg⟩
    · obtain ⟨o, ho⟩ := h.saddles k hk
      have := (drawSaddle_ne (fl := fl) ho).2.1
      rw [← e] at this
      cases this
    · rw [drawSummit_some (List.getElem?_eq_getElem hD)] at e
      cases e
    · have := (drawDomain_filed h hD).2.2
      rw [← e] at this
      cases this
  · rw [inFolder_of (folder_domains s), H.domains, List.mem_map]
    constructor
    · rintro ⟨⟨D, f⟩, h1, rfl⟩
      obtain ⟨l, hl, e⟩ := List.mem_filterMap.1 h1
      rcases mem_drawing.1 hl with ⟨j, hj, rfl⟩ | ⟨k, hk, rfl⟩ | ⟨D', hD, rfl⟩ | ⟨D', hD, rfl⟩
      · rw [(drawLinker_filed h hj).2.2] at e
        cases e
      · obtain ⟨o, ho⟩ := h.saddles k hk
        rw [(drawSaddle_ne ho).2.2] at e
        cases e
      · rw [drawSummit_some (List.getElem?_eq_getElem hD)] at e
        cases e
      · have hg := List.getElem?_eq_getElem (h.domains D' hD)
        rw [drawDomain_some hg] at e
        cases e
        exact ⟨D, hD, _, hg, rfl⟩
    · rintro ⟨D, hD, f, hf, rfl⟩
      exact ⟨(D, f.drawn D), List.mem_filterMap.2 ⟨_, mem_drawing.2 (.inr (.inr (.inr ⟨D, hD, rfl⟩))), by
        rw [drawDomain_some hf]; rfl⟩, rfl⟩
  · rw [inFolder_of (folder_spots s), H.spots] at hp
    obtain ⟨t, f, ht, ⟨l, hl, hf⟩, _⟩ := firsts_passed hp
    rw [List.mem_singleton] at ht
    subst ht
    rcases drawing_filed h hl hf with ⟨_, _, _, e, _⟩ | ⟨k, hk, o, ho, hsh, _⟩
    · cases e
    · have := hsh.cases
      simp at this

/-! ### Maps of runs -/

theorem summits_places {d : DataMap} (hg : Findable d) {sites : List Pt} {fs : List Feature} (h : SummitsAt d sites fs) :
    fs.Pairwise fun f g => ¬ (f.lat = g.lat ∧ f.lon = g.lon) := by
  rw [List.pairwise_iff_getElem]
  intro i j hi hj hij ⟨e1, e2⟩
  have hlen := h.each.length_eq
  have h1 := (List.forall₂_iff_get.1 h.each).2 i (by omega) hi
  have h2 := (List.forall₂_iff_get.1 h.each).2 j (by omega) hj
  have h3 := (List.pairwise_iff_getElem.1 h.once) i j (by omega) (by omega) hij
  have x1 := located_xy hg (h.top _ (List.get_mem _ _)).1.1 h1.located
  have x2 := located_xy hg (h.top _ (List.get_mem _ _)).1.1 h2.located
  simp only [List.get_eq_getElem] at x1 x2
  rw [e1, e2] at x1
  have : sites[i]'(by omega) = sites[j]'(by omega) := Option.some.inj (x1.symm.trans x2)
  rw [this] at h3
  exact h3 .refl

theorem run_drawable {E : SaddleEnv} (hE : RunOk E) {o : Pt → Oracle} {order : List Pt} (ho : IsScan E.d order) {rebuild : Bool}
    (hm : DMap.runSparse E o order rebuild = .ok m) : Spec.Drawable m := by
  obtain ⟨_, _, m0, m1, sites, news, _, _, _, h4, _, _, _, h8, h9⟩ := run_spec hE o order ho rebuild
  cases (hm.symm.trans h8 : Except.ok _ = Except.ok _)
  obtain ⟨m2, g1, _, g2⟩ := C68_containers_closed E hE o order ho rebuild
  cases (hm.symm.trans g1 : Except.ok _ = Except.ok _)
  obtain ⟨m2, k1, _, _, _, k2, _⟩ := C66_collections E hE o order ho rebuild
  cases (hm.symm.trans k1 : Except.ok _ = Except.ok _)
  have hsad : ∀ k ∈ m.saddles ++ m.runoffs, ∃ o, m.st.objs[k]? = some o := by
    intro k hk
    have : k ∈ m.st.walked := by
      rcases List.mem_append.1 hk with hk | hk
      · exact ((h9.mem_saddles k).1 hk).1
      · exact ((h9.mem_runoffs k).1 hk).1
    exact ⟨_, List.getElem?_eq_getElem (h9.inv.walked k this)⟩
  refine ⟨hsad, fun i hi => ?_, fun D hD => ?_, ?_⟩
  · obtain ⟨l, h1, h2, h3⟩ := g2 i hi
    obtain ⟨o, ho⟩ := hsad _ h3
    exact ⟨l, o, _, h1, ho, List.getElem?_eq_getElem h2, h3⟩
  · obtain ⟨i, hi, l, hl, rfl⟩ := (k2 D).1 hD
    obtain ⟨l', h1, h2, _⟩ := g2 i hi
    cases (hl.symm.trans h1 : some _ = some _)
    exact h2
  · rw [h9.summits]
    exact summits_places hE.geo h4.tops

/-- The linkers of saddles and summits lead back to them and to objects of the map. -/
structure Traceable (m : DMap) : Prop where
  sad : ∀ k, ∀ i ∈ m.st.sadLinks k, ∃ l, m.st.store[i]? = some l ∧ l.saddle = k
  sum : ∀ D, ∀ i ∈ m.st.sumLinks D, ∃ l, m.st.store[i]? = some l ∧ l.summit = D
  store : ∀ l ∈ m.st.store, ∃ o f, m.st.objs[l.saddle]? = some o ∧ m.summits[l.summit]? = some f

theorem objs_of_feat {m m' : DMap} (h : m'.st.objs.map (·.f) = m.st.objs.map (·.f)) {k : Nat} {o : SObj}
    (ho : m.st.objs[k]? = some o) : ∃ o', m'.st.objs[k]? = some o' := by
  have hlen := congrArg List.length h
  rw [List.length_map, List.length_map] at hlen
  exact ⟨_, List.getElem?_eq_getElem (hlen ▸ lt_of_getElem? ho)⟩

/-- Detection and purging keep a map drawable. -/
theorem calls_drawable {fuel : Nat} (cs : List MapCall) {m1 : DMap} {f1 : Flags} (hd : Spec.Drawable m) (ht : Traceable m)
    (h : DMap.calls fuel (m, fl) cs = .ok (m1, f1)) : Spec.Drawable m1 ∧ Traceable m1 ∧ m1.summits = m.summits := by
  induction cs generalizing m fl with
  | nil =>
    cases h
    exact ⟨hd, ht, rfl⟩
  | cons c cs ih =>
    unfold DMap.calls at h
    cases c with
    | detect =>
      unfold DMap.call at h
      cases hf : DMap.detectBasins m fuel fl with
      | error e => rw [hf] at h; cases h
      | ok f2 =>
        rw [hf] at h
        exact ih hd ht h
    | purge a b c =>
      have hs := culls_same (m.saddles.filter (purgeSelects fl a b c)) (m, fl)
      unfold DMap.call at h
      dsimp only at h
      have key : Spec.Drawable (m.purge fl a b c).1 ∧ Traceable (m.purge fl a b c).1 ∧ (m.purge fl a b c).1.summits = m.summits := by
        rw [purge_eq]
        have ht' : Traceable (List.foldl cull (m, fl) (m.saddles.filter (purgeSelects fl a b c))).1 := by
          refine ⟨fun k i hi => ?_, fun D i hi => ?_, fun l hl => ?_⟩
          · rw [hs.sad] at hi
            rw [hs.store]
            exact ht.sad k i hi
          · rw [hs.sum] at hi
            rw [hs.store]
            exact ht.sum D i hi
          · rw [hs.store] at hl
            obtain ⟨o, f, h1, h2⟩ := ht.store l hl
            obtain ⟨o', h3⟩ := objs_of_feat hs.feat h1
            exact ⟨o', f, h3, by rw [hs.summits]; exact h2⟩
        refine ⟨⟨fun k hk => ?_, fun i hi => ?_, fun D hD => ?_, ?_⟩, ⟨ht'.sad, ht'.sum, ht'.store⟩, hs.summits⟩
        · have : k ∈ m.saddles ++ m.runoffs := by
            rcases List.mem_append.1 hk with hk | hk
            · exact List.mem_append_left _ (List.mem_filter.1 hk).1
            · exact List.mem_append_right _ (hs.runoffs ▸ hk)
          obtain ⟨o, ho⟩ := hd.saddles k this
          exact objs_of_feat hs.feat ho
        · obtain ⟨k, hk, hi⟩ := List.mem_flatMap.1 hi
          obtain ⟨l, h1, rfl⟩ := ht.sad k i hi
          have h1' : (List.foldl cull (m, fl) (m.saddles.filter (purgeSelects fl a b c))).1.st.store[i]? = some l := by
            rw [hs.store]; exact h1
          obtain ⟨o, f, h2, h3⟩ := ht'.store l (List.mem_of_getElem? h1')
          exact ⟨l, o, f, h1', h2, h3, List.mem_append_left _ hk⟩
        · show D < (List.foldl cull (m, fl) _).1.summits.length
          rw [hs.summits]
          exact hd.domains D (hs.domains ▸ hD)
        · show (List.foldl cull (m, fl) _).1.summits.Pairwise _
          rw [hs.summits]
          exact hd.summits
      obtain ⟨g1, g2, g3⟩ := ih key.1 key.2.1 h
      exact ⟨g1, g2, g3.trans key.2.2⟩

theorem run_traceable {E : SaddleEnv} (hE : RunOk E) {o : Pt → Oracle} {order : List Pt} (ho : IsScan E.d order) {rebuild : Bool}
    (hm : DMap.runSparse E o order rebuild = .ok m) : Traceable m := by
  obtain ⟨_, _, m0, m1, sites, news, _, _, _, h4, _, _, _, h8, h9⟩ := run_spec hE o order ho rebuild
  cases (hm.symm.trans h8 : Except.ok _ = Except.ok _)
  refine ⟨h9.inv.sad, h9.inv.sum, fun l hl => ?_⟩
  obtain ⟨i, hi⟩ := List.getElem?_of_mem hl
  obtain ⟨f, o, h1, h2, _⟩ := h9.link hi
  exact ⟨o, f, h2, h1⟩

/-- C110, the map: the map that a run made, after basin saddles were detected and saddles purged in any order, is accepted by a new
KML writer whatever flags it has, and the document shows each summit once with its height, each saddle and runoff as what it is,
each linker with both its ends, each domain, and nothing else. -/
theorem C110_map (E : SaddleEnv) (hE : RunOk E) (o : Pt → Oracle) (order : List Pt) (ho : IsScan E.d order) (rebuild : Bool)
    (w : Wkt) (hw : WktOk w) : ∃ m, DMap.runSparse E o order rebuild = .ok m ∧ ∀ fuel fl cs m1 f1,
      DMap.calls fuel (m, fl) cs = .ok (m1, f1) →
        ∃ s, ({} : KmlSt).extend w [m1.drawing f1] = (s, true) ∧ MapDrawn w s.document m1 f1 := by
  obtain ⟨_, _, _, m, _, _, _, _, _, _, _, _, _, h8, _⟩ := run_spec hE o order ho rebuild
  exact ⟨m, h8, fun fuel fl cs m1 f1 h =>
    drawable_drawn (calls_drawable cs (run_drawable hE ho h8) (run_traceable hE ho h8) h).1 w hw⟩

/-! ### Regions -/

theorem Spec.Descent.linkers {N : FNet} {D b : Nat} {p : List Nat} (hown : OwnLinkers N)
    (hsad : ∀ k, ∀ j ∈ N.sadLinks k, (N.link j).2 = k) (h : Descent N fl D p b) : ∀ i ∈ p,
      InRegion N fl D (N.link i).1 ∧ ¬ SaddleOut fl (N.link i).2 ∧ (i ∈ N.sumLinks (N.link i).1 ∨ i ∈ N.sadLinks (N.link i).2) := by
  induction h with
  | start => simp
  | @step p a i j h1 h2 h3 ih =>
    have h4 := hown a i h2.1.first
    have h5 := hsad _ j h2.1.second
    intro x hx
    rcases List.mem_append.1 hx with hx | hx
    · exact ih x hx
    · rcases List.mem_cons.1 hx with rfl | hx
      · exact ⟨by rw [h4]; exact ⟨p, h1⟩, h2.1.saddle, .inl (by rw [h4]; exact h2.1.first)⟩
      · rw [List.mem_singleton] at hx
        subst hx
        exact ⟨⟨_, .step h1 h2 h3⟩, by rw [h5]; exact h2.1.saddle, .inr (by rw [h5]; exact h2.1.second)⟩

/-- The linkers of a reported path. -/
theorem lpr_linkers {N : FNet} {D : Nat} {q : LprPath} (hown : OwnLinkers N)
    (hsad : ∀ k, ∀ j ∈ N.sadLinks k, (N.link j).2 = k) (h : EndsAtEdge N fl D q ∨ EndsAtRise N fl D q) :
    (∀ i ∈ q.path, InRegion N fl D (N.link i).1 ∧ ¬ SaddleOut fl (N.link i).2 ∧
      (i ∈ N.sumLinks (N.link i).1 ∨ i ∈ N.sadLinks (N.link i).2)) ∧
    (∃ i ∈ q.path, q.saddle = (N.link i).2) ∧ ∃ i ∈ q.path, (N.link i).1 = D := by
  have key : ∃ p b i, q.path = p ++ [i] ∧ q.saddle = (N.link i).2 ∧ Descent N fl D p b ∧ i ∈ N.sumLinks b ∧
      ¬ SaddleOut fl (N.link i).2 := by
    rcases h with ⟨p, b, i, h1, h2, h3, h4 | ⟨j, h4⟩⟩ | ⟨p, b, i, h1, h2, h3, j, h4⟩
    · exact ⟨p, b, i, h1, h2, h3, h4.1, h4.2.2.1⟩
    · exact ⟨p, b, i, h1, h2, h3, h4.1.1.first, h4.1.1.saddle⟩
    · exact ⟨p, b, i, h1, h2, h3, h4.1.first, h4.1.saddle⟩
  obtain ⟨p, b, i, h1, h2, h3, h4, h5⟩ := key
  have h6 := hown b i h4
  rw [h1]
  refine ⟨fun x hx => ?_, ⟨i, by simp, h2⟩, ?_⟩
  · rcases List.mem_append.1 hx with hx | hx
    · exact h3.linkers hown hsad x hx
    · rw [List.mem_singleton] at hx
      subst hx
      exact ⟨by rw [h6]; exact ⟨p, h3⟩, h5, .inl (by rw [h6]; exact h4)⟩
  · obtain ⟨x, l, e, hx⟩ := h3.head i h4
    exact ⟨x, by rw [e]; exact List.mem_cons_self, hown D x hx⟩

/-- What the linkers of reported paths refer to. -/
def RegionOk (m : DMap) (fl : Flags) (D : Nat) (ps : List LprPath) : Prop :=
  ∀ q ∈ ps, ∀ i ∈ q.path, ∃ l o f, m.st.store[i]? = some l ∧ m.st.objs[l.saddle]? = some o ∧ m.summits[l.summit]? = some f ∧
    m.net.link i = (l.summit, l.saddle) ∧ InRegion m.net fl D l.summit ∧ ¬ SaddleOut fl l.saddle

theorem mem_region {ps : List LprPath} {l : KLeaf} : l ∈ [KItem.container (lprElements m fl ps)].flatMap features ↔
    ∃ q ∈ ps, ∃ i ∈ q.path, l = m.drawSummit (m.net.link i).1 ∨ l = m.drawSaddle fl (m.net.link i).2 ∨ l = m.drawLinker i := by
  simp only [List.flatMap_cons, List.flatMap_nil, List.append_nil, features, lprElements, LprPath.elements, List.mem_flatMap,
    List.mem_append, List.mem_map, eq_comm (a := l)]
  constructor
  · rintro ⟨q, hq, (⟨i, hi, e⟩ | ⟨i, hi, e⟩) | ⟨i, hi, e⟩⟩
    · exact ⟨q, hq, i, hi, .inl e⟩
    · exact ⟨q, hq, i, hi, .inr (.inl e)⟩
    · exact ⟨q, hq, i, hi, .inr (.inr e)⟩
  · rintro ⟨q, hq, i, hi, e | e | e⟩
    · exact ⟨q, hq, .inl (.inl ⟨i, hi, e⟩)⟩
    · exact ⟨q, hq, .inl (.inr ⟨i, hi, e⟩)⟩
    · exact ⟨q, hq, .inr ⟨i, hi, e⟩⟩

theorem region_filed {D : Nat} {ps : List LprPath} (h : RegionOk m fl D ps) {l : KLeaf}
    (hl : l ∈ [KItem.container (lprElements m fl ps)].flatMap features) : l ≠ .other ∧ asDomain l = none ∧
      (∀ t f, l.filed = some (t, f) →
        (∃ (b : Nat) (g : Feature), InRegion m.net fl D b ∧ m.summits[b]? = some g ∧ t = .summit ∧ f = g.drawn b) ∨
        ∃ k o, m.st.objs[k]? = some o ∧ ShownAs fl k o t ∧ ¬ SaddleOut fl k ∧ f = o.f.drawn k) ∧
      ∀ i a b, l = .linker i a b → ∃ q ∈ ps, i ∈ q.path ∧ ∃ r o f, m.st.store[i]? = some r ∧
        m.st.objs[r.saddle]? = some o ∧ m.summits[r.summit]? = some f ∧ a = o.f.drawn r.saddle ∧ b = f.drawn r.summit := by
  obtain ⟨q, hq, i, hi, e⟩ := mem_region.1 hl
  obtain ⟨r, o, f, h1, h2, h3, h4, h5, h6⟩ := h q hq i hi
  rw [h4] at e
  dsimp only at e
  rcases e with rfl | rfl | rfl
  · rw [drawSummit_some h3]
    refine ⟨nofun, rfl, ?_, nofun⟩
    rintro t g ⟨⟩
    exact .inl ⟨_, _, h5, h3, rfl, rfl⟩
  · obtain ⟨g1, g2, g3⟩ := drawSaddle_ne (fl := fl) h2
    refine ⟨g1, g3, fun t g hg => ?_, fun x a b e => ?_⟩
    · obtain ⟨k1, k2⟩ := (drawSaddle_filed h2 t g).1 hg
      exact .inr ⟨_, o, h2, k1, h6, k2⟩
    · rw [e] at g2
      cases g2
  · rw [drawLinker_some h1 h2 h3]
    refine ⟨nofun, rfl, nofun, ?_⟩
    rintro x a b ⟨⟩
    exact ⟨q, hq, hi, r, o, f, h1, h2, h3, rfl, rfl⟩

theorem region_drawn {D : Nat} {ps : List LprPath} (h : RegionOk m fl D ps)
    (hb : ∀ q ∈ ps, (∃ i ∈ q.path, q.saddle = (m.net.link i).2) ∧ ∃ i ∈ q.path, (m.net.link i).1 = D) (w : Wkt) :
    ∃ s, ({} : KmlSt).extend w [.container (lprElements m fl ps)] = (s, true) ∧ RegionDrawn w s.document m fl D ps := by
  obtain ⟨s, hs⟩ := extend_ok w [.container (lprElements m fl ps)] {} fun hm => (region_filed h hm).1 rfl
  refine ⟨s, hs, ?_⟩
  have H := holds_extend [.container (lprElements m fl ps)] (holds_start w) hs
  rw [List.nil_append] at H
  have hshown : ∀ q ∈ ps, ∀ i ∈ q.path, ∀ o, m.st.objs[(m.net.link i).2]? = some o → ∀ t, ShownAs fl (m.net.link i).2 o t →
      Drawn w s.document t o.f := by
    intro q hq i hi o ho t ht
    exact H.shown (mem_region.2 ⟨q, hq, i, hi, .inr (.inl rfl)⟩) ((drawSaddle_filed ho t _).2 ⟨ht, rfl⟩)
  have hsum : ∀ q ∈ ps, ∀ i ∈ q.path, ∀ f, m.summits[(m.net.link i).1]? = some f → Drawn w s.document .summit f := by
    intro q hq i hi f hf
    refine H.shown (mem_region.2 ⟨q, hq, i, hi, .inl rfl⟩) (f := f.drawn (m.net.link i).1) ?_
    rw [drawSummit_some hf]
    rfl
  refine ⟨fun q hq i hi => ?_, fun p hp => ?_, fun hne f hf => ?_, fun q hq => ?_, fun p hp => ?_, fun p hp => ?_, fun p => ⟨fun hp => ?_,
    fun hp => ?_⟩⟩
  · obtain ⟨l, o, f, h1, h2, h3, h4, h5, h6⟩ := h q hq i hi
    refine ⟨l, o, f, h1, h2, h3, ?_, hsum q hq i hi f (by rw [h4]; exact h3), fun t ht => hshown q hq i hi o (by rw [h4]; exact h2) t
      (by rw [h4]; exact ht)⟩
    exact H.line_shown (i := i) (a := o.f.drawn l.saddle) (b := f.drawn l.summit)
      (mem_region.2 ⟨q, hq, i, hi, .inr (.inr (drawLinker_some h1 h2 h3).symm)⟩)
  · obtain ⟨i, a, b, hl, hg⟩ := H.line_passed hp
    obtain ⟨q, hq, hi, r, o, f, h1, h2, h3, rfl, rfl⟩ := (region_filed h hl).2.2.2 i a b rfl
    exact ⟨q, hq, i, hi, r, o, f, h1, h2, h3, hg⟩
  · obtain ⟨q, hq⟩ := List.exists_mem_of_ne_nil _ hne
    obtain ⟨_, i, hi, e⟩ := hb q hq
    exact hsum q hq i hi f (by rw [e]; exact hf)
  · obtain ⟨⟨i, hi, e⟩, _⟩ := hb q hq
    obtain ⟨l, o, f, h1, h2, h3, h4, _⟩ := h q hq i hi
    rw [e]
    exact ⟨o, by rw [h4]; exact h2, hshown q hq i hi o (by rw [h4]; exact h2)⟩
  · rw [inFolder_of (folder_summits s), H.summits] at hp
    obtain ⟨t, f, ht, ⟨l, hl, hf⟩, rfl⟩ := firsts_passed hp
    rw [List.mem_singleton] at ht
    subst ht
    rcases (region_filed h hl).2.2.1 _ f hf with ⟨b, g, h1, h2, _, rfl⟩ | ⟨k, o, _, hsh, _⟩
    · exact ⟨b, g, h1, h2, rfl⟩
    · have := hsh.cases
      simp at this
  · have : ∃ t f, t ≠ .summit ∧ (∃ l ∈ [KItem.container (lprElements m fl ps)].flatMap features, l.filed = some (t, f)) ∧
        p = spotPm w t f := by
      rcases hp with hp | hp
      · rw [inFolder_of (folder_saddles s), H.saddles] at hp
        obtain ⟨t, f, ht, h1, h2⟩ := firsts_passed hp
        exact ⟨t, f, by rintro rfl; simp at ht, h1, h2⟩
      · rw [inFolder_of (folder_runoffs s), H.runoffs] at hp
        obtain ⟨t, f, ht, h1, h2⟩ := firsts_passed hp
        exact ⟨t, f, by rintro rfl; simp at ht, h1, h2⟩
    obtain ⟨t, f, ht, ⟨l, hl, hf⟩, rfl⟩ := this
    rcases (region_filed h hl).2.2.1 t f hf with ⟨_, _, _, _, e, _⟩ | ⟨k, o, ho, hsh, hk, rfl⟩
    · exact absurd e ht
    · exact ⟨k, o, t, ho, hsh, hk, rfl⟩
  · rw [inFolder_of (folder_spots s), H.spots] at hp
    obtain ⟨t, f, ht, ⟨l, hl, hf⟩, _⟩ := firsts_passed hp
    rw [List.mem_singleton] at ht
    subst ht
    rcases (region_filed h hl).2.2.1 _ f hf with ⟨_, _, _, _, e, _⟩ | ⟨k, o, _, hsh, _⟩
    · cases e
    · have := hsh.cases
      simp at this
  · rw [inFolder_of (folder_domains s), H.domains, List.mem_map] at hp
    obtain ⟨x, h1, _⟩ := hp
    obtain ⟨l, hl, e⟩ := List.mem_filterMap.1 h1
    rw [(region_filed h hl).2.1] at e
    cases e

/-- C110, the regions: on the map of a run, after basin saddles were detected and saddles purged in any order, whatever flags it has,
the elements of the paths around a summit are accepted by a new KML writer. The document shows all linkers of the paths with both ends,
the summit itself, the saddles where the paths end, and otherwise only summits of the region and saddles that are not disqualified. -/
theorem C110_region (E : SaddleEnv) (hE : RunOk E) (o : Pt → Oracle) (order : List Pt) (ho : IsScan E.d order) (rebuild : Bool)
    (w : Wkt) : ∃ m, DMap.runSparse E o order rebuild = .ok m ∧ ∀ fuel fl cs m1 f1, DMap.calls fuel (m, fl) cs = .ok (m1, f1) →
      ∀ u D, D < m.summits.length → ∃ t, divideRun m1.net f1 (List.range m1.summits.length) u = .ok t ∧
        ∃ ps e, t.lprPaths D = some (ps, e) ∧ ∃ s, ({} : KmlSt).extend w [.container (lprElements m1 f1 ps)] = (s, true) ∧
          RegionDrawn w s.document m1 f1 D ps := by
  obtain ⟨_, _, _, m, _, _, _, _, _, _, _, _, _, h8, _⟩ := run_spec hE o order ho rebuild
  refine ⟨m, h8, fun fuel fl cs m1 f1 hc u D hD => ?_⟩
  obtain ⟨_, hT, hsum⟩ := calls_drawable cs (run_drawable hE ho h8) (run_traceable hE ho h8) hc
  rw [← hsum] at hD
  obtain ⟨t, ht⟩ : ∃ t, divideRun m1.net f1 (List.range m1.summits.length) u = .ok t := by
    unfold divideRun
    cases hr : List.range m1.summits.length with
    | nil => exact absurd (List.range_eq_nil.1 hr) (by omega)
    | cons a l => exact ⟨_, rfl⟩
  refine ⟨t, ht, ?_⟩
  obtain ⟨ps, e, h1, h2, _⟩ := C53_paths_partial m1.net f1 _ u t ht D (List.mem_range.2 hD)
  have hown : OwnLinkers m1.net := fun D i hi => by
    obtain ⟨l, hl, hD⟩ := hT.sum D i hi
    rw [net_link hl]
    exact hD
  have hsad : ∀ k, ∀ j ∈ m1.net.sadLinks k, (m1.net.link j).2 = k := fun k j hj => by
    obtain ⟨l, hl, hk⟩ := hT.sad k j hj
    rw [net_link hl]
    exact hk
  refine ⟨ps, e, h1, region_drawn (fun q hq i hi => ?_) (fun q hq => (lpr_linkers hown hsad (h2 q hq)).2) w⟩
  obtain ⟨g1, g2, g3⟩ := (lpr_linkers hown hsad (h2 q hq)).1 i hi
  have : ∃ l, m1.st.store[i]? = some l := by
    rcases g3 with g3 | g3
    · obtain ⟨l, hl, _⟩ := hT.sum _ i g3
      exact ⟨l, hl⟩
    · obtain ⟨l, hl, _⟩ := hT.sad _ i g3
      exact ⟨l, hl⟩
  obtain ⟨l, k1⟩ := this
  obtain ⟨o, f, k2, k3⟩ := hT.store l (List.mem_of_getElem? k1)
  have k4 := net_link k1
  rw [k4] at g1 g2
  exact ⟨l, o, f, k1, k2, k3, k4, g1, g2⟩

/-! ### An instance -/

/-- Texts for the instance. -/
def exLines : Wkt := { exWkt with line := fun a b => exWkt.point a.1 a.2 ++ '-' :: exWkt.point b.1 b.2 }

/-- What the folders show. -/
def exShown (r : KmlSt × Bool) : Bool × List (List Char × List (Option FType × Rat)) :=
  (r.2, r.1.document.folders.map fun f => (f.1, f.2.map fun p => (p.kind, p.ele)))

set_option synthInstance.maxSize 1000 in
/-- The crater: the lowest of its saddles is a basin saddle. -/
example : (exFull exCrater false 17).toOption.map (fun r => exShown (({} : KmlSt).extend exLines [r.1.drawing r.2])) =
    some (true, [("Saddles".toList, [(some .saddle, 3), (some .basin, 2), (some .saddle, 4), (some .saddle, 5)]),
      ("Summits".toList, [(some .summit, 9), (some .summit, 8), (some .summit, 7), (some .summit, 6)]),
      ("Runoffs".toList, List.replicate 4 (some .runoff, 0)), ("Linkers".toList, List.replicate 8 (none, 0)),
      ("SummitDomains".toList, [(none, 8), (none, 9), (none, 7), (none, 6)])]) := by decide +kernel

/-- After purging the basin saddle and its linkers are not drawn. -/
example : ((exFull exCrater false 17).toOption.bind fun r => (DMap.calls 17 r [.purge true true false]).toOption).map (fun r =>
      (exShown (({} : KmlSt).extend exLines [r.1.drawing r.2])).2.map fun f => (f.1, f.2.length)) =
    some [("Saddles".toList, 3), ("Summits".toList, 4), ("Runoffs".toList, 4), ("Linkers".toList, 6),
      ("SummitDomains".toList, 4)] := by decide +kernel

set_option synthInstance.maxSize 1000 in
/-- The region of the third summit of the crater: two summits and two saddles. -/
example : ((exFull exCrater false 17).toOption.bind fun r =>
      (divideRun r.1.net r.2 (List.range r.1.summits.length) exTree0).toOption.bind fun t => (t.lprPaths 2).map fun ps =>
        (ps.1.map (·.path), exShown (({} : KmlSt).extend exLines [.container (lprElements r.1 r.2 ps.1)]))) =
    some ([[7, 6, 5]], true, [("Saddles".toList, [(some .saddle, 5), (some .saddle, 4)]),
      ("Summits".toList, [(some .summit, 7), (some .summit, 6)]), ("Linkers".toList, List.replicate 3 (none, 0))]) := by
  decide +kernel

end PyProm
