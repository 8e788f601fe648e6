import Verif.Props.DrawingSaved

/-
C115: every saddle that was declared not disqualified though it is flagged is drawn otherwise after loading
-/
namespace PyProm
open Spec

/-- A placemark of kind `basin` comes from a disqualified saddle. -/
theorem basin_mark {w : Wkt} {L : List KLeaf} {s : KmlSt} (h : Holds w L s) {g : List Char} {e : Rat}
    (hp : ⟨some .basin, g, e⟩ ∈ s.saddles) : ∃ f, KLeaf.saddle f true ∈ L ∧ w.point f.lon f.lat = g := by
  rw [h.saddles] at hp
  have hp := (firsts_sublist _ _).subset hp
  unfold marks at hp
  obtain ⟨⟨t, f⟩, h1, h2⟩ := List.mem_filterMap.1 hp
  obtain ⟨l, h3, h4⟩ := List.mem_filterMap.1 h1
  split at h2
  · have h2 := Option.some.inj h2
    unfold spotPm at h2
    obtain ⟨a, b, _⟩ := Placemark.mk.injEq _ _ _ _ _ _ ▸ h2
    dsimp only at a b
    cases a
    refine ⟨f, ?_, b⟩
    cases l with
    | saddle f' d =>
      cases d with
      | true => cases h4; exact h3
      | false => cases h4
    | _ => cases h4
  · cases h2

/-- Every disqualified saddle has a placemark of kind `basin` at its place. -/
theorem mark_basin {w : Wkt} {L : List KLeaf} {s : KmlSt} (h : Holds w L s) {f : KSpot} (hf : KLeaf.saddle f true ∈ L) :
    ∃ e, ⟨some .basin, w.point f.lon f.lat, e⟩ ∈ s.saddles := by
  have hm : spotPm w .basin f ∈ marks w [.basin, .saddle] L :=
    List.mem_filterMap.2 ⟨(.basin, f), List.mem_filterMap.2 ⟨_, hf, rfl⟩, rfl⟩
  have := (firsts_keys pmKey _ (pmKey (spotPm w .basin f))).2 (List.mem_map_of_mem hm)
  obtain ⟨⟨a, b, e⟩, h1, h2⟩ := List.mem_map.1 this
  unfold pmKey spotPm at h2
  dsimp only at h2
  obtain ⟨rfl, rfl⟩ := Prod.mk.injEq _ _ _ _ ▸ h2
  exact ⟨e, by rw [h.saddles]; exact h1⟩

/-- What is in the folder of saddles of one of two drawings that agree is in that of the other. -/
theorem same_saddles {s t : KmlSt} (h : SameDrawing s.document t.document) {p : Placemark} (hp : p ∈ t.saddles) : p ∈ s.saddles := by
  have hin : ("Saddles".toList, t.saddles) ∈ t.document.folders := by
    unfold KmlSt.document
    refine List.mem_filter.2 ⟨List.mem_cons_self, ?_⟩
    cases h : t.saddles with
    | nil => rw [h] at hp; cases hp
    | cons a l => rfl
  obtain ⟨i, hi⟩ := List.getElem?_of_mem hin
  have hlen := h.folders.length_eq
  have hlt : i < s.document.folders.length := by rw [hlen]; exact lt_of_getElem? hi
  obtain ⟨e1, e2⟩ := (List.forall₂_iff_get.1 h.folders).2 i hlt (lt_of_getElem? hi)
  rw [List.getElem?_eq_getElem (lt_of_getElem? hi)] at hi
  have hi := Option.some.inj hi
  simp only [List.get_eq_getElem] at e1 e2
  rw [hi] at e1 e2
  dsimp only at e1 e2
  have hs : s.document.folders[i] ∈ s.document.folders := List.getElem_mem _
  generalize s.document.folders[i] = f at e1 e2 hs
  rcases e2 with e2 | ⟨e2, _⟩
  · have hs := (List.mem_filter.1 hs).1
    rw [e2] at hp
    simp only [List.mem_cons, List.not_mem_nil, or_false] at hs
    rcases hs with rfl | rfl | rfl | rfl | rfl | rfl
    · exact hp
    all_goals exact absurd (show "Saddles".toList = _ from e1) (by dsimp only; decide)
  · rw [e2] at e1
    exact absurd e1 (by decide)

/-- C115 fails for every saddle that is flagged (as basin saddle or as not linking two summits) and was declared not to be
disqualified, unless a saddle that is disqualified is at the same place: its placemark is that of a basin saddle once the map is
loaded, which no placemark there was when the map was saved. -/
theorem C115_every_flag_refuted (m : LMap) (h : Spec.Closed m) {k : Nat} (hk : k ∈ m.saddles) (ho : (m.sad k).over = some false)
    (hf : (m.sad k).single = true ∨ (m.sad k).basin = true) (fp : Fingerprint) (w : Wkt) (hw : WktOk w) (area : List MPt → List Char)
    (hd : ∀ k' ∈ m.saddles ++ m.runoffs, (m.sad k').runoff = false → (m.sad k').disqualified = true →
      (m.sad k').lat ≠ (m.sad k).lat ∨ (m.sad k').lon ≠ (m.sad k).lon) :
    ∃ v s n, m.toDict fp = .ok v ∧ LState.fromDict v.cbor fp = .ok (s, n) ∧ ∀ (ds : List Nat) (a b : KmlSt) (x y : Bool),
      ({} : KmlSt).extend (m.texts w area) [m.drawing] = (a, x) →
      ({} : KmlSt).extend ((s.toMap n ds).texts w area) [(s.toMap n ds).drawing] = (b, y) →
      (∃ e, ⟨some .basin, w.point (m.sad k).lon (m.sad k).lat, e⟩ ∈ b.saddles) ∧
        (∀ e, ⟨some .basin, w.point (m.sad k).lon (m.sad k).lat, e⟩ ∉ a.saddles) ∧ ¬ SameDrawing a.document b.document := by
  obtain ⟨v, h1, h2, _⟩ := m.load h.loads fp
  refine ⟨v, _, _, h1, h2, fun ds a b x y ha hb => ?_⟩
  have plain : ∀ (m : LMap), KLeaf.other ∉ [m.drawing].flatMap features := by
    intro m hm
    simp only [LMap.drawing, List.flatMap_cons, List.flatMap_nil, features, List.append_nil, List.mem_append, List.mem_map] at hm
    rcases hm with (((⟨i, _, e⟩ | ⟨i, _, e⟩) | ⟨i, _, e⟩) | ⟨i, _, e⟩) | ⟨i, _, e⟩
    · cases e
    · unfold LMap.drawSaddle at e
      split at e <;> cases e
    · cases e
    · unfold LMap.drawSaddle at e
      split at e <;> cases e
    · cases e
  obtain ⟨a', ea⟩ := extend_ok (m.texts w area) [m.drawing] {} (plain m)
  obtain ⟨b', eb⟩ := extend_ok ((m.loaded.toMap m.saddles.length ds).texts w area) [(m.loaded.toMap m.saddles.length ds).drawing] {}
    (plain _)
  cases ha.symm.trans ea
  cases hb.symm.trans eb
  have Ha := holds_extend _ (holds_start _) ea
  have Hb := holds_extend _ (holds_start _) eb
  rw [List.nil_append] at Ha Hb
  have hA : ∀ e, ⟨some .basin, w.point (m.sad k).lon (m.sad k).lat, e⟩ ∉ a.saddles := by
    intro e he
    obtain ⟨f, hf1, hf2⟩ := basin_mark Ha he
    have hf2 := hw.point _ _ _ _ hf2
    simp only [LMap.drawing, List.flatMap_cons, List.flatMap_nil, features, List.append_nil, List.mem_append, List.mem_map] at hf1
    have sad : ∀ k' ∈ m.saddles ++ m.runoffs, m.drawSaddle k' = .saddle f true → False := by
      intro k' hk' e'
      unfold LMap.drawSaddle at e'
      split at e'
      · cases e'
      · rename_i hr
        obtain ⟨e1, e2⟩ := KLeaf.saddle.injEq _ _ _ _ ▸ e'
        subst e1
        rcases hd k' hk' (by simpa using hr) e2 with hn | hn
        · exact hn hf2.2
        · exact hn hf2.1
    rcases hf1 with (((⟨i, _, e⟩ | ⟨i, hi, e⟩) | ⟨i, _, e⟩) | ⟨i, hi, e⟩) | ⟨i, _, e⟩
    · cases e
    · exact sad i (List.mem_append_left _ hi) e
    · cases e
    · exact sad i (List.mem_append_right _ hi) e
    · cases e
  have hB : ∃ e, ⟨some .basin, w.point (m.sad k).lon (m.sad k).lat, e⟩ ∈ b.saddles := by
    obtain ⟨P, hP⟩ := List.getElem?_of_mem hk
    have hlt := lt_of_getElem? hP
    have hP' : (m.saddles ++ m.runoffs)[P]? = some k := by rw [List.getElem?_append_left hlt, hP]
    have hget : ∃ t, (m.loaded.toMap m.saddles.length ds).sad P = t ∧ t.runoff = false ∧ t.lat = (m.sad k).lat ∧
        t.lon = (m.sad k).lon ∧ t.ele = (m.sad k).ele ∧ t.over = (if (m.sad k).over = some true then some true else none) ∧
        t.single = (m.sad k).single ∧ t.basin = (m.sad k).basin := by
      refine ⟨_, rfl, ?_⟩
      unfold LState.toMap
      dsimp only
      rw [loaded_saddle_get m P k hP', if_pos hlt]
      exact ⟨rfl, rfl, rfl, rfl, rfl, rfl, rfl⟩
    obtain ⟨t, t0, e0, l1, l2, l3, e1, e2, e3⟩ := hget
    have hleaf : (m.loaded.toMap m.saddles.length ds).drawSaddle P = .saddle ⟨P, (m.sad k).lat, (m.sad k).lon, (m.sad k).ele⟩ true := by
      unfold LMap.drawSaddle
      rw [t0]
      have e4 : t.disqualified = true := by
        unfold LSaddle.disqualified
        rw [e1, e2, e3, ho]
        rcases hf with hf | hf <;> simp [hf]
      rw [e0, e4]
      unfold LSaddle.drawn
      rw [l1, l2, l3]
      rfl
    have hin : P ∈ (m.loaded.toMap m.saddles.length ds).saddles := List.mem_range.2 hlt
    refine mark_basin (w := (m.loaded.toMap m.saddles.length ds).texts w area) Hb (f := ⟨P, (m.sad k).lat, (m.sad k).lon, (m.sad k).ele⟩) ?_
    simp only [LMap.drawing, List.flatMap_cons, List.flatMap_nil, features, List.append_nil, List.mem_append, List.mem_map]
    exact .inl (.inl (.inl (.inr ⟨P, hin, hleaf⟩)))
  refine ⟨hB, hA, fun hS => ?_⟩
  obtain ⟨e, he⟩ := hB
  exact hA e (same_saddles hS he)

/-- Instance: a map whose saddles were declared not disqualified. -/
def exLifted : LMap :=
  { exSaved 6 [(0, 0), (1, 0), (0, 1), (1, 2)] with
    sad := fun k => { (exSaved 6 [(0, 0), (1, 0), (0, 1), (1, 2)]).sad k with over := some false } }

theorem exLifted_closed : Spec.Closed exLifted where
  summitIds := by decide +kernel
  saddleIds := by decide +kernel
  sameId := by decide +kernel
  family := fun k _ => ⟨fun c hc => (nomatch hc), fun c hc => (nomatch hc), fun c hc => (nomatch hc)⟩
  linkers := by decide +kernel
  domains := by decide +kernel
  summitAreas := fun D _ a ha => by obtain rfl := Option.some.inj ha; exact exArea_sound
  saddleAreas := fun D _ a ha => by obtain rfl := Option.some.inj ha; exact exArea_sound

example : 0 ∈ exLifted.saddles ∧ (exLifted.sad 0).over = some false ∧
    ((exLifted.sad 0).single = true ∨ (exLifted.sad 0).basin = true) ∧
    ∀ k' ∈ exLifted.saddles ++ exLifted.runoffs, (exLifted.sad k').runoff = false → (exLifted.sad k').disqualified = true →
      (exLifted.sad k').lat ≠ (exLifted.sad 0).lat ∨ (exLifted.sad k').lon ≠ (exLifted.sad 0).lon := by decide +kernel

end PyProm
