import Verif.Spec.Kml
import Mathlib.Data.List.Induction
import Mathlib.Data.List.Nodup
import Mathlib.Tactic.Tauto

/-
Properties of the KML writer (C47, C48, C74).
-/
namespace PyProm
open Spec

/-! ### `firsts` -/

section firsts
variable {α β : Type} [DecidableEq β] (key : α → β)

theorem firsts_snoc (l : List α) (a : α) :
    firsts key (l ++ [a]) = if key a ∈ (firsts key l).map key then firsts key l else firsts key l ++ [a] := by
  unfold firsts
  rw [List.foldl_append]
  rfl

theorem firsts_keys (l : List α) (k : β) : k ∈ (firsts key l).map key ↔ k ∈ l.map key := by
  induction l using List.reverseRecOn with
  | nil => rfl
  | append_singleton l a ih =>
    rw [firsts_snoc]
    split
    · rename_i h
      rw [List.map_append, List.mem_append, ih]
      constructor
      · exact .inl
      · rintro (h' | h')
        · exact h'
        · rw [List.map_singleton, List.mem_singleton] at h'
          subst h'
          exact ih.1 h
    · rw [List.map_append, List.map_append, List.mem_append, List.mem_append, ih]

theorem firsts_sublist (l : List α) : (firsts key l).Sublist l := by
  induction l using List.reverseRecOn with
  | nil => exact List.Sublist.refl _
  | append_singleton l a ih =>
    rw [firsts_snoc]
    split
    · exact ih.trans (List.sublist_append_left _ _)
    · exact ih.append (List.Sublist.refl _)

theorem firsts_nodup (l : List α) : ((firsts key l).map key).Nodup := by
  induction l using List.reverseRecOn with
  | nil => exact List.nodup_nil
  | append_singleton l a ih =>
    rw [firsts_snoc]
    split
    · exact ih
    · rename_i h
      rw [List.map_append, List.map_singleton, List.nodup_append]
      refine ⟨ih, List.nodup_singleton _, ?_⟩
      intro x hx y hy
      rw [List.mem_singleton] at hy
      rintro rfl
      exact h (hy ▸ hx)

/-- If the key tells the elements of the list apart, they are all kept. -/
theorem mem_firsts {l : List α} (h : ∀ a ∈ l, ∀ b ∈ l, key a = key b → a = b) (a : α) : a ∈ firsts key l ↔ a ∈ l := by
  refine ⟨fun h => (firsts_sublist key l).subset h, fun ha => ?_⟩
  obtain ⟨b, hb, e⟩ := List.mem_map.1 ((firsts_keys key l (key a)).2 (List.mem_map_of_mem ha))
  rwa [← h b ((firsts_sublist key l).subset hb) a ha e]

theorem firsts_of_nodup {l : List α} (h : (l.map key).Nodup) : firsts key l = l := by
  induction l using List.reverseRecOn with
  | nil => rfl
  | append_singleton l a ih =>
    rw [List.map_append, List.nodup_append] at h
    rw [firsts_snoc, ih h.1, if_neg]
    intro hm
    exact h.2.2 _ hm (key a) (by simp) rfl

end firsts

/-! ### The state of a writer -/

/-- The type strings are a prefix code, so the keys of the dictionary determine type and geometry. -/
theorem key_inj {t t' : FType} {a b : List Char} (h : t.str ++ a = t'.str ++ b) : t = t' ∧ a = b := by
  have h0 : t = t' := by
    have h2 := congrArg (List.take 2) h
    have e : ∀ (u : FType) (c : List Char), (u.str ++ c).take 2 = u.str.take 2 := by
      intro u c
      rw [List.take_append_of_le_length]
      cases u <;> decide +kernel
    rw [e, e] at h2
    revert h2
    cases t <;> cases t' <;> decide +kernel
  subst h0
  exact ⟨rfl, List.append_cancel_left h⟩

/-- The type and location a feature is filed under. -/
def KLeaf.filed : KLeaf → Option (FType × KSpot)
  | .summit s => some (.summit, s)
  | .runoff s => some (.runoff, s)
  | .saddle s d => some (if d then .basin else .saddle, s)
  | .spot s => some (.spot, s)
  | _ => none

/-- The placemarks of the features of the list that are of one of the given types. -/
def marks (w : Wkt) (ts : List FType) (L : List KLeaf) : List Placemark :=
  (L.filterMap KLeaf.filed).filterMap fun p => if p.1 ∈ ts then some (spotPm w p.1 p.2) else none

/-- What the placemarks of a folder are told apart by. -/
def pmKey (p : Placemark) : Option FType × List Char := (p.kind, p.geometry)

/-- The state after the features `L`. -/
structure Holds (w : Wkt) (L : List KLeaf) (s : KmlSt) : Prop where
  keys : ∀ t g, t.str ++ g ∈ s.spotKeys ↔ ∃ f, (t, f) ∈ L.filterMap KLeaf.filed ∧ w.point f.lon f.lat = g
  saddles : s.saddles = firsts pmKey (marks w [.basin, .saddle] L)
  summits : s.summits = firsts pmKey (marks w [.summit] L)
  runoffs : s.runoffs = firsts pmKey (marks w [.runoff] L)
  spots : s.spots = firsts pmKey (marks w [.spot] L)
  lines : ∀ g, g ∈ s.lineKeys ↔ g ∈ (L.filterMap asLine).map fun p => lineOf w p.2.1 p.2.2
  linkers : s.linkers = firsts pmKey ((L.filterMap asLine).map fun p => ⟨none, lineOf w p.2.1 p.2.2, 0⟩)
  domains : s.domains = (L.filterMap asDomain).map fun p => ⟨none, w.area p.1, p.2.ele⟩

theorem marks_snoc (w : Wkt) (ts : List FType) (L : List KLeaf) (l : KLeaf) :
    marks w ts (L ++ [l]) = marks w ts L ++ marks w ts [l] := by
  unfold marks
  rw [List.filterMap_append, List.filterMap_append]

open Classical in
/-- A folder of placemarks while a feature of type `t` is filed. -/
theorem folder_step (w : Wkt) (ts : List FType) (L : List KLeaf) (l : KLeaf) (t : FType) (f : KSpot)
    (hl : l.filed = some (t, f)) :
    firsts pmKey (marks w ts (L ++ [l])) =
      if t ∈ ts ∧ ¬ ∃ f', (t, f') ∈ L.filterMap KLeaf.filed ∧ w.point f'.lon f'.lat = w.point f.lon f.lat then
        firsts pmKey (marks w ts L) ++ [spotPm w t f] else firsts pmKey (marks w ts L) := by
  rw [marks_snoc]
  have h1 : marks w ts [l] = if t ∈ ts then [spotPm w t f] else [] := by
    unfold marks
    rw [List.filterMap_cons, hl]
    by_cases ht : t ∈ ts <;> simp [ht]
  rw [h1]
  by_cases ht : t ∈ ts
  · rw [if_pos ht, firsts_snoc]
    have : pmKey (spotPm w t f) ∈ (firsts pmKey (marks w ts L)).map pmKey ↔
        ∃ f', (t, f') ∈ L.filterMap KLeaf.filed ∧ w.point f'.lon f'.lat = w.point f.lon f.lat := by
      rw [firsts_keys, List.mem_map]
      constructor
      · rintro ⟨p, hp, e⟩
        unfold marks at hp
        obtain ⟨⟨t', f'⟩, hq, he⟩ := List.mem_filterMap.1 hp
        dsimp only at he
        split at he
        · injection he with he
          subst he
          simp only [pmKey, spotPm, Prod.mk.injEq, Option.some.injEq] at e
          obtain ⟨rfl, e⟩ := e
          exact ⟨f', hq, e⟩
        · cases he
      · rintro ⟨f', hq, e⟩
        refine ⟨spotPm w t f', ?_, ?_⟩
        · unfold marks
          exact List.mem_filterMap.2 ⟨(t, f'), hq, by simp [ht]⟩
        · simp [pmKey, spotPm, e]
    by_cases hm : ∃ f', (t, f') ∈ L.filterMap KLeaf.filed ∧ w.point f'.lon f'.lat = w.point f.lon f.lat
    · rw [if_pos (this.2 hm), if_neg fun x => x.2 hm]
    · rw [if_neg (fun h => hm (this.1 h)), if_pos ⟨ht, hm⟩]
  · rw [if_neg ht, List.append_nil, if_neg fun x => ht x.1]

theorem folder_same (w : Wkt) (ts : List FType) (L : List KLeaf) (l : KLeaf) (hl : l.filed = none) :
    marks w ts (L ++ [l]) = marks w ts L := by
  rw [marks_snoc]
  simp [marks, hl]

theorem holds_start (w : Wkt) : Holds w [] {} := by
  constructor <;> simp [marks, firsts]

theorem holds_spot {w : Wkt} {L : List KLeaf} {s : KmlSt} (h : Holds w L s) {l : KLeaf} {t : FType} {f : KSpot}
    (hl : l.filed = some (t, f)) (h1 : asLine l = none) (h2 : asDomain l = none) :
    Holds w (L ++ [l]) (s.addSpot w t f) := by
  have hk := h.keys t (w.point f.lon f.lat)
  have hkeys : ∀ t' g, (∃ f', (t', f') ∈ (L ++ [l]).filterMap KLeaf.filed ∧ w.point f'.lon f'.lat = g) ↔
      (∃ f', (t', f') ∈ L.filterMap KLeaf.filed ∧ w.point f'.lon f'.lat = g) ∨ (t' = t ∧ w.point f.lon f.lat = g) := by
    intro t' g
    simp only [List.filterMap_append, List.filterMap_cons, hl, List.filterMap_nil, List.mem_append, List.mem_singleton,
      Prod.mk.injEq]
    constructor
    · rintro ⟨f', h | ⟨rfl, rfl⟩, e⟩
      · exact .inl ⟨f', h, e⟩
      · exact .inr ⟨rfl, e⟩
    · rintro (⟨f', h, e⟩ | ⟨rfl, e⟩)
      · exact ⟨f', .inl h, e⟩
      · exact ⟨f, .inr ⟨rfl, rfl⟩, e⟩
  have hline : (L ++ [l]).filterMap asLine = L.filterMap asLine := by simp [List.filterMap_append, h1]
  have hdom : (L ++ [l]).filterMap asDomain = L.filterMap asDomain := by simp [List.filterMap_append, h2]
  unfold KmlSt.addSpot
  by_cases hm : t.str ++ w.point f.lon f.lat ∈ s.spotKeys
  · rw [if_pos hm]
    have hm' := hk.1 hm
    refine ⟨fun t' g => ?_, ?_, ?_, ?_, ?_, ?_, ?_, ?_⟩
    · rw [h.keys, hkeys]
      constructor
      · exact .inl
      · rintro (h' | ⟨rfl, rfl⟩)
        · exact h'
        · exact hm'
    · rw [folder_step w _ L l t f hl, if_neg fun x => x.2 hm']; exact h.saddles
    · rw [folder_step w _ L l t f hl, if_neg fun x => x.2 hm']; exact h.summits
    · rw [folder_step w _ L l t f hl, if_neg fun x => x.2 hm']; exact h.runoffs
    · rw [folder_step w _ L l t f hl, if_neg fun x => x.2 hm']; exact h.spots
    · rw [hline]; exact h.lines
    · rw [hline]; exact h.linkers
    · rw [hdom]; exact h.domains
  · rw [if_neg hm]
    have hm' : ¬ ∃ f', (t, f') ∈ L.filterMap KLeaf.filed ∧ w.point f'.lon f'.lat = w.point f.lon f.lat :=
      fun x => hm (hk.2 x)
    have hnew : ∀ t' g, t'.str ++ g ∈ s.spotKeys ++ [t.str ++ w.point f.lon f.lat] ↔
        ∃ f', (t', f') ∈ (L ++ [l]).filterMap KLeaf.filed ∧ w.point f'.lon f'.lat = g := by
      intro t' g
      rw [hkeys, List.mem_append, h.keys, List.mem_singleton]
      refine or_congr Iff.rfl ⟨fun e => ?_, ?_⟩
      · obtain ⟨a, b⟩ := key_inj e
        exact ⟨a, b.symm⟩
      · rintro ⟨rfl, rfl⟩; rfl
    cases t
    all_goals
      refine ⟨hnew, ?_, ?_, ?_, ?_, ?_, ?_, ?_⟩
      · rw [folder_step w _ L l _ f hl]
        first
        | rw [if_neg (fun x => absurd x.1 (by decide))]; exact h.saddles
        | rw [if_pos ⟨by decide, hm'⟩]; dsimp only; rw [h.saddles]
      · rw [folder_step w _ L l _ f hl]
        first
        | rw [if_neg (fun x => absurd x.1 (by decide))]; exact h.summits
        | rw [if_pos ⟨by decide, hm'⟩]; dsimp only; rw [h.summits]
      · rw [folder_step w _ L l _ f hl]
        first
        | rw [if_neg (fun x => absurd x.1 (by decide))]; exact h.runoffs
        | rw [if_pos ⟨by decide, hm'⟩]; dsimp only; rw [h.runoffs]
      · rw [folder_step w _ L l _ f hl]
        first
        | rw [if_neg (fun x => absurd x.1 (by decide))]; exact h.spots
        | rw [if_pos ⟨by decide, hm'⟩]; dsimp only; rw [h.spots]
      · rw [hline]; exact h.lines
      · rw [hline]; exact h.linkers
      · rw [hdom]; exact h.domains

theorem holds_linker {w : Wkt} {L : List KLeaf} {s : KmlSt} (h : Holds w L s) (i : Nat) (a b : KSpot) :
    Holds w (L ++ [.linker i a b]) (s.addLinker w a b) := by
  have hf : (L ++ [KLeaf.linker i a b]).filterMap KLeaf.filed = L.filterMap KLeaf.filed := by
    simp [List.filterMap_append, KLeaf.filed]
  have hline : (L ++ [KLeaf.linker i a b]).filterMap asLine = L.filterMap asLine ++ [(i, a, b)] := by
    simp [List.filterMap_append, asLine]
  have hdom : (L ++ [KLeaf.linker i a b]).filterMap asDomain = L.filterMap asDomain := by
    simp [List.filterMap_append, asDomain]
  have hmark : ∀ ts, marks w ts (L ++ [KLeaf.linker i a b]) = marks w ts L := fun ts => folder_same w ts L _ rfl
  have hkey : pmKey ⟨none, lineOf w a b, 0⟩ ∈
      (firsts pmKey ((L.filterMap asLine).map fun p => ⟨none, lineOf w p.2.1 p.2.2, 0⟩)).map pmKey ↔
      lineOf w a b ∈ s.lineKeys := by
    rw [firsts_keys, h.lines, List.map_map, List.mem_map, List.mem_map]
    simp [pmKey]
  unfold KmlSt.addLinker
  by_cases hm : lineOf w a b ∈ s.lineKeys
  · rw [if_pos hm]
    refine ⟨?_, ?_, ?_, ?_, ?_, ?_, ?_, ?_⟩
    · rw [hf]; exact h.keys
    · rw [hmark]; exact h.saddles
    · rw [hmark]; exact h.summits
    · rw [hmark]; exact h.runoffs
    · rw [hmark]; exact h.spots
    · intro g
      rw [hline, h.lines, List.map_append, List.mem_append]
      constructor
      · exact .inl
      · rintro (h' | h')
        · exact h'
        · rw [List.map_singleton, List.mem_singleton] at h'
          rw [h', ← h.lines]; exact hm
    · rw [hline, List.map_append, List.map_singleton, firsts_snoc, if_pos (hkey.2 hm)]; exact h.linkers
    · rw [hdom]; exact h.domains
  · rw [if_neg hm]
    refine ⟨?_, ?_, ?_, ?_, ?_, ?_, ?_, ?_⟩
    · rw [hf]; exact h.keys
    · rw [hmark]; exact h.saddles
    · rw [hmark]; exact h.summits
    · rw [hmark]; exact h.runoffs
    · rw [hmark]; exact h.spots
    · intro g
      rw [hline, List.map_append, List.mem_append, List.mem_append, h.lines]
      simp
    · rw [hline, List.map_append, List.map_singleton, firsts_snoc, if_neg (fun x => hm (hkey.1 x))]
      dsimp only
      rw [h.linkers]
    · rw [hdom]; exact h.domains

theorem holds_leaf {w : Wkt} {L : List KLeaf} {s : KmlSt} (h : Holds w L s) (l : KLeaf) :
    Holds w (L ++ [l]) (s.appendLeaf w l).1 := by
  cases l with
  | summit f => exact holds_spot h rfl rfl rfl
  | runoff f => exact holds_spot h rfl rfl rfl
  | saddle f d => exact holds_spot h rfl rfl rfl
  | spot f => exact holds_spot h rfl rfl rfl
  | linker i a b => exact holds_linker h i a b
  | domain i su =>
    have hf : (L ++ [KLeaf.domain i su]).filterMap KLeaf.filed = L.filterMap KLeaf.filed := by
      simp [List.filterMap_append, KLeaf.filed]
    have hline : (L ++ [KLeaf.domain i su]).filterMap asLine = L.filterMap asLine := by
      simp [List.filterMap_append, asLine]
    refine ⟨?_, ?_, ?_, ?_, ?_, ?_, ?_, ?_⟩
    · rw [hf]; exact h.keys
    · rw [folder_same _ _ _ _ rfl]; exact h.saddles
    · rw [folder_same _ _ _ _ rfl]; exact h.summits
    · rw [folder_same _ _ _ _ rfl]; exact h.runoffs
    · rw [folder_same _ _ _ _ rfl]; exact h.spots
    · rw [hline]; exact h.lines
    · rw [hline]; exact h.linkers
    · simp [List.filterMap_append, asDomain, KmlSt.appendLeaf, h.domains]
  | other =>
    have hf : (L ++ [KLeaf.other]).filterMap KLeaf.filed = L.filterMap KLeaf.filed := by
      simp [List.filterMap_append, KLeaf.filed]
    have hline : (L ++ [KLeaf.other]).filterMap asLine = L.filterMap asLine := by
      simp [List.filterMap_append, asLine]
    refine ⟨?_, ?_, ?_, ?_, ?_, ?_, ?_, ?_⟩
    · rw [hf]; exact h.keys
    · rw [folder_same _ _ _ _ rfl]; exact h.saddles
    · rw [folder_same _ _ _ _ rfl]; exact h.summits
    · rw [folder_same _ _ _ _ rfl]; exact h.runoffs
    · rw [folder_same _ _ _ _ rfl]; exact h.spots
    · rw [hline]; exact h.lines
    · rw [hline]; exact h.linkers
    · rw [show (L ++ [KLeaf.other]).filterMap asDomain = L.filterMap asDomain by simp [List.filterMap_append, asDomain]]
      exact h.domains

theorem appendLeaf_ok (w : Wkt) (s : KmlSt) (l : KLeaf) : (s.appendLeaf w l).2 = true ↔ l ≠ .other := by
  cases l <;> simp [KmlSt.appendLeaf]

theorem holds_leaves {w : Wkt} (ls : List KLeaf) : ∀ {L : List KLeaf} {s s' : KmlSt}, Holds w L s →
    s.extendLeaves w ls = (s', true) → Holds w (L ++ ls) s' := by
  induction ls with
  | nil =>
    intro L s s' h e
    rw [List.append_nil]
    injection e with e _
    exact e ▸ h
  | cons l ls ih =>
    intro L s s' h e
    unfold KmlSt.extendLeaves at e
    have h1 := holds_leaf h l
    cases hr : s.appendLeaf w l with
    | mk s1 b =>
      rw [hr] at e h1
      cases b with
      | false => cases e
      | true =>
        rw [List.append_cons]
        exact ih h1 e

theorem extendLeaves_ok (w : Wkt) (ls : List KLeaf) (s : KmlSt) (h : KLeaf.other ∉ ls) :
    ∃ s', s.extendLeaves w ls = (s', true) := by
  induction ls generalizing s with
  | nil => exact ⟨s, rfl⟩
  | cons l ls ih =>
    unfold KmlSt.extendLeaves
    have h1 := (appendLeaf_ok w s l).2 (fun x => h (by simp [x]))
    cases hr : s.appendLeaf w l with
    | mk s1 b =>
      rw [hr] at h1
      subst h1
      exact ih s1 fun x => h (by simp [x])

/-- Appending an item is appending its features. -/
theorem append_eq (w : Wkt) (s : KmlSt) (i : KItem) : s.append w i = s.extendLeaves w (features i) := by
  cases i with
  | leaf l =>
    unfold KmlSt.append features KmlSt.extendLeaves
    dsimp only
    cases s.appendLeaf w l with
    | mk s b => cases b <;> rfl
  | container ls => rfl
  | map => rfl

/-- Every writer that was filled without exception, by any appends, holds what was passed. -/
theorem holds_extend {w : Wkt} (is : List KItem) : ∀ {L : List KLeaf} {s s' : KmlSt}, Holds w L s →
    s.extend w is = (s', true) → Holds w (L ++ is.flatMap features) s' := by
  induction is with
  | nil =>
    intro L s s' h e
    simp only [List.flatMap_nil, List.append_nil]
    injection e with e _
    exact e ▸ h
  | cons i is ih =>
    intro L s s' h e
    unfold KmlSt.extend at e
    cases hr : s.append w i with
    | mk s1 b =>
      rw [hr] at e
      cases b with
      | false => cases e
      | true =>
        rw [append_eq] at hr
        have h1 := holds_leaves _ h hr
        have := ih h1 e
        rwa [List.append_assoc, ← List.flatMap_cons] at this

theorem extend_ok (w : Wkt) (is : List KItem) (s : KmlSt) (h : KLeaf.other ∉ is.flatMap features) :
    ∃ s', s.extend w is = (s', true) := by
  induction is generalizing s with
  | nil => exact ⟨s, rfl⟩
  | cons i is ih =>
    rw [List.flatMap_cons, List.mem_append] at h
    obtain ⟨s1, h1⟩ := extendLeaves_ok w (features i) s fun x => h (.inl x)
    unfold KmlSt.extend
    rw [append_eq, h1]
    exact ih s1 fun x => h (.inr x)

theorem extend_other (w : Wkt) (is : List KItem) (s s' : KmlSt) (h : s.extend w is = (s', true)) :
    KLeaf.other ∉ is.flatMap features := by
  have leaves : ∀ (ls : List KLeaf) (s s' : KmlSt), s.extendLeaves w ls = (s', true) → KLeaf.other ∉ ls := by
    intro ls
    induction ls with
    | nil => intro s s' _ h; cases h
    | cons l ls ih =>
      intro s s' h hm
      unfold KmlSt.extendLeaves at h
      have h1 := appendLeaf_ok w s l
      cases hr : s.appendLeaf w l with
      | mk s1 b =>
        rw [hr] at h h1
        cases b with
        | false => cases h
        | true =>
          rcases List.mem_cons.1 hm with e | e
          · exact h1.1 rfl e.symm
          · exact ih _ _ h e
  induction is generalizing s with
  | nil => simp
  | cons i is ih =>
    unfold KmlSt.extend at h
    rw [append_eq] at h
    cases hr : s.extendLeaves w (features i) with
    | mk s1 b =>
      rw [hr] at h
      cases b with
      | false => cases h
      | true =>
        rw [List.flatMap_cons, List.mem_append]
        rintro (e | e)
        · exact leaves _ _ _ hr e
        · exact ih s1 h e

/-! ### C47 -/

/-- The first elements of a list of images. -/
theorem firsts_map {α β γ : Type} [DecidableEq β] [DecidableEq α] (key : γ → β) (g : α → γ) (l : List α)
    (h : ∀ a ∈ l, ∀ b ∈ l, key (g a) = key (g b) → a = b) : firsts key (l.map g) = (firsts id l).map g := by
  induction l using List.reverseRecOn with
  | nil => rfl
  | append_singleton l a ih =>
    have ih := ih fun x hx y hy => h x (by simp [hx]) y (by simp [hy])
    rw [List.map_append, List.map_singleton, firsts_snoc, firsts_snoc, ih]
    have : key (g a) ∈ ((firsts id l).map g).map key ↔ id a ∈ (firsts id l).map id := by
      rw [List.map_id, List.map_map, List.mem_map]
      constructor
      · rintro ⟨b, hb, e⟩
        have := h b (by simp [(firsts_sublist id l).subset hb]) a (by simp) e
        rwa [← this]
      · intro ha
        exact ⟨a, ha, rfl⟩
    by_cases hm : id a ∈ (firsts id l).map id
    · rw [if_pos hm, if_pos (this.2 hm)]
    · rw [if_neg hm, if_neg (fun x => hm (this.1 x)), List.map_append, List.map_singleton]

theorem marks_summit (w : Wkt) (L : List KLeaf) :
    marks w [.summit] L = (L.filterMap asSummit).map (spotPm w .summit) := by
  unfold marks
  rw [List.filterMap_filterMap, List.map_filterMap]
  congr 1
  funext l
  cases l <;> simp [KLeaf.filed, asSummit]
  split <;> simp

theorem marks_runoff (w : Wkt) (L : List KLeaf) :
    marks w [.runoff] L = (L.filterMap asRunoff).map (spotPm w .runoff) := by
  unfold marks
  rw [List.filterMap_filterMap, List.map_filterMap]
  congr 1
  funext l
  cases l <;> simp [KLeaf.filed, asRunoff]
  split <;> simp

theorem marks_spot (w : Wkt) (L : List KLeaf) :
    marks w [.spot] L = (L.filterMap asSpot).map (spotPm w .spot) := by
  unfold marks
  rw [List.filterMap_filterMap, List.map_filterMap]
  congr 1
  funext l
  cases l <;> simp [KLeaf.filed, asSpot]
  split <;> simp

theorem marks_saddle (w : Wkt) (L : List KLeaf) :
    marks w [.basin, .saddle] L =
      (L.filterMap asSaddle).map fun p => spotPm w (if p.2 then .basin else .saddle) p.1 := by
  unfold marks
  rw [List.filterMap_filterMap, List.map_filterMap]
  congr 1
  funext l
  cases l <;> simp [KLeaf.filed, asSaddle]

/-- C47 as it holds: the writer accepts everything but objects of other classes. No folder but that of the domains
lists a type of feature at a location twice, every feature passed is listed, if need be by another one of its type at its
location, nothing else is listed, and domains are all listed. -/
theorem C47_locations_partial (w : Wkt) (is : List KItem) :
    ((∃ s, ({} : KmlSt).extend w is = (s, true)) ↔ KLeaf.other ∉ is.flatMap features) ∧
    ∀ s, ({} : KmlSt).extend w is = (s, true) →
      (s.summits.map (·.geometry)).Nodup ∧ (s.runoffs.map (·.geometry)).Nodup ∧ (s.spots.map (·.geometry)).Nodup ∧
      (s.linkers.map (·.geometry)).Nodup ∧ (s.saddles.map fun p => (p.kind, p.geometry)).Nodup ∧
      (∀ g, g ∈ s.summits.map (·.geometry) ↔ ∃ f, f ∈ (is.flatMap features).filterMap asSummit ∧ w.point f.lon f.lat = g) ∧
      (∀ g, g ∈ s.runoffs.map (·.geometry) ↔ ∃ f, f ∈ (is.flatMap features).filterMap asRunoff ∧ w.point f.lon f.lat = g) ∧
      (∀ g, g ∈ s.spots.map (·.geometry) ↔ ∃ f, f ∈ (is.flatMap features).filterMap asSpot ∧ w.point f.lon f.lat = g) ∧
      (∀ g, g ∈ s.saddles.map (·.geometry) ↔
        ∃ f d, (f, d) ∈ (is.flatMap features).filterMap asSaddle ∧ w.point f.lon f.lat = g) ∧
      (∀ g, g ∈ s.linkers.map (·.geometry) ↔
        ∃ i a b, (i, a, b) ∈ (is.flatMap features).filterMap asLine ∧ w.line (a.lon, a.lat) (b.lon, b.lat) = g) ∧
      s.domains.map (·.geometry) = ((is.flatMap features).filterMap asDomain).map fun p => w.area p.1 := by
  refine ⟨⟨fun ⟨s, h⟩ => extend_other w is _ _ h, fun h => extend_ok w is _ h⟩, fun s hs => ?_⟩
  have h := holds_extend is (holds_start w) hs
  rw [List.nil_append] at h
  generalize is.flatMap features = L at h
  have nod : ∀ (l r : List Placemark) (k : Option FType), r = firsts pmKey l → (∀ p ∈ l, p.kind = k) →
      (r.map (·.geometry)).Nodup := by
    intro l r k hr hk
    subst hr
    have := firsts_nodup pmKey l
    rw [List.nodup_iff_pairwise_ne, List.pairwise_map] at this ⊢
    refine List.Pairwise.imp_of_mem (fun {a b} ha hb hab e => hab ?_) this
    unfold pmKey
    rw [e, hk a ((firsts_sublist _ _).subset ha), hk b ((firsts_sublist _ _).subset hb)]
  have geo : ∀ (l r : List Placemark), r = firsts pmKey l → ∀ g, g ∈ r.map (·.geometry) ↔ g ∈ l.map (·.geometry) := by
    intro l r hr g
    subst hr
    have e : ∀ m : List Placemark, m.map (·.geometry) = (m.map pmKey).map (·.2) := fun m => by
      rw [List.map_map]; rfl
    rw [e, e, List.mem_map, List.mem_map]
    simp only [firsts_keys]
  have hsu := h.summits
  have hru := h.runoffs
  have hsp := h.spots
  have hsa := h.saddles
  have hli := h.linkers
  rw [marks_summit] at hsu
  rw [marks_runoff] at hru
  rw [marks_spot] at hsp
  rw [marks_saddle] at hsa
  refine ⟨nod _ _ (some .summit) hsu ?_, nod _ _ (some .runoff) hru ?_, nod _ _ (some .spot) hsp ?_,
    nod _ _ none hli ?_, ?_, ?_, ?_, ?_, ?_, ?_, ?_⟩
  · intro p hp; obtain ⟨f, _, rfl⟩ := List.mem_map.1 hp; rfl
  · intro p hp; obtain ⟨f, _, rfl⟩ := List.mem_map.1 hp; rfl
  · intro p hp; obtain ⟨f, _, rfl⟩ := List.mem_map.1 hp; rfl
  · intro p hp; obtain ⟨f, _, rfl⟩ := List.mem_map.1 hp; rfl
  · rw [hsa]; exact firsts_nodup pmKey _
  · intro g; rw [geo _ _ hsu, List.map_map, List.mem_map]; rfl
  · intro g; rw [geo _ _ hru, List.map_map, List.mem_map]; rfl
  · intro g; rw [geo _ _ hsp, List.map_map, List.mem_map]; rfl
  · intro g; rw [geo _ _ hsa, List.map_map, List.mem_map]
    constructor
    · rintro ⟨⟨f, d⟩, hf, e⟩; exact ⟨f, d, hf, e⟩
    · rintro ⟨f, d, hf, e⟩; exact ⟨(f, d), hf, e⟩
  · intro g; rw [geo _ _ hli, List.map_map, List.mem_map]
    constructor
    · rintro ⟨⟨i, a, b⟩, hf, e⟩; exact ⟨i, a, b, hf, e⟩
    · rintro ⟨i, a, b, hf, e⟩; exact ⟨(i, a, b), hf, e⟩
  · rw [h.domains, List.map_map]; rfl

/-- C47 for features at different locations: if no two different features of a type passed have one location, no saddle is
disqualified in between and no two linkers join the same locations, the folders list exactly the features passed, each once,
in the order they were first passed. -/
theorem C47_each_once_partial (w : Wkt) (hw : WktOk w) (is : List KItem) (s : KmlSt)
    (hs : ({} : KmlSt).extend w is = (s, true)) :
    (Separate ((is.flatMap features).filterMap asSummit) →
      s.summits = (firsts id ((is.flatMap features).filterMap asSummit)).map (spotPm w .summit)) ∧
    (Separate ((is.flatMap features).filterMap asRunoff) →
      s.runoffs = (firsts id ((is.flatMap features).filterMap asRunoff)).map (spotPm w .runoff)) ∧
    (Separate ((is.flatMap features).filterMap asSpot) →
      s.spots = (firsts id ((is.flatMap features).filterMap asSpot)).map (spotPm w .spot)) ∧
    (Separate (((is.flatMap features).filterMap asSaddle).map (·.1)) →
      (∀ f d d', (f, d) ∈ (is.flatMap features).filterMap asSaddle → (f, d') ∈ (is.flatMap features).filterMap asSaddle →
        d = d') →
      s.saddles = (firsts id ((is.flatMap features).filterMap asSaddle)).map
        fun p => spotPm w (if p.2 then .basin else .saddle) p.1) ∧
    ((∀ p ∈ (is.flatMap features).filterMap asLine, ∀ q ∈ (is.flatMap features).filterMap asLine,
        (p.2.1.lon, p.2.1.lat) = (q.2.1.lon, q.2.1.lat) → (p.2.2.lon, p.2.2.lat) = (q.2.2.lon, q.2.2.lat) → p = q) →
      s.linkers = (firsts id ((is.flatMap features).filterMap asLine)).map
        fun p => ⟨none, w.line (p.2.1.lon, p.2.1.lat) (p.2.2.lon, p.2.2.lat), 0⟩) := by
  have h := holds_extend is (holds_start w) hs
  rw [List.nil_append] at h
  generalize is.flatMap features = L at h
  refine ⟨fun hp => ?_, fun hp => ?_, fun hp => ?_, fun hp hd => ?_, fun hp => ?_⟩
  · rw [h.summits, marks_summit]
    refine firsts_map _ _ _ fun a ha b hb e => ?_
    obtain ⟨e1, e2⟩ := hw.point _ _ _ _ (congrArg Prod.snd e)
    exact hp a ha b hb e2 e1
  · rw [h.runoffs, marks_runoff]
    refine firsts_map _ _ _ fun a ha b hb e => ?_
    obtain ⟨e1, e2⟩ := hw.point _ _ _ _ (congrArg Prod.snd e)
    exact hp a ha b hb e2 e1
  · rw [h.spots, marks_spot]
    refine firsts_map _ _ _ fun a ha b hb e => ?_
    obtain ⟨e1, e2⟩ := hw.point _ _ _ _ (congrArg Prod.snd e)
    exact hp a ha b hb e2 e1
  · rw [h.saddles, marks_saddle]
    refine firsts_map _ _ _ fun a ha b hb e => ?_
    obtain ⟨e1, e2⟩ := hw.point _ _ _ _ (congrArg Prod.snd e)
    obtain ⟨a, d⟩ := a
    obtain ⟨b, d'⟩ := b
    have := hp a (List.mem_map.2 ⟨_, ha, rfl⟩) b (List.mem_map.2 ⟨_, hb, rfl⟩) e2 e1
    subst this
    rw [hd a d d' ha hb]
  · rw [h.linkers]
    refine firsts_map _ _ _ fun a ha b hb e => ?_
    obtain ⟨e1, e2⟩ := hw.line _ _ _ _ (congrArg Prod.snd e)
    exact hp a ha b hb e1 e2

/-- Texts for the instances. -/
def exWkt : Wkt :=
  ⟨fun a b => List.replicate a.num.natAbs 'n' ++ '!' :: List.replicate b.num.natAbs 'n', fun _ _ => [], fun _ => []⟩

/-- C47 fails for features at one location: the second of two different summits (saddles, runoffs, ...) there is
dropped, in every state of the writer. -/
theorem C47_one_location_refuted (w : Wkt) (s s1 s2 : KmlSt) (a b : KSpot) (t : FType) (hl : a.lat = b.lat ∧ a.lon = b.lon)
    (h1 : s1 = s.addSpot w t a) (h2 : s2 = s1.addSpot w t b) : s2 = s1 := by
  have hk : t.str ++ w.point a.lon a.lat ∈ s1.spotKeys := by
    rw [h1]
    unfold KmlSt.addSpot
    by_cases h : t.str ++ w.point a.lon a.lat ∈ s.spotKeys
    · rw [if_pos h]; exact h
    · rw [if_neg h]
      cases t <;> simp
  rw [h2]
  unfold KmlSt.addSpot
  rw [← hl.1, ← hl.2, if_pos hk]

/-- C47 fails for linkers between the same locations: two linkers of a saddle to one summit (as the walk makes them when both
sides of a saddle lead to it) are listed once. -/
theorem C47_parallel_linkers_refuted (w : Wkt) (s s1 s2 : KmlSt) (i j : Nat) (a b : KSpot)
    (h1 : s1 = (s.appendLeaf w (.linker i a b)).1) (h2 : s2 = (s1.appendLeaf w (.linker j a b)).1) : s2 = s1 := by
  have hk : lineOf w a b ∈ s1.lineKeys := by
    rw [h1]
    show lineOf w a b ∈ (s.addLinker w a b).lineKeys
    unfold KmlSt.addLinker
    by_cases h : lineOf w a b ∈ s.lineKeys
    · rw [if_pos h]; exact h
    · rw [if_neg h]; simp
  rw [h2]
  show s1.addLinker w a b = s1
  unfold KmlSt.addLinker
  rw [if_pos hk]

/-- C47 fails for domains: one that is passed twice is listed twice, in every state of the writer. -/
theorem C47_domain_twice_refuted (w : Wkt) (s : KmlSt) (i : Nat) (su : KSpot) :
    ∃ p, (s.extendLeaves w [.domain i su, .domain i su]).1.domains = s.domains ++ [p, p] :=
  ⟨⟨none, w.area i, su.ele⟩, by simp [KmlSt.extendLeaves, KmlSt.appendLeaf]⟩

/-- C47 fails for a saddle that is passed before and after it is disqualified: it is listed twice. -/
theorem C47_disqualified_refuted (w : Wkt) (f : KSpot) :
    ∃ p q, (({} : KmlSt).extend w [.leaf (.saddle f false), .leaf (.saddle f true)]).1.saddles = [p, q] ∧
      p.geometry = q.geometry := by
  refine ⟨spotPm w .saddle f, spotPm w .basin f, ?_, rfl⟩
  have : FType.basin.str ++ w.point f.lon f.lat ≠ FType.saddle.str ++ w.point f.lon f.lat := by
    intro h
    have := (key_inj h).1
    cases this
  simp [KmlSt.extend, KmlSt.append, KmlSt.appendLeaf, KmlSt.addSpot, this]

/-- Instance of the hypotheses of C47: a map with a linker, a saddle and a summit, and the summit again. -/
example :
    let r := ({} : KmlSt).extend exWkt [.map [.linker 0 ⟨1, 0, 0, 5⟩ ⟨2, 0, 1, 9⟩] [.saddle ⟨1, 0, 0, 5⟩ false]
      [.summit ⟨2, 0, 1, 9⟩] [] [.domain 0 ⟨2, 0, 1, 9⟩], .leaf (.summit ⟨2, 0, 1, 9⟩)]
    r.2 = true ∧ r.1.summits.length = 1 ∧ r.1.saddles.length = 1 ∧ r.1.linkers.length = 1 ∧ r.1.domains.length = 1 := by
  decide +kernel

/-- There is such a text format. -/
theorem wktOk_exists : ∃ w : Wkt, WktOk w := by
  have enc : ∃ f : Rat → List Char, Function.Injective f ∧ ∀ r, '!' ∉ f r := by
    refine ⟨fun r => (if r.num < 0 then ['-'] else []) ++ List.replicate r.num.natAbs 'n' ++ List.replicate r.den 'd', ?_, ?_⟩
    · intro a b h
      have hn := congrArg (List.count 'n') h
      have hd := congrArg (List.count 'd') h
      have hs := congrArg (List.count '-') h
      simp only [List.count_append, List.count_replicate] at hn hd hs
      have e1 : a.den = b.den := by
        by_cases h1 : a.num < 0 <;> by_cases h2 : b.num < 0 <;> simpa [h1, h2] using hd
      have e2 : a.num.natAbs = b.num.natAbs := by
        by_cases h1 : a.num < 0 <;> by_cases h2 : b.num < 0 <;> simpa [h1, h2] using hn
      have e3 : a.num < 0 ↔ b.num < 0 := by
        by_cases h1 : a.num < 0 <;> by_cases h2 : b.num < 0 <;> simp [h1, h2] at hs ⊢
      exact Rat.ext (by omega) e1
    · intro r
      by_cases h : r.num < 0 <;> simp [h, List.mem_replicate]
  obtain ⟨f, hf, hx⟩ := enc
  have pair : ∀ a b c d : List Char, '!' ∉ a → '!' ∉ c → a ++ '!' :: b = c ++ '!' :: d → a = c ∧ b = d := by
    intro a
    induction a with
    | nil =>
      intro b c d _ hc h
      cases c with
      | nil => exact ⟨rfl, by simpa using h⟩
      | cons x c => simp at h; exact absurd (List.mem_cons.2 (.inl h.1)) hc
    | cons y a ih =>
      intro b c d ha hc h
      cases c with
      | nil => simp at h; exact absurd (by simp [h.1]) ha
      | cons x c =>
        simp only [List.cons_append, List.cons.injEq] at h
        obtain ⟨e1, e2⟩ := ih b c d (fun x => ha (by simp [x])) (fun x => hc (by simp [x])) h.2
        exact ⟨by rw [h.1, e1], e2⟩
  refine ⟨⟨fun a b => f a ++ '!' :: f b, fun a b => f a.1 ++ '!' :: (f a.2 ++ '!' :: (f b.1 ++ '!' :: f b.2)),
    fun _ => []⟩, ⟨fun a b c d h => ?_, fun a b c d h => ?_⟩⟩
  · obtain ⟨e1, e2⟩ := pair _ _ _ _ (hx _) (hx _) h
    exact ⟨hf e1, hf e2⟩
  · obtain ⟨e1, h⟩ := pair _ _ _ _ (hx _) (hx _) h
    obtain ⟨e2, h⟩ := pair _ _ _ _ (hx _) (hx _) h
    obtain ⟨e3, e4⟩ := pair _ _ _ _ (hx _) (hx _) h
    exact ⟨Prod.ext (hf e1) (hf e2), Prod.ext (hf e3) (hf e4)⟩

/-! ### C48 -/

/-- C48 fails in every state: appending a linker changes no folder but that of the linkers. -/
theorem C48_linker_only_refuted (w : Wkt) (s : KmlSt) (i : Nat) (a b : KSpot) :
    (s.append w (.leaf (.linker i a b))).2 = true ∧ (s.append w (.leaf (.linker i a b))).1.saddles = s.saddles ∧
    (s.append w (.leaf (.linker i a b))).1.summits = s.summits ∧
    (s.append w (.leaf (.linker i a b))).1.runoffs = s.runoffs := by
  simp only [KmlSt.append, KmlSt.appendLeaf, KmlSt.addLinker]
  split <;> simp

/-- C48 for whole maps: after a map whose linkers join its own features was appended, the ends of all linkers are listed. -/
theorem C48_map_partial (w : Wkt) (s : KmlSt) (li sa su ru dom : List KLeaf) (before : List KItem)
    (hs : ({} : KmlSt).extend w (before ++ [.map li sa su ru dom]) = (s, true))
    (hli : ∀ i a b, KLeaf.linker i a b ∈ li → ((∃ d, .saddle a d ∈ sa) ∨ .runoff a ∈ ru) ∧ .summit b ∈ su) :
    ∀ i a b, KLeaf.linker i a b ∈ li →
      w.line (a.lon, a.lat) (b.lon, b.lat) ∈ s.linkers.map (·.geometry) ∧
      (w.point a.lon a.lat ∈ s.saddles.map (·.geometry) ∨ w.point a.lon a.lat ∈ s.runoffs.map (·.geometry)) ∧
      w.point b.lon b.lat ∈ s.summits.map (·.geometry) := by
  intro i a b hl
  obtain ⟨_, _, _, _, _, hsu, hru, _, hsa, hln, _⟩ := (C47_locations_partial w _).2 s hs
  have hmem : ∀ l, l ∈ li ++ sa ++ su ++ ru ++ dom →
      l ∈ (before ++ [KItem.map li sa su ru dom]).flatMap features := by
    intro l hl
    rw [List.flatMap_append, List.mem_append]
    exact .inr (by simpa [features] using hl)
  obtain ⟨h1, h2⟩ := hli i a b hl
  refine ⟨(hln _).2 ⟨i, a, b, List.mem_filterMap.2 ⟨.linker i a b, hmem _ (by simp [hl]), rfl⟩, rfl⟩, ?_,
    (hsu _).2 ⟨b, List.mem_filterMap.2 ⟨.summit b, hmem _ (by simp [h2]), rfl⟩, rfl⟩⟩
  rcases h1 with ⟨d, h1⟩ | h1
  · exact .inl ((hsa _).2 ⟨a, d, List.mem_filterMap.2 ⟨.saddle a d, hmem _ (by simp [h1]), rfl⟩, rfl⟩)
  · exact .inr ((hru _).2 ⟨a, List.mem_filterMap.2 ⟨.runoff a, hmem _ (by simp [h1]), rfl⟩, rfl⟩)

/-! ### C74 -/

/-- C74: the document has exactly the folders that are not empty, each name once, with all their placemarks; every style a
placemark refers to is defined in the document. -/
theorem C74_document (s : KmlSt) :
    (s.document.folders.map (·.1)).Nodup ∧ (∀ f ∈ s.document.folders, f.2 ≠ []) ∧
    (∀ p, (∃ f ∈ s.document.folders, p ∈ f.2) ↔
      p ∈ s.saddles ++ s.summits ++ s.spots ++ s.runoffs ++ s.linkers ++ s.domains) ∧
    ∀ f ∈ s.document.folders, ∀ p ∈ f.2, ∀ t, p.kind = some t → ∃ st ∈ s.document.styles, t.style = '#' :: st := by
  refine ⟨?_, ?_, ?_, ?_⟩
  · unfold KmlSt.document
    refine List.Nodup.sublist (List.Sublist.map _ List.filter_sublist) ?_
    simp only [List.map_cons, List.map_nil]
    decide +kernel
  · intro f hf
    have := (List.mem_filter.1 hf).2
    intro e
    simp [e] at this
  · intro p
    unfold KmlSt.document
    simp only [List.mem_filter, List.mem_cons, List.not_mem_nil, or_false, List.mem_append]
    constructor
    · rintro ⟨f, ⟨rfl | rfl | rfl | rfl | rfl | rfl, _⟩, hp⟩ <;> tauto
    · have ne : ∀ l : List Placemark, p ∈ l → (!l.isEmpty) = true := by
        intro l hl
        cases l with
        | nil => cases hl
        | cons => rfl
      rintro (((((h | h) | h) | h) | h) | h)
      · exact ⟨_, ⟨.inl rfl, ne _ h⟩, h⟩
      · exact ⟨_, ⟨.inr (.inl rfl), ne _ h⟩, h⟩
      · exact ⟨_, ⟨.inr (.inr (.inl rfl)), ne _ h⟩, h⟩
      · exact ⟨_, ⟨.inr (.inr (.inr (.inl rfl))), ne _ h⟩, h⟩
      · exact ⟨_, ⟨.inr (.inr (.inr (.inr (.inl rfl)))), ne _ h⟩, h⟩
      · exact ⟨_, ⟨.inr (.inr (.inr (.inr (.inr rfl)))), ne _ h⟩, h⟩
  · intro f _ p _ t _
    have : ∀ t : FType, ∃ st ∈ ["saddle", "summit", "basinsaddle", "runoff", "spotelevation"].map String.toList,
        t.style = '#' :: st := by
      intro t
      cases t
      · exact ⟨"summit".toList, by simp, by decide +kernel⟩
      · exact ⟨"runoff".toList, by simp, by decide +kernel⟩
      · exact ⟨"basinsaddle".toList, by simp, by decide +kernel⟩
      · exact ⟨"saddle".toList, by simp, by decide +kernel⟩
      · exact ⟨"spotelevation".toList, by simp, by decide +kernel⟩
    exact this t

/-- Instance: a writer with a summit and a linker has two folders. -/
example : (({} : KmlSt).extend exWkt [.leaf (.summit ⟨2, 0, 1, 9⟩), .leaf (.linker 0 ⟨1, 0, 0, 5⟩ ⟨2, 0, 1, 9⟩)]).1.document.folders.map
    (fun f => (f.1, f.2.length)) = [("Summits".toList, 1), ("Linkers".toList, 1)] := by decide +kernel

end PyProm
