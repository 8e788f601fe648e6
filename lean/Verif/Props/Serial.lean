import Verif.Proof.SerialMap
import Verif.Spec.Serial
import Verif.Props.Containers
import Mathlib.Tactic.Tauto

/-
Properties of saving and loading: C43-C46.
-/
namespace PyProm
open Spec

/-! ### C43: locations -/

/-- Grid points and containers of grid points come back as they were, directly and through a file. -/
theorem C43_grid_points (p : Pt) (g : P3) (c : List P3) :
    bgpFromDict (bgpToDict p) = .ok p ∧ bgpFromDict (bgpToDict p).cbor = .ok p ∧
    gpFromDict (gpToDict g) = .ok g ∧ gpFromDict (gpToDict g).cbor = .ok g ∧
    gpcFromDict (gpcToDict c) = .ok c ∧ gpcFromDict (gpcToDict c).cbor = .ok c := by
  rw [bgpFromDict_blind, gpFromDict_blind, gpcFromDict_blind]
  exact ⟨bgp_round p, bgp_round p, gp_round g, gp_round g, gpc_round c, gpc_round c⟩

theorem perim_reloaded_points {p : Perim} (h : Apart p.points) : p.reloaded.points.Perm p.points := by
  unfold Perim.reloaded
  rw [Perim.ofIndex_points]
  have := (fold_put (l := p.points) (idx := []) (fun r hr => nomatch hr) h).2
  simpa [idxFlat] using this

theorem perim_reloaded_kept {p : Perim} (h : Apart p.points) {l : List P3} (hl : p.mapEdgePoints = some l) :
    PerimeterKept p p.reloaded :=
  ⟨perim_reloaded_points h, rfl, by simp [Perim.reloaded, Perim.ofIndex, hl]⟩

theorem apart_unique {l : List P3} (h : Apart l) {p q : P3} (hp : p ∈ l) (hq : q ∈ l) (hx : p.x = q.x) (hy : p.y = q.y) :
    p = q := by
  unfold Apart at h
  induction l with
  | nil => simp at hp
  | cons a l ih =>
    rw [List.pairwise_cons] at h
    rcases List.mem_cons.mp hp with rfl | hp'
    · rcases List.mem_cons.mp hq with rfl | hq
      · rfl
      · exact absurd ⟨hx, hy⟩ (h.1 q hq)
    · rcases List.mem_cons.mp hq with rfl | hq
      · exact absurd ⟨hx.symm, hy.symm⟩ (h.1 p hp')
      · exact ih h.2 hp' hq

theorem perim_reloaded_index {p : Perim} (h : Apart p.points) : IndexExact p.reloaded := by
  intro x y r
  have hp := perim_reloaded_points h
  rw [hp.mem_iff]
  have hi : p.reloaded.index.getD [] = p.points.foldl indexPut [] := by
    unfold Perim.reloaded Perim.ofIndex
    cases p.points.foldl indexPut [] <;> rfl
  rw [hi]
  have hg := fold_get p.points x y []
  unfold idxGet at hg
  rw [hg]
  have hnone : (List.lookup x ([] : IntDict (IntDict P3))).bind (·.lookup y) = none := rfl
  rw [hnone]
  constructor
  · intro hh
    split at hh
    · rename_i q hq
      obtain rfl := Option.some.inj hh
      have h1 := List.find?_some hq
      have h2 := List.mem_of_find?_eq_some hq
      simp only [Bool.and_eq_true, decide_eq_true_eq] at h1
      exact ⟨List.mem_reverse.mp h2, h1⟩
    · simp at hh
  · rintro ⟨h1, h2, h3⟩
    split
    · rename_i q hq
      have h4 := List.find?_some hq
      have h5 := List.mem_reverse.mp (List.mem_of_find?_eq_some hq)
      simp only [Bool.and_eq_true, decide_eq_true_eq] at h4
      congr 1
      exact apart_unique h h5 h1 (h4.1.trans h2.symm) (h4.2.trans h3.symm)
    · rename_i hq
      have := List.find?_eq_none.mp hq r (List.mem_reverse.mpr h1)
      simp [h2, h3] at this

/-- C43 for perimeters. Missing for the claim: points with equal coordinates, and perimeters whose
edge points are not a list. The loaded perimeter compares equal, keeps its edge attributes, and finds
exactly its members by coordinates. -/
theorem C43_perimeter_partial (p : Perim) (h : Apart p.points) (l : List P3) (hl : p.mapEdgePoints = some l) :
    ∃ q, Perim.fromDict p.toDict = .ok q ∧ Perim.fromDict p.toDict.cbor = .ok q ∧ PerimeterKept p q ∧
      perimEq p.points q.points = true ∧ IndexExact q := by
  have e : Perim.fromDict p.toDict = .ok p.reloaded := by
    rw [p.load l hl]
    simp [Perim.reloaded, hl]
  refine ⟨p.reloaded, e, by rw [Perim.fromDict_blind]; exact e, perim_reloaded_kept h hl, ?_, perim_reloaded_index h⟩
  exact (C37_order_perimeter _ _).mpr (perim_reloaded_points h).symm

theorem multi_reloaded_kept {m : MultiObj} (h : AreaSound m) : MultiKept m m.reloaded := by
  obtain ⟨_, p, hp, ha, l, hl⟩ := h
  refine ⟨?_, rfl, p, p.reloaded, hp, ?_, perim_reloaded_kept ha hl⟩
  · simp [MultiObj.reloaded, Function.comp_def]
  · simp [MultiObj.reloaded, hp]

theorem areaSound_loads {m : MultiObj} (h : AreaSound m) : m.Loads := by
  obtain ⟨_, p, hp, _, l, hl⟩ := h
  exact ⟨p, hp, l, hl⟩

theorem areas_load {o : Option MultiObj} (h : ∀ a, o = some a → AreaSound a) : MultiLoads o :=
  fun m hm _ => areaSound_loads (h m hm)

theorem area_kept {o : Option MultiObj} (h : ∀ a, o = some a → AreaSound a) : AreaKept o (multiReloaded o) := by
  cases o with
  | none => trivial
  | some m =>
    have := (h m rfl).1
    simp only [multiReloaded, List.isEmpty_iff, this, if_false]
    exact multi_reloaded_kept (h m rfl)

/-- C43 for MultiPoints. Missing for the claim: MultiPoints without perimeter, and those of
`C43_perimeter_partial`; elevations in the tuples are dropped, so the loaded MultiPoint compares equal
exactly if there were none. -/
theorem C43_multipoint_partial (m : MultiObj) (h : AreaSound m) :
    ∃ v n, m.toDict = .ok v ∧ MultiObj.fromDict v = .ok n ∧ MultiObj.fromDict v.cbor = .ok n ∧ MultiKept m n ∧
      (multiEq m.points n.points = true ↔ ∀ p ∈ m.points, p.e = none) := by
  obtain ⟨v, h1, h2⟩ := MultiObj.load (areaSound_loads h)
  refine ⟨v, m.reloaded, h1, h2, by rw [MultiObj.fromDict_blind]; exact h2, multi_reloaded_kept h, ?_⟩
  rw [C37_order_multi]
  constructor
  · intro hp p hpm
    have := hp.mem_iff.mp hpm
    simp only [MultiObj.reloaded, List.mem_map] at this
    obtain ⟨q, _, rfl⟩ := this
    rfl
  · intro he
    have : m.reloaded.points = m.points := by
      simp only [MultiObj.reloaded]
      conv => rhs; rw [← List.map_id m.points]
      apply List.map_congr_left
      intro p hp
      obtain ⟨x, y, e⟩ := p
      have := he _ hp
      dsimp only at this
      rw [this]
      rfl
    rw [this]

/-- C43 for summits. Missing for the claim: the flag `disqualified` is never written (so it has to be
unset), and the areas of `C43_multipoint_partial`. -/
theorem C43_summit_partial (s : LSummit) (linkId : Nat → Nat) (hd : s.disq = false)
    (ha : ∀ a, s.mp = some a → AreaSound a) :
    ∃ v t, s.toDict linkId = .ok v ∧ LSummit.fromDict v = .ok t ∧ LSummit.fromDict v.cbor = .ok t ∧ SummitKept s t ∧
      s.eq t = true := by
  obtain ⟨v, h1, h2⟩ := s.load linkId (areas_load ha)
  refine ⟨v, _, h1, h2, by rw [LSummit.fromDict_blind]; exact h2, ?_, ?_⟩
  · exact ⟨rfl, rfl, rfl, rfl, rfl, rfl, hd.symm, area_kept ha⟩
  · exact C37_location_equiv.1.1 ⟨s.lat, s.lon, s.ele, 0⟩

/-- Only the override True is written. -/
theorem flag_over (o : Option Bool) : ((if o = some true then some true else none) = some true ↔ o = some true) ∧
    (if o = some true then some true else none) ≠ some false := by
  rcases o with _ | _ | _ <;> simp

/-- C43 for saddles and runoffs. Missing for the claim: a flag `disqualified` set to False by hand
against the automatic flags, runoffs without edge effect (the constructor sets it), and the areas of
`C43_multipoint_partial`. -/
theorem C43_saddle_partial (s : LSaddle) (sadId linkId : Nat → Nat)
    (hd : s.over = some false → s.single = false ∧ s.basin = false) (hr : s.runoff = true → s.edge = true)
    (ha : ∀ a, s.mp = some a → AreaSound a) :
    ∃ v t, s.toDict sadId linkId = .ok v ∧ LSaddle.fromDict s.runoff v = .ok t ∧
      LSaddle.fromDict s.runoff v.cbor = .ok t ∧ SaddleKept s t ∧ s.eq t = true := by
  obtain ⟨v, h1, h2, _⟩ := s.load sadId linkId s.runoff (areas_load ha)
  refine ⟨v, _, h1, h2, by rw [LSaddle.fromDict_blind]; exact h2, ?_, ?_⟩
  · refine ⟨rfl, rfl, rfl, rfl, rfl, ?_, rfl, rfl, rfl, ?_, (flag_over _).1, (flag_over _).2, rfl, area_kept ha⟩
    · cases hrr : s.runoff with
      | false => simp
      | true => simp [hr hrr]
    · unfold LSaddle.disqualified
      dsimp only
      cases ho : s.over with
      | none => rfl
      | some b =>
        cases b with
        | true => rfl
        | false =>
          obtain ⟨a, b⟩ := hd ho
          simp [a, b]
  · exact C37_location_equiv.1.1 ⟨s.lat, s.lon, s.ele, 0⟩

/-- Area of two cells with its perimeter. -/
def exArea : MultiObj where
  points := [⟨1, 1, none⟩, ⟨1, 2, none⟩]
  elevation := 50
  perimeter := some
    { points := [⟨0, 1, 60⟩, ⟨2, 2, 40⟩, ⟨0, 2, 70⟩], index := none, mapEdge := true, mapEdgePoints := some [⟨0, 1, 60⟩] }

/-- A saddle with an area, two high neighbourhoods and a flag. -/
def exSad (i : Nat) : LSaddle where
  runoff := false
  id := i
  lat := 44
  lon := -71
  ele := 50
  edge := true
  edgePoints := [⟨1, 1, 50⟩]
  single := true
  basin := false
  over := some true
  mp := some exArea
  hpn := [[⟨0, 1, 60⟩], [⟨0, 2, 70⟩]]
  parent := none
  children := []
  alts := []
  links := []

theorem exArea_sound : AreaSound exArea :=
  ⟨by decide, _, rfl, by unfold Apart; decide +kernel, _, rfl⟩

example : (exSad 3).over = some false → (exSad 3).single = false ∧ (exSad 3).basin = false := by decide
example : ∀ a, (exSad 3).mp = some a → AreaSound a := by
  intro a h
  obtain rfl := Option.some.inj h
  exact exArea_sound

/-- A summit with the same area. -/
def exSum (i : Nat) : LSummit where
  id := i
  lat := 44
  lon := -72
  ele := 50
  edge := false
  edgePoints := []
  mp := some exArea
  disq := false
  links := []
  domain := none

example : (exSum 1).disq = false ∧ ∀ a, (exSum 1).mp = some a → AreaSound a :=
  ⟨rfl, fun a h => by obtain rfl := Option.some.inj h; exact exArea_sound⟩

/-- C43 fails for every SpotElevation: the keys written are not those read. -/
theorem C43_spot_elevation_refuted (s : SpotObj) : SpotObj.fromDict s.toDict = .error .keyError ∧
    SpotObj.fromDict s.toDict.cbor = .error .keyError := by
  rw [SpotObj.fromDict_blind]
  exact ⟨rfl, rfl⟩

/-- C43 fails for every perimeter without a list of edge points (the default of the constructor): loading
stops with a TypeError. -/
theorem C43_no_edge_points_refuted (p : Perim) (h : p.mapEdgePoints = none) :
    Perim.fromDict p.toDict = .error .typeError ∧ Perim.fromDict p.toDict.cbor = .error .typeError := by
  rw [Perim.fromDict_blind]
  exact ⟨p.load_none h, p.load_none h⟩

/-- C43 fails for perimeters with a repeated cell: the copy has fewer points and compares unequal. -/
theorem C43_repeated_cell_refuted : ∃ p q : Perim, Perim.fromDict p.toDict = .ok q ∧
    perimEq p.points q.points = false ∧ q.points.length < p.points.length :=
  ⟨⟨[⟨1, 1, 5⟩, ⟨1, 1, 5⟩], none, false, some []⟩, ⟨[⟨1, 1, 5⟩], some [(1, [(1, ⟨1, 1, 5⟩)])], false, some []⟩,
    by decide +kernel, by decide +kernel, by decide⟩

/-- C43 fails for MultiPoints made of tuples with elevation: the copy compares unequal. -/
theorem C43_elevations_refuted : ∃ (m n : MultiObj) (v : PyVal), m.toDict = .ok v ∧ MultiObj.fromDict v = .ok n ∧
    multiEq m.points n.points = false :=
  ⟨{ exArea with points := [⟨1, 1, some 50⟩] }, { exArea with points := [⟨1, 1, some 50⟩] : MultiObj }.reloaded,
    _, rfl, by decide +kernel, by decide +kernel⟩

/-- C43 fails for MultiPoints without perimeter: they cannot be saved. -/
theorem C43_no_perimeter_refuted (m : MultiObj) (h : m.perimeter = none) : m.toDict = .error .attributeError := by
  simp [MultiObj.toDict, h]

/-- C43 fails for disqualified summits: the flag is lost. -/
theorem C43_summit_disqualified_refuted : ∃ (s t : LSummit) (v : PyVal), s.toDict id = .ok v ∧
    LSummit.fromDict v = .ok t ∧ s.disq = true ∧ t.disq = false :=
  ⟨{ exSum 1 with disq := true }, _, _, rfl, rfl, rfl, rfl⟩

/-- C43 fails for saddles whose disqualification was lifted by hand: the copy is disqualified. -/
theorem C43_saddle_qualified_refuted : ∃ (s t : LSaddle) (v : PyVal), s.toDict id id = .ok v ∧
    LSaddle.fromDict false v = .ok t ∧ s.disqualified = false ∧ t.disqualified = true :=
  ⟨{ exSad 1 with over := some false }, _, _, rfl, rfl, rfl, rfl⟩

/-! ### C46: families of saddles -/

theorem ids_inj {α} {f : α → Nat} {l : List α} (h : (l.map f).Nodup) {a b : α} (ha : a ∈ l) (hb : b ∈ l)
    (hf : f a = f b) : a = b := List.inj_on_of_nodup_map h ha hb hf

theorem pos_get {m : LMap} {ks : List Nat} (h : (ks.map m.sadId).Nodup) {c : Nat} (hc : c ∈ ks) :
    ks[posOf (ks.map m.sadId) (m.sadId c)]? = some c := by
  have := posOf_get (List.mem_map_of_mem (f := m.sadId) hc)
  rw [List.getElem?_map, Option.map_eq_some_iff] at this
  obtain ⟨c', h1, h2⟩ := this
  rw [h1, ids_inj h (List.mem_of_getElem? h1) hc h2]

theorem loaded_family {m : LMap} {ks : List Nat} (h : (ks.map m.sadId).Nodup) (hc : m.Closed ks ks) :
    FamilyKept m ks (ks.map (m.loadedSaddle ks)) := by
  refine ⟨by simp, ?_⟩
  intro p k t hk ht
  rw [List.getElem?_map, hk] at ht
  obtain rfl := Option.some.inj ht
  obtain ⟨c1, c2, c3⟩ := hc k (List.mem_of_getElem? hk)
  refine ⟨?_, ?_, ?_⟩
  · simp only [LMap.loadedSaddle, addRefs, LSaddle.reloaded, List.nil_append, List.map_map]
    exact List.map_congr_left fun c hc => pos_get h (c1 c hc)
  · simp only [LMap.loadedSaddle, addRefs, LSaddle.reloaded, Option.or_none]
    cases hp : (m.sad k).parent with
    | none => rfl
    | some c =>
      simp only [Option.map_some]
      rw [pos_get h (c2 c hp)]
  · simp only [LMap.loadedSaddle, addRefs, LSaddle.reloaded, List.nil_append, List.map_map]
    exact List.map_congr_left fun c hc => pos_get h (c3 c hc)

/-- C46. Missing for the claim: references to saddles outside the container (loading stops), containers
that hold a saddle twice, and runoffs. Saving and loading a container of saddles with different ids
restores all references between them, in order. -/
theorem C46_family_partial (m : LMap) (ks : List Nat) (hid : (ks.map fun k => (m.sad k).id).Nodup)
    (hc : ∀ k ∈ ks, (∀ c ∈ (m.sad k).children, c ∈ ks) ∧ (∀ c, (m.sad k).parent = some c → c ∈ ks) ∧
      ∀ c ∈ (m.sad k).alts, c ∈ ks) (ha : ∀ k ∈ ks, ∀ a, (m.sad k).mp = some a → AreaSound a) :
    ∃ v l, m.saddlesToDict "saddles" ks = .ok v ∧ saddlesFromDict v = .ok l ∧ saddlesFromDict v.cbor = .ok l ∧
      FamilyKept m ks l ∧ l.map (·.id) = ks.map fun k => (m.sad k).id := by
  obtain ⟨ds, b1, b2⟩ := save_saddles m false "saddles" ks fun k hk => areas_load (ha k hk)
  have e := load_saddles m ks hid hc ds b2
  refine ⟨_, _, b1, e, by rw [saddlesFromDict_blind]; exact e, loaded_family hid hc, ?_⟩
  rw [List.map_map]
  rfl

/-- A container with a parent, two children and alternatives between them. -/
def exFamilyMap : LMap where
  sum _ := exSum 0
  sad k := if k = 2 then { exSad 2 with children := [0, 1] }
    else { exSad k with parent := some 2, alts := [1 - k] }
  link _ := ⟨0, 0, 0, false⟩
  dom _ := ⟨0, [], []⟩
  summits := []
  saddles := [0, 1, 2]
  runoffs := []
  linkers := []
  domains := []

example : (([0, 1, 2] : List Nat).map fun k => (exFamilyMap.sad k).id).Nodup ∧
    (∀ k ∈ ([0, 1, 2] : List Nat), (∀ c ∈ (exFamilyMap.sad k).children, c ∈ ([0, 1, 2] : List Nat)) ∧
      (∀ c ∈ (exFamilyMap.sad k).parent, c ∈ ([0, 1, 2] : List Nat)) ∧
      ∀ c ∈ (exFamilyMap.sad k).alts, c ∈ ([0, 1, 2] : List Nat)) := by decide +kernel

/-- The container is loaded, or the error. -/
def reloadSaddles (m : LMap) (ks : List Nat) : Except PyErr (List LSaddle) := do
  saddlesFromDict (← m.saddlesToDict "saddles" ks).cbor

/-- C46 fails if a saddle refers to one that is not in the container, for instance because it was
purged: loading stops with a KeyError. -/
theorem C46_outside_refuted : (reloadSaddles exFamilyMap [0, 1]) = .error .keyError := by decide +kernel

/-- C46 fails for every container with a saddle whose child is not in it: loading stops with a KeyError. -/
theorem C46_child_outside_refuted (m : LMap) (ks : List Nat) (ha : ∀ k ∈ ks, ∀ a, (m.sad k).mp = some a → AreaSound a)
    (k c : Nat) (hk : k ∈ ks) (hc : c ∈ (m.sad k).children) (hn : ∀ j ∈ ks, (m.sad j).id ≠ (m.sad c).id) :
    ∃ v, m.saddlesToDict "saddles" ks = .ok v ∧ saddlesFromDict v.cbor = .error .keyError := by
  obtain ⟨ds, b1, b2⟩ := save_saddles m false "saddles" ks fun k hk => areas_load (ha k hk)
  refine ⟨_, b1, ?_⟩
  rw [saddlesFromDict_blind]
  refine load_saddles_err m ks ds b2 ⟨k, hk, c, hc, fun h => ?_⟩
  obtain ⟨j, hj, e⟩ := List.mem_map.1 h
  exact hn j hj e

/-- C46 fails for a container that holds a saddle twice: the first copy loses its references, the second
has all of them doubled. -/
theorem C46_twice_refuted : (reloadSaddles exFamilyMap [0, 1, 2, 2]).toOption.map
    (fun l => l.map fun t => (t.children, t.parent)) =
    some [([], some 3), ([], some 3), ([], none), ([0, 1, 0, 1], none)] := by decide +kernel

/-- C46 fails for containers of runoffs: no reference survives. -/
theorem C46_runoffs_refuted (m : LMap) (ks : List Nat) (ha : ∀ k ∈ ks, ∀ a, (m.sad k).mp = some a → AreaSound a) :
    ∃ v l, m.saddlesToDict "runoffs" ks = .ok v ∧ runoffsFromDict v.cbor = .ok l ∧
      ∀ t ∈ l, t.parent = none ∧ t.children = [] ∧ t.alts = [] := by
  obtain ⟨ds, b1, b2⟩ := save_saddles m true "runoffs" ks fun k hk => areas_load (ha k hk)
  have e := load_runoffs m ks ds b2
  refine ⟨_, _, b1, by rw [runoffsFromDict_blind]; exact e, ?_⟩
  intro t ht
  obtain ⟨k, _, rfl⟩ := List.mem_map.mp ht
  exact ⟨rfl, rfl, rfl⟩

/-! ### C44, C45: maps -/

theorem Spec.Closed.loads {m : LMap} (h : Spec.Closed m) : m.Loads where
  ids := h.saddleIds
  closed := h.family
  linkers := h.linkers
  domains := h.domains
  summitMp := fun D hD => areas_load (h.summitAreas D hD)
  saddleMp := fun k hk => areas_load (h.saddleAreas k hk)

theorem loaded_summit_get (m : LMap) (P : Nat) : m.loaded.summits[P]? = m.summits[P]?.map fun D =>
    { (m.sum D).reloaded with
      links := keepL (LState.linkerEq ⟨m.baseSummits, m.baseSaddles, [], []⟩) LLinker.summit P m.loaded.linkers
      domain := lastPos (m.loaded.domains.map LDomain.summit) P } := by
  simp only [LMap.loaded, domState, linkState, List.getElem?_mapIdx, LMap.baseSummits, List.getElem?_map, Option.map_map]
  cases m.summits[P]? with
  | none => rfl
  | some D => simp [LSummit.reloaded]

theorem baseSaddles_get (m : LMap) (P : Nat) (k : Nat) (h : (m.saddles ++ m.runoffs)[P]? = some k) :
    m.baseSaddles[P]? = some (if P < m.saddles.length then m.loadedSaddle m.saddles k else (m.sad k).reloaded true) := by
  unfold LMap.baseSaddles
  by_cases hP : P < m.saddles.length
  · rw [List.getElem?_append_left (by simpa using hP), List.getElem?_map]
    rw [List.getElem?_append_left hP] at h
    rw [h]
    simp [hP]
  · rw [List.getElem?_append_right (by simpa using hP), List.getElem?_map, List.length_map]
    rw [List.getElem?_append_right (by simpa using hP)] at h
    simp [h, hP]

theorem loaded_saddle_get (m : LMap) (P : Nat) (k : Nat) (h : (m.saddles ++ m.runoffs)[P]? = some k) :
    m.loaded.saddles[P]? = some
    { (if P < m.saddles.length then m.loadedSaddle m.saddles k else (m.sad k).reloaded true) with
      links := keepL (LState.linkerEq ⟨m.baseSummits, m.baseSaddles, [], []⟩) LLinker.saddle P m.loaded.linkers } := by
  simp only [LMap.loaded, domState, linkState, List.getElem?_mapIdx, baseSaddles_get m P k h, Option.map_some]

theorem loaded_summit_id {m : LMap} {D : Nat} (h : D ∈ m.summits) :
    m.loaded.summits[posOf (m.summits.map m.sumId) (m.sumId D)]?.map (·.id) = some (m.sumId D) := by
  have := posOf_get (List.mem_map_of_mem (f := m.sumId) h)
  rw [List.getElem?_map, Option.map_eq_some_iff] at this
  obtain ⟨D', h1, h2⟩ := this
  rw [loaded_summit_get, h1]
  simp only [Option.map_some]
  exact congrArg some h2

theorem loaded_saddle_id {m : LMap} {k : Nat} (h : k ∈ m.saddles ++ m.runoffs) :
    m.loaded.saddles[posOf ((m.saddles ++ m.runoffs).map m.sadId) (m.sadId k)]?.map (·.id) = some (m.sadId k) := by
  have := posOf_get (List.mem_map_of_mem (f := m.sadId) h)
  rw [List.getElem?_map, Option.map_eq_some_iff] at this
  obtain ⟨k', h1, h2⟩ := this
  rw [loaded_saddle_get m _ k' h1]
  simp only [Option.map_some]
  rw [← h2]
  split <;> rfl

theorem loaded_linkers_kept {m : LMap}
    (h : ∀ i ∈ m.linkers, (m.link i).summit ∈ m.summits ∧ (m.link i).saddle ∈ m.saddles ++ m.runoffs) :
    LinkersKept m m.loaded := by
  unfold LinkersKept
  have : m.loaded.linkers = m.linkers.map
      (m.loadedLinker (m.summits.map m.sumId) ((m.saddles ++ m.runoffs).map m.sadId)) := rfl
  rw [this, List.map_map]
  apply List.map_congr_left
  intro i hi
  obtain ⟨a, b⟩ := h i hi
  simp only [Function.comp, LMap.loadedLinker]
  rw [loaded_summit_id a, loaded_saddle_id b]
  rfl

/-- C44, the list of linkers: saving and loading a map whose linkers end in its containers gives the same
linkers in the same order (id, flag, ids of the ends), parallel and co-located ones included. -/
theorem C44_linkers (m : LMap) (h : Spec.Closed m) (fp : Fingerprint) :
    ∃ v s n, m.toDict fp = .ok v ∧ LState.fromDict v.cbor fp = .ok (s, n) ∧ LinkersKept m s := by
  obtain ⟨v, h1, h2, _⟩ := m.load h.loads fp
  exact ⟨v, _, _, h1, h2, loaded_linkers_kept h.linkers⟩

theorem keepL_exact {eq : LLinker → LLinker → Bool} {sel : LLinker → Nat} {P : Nat} (ls : List LLinker)
    (hne : ls.Pairwise fun a b => sel a = P → sel b = P → eq a b = false) :
    keepL eq sel P ls = (List.range ls.length).filter fun j => decide (ls[j]?.map sel = some P) := by
  induction ls using List.reverseRecOn with
  | nil => rfl
  | append_singleton ls a ih =>
    rw [List.pairwise_append] at hne
    obtain ⟨h1, _, h3⟩ := hne
    have ih := ih h1
    have hr : (List.range ls.length).filter (fun j => decide ((ls ++ [a])[j]?.map sel = some P)) =
        (List.range ls.length).filter fun j => decide (ls[j]?.map sel = some P) := by
      apply List.filter_congr
      intro j hj
      rw [List.getElem?_append_left (List.mem_range.mp hj)]
    rw [keepL_append, List.length_append, List.length_singleton, List.range_succ, List.filter_append, hr, ← ih]
    by_cases hs : sel a = P
    · have : anyEq eq ls a (keepL eq sel P ls) = false := by
        unfold anyEq
        rw [List.any_eq_false]
        intro i hi
        rw [ih, List.mem_filter] at hi
        have h4 := of_decide_eq_true hi.2
        rw [Option.map_eq_some_iff] at h4
        obtain ⟨b, hb, hsb⟩ := h4
        rw [hb]
        simp [h3 b (List.mem_of_getElem? hb) a (by simp) hsb hs]
      simp [hs, this]
    · simp [hs]

theorem keepL_sublist {eq : LLinker → LLinker → Bool} {sel : LLinker → Nat} {P : Nat} (ls : List LLinker) :
    (keepL eq sel P ls).Sublist ((List.range ls.length).filter fun j => decide (ls[j]?.map sel = some P)) ∧
    ∀ j b, ls[j]? = some b → sel b = P → j ∈ keepL eq sel P ls ∨ ∃ i ∈ keepL eq sel P ls, ∃ a, ls[i]? = some a ∧ eq a b = true := by
  induction ls using List.reverseRecOn with
  | nil => exact ⟨.refl _, by simp⟩
  | append_singleton ls a ih =>
    obtain ⟨ih, ih2⟩ := ih
    have hr : (List.range ls.length).filter (fun j => decide ((ls ++ [a])[j]?.map sel = some P)) =
        (List.range ls.length).filter fun j => decide (ls[j]?.map sel = some P) := by
      apply List.filter_congr
      intro j hj
      rw [List.getElem?_append_left (List.mem_range.mp hj)]
    rw [keepL_append, List.length_append, List.length_singleton, List.range_succ, List.filter_append, hr]
    constructor
    · split
      · rename_i hc
        refine ih.append ?_
        simp [hc.1]
      · exact ih.trans (List.sublist_append_left _ _)
    · intro j b hj hb
      have lift : ∀ i ∈ keepL eq sel P ls, ∀ a', ls[i]? = some a' → (ls ++ [a])[i]? = some a' := by
        intro i hi a' h
        rw [List.getElem?_append_left (keepL_lt i hi), h]
      by_cases hjl : j < ls.length
      · rw [List.getElem?_append_left hjl] at hj
        rcases ih2 j b hj hb with h | ⟨i, hi, a', h1, h2⟩
        · left
          split
          · exact List.mem_append_left _ h
          · exact h
        · right
          refine ⟨i, ?_, a', lift i hi a' h1, h2⟩
          split
          · exact List.mem_append_left _ hi
          · exact hi
      · have hjl' : j = ls.length := by
          have := (List.getElem?_eq_some_iff.mp hj).1
          simp only [List.length_append, List.length_singleton] at this
          omega
        subst hjl'
        simp only [List.getElem?_concat_length, Option.some.injEq] at hj
        subst hj
        by_cases hq : anyEq eq ls a (keepL eq sel P ls) = false
        · left
          rw [if_pos ⟨hb, hq⟩]
          simp
        · right
          rw [if_neg (by tauto)]
          simp only [Bool.not_eq_false] at hq
          unfold anyEq at hq
          rw [List.any_eq_true] at hq
          obtain ⟨i, hi, h⟩ := hq
          cases hbi : ls[i]? with
          | none => simp [hbi] at h
          | some a' =>
            rw [hbi] at h
            exact ⟨i, hi, a', lift i hi a' hbi, h⟩

theorem filter_positions {α β} (l : List α) (p : α → Bool) (g : α → β) :
    ((List.range l.length).filter fun j => decide (l[j]?.map p = some true)).map (fun j => l[j]?.map g) =
      (l.filter p).map fun a => some (g a) := by
  induction l using List.reverseRecOn with
  | nil => rfl
  | append_singleton l a ih =>
    have hr : (List.range l.length).filter (fun j => decide ((l ++ [a])[j]?.map p = some true)) =
        (List.range l.length).filter fun j => decide (l[j]?.map p = some true) := by
      apply List.filter_congr
      intro j hj
      rw [List.getElem?_append_left (List.mem_range.mp hj)]
    rw [List.length_append, List.length_singleton, List.range_succ, List.filter_append, hr, List.map_append,
      List.filter_append, List.map_append, ← ih]
    congr 1
    · apply List.map_congr_left
      intro j hj
      rw [List.getElem?_append_left (List.mem_range.mp (List.mem_filter.mp hj).1)]
    · by_cases h : p a = true <;> simp [h]

theorem Spec.Closed.pos_get {m : LMap} (h : Spec.Closed m) {k : Nat} (hk : k ∈ m.saddles ++ m.runoffs) :
    (m.saddles ++ m.runoffs)[posOf ((m.saddles ++ m.runoffs).map m.sadId) (m.sadId k)]? = some k := by
  have := posOf_get (List.mem_map_of_mem (f := m.sadId) hk)
  rw [List.getElem?_map, Option.map_eq_some_iff] at this
  obtain ⟨k', h1, h2⟩ := this
  rw [h1, h.sameId k' (List.mem_of_getElem? h1) k hk h2]

theorem baseEq (m : LMap) (h : Spec.Closed m) {i j : Nat} (hi : i ∈ m.linkers) (hj : j ∈ m.linkers) :
    LState.linkerEq ⟨m.baseSummits, m.baseSaddles, [], []⟩
      (m.loadedLinker (m.summits.map m.sumId) ((m.saddles ++ m.runoffs).map m.sadId) i)
      (m.loadedLinker (m.summits.map m.sumId) ((m.saddles ++ m.runoffs).map m.sadId) j) =
    ((m.sum (m.link i).summit).eq (m.sum (m.link j).summit) && (m.sad (m.link i).saddle).eq (m.sad (m.link j).saddle)) := by
  have hs : ∀ D ∈ m.summits, m.baseSummits[posOf (m.summits.map m.sumId) (m.sumId D)]? = some (m.sum D).reloaded := by
    intro D hD
    have := posOf_get (List.mem_map_of_mem (f := m.sumId) hD)
    rw [List.getElem?_map, Option.map_eq_some_iff] at this
    obtain ⟨D', h1, h2⟩ := this
    obtain rfl := ids_inj (f := m.sumId) h.summitIds (List.mem_of_getElem? h1) hD h2
    unfold LMap.baseSummits
    rw [List.getElem?_map, h1]
    rfl
  have hk : ∀ k ∈ m.saddles ++ m.runoffs, ∃ x, m.baseSaddles[posOf ((m.saddles ++ m.runoffs).map m.sadId) (m.sadId k)]? =
      some x ∧ x.lat = (m.sad k).lat ∧ x.lon = (m.sad k).lon ∧ x.ele = (m.sad k).ele := by
    intro k hk
    rw [baseSaddles_get m _ k (h.pos_get hk)]
    refine ⟨_, rfl, ?_⟩
    split <;> exact ⟨rfl, rfl, rfl⟩
  obtain ⟨a1, a2⟩ := h.linkers i hi
  obtain ⟨b1, b2⟩ := h.linkers j hj
  obtain ⟨x, hx, x1, x2, x3⟩ := hk _ a2
  obtain ⟨y, hy, y1, y2, y3⟩ := hk _ b2
  unfold LState.linkerEq
  simp only [LMap.loadedLinker, hs _ a1, hs _ b1, hx, hy, LSaddle.eq, x1, x2, x3, y1, y2, y3]
  rfl

/-- Positions of the ends. -/
theorem summit_pos_iff {m : LMap} (h : Spec.Closed m) {P D : Nat} (hP : m.summits[P]? = some D) {D' : Nat} (hD : D' ∈ m.summits) :
    posOf (m.summits.map m.sumId) (m.sumId D') = P ↔ D' = D := by
  constructor
  · intro hh
    have := posOf_get (List.mem_map_of_mem (f := m.sumId) hD)
    rw [hh, List.getElem?_map, hP] at this
    exact ids_inj (f := m.sumId) h.summitIds hD (List.mem_of_getElem? hP) (Option.some.inj this).symm
  · rintro rfl
    exact posOf_nodup h.summitIds (by rw [List.getElem?_map, hP]; rfl)

theorem saddle_pos_iff {m : LMap} (h : Spec.Closed m) {P k : Nat} (hP : (m.saddles ++ m.runoffs)[P]? = some k)
    (hl : ∀ Q, P < Q → (m.saddles ++ m.runoffs)[Q]? ≠ some k) {k' : Nat}
    (hk : k' ∈ m.saddles ++ m.runoffs) : posOf ((m.saddles ++ m.runoffs).map m.sadId) (m.sadId k') = P ↔ k' = k := by
  constructor
  · intro hh
    have := h.pos_get hk
    rw [hh, hP] at this
    exact (Option.some.inj this).symm
  · rintro rfl
    have : lastPos ((m.saddles ++ m.runoffs).map m.sadId) (m.sadId k') = some P := by
      rw [lastPos_some]
      refine ⟨by rw [List.getElem?_map, hP]; rfl, fun Q hQ hh => ?_⟩
      rw [List.getElem?_map, Option.map_eq_some_iff] at hh
      obtain ⟨q, h1, h2⟩ := hh
      exact hl Q hQ (by rw [h1, h.sameId q (List.mem_of_getElem? h1) k' hk h2])
    unfold posOf
    rw [this]
    rfl

/-- No linker leads to the copy of a runoff that is not its last. -/
theorem saddle_pos_ne {m : LMap} (h : Spec.Closed m) {P Q k : Nat} (hP : (m.saddles ++ m.runoffs)[P]? = some k)
    (hQ : (m.saddles ++ m.runoffs)[Q]? = some k) (hPQ : P < Q) {k' : Nat} (hk : k' ∈ m.saddles ++ m.runoffs) :
    posOf ((m.saddles ++ m.runoffs).map m.sadId) (m.sadId k') ≠ P := by
  intro hh
  have h1 := h.pos_get hk
  rw [hh, hP] at h1
  obtain rfl := Option.some.inj h1
  obtain ⟨j, hj⟩ := lastPos_mem (List.mem_map_of_mem (f := m.sadId) hk)
  have hj' : j = P := by rw [← hh]; unfold posOf; rw [hj]; rfl
  subst hj'
  refine ((lastPos_some _ _ _).mp hj).2 Q hPQ ?_
  rw [List.getElem?_map, hQ]
  rfl

/-- The links of a feature after loading, when none of its linkers compares equal to another. -/
theorem links_of (m : LMap) (sel : LLinker → Nat) (eq : LLinker → LLinker → Bool) (P : Nat) (own : Nat → Bool)
    (hown : ∀ i ∈ m.linkers, (sel (m.loadedLinker (m.summits.map m.sumId) ((m.saddles ++ m.runoffs).map m.sadId) i) = P ↔
      own i = true))
    (hp : (m.linkers.map (m.loadedLinker (m.summits.map m.sumId) ((m.saddles ++ m.runoffs).map m.sadId))).Pairwise
      fun a b => sel a = P → sel b = P → eq a b = false) :
    linkIds m.loaded (keepL eq sel P m.loaded.linkers) = (m.linkers.filter own).map fun i => some (m.linkId i) := by
  have e : m.loaded.linkers = m.linkers.map
      (m.loadedLinker (m.summits.map m.sumId) ((m.saddles ++ m.runoffs).map m.sadId)) := rfl
  unfold linkIds
  rw [e, keepL_exact _ hp, List.length_map]
  rw [← filter_positions m.linkers own m.linkId]
  have : (List.range m.linkers.length).filter (fun j => decide ((m.linkers.map
      (m.loadedLinker (m.summits.map m.sumId) ((m.saddles ++ m.runoffs).map m.sadId)))[j]?.map sel = some P)) =
      (List.range m.linkers.length).filter fun j => decide (m.linkers[j]?.map own = some true) := by
    apply List.filter_congr
    intro j hj
    rw [List.getElem?_map]
    cases hl : m.linkers[j]? with
    | none => rfl
    | some i =>
      simp only [Option.map_some, Option.some.injEq]
      rw [Bool.eq_iff_iff, decide_eq_true_eq, decide_eq_true_eq]
      exact hown i (List.mem_of_getElem? hl)
  rw [this]
  apply List.map_congr_left
  intro j _
  rw [List.getElem?_map, Option.map_map]
  rfl

theorem pairwise_loaded {m : LMap} (h : Spec.Closed m) (hp : NoParallel m) (sel : LLinker → Nat) (P : Nat) :
    (m.linkers.map (m.loadedLinker (m.summits.map m.sumId) ((m.saddles ++ m.runoffs).map m.sadId))).Pairwise
      fun a b => sel a = P → sel b = P →
        LState.linkerEq ⟨m.baseSummits, m.baseSaddles, [], []⟩ a b = false := by
  rw [List.pairwise_map]
  refine hp.imp_of_mem ?_
  intro i j hi hj hh _ _
  rw [baseEq m h hi hj, ← Bool.not_eq_true, Bool.and_eq_true]
  exact hh

/-- C44, the lists of the features. Missing for the claim: linkers that compare equal, i.e. whose summits
and whose saddles compare equal. Without such, every loaded summit and saddle lists the linkers it
listed when saved, in the order of all linkers of the map. -/
theorem C44_features_partial (m : LMap) (h : Spec.Closed m) (hc : LinksConsistent m) (hp : NoParallel m) (fp : Fingerprint) :
    ∃ v s n, m.toDict fp = .ok v ∧ LState.fromDict v.cbor fp = .ok (s, n) ∧
      (∀ (P : Nat) D, m.summits[P]? = some D → ∃ t, s.summits[P]? = some t ∧
        (linkIds s t.links).Perm ((m.sum D).links.map fun i => some (m.link i).id) ∧
        linkIds s t.links = (m.linkers.filter fun i => (m.link i).summit = D).map fun i => some (m.link i).id) ∧
      (∀ (P : Nat) k, (m.saddles ++ m.runoffs)[P]? = some k → (∀ Q, P < Q → (m.saddles ++ m.runoffs)[Q]? ≠ some k) →
        ∃ t, s.saddles[P]? = some t ∧ (linkIds s t.links).Perm ((m.sad k).links.map fun i => some (m.link i).id) ∧
        linkIds s t.links = (m.linkers.filter fun i => (m.link i).saddle = k).map fun i => some (m.link i).id) := by
  obtain ⟨v, h1, h2, _⟩ := m.load h.loads fp
  refine ⟨v, _, _, h1, h2, ?_, ?_⟩
  · intro P D hP
    refine ⟨_, by rw [loaded_summit_get, hP]; rfl, ?_⟩
    dsimp only
    rw [links_of m LLinker.summit _ P (fun i => decide ((m.link i).summit = D)) _ (pairwise_loaded h hp _ P)]
    · exact ⟨((hc.summits D (List.mem_of_getElem? hP)).map _).symm, rfl⟩
    · intro i hi
      rw [decide_eq_true_eq]
      exact summit_pos_iff h hP (h.linkers i hi).1
  · intro P k hP hl
    refine ⟨_, loaded_saddle_get m P k hP, ?_⟩
    dsimp only
    rw [links_of m LLinker.saddle _ P (fun i => decide ((m.link i).saddle = k)) _ (pairwise_loaded h hp _ P)]
    · exact ⟨((hc.saddles k (List.mem_of_getElem? hP)).map _).symm, rfl⟩
    · intro i hi
      rw [decide_eq_true_eq]
      exact saddle_pos_iff h hP hl (h.linkers i hi).2

/-- C44, the lists of the features in general: a loaded summit lists linkers that led to it when saved, and
for each such linker one with an equal saddle; the same the other way round. So loaded features have
the same neighbours up to comparison by place and elevation. -/
theorem C44_represented (m : LMap) (h : Spec.Closed m) (fp : Fingerprint) :
    ∃ v s n, m.toDict fp = .ok v ∧ LState.fromDict v.cbor fp = .ok (s, n) ∧
      (∀ (P : Nat) D, m.summits[P]? = some D → ∃ t, s.summits[P]? = some t ∧ t.links.Nodup ∧
        (∀ j ∈ t.links, ∃ i, m.linkers[j]? = some i ∧ (m.link i).summit = D) ∧
        ∀ (j i : Nat), m.linkers[j]? = some i → (m.link i).summit = D → ∃ j' ∈ t.links, ∃ i' : Nat, m.linkers[j']? = some i' ∧
          (m.sad (m.link i').saddle).eq (m.sad (m.link i).saddle) = true) ∧
      (∀ (P : Nat) k, (m.saddles ++ m.runoffs)[P]? = some k → (∀ Q, P < Q → (m.saddles ++ m.runoffs)[Q]? ≠ some k) →
        ∃ t, s.saddles[P]? = some t ∧ t.links.Nodup ∧
        (∀ j ∈ t.links, ∃ i, m.linkers[j]? = some i ∧ (m.link i).saddle = k) ∧
        ∀ (j i : Nat), m.linkers[j]? = some i → (m.link i).saddle = k → ∃ j' ∈ t.links, ∃ i' : Nat, m.linkers[j']? = some i' ∧
          (m.sum (m.link i').summit).eq (m.sum (m.link i).summit) = true) := by
  obtain ⟨v, h1, h2, _⟩ := m.load h.loads fp
  have e : m.loaded.linkers = m.linkers.map
      (m.loadedLinker (m.summits.map m.sumId) ((m.saddles ++ m.runoffs).map m.sadId)) := rfl
  have rs : ∀ s : LSaddle, s.eq s = true := fun s => C37_location_equiv.1.1 ⟨s.lat, s.lon, s.ele, 0⟩
  have ru : ∀ s : LSummit, s.eq s = true := fun s => C37_location_equiv.1.1 ⟨s.lat, s.lon, s.ele, 0⟩
  have key : ∀ (sel : LLinker → Nat) (P : Nat),
      (keepL (LState.linkerEq ⟨m.baseSummits, m.baseSaddles, [], []⟩) sel P m.loaded.linkers).Nodup ∧
      (∀ j ∈ keepL (LState.linkerEq ⟨m.baseSummits, m.baseSaddles, [], []⟩) sel P m.loaded.linkers,
        ∃ i, m.linkers[j]? = some i ∧
          sel (m.loadedLinker (m.summits.map m.sumId) ((m.saddles ++ m.runoffs).map m.sadId) i) = P) ∧
      ∀ (j i : Nat), m.linkers[j]? = some i →
        sel (m.loadedLinker (m.summits.map m.sumId) ((m.saddles ++ m.runoffs).map m.sadId) i) = P →
        ∃ j' ∈ keepL (LState.linkerEq ⟨m.baseSummits, m.baseSaddles, [], []⟩) sel P m.loaded.linkers,
          ∃ i', m.linkers[j']? = some i' ∧ (m.sad (m.link i').saddle).eq (m.sad (m.link i).saddle) = true ∧
          (m.sum (m.link i').summit).eq (m.sum (m.link i).summit) = true := by
    intro sel P
    obtain ⟨k1, k2⟩ := keepL_sublist (eq := LState.linkerEq ⟨m.baseSummits, m.baseSaddles, [], []⟩) (sel := sel) (P := P)
      m.loaded.linkers
    refine ⟨k1.nodup ((List.nodup_range).filter _), ?_, ?_⟩
    · intro j hj
      have := of_decide_eq_true (List.mem_filter.mp (k1.subset hj)).2
      rw [e, List.getElem?_map, Option.map_map, Option.map_eq_some_iff] at this
      obtain ⟨i, a, b⟩ := this
      exact ⟨i, a, b⟩
    · intro j i hj hs
      have hj' : m.loaded.linkers[j]? = some
          (m.loadedLinker (m.summits.map m.sumId) ((m.saddles ++ m.runoffs).map m.sadId) i) := by
        rw [e, List.getElem?_map, hj]; rfl
      rcases k2 j _ hj' hs with hh | ⟨j', hj2, a, ha, hq⟩
      · exact ⟨j, hh, i, hj, rs _, ru _⟩
      · rw [e, List.getElem?_map, Option.map_eq_some_iff] at ha
        obtain ⟨i', b1, rfl⟩ := ha
        rw [baseEq m h (List.mem_of_getElem? b1) (List.mem_of_getElem? hj), Bool.and_eq_true] at hq
        exact ⟨j', hj2, i', b1, hq.2, hq.1⟩
  refine ⟨v, _, _, h1, h2, ?_, ?_⟩
  · intro P D hP
    refine ⟨_, by rw [loaded_summit_get, hP]; rfl, ?_⟩
    obtain ⟨k1, k2, k3⟩ := key LLinker.summit P
    refine ⟨k1, ?_, ?_⟩
    · intro j hj
      obtain ⟨i, a, b⟩ := k2 j hj
      exact ⟨i, a, (summit_pos_iff h hP (h.linkers i (List.mem_of_getElem? a)).1).mp b⟩
    · intro j i hj hi
      obtain ⟨j', a, i', b, c, _⟩ := k3 j i hj
        ((summit_pos_iff h hP (h.linkers i (List.mem_of_getElem? hj)).1).mpr hi)
      exact ⟨j', a, i', b, c⟩
  · intro P k hP hl
    refine ⟨_, loaded_saddle_get m P k hP, ?_⟩
    obtain ⟨k1, k2, k3⟩ := key LLinker.saddle P
    refine ⟨k1, ?_, ?_⟩
    · intro j hj
      obtain ⟨i, a, b⟩ := k2 j hj
      exact ⟨i, a, (saddle_pos_iff h hP hl (h.linkers i (List.mem_of_getElem? a)).2).mp b⟩
    · intro j i hj hi
      obtain ⟨j', a, i', b, _, c⟩ := k3 j i hj
        ((saddle_pos_iff h hP hl (h.linkers i (List.mem_of_getElem? hj)).2).mpr hi)
      exact ⟨j', a, i', b, c⟩

/-- Membership in the loaded lists: the first of each class of equal linkers of the feature. -/
theorem keepL_first {eq : LLinker → LLinker → Bool} {sel : LLinker → Nat} {P : Nat} (ls : List LLinker)
    (ht : ∀ a ∈ ls, ∀ b ∈ ls, ∀ c ∈ ls, eq a b = true → eq b c = true → eq a c = true) (j : Nat) :
    j ∈ keepL eq sel P ls ↔ ∃ b, ls[j]? = some b ∧ sel b = P ∧ ∀ i < j, ∀ a, ls[i]? = some a → sel a = P → eq a b = false := by
  induction ls using List.reverseRecOn with
  | nil => simp [keepL]
  | append_singleton ls a ih =>
    have ih := ih fun x hx y hy z hz => ht x (List.mem_append_left _ hx) y (List.mem_append_left _ hy) z
      (List.mem_append_left _ hz)
    have hold : ∀ {i : Nat}, i < ls.length → (ls ++ [a])[i]? = ls[i]? := fun hi => List.getElem?_append_left hi
    have hnew : (ls ++ [a])[ls.length]? = some a := by simp
    rcases Nat.lt_trichotomy j ls.length with hj | rfl | hj
    · have e : j ∈ keepL eq sel P (ls ++ [a]) ↔ j ∈ keepL eq sel P ls := by
        rw [keepL_append]
        split
        · simp [Nat.ne_of_lt hj]
        · rfl
      rw [e, ih, hold hj]
      refine exists_congr fun b => and_congr_right fun _ => and_congr_right fun _ => forall_congr' fun i => ?_
      refine ⟨fun h hi x hx => h hi x (by rw [← hold (by omega)]; exact hx), fun h hi x hx =>
        h hi x (by rw [hold (by omega)]; exact hx)⟩
    · have hno : ls.length ∉ keepL eq sel P ls := fun h => Nat.lt_irrefl _ (keepL_lt _ h)
      have e : ls.length ∈ keepL eq sel P (ls ++ [a]) ↔ sel a = P ∧ anyEq eq ls a (keepL eq sel P ls) = false := by
        rw [keepL_append]
        split
        · rename_i h; simp [h]
        · rename_i h
          exact iff_of_false hno h
      rw [e]
      constructor
      · rintro ⟨h1, h2⟩
        refine ⟨a, hnew, h1, fun i hi x hx hsx => ?_⟩
        rw [hold hi] at hx
        by_contra hc
        have hc : eq x a = true := by simpa using hc
        have hfind : ∃ i' ∈ keepL eq sel P ls, ∃ y, ls[i']? = some y ∧ eq y a = true := by
          rcases (keepL_sublist (eq := eq) (sel := sel) (P := P) ls).2 i x hx hsx with h | ⟨i', hi', y, hy, hq⟩
          · exact ⟨i, h, x, hx, hc⟩
          · exact ⟨i', hi', y, hy, ht y (List.mem_append_left _ (List.mem_of_getElem? hy)) x
              (List.mem_append_left _ (List.mem_of_getElem? hx)) a (by simp) hq hc⟩
        obtain ⟨i', hi', y, hy, hq⟩ := hfind
        unfold anyEq at h2
        rw [List.any_eq_false] at h2
        have := h2 i' hi'
        rw [hy] at this
        exact this hq
      · rintro ⟨b, hb, h1, h2⟩
        rw [hnew] at hb
        cases hb
        refine ⟨h1, ?_⟩
        unfold anyEq
        rw [List.any_eq_false]
        intro i hi
        have hm := (keepL_sublist (eq := eq) (sel := sel) (P := P) ls).1.subset hi
        have hm := of_decide_eq_true (List.mem_filter.1 hm).2
        rw [Option.map_eq_some_iff] at hm
        obtain ⟨y, hy, hsy⟩ := hm
        rw [hy]
        simp [h2 i (keepL_lt i hi) y (by rw [hold (keepL_lt i hi)]; exact hy) hsy]
    · have h1 : j ∉ keepL eq sel P (ls ++ [a]) := fun h => by
        have := keepL_lt _ h
        rw [List.length_append, List.length_singleton] at this
        omega
      have h2 : (ls ++ [a])[j]? = none := List.getElem?_eq_none (by simp; omega)
      simp [h1, h2]

theorem LSaddle.eq_trans {a b c : LSaddle} (h : a.eq b = true) (g : b.eq c = true) : a.eq c = true :=
  C37_location_equiv.1.2.2 ⟨a.lat, a.lon, a.ele, 0⟩ ⟨b.lat, b.lon, b.ele, 0⟩ ⟨c.lat, c.lon, c.ele, 0⟩ h g

theorem LSummit.eq_trans {a b c : LSummit} (h : a.eq b = true) (g : b.eq c = true) : a.eq c = true :=
  C37_location_equiv.1.2.2 ⟨a.lat, a.lon, a.ele, 0⟩ ⟨b.lat, b.lon, b.ele, 0⟩ ⟨c.lat, c.lon, c.ele, 0⟩ h g

/-- C44, which linkers the features list after loading, for every map: a summit lists, in the order of the linkers of the
map, the first of its linkers to each saddle, where saddles that compare equal count as one; a saddle lists the first of its
linkers to each summit in the same way. All others are in no list any more. -/
theorem C44_listed (m : LMap) (h : Spec.Closed m) (fp : Fingerprint) :
    ∃ v s n, m.toDict fp = .ok v ∧ LState.fromDict v.cbor fp = .ok (s, n) ∧
      (∀ (P : Nat) D, m.summits[P]? = some D → ∃ t, s.summits[P]? = some t ∧ t.links.Pairwise (· < ·) ∧
        ∀ j, j ∈ t.links ↔ ∃ i, m.linkers[j]? = some i ∧ (m.link i).summit = D ∧
          ∀ j' < j, ∀ i', m.linkers[j']? = some i' → (m.link i').summit = D →
            (m.sad (m.link i').saddle).eq (m.sad (m.link i).saddle) = false) ∧
      (∀ (P : Nat) k, (m.saddles ++ m.runoffs)[P]? = some k → (∀ Q, P < Q → (m.saddles ++ m.runoffs)[Q]? ≠ some k) →
        ∃ t, s.saddles[P]? = some t ∧ t.links.Pairwise (· < ·) ∧
        ∀ j, j ∈ t.links ↔ ∃ i, m.linkers[j]? = some i ∧ (m.link i).saddle = k ∧
          ∀ j' < j, ∀ i', m.linkers[j']? = some i' → (m.link i').saddle = k →
            (m.sum (m.link i').summit).eq (m.sum (m.link i).summit) = false) := by
  obtain ⟨v, h1, h2, _⟩ := m.load h.loads fp
  have e : m.loaded.linkers = m.linkers.map
      (m.loadedLinker (m.summits.map m.sumId) ((m.saddles ++ m.runoffs).map m.sadId)) := rfl
  have rs : ∀ s : LSaddle, s.eq s = true := fun s => C37_location_equiv.1.1 ⟨s.lat, s.lon, s.ele, 0⟩
  have ru : ∀ s : LSummit, s.eq s = true := fun s => C37_location_equiv.1.1 ⟨s.lat, s.lon, s.ele, 0⟩
  have ht : ∀ a ∈ m.loaded.linkers, ∀ b ∈ m.loaded.linkers, ∀ c ∈ m.loaded.linkers,
      LState.linkerEq ⟨m.baseSummits, m.baseSaddles, [], []⟩ a b = true →
      LState.linkerEq ⟨m.baseSummits, m.baseSaddles, [], []⟩ b c = true →
      LState.linkerEq ⟨m.baseSummits, m.baseSaddles, [], []⟩ a c = true := by
    rw [e]
    intro a ha b hb c hc
    obtain ⟨i, hi, rfl⟩ := List.mem_map.1 ha
    obtain ⟨j, hj, rfl⟩ := List.mem_map.1 hb
    obtain ⟨k, hk, rfl⟩ := List.mem_map.1 hc
    rw [baseEq m h hi hj, baseEq m h hj hk, baseEq m h hi hk]
    simp only [Bool.and_eq_true]
    exact fun p q => ⟨LSummit.eq_trans p.1 q.1, LSaddle.eq_trans p.2 q.2⟩
  have hsort : ∀ (sel : LLinker → Nat) (P : Nat),
      (keepL (LState.linkerEq ⟨m.baseSummits, m.baseSaddles, [], []⟩) sel P m.loaded.linkers).Pairwise (· < ·) := fun sel P =>
    (List.pairwise_lt_range.filter _).sublist (keepL_sublist m.loaded.linkers).1
  have key : ∀ (sel : LLinker → Nat) (P : Nat) (own : Nat → Prop), (∀ i ∈ m.linkers,
      (sel (m.loadedLinker (m.summits.map m.sumId) ((m.saddles ++ m.runoffs).map m.sadId) i) = P ↔ own i)) →
      ∀ j, j ∈ keepL (LState.linkerEq ⟨m.baseSummits, m.baseSaddles, [], []⟩) sel P m.loaded.linkers ↔
        ∃ i, m.linkers[j]? = some i ∧ own i ∧ ∀ j' < j, ∀ i', m.linkers[j']? = some i' → own i' →
          ((m.sum (m.link i').summit).eq (m.sum (m.link i).summit) && (m.sad (m.link i').saddle).eq (m.sad (m.link i).saddle)) =
            false := by
    intro sel P own hown j
    rw [keepL_first _ ht]
    constructor
    · rintro ⟨b, hb, hs, hf⟩
      rw [e, List.getElem?_map, Option.map_eq_some_iff] at hb
      obtain ⟨i, hi, rfl⟩ := hb
      have him := List.mem_of_getElem? hi
      refine ⟨i, hi, (hown i him).1 hs, fun j' hj' i' hi' ho => ?_⟩
      have := hf j' hj' _ (by rw [e, List.getElem?_map, hi']; rfl) ((hown i' (List.mem_of_getElem? hi')).2 ho)
      rwa [baseEq m h (List.mem_of_getElem? hi') him] at this
    · rintro ⟨i, hi, ho, hf⟩
      have him := List.mem_of_getElem? hi
      refine ⟨_, by rw [e, List.getElem?_map, hi]; rfl, (hown i him).2 ho, fun j' hj' a ha hs => ?_⟩
      rw [e, List.getElem?_map, Option.map_eq_some_iff] at ha
      obtain ⟨i', hi', rfl⟩ := ha
      have him' := List.mem_of_getElem? hi'
      rw [baseEq m h him' him]
      exact hf j' hj' i' hi' ((hown i' him').1 hs)
  refine ⟨v, _, _, h1, h2, fun P D hP => ⟨_, by rw [loaded_summit_get, hP]; rfl, hsort _ P, fun j => ?_⟩,
    fun P k hP hl => ⟨_, loaded_saddle_get m P k hP, hsort _ P, fun j => ?_⟩⟩
  · refine (key LLinker.summit P (fun i => (m.link i).summit = D) (fun i hi => summit_pos_iff h hP (h.linkers i hi).1) j).trans ?_
    refine exists_congr fun i => and_congr_right fun _ => and_congr_right fun hi => ?_
    refine forall_congr' fun j' => forall_congr' fun _ => forall_congr' fun i' => forall_congr' fun _ =>
      forall_congr' fun hi' => ?_
    rw [hi, hi', ru, Bool.true_and]
  · refine (key LLinker.saddle P (fun i => (m.link i).saddle = k) (fun i hi => saddle_pos_iff h hP hl (h.linkers i hi).2) j).trans ?_
    refine exists_congr fun i => and_congr_right fun _ => and_congr_right fun hi => ?_
    refine forall_congr' fun j' => forall_congr' fun _ => forall_congr' fun i' => forall_congr' fun _ =>
      forall_congr' fun hi' => ?_
    rw [hi, hi', rs, Bool.and_true]

/-- C44 fails for every map with two linkers from one summit to saddles that compare equal, in particular to one saddle: after
loading, the second still leads to the summit, but the summit does not list it. -/
theorem C44_equal_refuted (m : LMap) (h : Spec.Closed m) (fp : Fingerprint) (P D j j' i i' : Nat) (hP : m.summits[P]? = some D)
    (hj : j' < j) (hi : m.linkers[j]? = some i) (hi' : m.linkers[j']? = some i') (hD : (m.link i).summit = D)
    (hD' : (m.link i').summit = D) (hq : (m.sad (m.link i').saddle).eq (m.sad (m.link i).saddle) = true) :
    ∃ v s n t l, m.toDict fp = .ok v ∧ LState.fromDict v.cbor fp = .ok (s, n) ∧ s.summits[P]? = some t ∧
      s.linkers[j]? = some l ∧ l.id = (m.link i).id ∧ l.summit = P ∧ j ∉ t.links := by
  obtain ⟨v, s, n, h1, h2, h3, _⟩ := C44_listed m h fp
  obtain ⟨v', g1, g2, _⟩ := m.load h.loads fp
  cases (g1.symm.trans h1 : Except.ok _ = Except.ok _)
  cases (g2.symm.trans h2 : Except.ok _ = Except.ok _)
  obtain ⟨t, t1, _, t2⟩ := h3 P D hP
  have e : m.loaded.linkers = m.linkers.map
      (m.loadedLinker (m.summits.map m.sumId) ((m.saddles ++ m.runoffs).map m.sadId)) := rfl
  refine ⟨v, m.loaded, _, t, m.loadedLinker (m.summits.map m.sumId) ((m.saddles ++ m.runoffs).map m.sadId) i, h1, h2, t1,
    by rw [e, List.getElem?_map, hi]; rfl, rfl,
    (summit_pos_iff h hP (h.linkers i (List.mem_of_getElem? hi)).1).2 hD, fun hc => ?_⟩
  obtain ⟨x, x1, _, x3⟩ := (t2 j).1 hc
  rw [hi] at x1
  cases x1
  rw [x3 j' hj i' hi' hD'] at hq
  cases hq

/-- A map with two summits, two saddles, a runoff, the linkers given and two domains. -/
def exSaved (lat1 : Rat) (ends : List (Nat × Nat)) : LMap where
  sum D := { exSum (10 + D) with lat := D, links := (List.range ends.length).filter fun i => (ends.getD i (0, 0)).1 = D }
  sad k := { exSad (20 + k) with
    runoff := decide (k = 2), lat := if k = 1 then lat1 else if k = 0 then 5 else 7,
    links := (List.range ends.length).filter fun i => (ends.getD i (0, 0)).2 = k }
  link i := ⟨30 + i, (ends.getD i (0, 0)).1, (ends.getD i (0, 0)).2, i = 1⟩
  dom i := ⟨i, [i, 2], [⟨i, 3, none⟩, ⟨i, 4, some 9⟩]⟩
  summits := [0, 1]
  saddles := [0, 1]
  runoffs := [2]
  linkers := List.range ends.length
  domains := [1, 0]

theorem exSaved_closed : Spec.Closed (exSaved 6 [(0, 0), (1, 0), (0, 1), (1, 2)]) where
  summitIds := by decide +kernel
  saddleIds := by decide +kernel
  sameId := by decide +kernel
  family := fun k _ => ⟨fun c hc => (nomatch hc), fun c hc => (nomatch hc), fun c hc => (nomatch hc)⟩
  linkers := by decide +kernel
  domains := by decide +kernel
  summitAreas := fun D _ a ha => by obtain rfl := Option.some.inj ha; exact exArea_sound
  saddleAreas := fun D _ a ha => by obtain rfl := Option.some.inj ha; exact exArea_sound

example : LinksConsistent (exSaved 6 [(0, 0), (1, 0), (0, 1), (1, 2)]) where
  summits := by
    intro D hD
    have : (exSaved 6 [(0, 0), (1, 0), (0, 1), (1, 2)]).summits = [0, 1] := rfl
    rw [this] at hD
    simp only [List.mem_cons, List.not_mem_nil, or_false] at hD
    rcases hD with rfl | rfl <;> exact .of_eq (by decide +kernel)
  saddles := by
    intro D hD
    have : (exSaved 6 [(0, 0), (1, 0), (0, 1), (1, 2)]).saddles ++ (exSaved 6 [(0, 0), (1, 0), (0, 1), (1, 2)]).runoffs =
      [0, 1, 2] := rfl
    rw [this] at hD
    simp only [List.mem_cons, List.not_mem_nil, or_false] at hD
    rcases hD with rfl | rfl | rfl <;> exact .of_eq (by decide +kernel)

example : NoParallel (exSaved 6 [(0, 0), (1, 0), (0, 1), (1, 2)]) := by
  unfold NoParallel
  decide +kernel

/-- Saving and loading with the same fingerprint. -/
def reload (m : LMap) : Except LoadErr (LState × Nat) :=
  match m.toDict ⟨1, 2⟩ with
  | .error e => .error (.py e)
  | .ok v => LState.fromDict v.cbor ⟨1, 2⟩

/-- What the loaded features list. -/
def linksAfter (m : LMap) : Option (List (List Nat) × List (List Nat)) :=
  (reload m).toOption.map fun r => (r.1.summits.map (·.links), r.1.saddles.map (·.links))

example : linksAfter (exSaved 6 [(0, 0), (1, 0), (0, 1), (1, 2)]) = some ([[0, 2], [1, 3]], [[0, 1], [2], [3]]) := by
  decide +kernel

/-- C44 fails for parallel linkers: saddle 0 has two linkers to summit 0; after loading summit and saddle
list only the first. -/
theorem C44_parallel_refuted : ((exSaved 6 [(0, 0), (0, 0), (1, 1)]).sum 0).links = [0, 1] ∧
    ((exSaved 6 [(0, 0), (0, 0), (1, 1)]).sad 0).links = [0, 1] ∧
    linksAfter (exSaved 6 [(0, 0), (0, 0), (1, 1)]) = some ([[0], [2]], [[0], [2], []]) := by decide +kernel

/-- C44 fails for co-located saddles: summit 0 is linked to both; after loading it lists only the first
linker, while the second saddle still lists its own. -/
theorem C44_co_located_refuted : ((exSaved 5 [(0, 0), (0, 1), (1, 1)]).sum 0).links = [0, 1] ∧
    linksAfter (exSaved 5 [(0, 0), (0, 1), (1, 1)]) = some ([[0], [2]], [[0], [1, 2], []]) := by decide +kernel

/-! ### C45: save and load -/

theorem loaded_domains_kept {m : LMap} (h : Spec.Closed m) : DomainsKept m m.loaded := by
  unfold DomainsKept
  have : m.loaded.domains = m.domains.map
      (m.loadedDomain (m.summits.map m.sumId) ((m.saddles ++ m.runoffs).map m.sadId)) := rfl
  rw [this, List.map_map]
  apply List.map_congr_left
  intro i hi
  obtain ⟨a, b⟩ := h.domains i hi
  simp only [Function.comp, LMap.loadedDomain, List.map_map]
  rw [loaded_summit_id a]
  congr 2
  exact List.map_congr_left fun k hk => loaded_saddle_id (b k hk)

/-- C45, loading. Missing for the claim: saddles or summits that are in a container twice, runoffs that are in
it twice (`C45_repeated_runoff_refuted`), references out of the containers, equal linkers in the lists of the features (`C44_features_partial`), and
flags that are not written (`C43_summit_partial`, `C43_saddle_partial`). A map can be loaded against every
DataMap with the fingerprint it was saved with, and then has all features, attributes, families, linkers
and domains; it is rejected for every other fingerprint. -/
theorem C45_load_partial (m : LMap) (h : Spec.Closed m) (fp : Fingerprint) :
    ∃ v s n, m.toDict fp = .ok v ∧ LState.fromDict v.cbor fp = .ok (s, n) ∧ n = m.saddles.length ∧
      (∀ fp', fp' ≠ fp → LState.fromDict v.cbor fp' = .error .mismatch) ∧
      s.summits.length = m.summits.length ∧ s.saddles.length = m.saddles.length + m.runoffs.length ∧
      (∀ (P : Nat) D t, m.summits[P]? = some D → s.summits[P]? = some t → (m.sum D).disq = false →
        SummitKept (m.sum D) t) ∧
      (∀ (P : Nat) k t, (m.saddles ++ m.runoffs)[P]? = some k → s.saddles[P]? = some t →
        (m.sad k).runoff = decide (n ≤ P) → ((m.sad k).runoff = true → (m.sad k).edge = true) →
        ((m.sad k).over = some false → (m.sad k).single = false ∧ (m.sad k).basin = false) →
        SaddleKept (m.sad k) t) ∧
      FamilyKept m m.saddles (s.saddles.take n) ∧ LinkersKept m s ∧ DomainsKept m s ∧
      ∀ (q P : Nat) i, m.domains[q]? = some i → m.summits[P]? = some (m.dom i).summit →
        (m.domains.map fun i => (m.dom i).summit).Nodup → s.summits[P]?.map (·.domain) = some (some q) := by
  obtain ⟨v, h1, h2, h3⟩ := m.load h.loads fp
  refine ⟨v, _, _, h1, h2, rfl, h3, ?_, ?_, ?_, ?_, ?_, loaded_linkers_kept h.linkers, loaded_domains_kept h, ?_⟩
  · simp [LMap.loaded, domState, linkState, LMap.baseSummits]
  · simp [LMap.loaded, domState, linkState, LMap.baseSaddles]
  · intro P D t hP ht hd
    rw [loaded_summit_get, hP] at ht
    obtain rfl := Option.some.inj ht
    exact ⟨rfl, rfl, rfl, rfl, rfl, rfl, hd.symm, area_kept (h.summitAreas D (List.mem_of_getElem? hP))⟩
  · intro P k t hP ht hr he ho
    rw [loaded_saddle_get m P k hP] at ht
    obtain rfl := Option.some.inj ht
    have hq : ∀ x : LSaddle, x.over = (if (m.sad k).over = some true then some true else none) →
        x.single = (m.sad k).single → x.basin = (m.sad k).basin → x.disqualified = (m.sad k).disqualified := by
      intro x x1 x2 x3
      unfold LSaddle.disqualified
      rw [x1, x2, x3]
      cases hov : (m.sad k).over with
      | none => rfl
      | some b =>
        cases b with
        | true => rfl
        | false => simp [ho hov]
    have ha := area_kept (h.saddleAreas k (List.mem_of_getElem? hP))
    by_cases hPn : P < m.saddles.length
    · have hr' : (m.sad k).runoff = false := by rw [hr]; simpa using hPn
      rw [if_pos hPn]
      exact ⟨hr'.symm, rfl, rfl, rfl, rfl, by simp [LMap.loadedSaddle, addRefs, LSaddle.reloaded], rfl, rfl, rfl,
        hq _ rfl rfl rfl, (flag_over _).1, (flag_over _).2, rfl, ha⟩
    · have hr' : (m.sad k).runoff = true := by rw [hr]; simpa using hPn
      rw [if_neg hPn]
      exact ⟨hr'.symm, rfl, rfl, rfl, rfl, by simp [LSaddle.reloaded, he hr'], rfl, rfl, rfl, hq _ rfl rfl rfl,
        (flag_over _).1, (flag_over _).2, rfl, ha⟩
  · have hf := loaded_family h.loads.ids h.family
    have hl : (m.loaded.saddles.take m.saddles.length).length = m.saddles.length := by
      simp [LMap.loaded, domState, linkState, LMap.baseSaddles]
    refine ⟨hl, ?_⟩
    intro p k t hk ht
    have hp : p < m.saddles.length := (List.getElem?_eq_some_iff.mp hk).1
    rw [List.getElem?_take_of_lt hp, loaded_saddle_get m p k (by rw [List.getElem?_append_left hp]; exact hk)] at ht
    obtain rfl := Option.some.inj ht
    rw [if_pos hp]
    exact hf.2 p k (m.loadedSaddle m.saddles k) hk (by rw [List.getElem?_map, hk]; rfl)
  · intro q P i hq hP hn
    rw [loaded_summit_get, hP]
    simp only [Option.map_some]
    congr 1
    rw [lastPos_some]
    have e : m.loaded.domains.map LDomain.summit =
        m.domains.map fun i => posOf (m.summits.map m.sumId) (m.sumId (m.dom i).summit) := by
      simp only [LMap.loaded, domState, List.map_map]
      rfl
    have hi := (h.domains i (List.mem_of_getElem? hq)).1
    rw [e]
    refine ⟨?_, ?_⟩
    · rw [List.getElem?_map, hq]
      simp only [Option.map_some]
      rw [(summit_pos_iff h hP hi).mpr rfl]
    · intro j hj hh
      rw [List.getElem?_map, Option.map_eq_some_iff] at hh
      obtain ⟨i', a, b⟩ := hh
      have hi' := (h.domains i' (List.mem_of_getElem? a)).1
      have hs := (summit_pos_iff h hP hi').mp b
      have := posOf_nodup hn (k := q) (i := (m.dom i).summit) (by rw [List.getElem?_map, hq]; rfl)
      have h' := posOf_nodup hn (k := j) (i := (m.dom i).summit) (by rw [List.getElem?_map, a]; simp [hs])
      omega

/-- C45 in one process (or with a fixed hash seed): a saved map can be loaded against the raster it was
saved from. Missing for the claim: other processes. -/
theorem C45_same_process_partial {File} (m : LMap) (h : Spec.Closed m) (md5 : File → Nat) (hash : String → Int)
    (fmt : List (Option (List (Option Rat))) → String) (file : File) (a : List (List Rat)) :
    ∃ v r, m.toDict (fingerprint md5 hash fmt file a) = .ok v ∧
      LState.fromDict v.cbor (fingerprint md5 hash fmt file a) = .ok r := by
  obtain ⟨v, s, n, h1, h2, _⟩ := C45_load_partial m h (fingerprint md5 hash fmt file a)
  exact ⟨v, _, h1, h2⟩

/-- C45, rejection. Missing for the claim: different rasters out of files with the same checksum. A map is
rejected for every raster out of a file with another checksum, in whatever process. -/
theorem C45_reject_partial {File} (m : LMap) (h : Spec.Closed m) (md5 : File → Nat) (hash hash' : String → Int)
    (fmt : List (Option (List (Option Rat))) → String) (file file' : File) (a a' : List (List Rat))
    (hf : md5 file' ≠ md5 file) :
    ∃ v, m.toDict (fingerprint md5 hash fmt file a) = .ok v ∧
      LState.fromDict v.cbor (fingerprint md5 hash' fmt file' a') = .error .mismatch := by
  obtain ⟨v, s, n, h1, _, _, h3, _⟩ := C45_load_partial m h (fingerprint md5 hash fmt file a)
  refine ⟨v, h1, h3 _ ?_⟩
  intro e
  exact hf (congrArg Fingerprint.checksum e)

/-- C45 fails in another process: if Python's hash of strings, which is salted per process, differs on the
printed raster, then the map is rejected for the very raster it was saved from. -/
theorem C45_hash_seed_refuted {File} (m : LMap) (h : Spec.Closed m) (md5 : File → Nat) (hash hash' : String → Int)
    (fmt : List (Option (List (Option Rat))) → String) (file : File) (a : List (List Rat))
    (hs : hash' (fmt (printed a)) ≠ hash (fmt (printed a))) :
    ∃ v, m.toDict (fingerprint md5 hash fmt file a) = .ok v ∧
      LState.fromDict v.cbor (fingerprint md5 hash' fmt file a) = .error .mismatch := by
  obtain ⟨v, s, n, h1, _, _, h3, _⟩ := C45_load_partial m h (fingerprint md5 hash fmt file a)
  refine ⟨v, h1, h3 _ ?_⟩
  intro e
  exact hs (congrArg Fingerprint.hash e)

/-- A raster of 32 by 32 cells, flat but for one. -/
def exWide (x y : Nat) : List (List Rat) :=
  (List.replicate 32 (List.replicate 32 (0 : Rat))).modify x fun r => r.set y 1

/-- C45 fails for every map with a runoff twice in its container (as runs produce them, `C22`): after loading
there are two objects for it, and the first has no linkers, whatever the runoff had. -/
theorem C45_repeated_runoff_refuted (m : LMap) (h : Spec.Closed m) (fp : Fingerprint) (P Q k : Nat)
    (hP : (m.saddles ++ m.runoffs)[P]? = some k) (hQ : (m.saddles ++ m.runoffs)[Q]? = some k) (hPQ : P < Q) :
    ∃ v s n, m.toDict fp = .ok v ∧ LState.fromDict v.cbor fp = .ok (s, n) ∧
      s.saddles[P]?.map (fun t => (t.id, t.links)) = some ((m.sad k).id, []) ∧
      s.saddles[Q]?.map (fun t => t.id) = some (m.sad k).id := by
  obtain ⟨v, h1, h2, _⟩ := m.load h.loads fp
  refine ⟨v, _, _, h1, h2, ?_, ?_⟩
  · rw [loaded_saddle_get m P k hP]
    simp only [Option.map_some]
    congr 1
    have : keepL (LState.linkerEq ⟨m.baseSummits, m.baseSaddles, [], []⟩) LLinker.saddle P m.loaded.linkers = [] := by
      obtain ⟨k1, _⟩ := keepL_sublist (eq := LState.linkerEq ⟨m.baseSummits, m.baseSaddles, [], []⟩)
        (sel := LLinker.saddle) (P := P) m.loaded.linkers
      rw [List.eq_nil_iff_forall_not_mem]
      intro j hj
      have := of_decide_eq_true (List.mem_filter.mp (k1.subset hj)).2
      rw [show m.loaded.linkers = m.linkers.map
        (m.loadedLinker (m.summits.map m.sumId) ((m.saddles ++ m.runoffs).map m.sadId)) from rfl,
        List.getElem?_map, Option.map_map, Option.map_eq_some_iff] at this
      obtain ⟨i, a, b⟩ := this
      exact saddle_pos_ne h hP hQ hPQ (h.linkers i (List.mem_of_getElem? a)).2 b
    rw [this]
    split <;> rfl
  · rw [loaded_saddle_get m Q k hQ]
    simp only [Option.map_some]
    split <;> rfl

/-- The first of the two loaded runoffs has no linkers. -/
theorem C45_runoff_twice_refuted :
    linksAfter { exSaved 6 [(0, 0), (1, 2)] with runoffs := [2, 2] } = some ([[0], [1]], [[0], [], [], [1]]) := by
  decide +kernel

end PyProm
