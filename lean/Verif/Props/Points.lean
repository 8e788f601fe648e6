import Verif.Model.Points
import Verif.Proof.Pseudo
import Verif.Props.Grid
import Verif.Props.Flat
import Verif.Props.Containers
import Verif.Props.Serial
import Verif.Props.RunSerial

/-
Properties of collections of points: neighbours (C80) and types of members (C81).
-/
namespace PyProm
open Spec

/-! ### C80: neighbours inside a collection -/

/-- The two coordinates share a side. -/
def Spec.SideAdj (p q : Pt) : Prop := (p.1 = q.1 ∧ (q.2 = p.2 + 1 ∨ q.2 = p.2 - 1)) ∨ (p.2 = q.2 ∧ (q.1 = p.1 + 1 ∨ q.1 = p.1 - 1))

/-- The two coordinates share only a corner. -/
def Spec.CornerAdj (p q : Pt) : Prop := (q.1 = p.1 + 1 ∨ q.1 = p.1 - 1) ∧ (q.2 = p.2 + 1 ∨ q.2 = p.2 - 1)

theorem adj_iff (p q : Pt) : Adj p q ↔ SideAdj p q ∨ CornerAdj p q := by
  obtain ⟨a, b⟩ := p
  obtain ⟨c, d⟩ := q
  simp only [Adj, SideAdj, CornerAdj, ne_eq, Prod.mk.injEq]
  omega

theorem full_shift_iff (p q : Pt) : (∃ t ∈ fullShift, (p.1 + t.1, p.2 + t.2) = q) ↔ Adj p q := by
  constructor
  · rintro ⟨t, ht, rfl⟩
    rw [mem_fullShift] at ht
    obtain ⟨a, b⟩ := t
    simp only [Adj, ne_eq, Prod.ext_iff] at ht ⊢
    omega
  · intro h
    refine ⟨(q.1 - p.1, q.2 - p.2), ?_, by simp⟩
    rw [mem_fullShift]
    simp only [Adj, ne_eq, Prod.ext_iff] at h ⊢
    omega

theorem orth_shift_iff (p q : Pt) : (∃ t ∈ orthogonalShift, (p.1 + t.1, p.2 + t.2) = q) ↔ SideAdj p q := by
  obtain ⟨a, b⟩ := p
  obtain ⟨c, d⟩ := q
  simp only [orthogonalShift, List.mem_cons, List.not_mem_nil, or_false, exists_eq_or_imp, exists_eq_left,
    SideAdj, Prod.mk.injEq]
  omega

/-- What a lookup through a shift table yields, for a table that stores points under their own
coordinates. -/
theorem shift_nodup (lk : Pt → Option P3) (hk : ∀ q r, lk q = some r → r.xy = q) (p : Pt) :
    ∀ (sh : List Pt), sh.Nodup → ((sh.filterMap fun t => lk (p.1 + t.1, p.2 + t.2)).map P3.xy).Nodup := by
  intro sh hs
  induction sh with
  | nil => simp
  | cons t sh ih =>
    rw [List.nodup_cons] at hs
    rw [List.filterMap_cons]
    cases e : lk (p.1 + t.1, p.2 + t.2) with
    | none => exact ih hs.2
    | some r =>
      simp only [List.map_cons, List.nodup_cons]
      refine ⟨?_, ih hs.2⟩
      intro hm
      obtain ⟨r', hr', e'⟩ := List.mem_map.1 hm
      obtain ⟨t', ht', hl⟩ := List.mem_filterMap.1 hr'
      have h1 := hk _ _ hl
      have h2 := hk _ _ e
      rw [e', h2] at h1
      have : t = t' := by
        simp only [Prod.mk.injEq] at h1
        exact Prod.ext (by omega) (by omega)
      exact hs.1 (this ▸ ht')

/-- A GridPointContainer as it comes out of the constructor, `append` and `sort`. -/
inductive Spec.GrownGrid : GPC → Prop
  | new (l : List P3) : GrownGrid (.mk' l)
  | append {c : GPC} (p : P3) : GrownGrid c → GrownGrid (c.append p)
  | sorted {c : GPC} (l : List P3) : c.points.Perm l → GrownGrid c → GrownGrid (c.sorted l)

/-- The table knows exactly the coordinates of the members. -/
theorem grownGrid_lookup {c : GPC} (h : GrownGrid c) :
    (∀ q r, c.lookup q = some r → r ∈ c.points ∧ r.xy = q) ∧ ∀ r ∈ c.points, ∃ r', c.lookup r.xy = some r' := by
  have gen : ∀ (l : List P3) (f : Pt → Option P3), (∀ q r, f q = some r → r ∈ l ∧ r.xy = q) →
      (∀ q r, (GPC.gen ⟨l, f⟩).lookup q = some r → r ∈ l ∧ r.xy = q) ∧
        ∀ r ∈ l, ∃ r', (GPC.gen ⟨l, f⟩).lookup r.xy = some r' := by
    intro l f hf
    have e : ∀ q, (GPC.gen ⟨l, f⟩).lookup q = ((l.filter fun p => decide (p.xy = q)).getLast?).or (f q) :=
      fun q => gpLookup_fold l f q
    constructor
    · intro q r hr
      rw [e, Option.or_eq_some_iff] at hr
      rcases hr with hr | ⟨_, hr⟩
      · simpa using List.mem_of_getLast? hr
      · exact hf q r hr
    · intro r hr
      rw [e]
      have hm : r ∈ l.filter fun p => decide (p.xy = r.xy) := by simp [hr]
      cases e' : (l.filter fun p => decide (p.xy = r.xy)).getLast? with
      | none => rw [List.getLast?_eq_none_iff] at e'; rw [e'] at hm; cases hm
      | some x => exact ⟨x, by simp⟩
  induction h with
  | new l => exact gen l _ (fun _ _ h => nomatch h)
  | @append c p _ ih =>
    exact gen _ _ fun q r hr => ⟨List.mem_append_left _ (ih.1 q r hr).1, (ih.1 q r hr).2⟩
  | sorted l hp _ ih =>
    exact ⟨fun q r hr => ⟨hp.mem_iff.1 (ih.1 q r hr).1, (ih.1 q r hr).2⟩, fun r hr => ih.2 r (hp.mem_iff.2 hr)⟩

/-- C80 for GridPointContainers. Missing for the claim: item assignment. The neighbours are members, no
coordinate occurs twice, and the coordinates are exactly those of touching members. With members at
distinct coordinates the neighbours are exactly the touching members. -/
theorem C80_grid_partial {c : GPC} (h : GrownGrid c) (p : Pt) :
    (∀ r ∈ c.nbrs fullShift p, r ∈ c.points) ∧
    ((c.nbrs fullShift p).map P3.xy).Nodup ∧ ((c.nbrs orthogonalShift p).map P3.xy).Nodup ∧
    (∀ q, q ∈ (c.nbrs fullShift p).map P3.xy ↔ Adj p q ∧ ∃ r ∈ c.points, r.xy = q) ∧
    (∀ q, q ∈ (c.nbrs orthogonalShift p).map P3.xy ↔ SideAdj p q ∧ ∃ r ∈ c.points, r.xy = q) ∧
    ((c.points.map P3.xy).Nodup →
      (∀ r, r ∈ c.nbrs fullShift p ↔ r ∈ c.points ∧ Adj p r.xy) ∧
      ∀ r, r ∈ c.nbrs orthogonalShift p ↔ r ∈ c.points ∧ SideAdj p r.xy) := by
  obtain ⟨h1, h2⟩ := grownGrid_lookup h
  have mem : ∀ sh r, r ∈ c.nbrs sh p → r ∈ c.points ∧ ∃ t ∈ sh, (p.1 + t.1, p.2 + t.2) = r.xy := by
    intro sh r hr
    obtain ⟨t, ht, e⟩ := List.mem_filterMap.1 hr
    exact ⟨(h1 _ _ e).1, t, ht, (h1 _ _ e).2.symm⟩
  have coord : ∀ sh q, q ∈ (c.nbrs sh p).map P3.xy ↔
      (∃ t ∈ sh, (p.1 + t.1, p.2 + t.2) = q) ∧ ∃ r ∈ c.points, r.xy = q := by
    intro sh q
    constructor
    · intro hq
      obtain ⟨r, hr, rfl⟩ := List.mem_map.1 hq
      exact ⟨(mem sh r hr).2, r, (mem sh r hr).1, rfl⟩
    · rintro ⟨⟨t, ht, e⟩, r, hr, e'⟩
      obtain ⟨r', hr'⟩ := h2 r hr
      refine List.mem_map.2 ⟨r', List.mem_filterMap.2 ⟨t, ht, ?_⟩, ?_⟩
      · rw [e, ← e']; exact hr'
      · rw [(h1 _ _ hr').2, e']
  have exact : (c.points.map P3.xy).Nodup → ∀ sh r, r ∈ c.nbrs sh p ↔
      r ∈ c.points ∧ ∃ t ∈ sh, (p.1 + t.1, p.2 + t.2) = r.xy := by
    intro hn sh r
    refine ⟨mem sh r, ?_⟩
    rintro ⟨hr, ht⟩
    obtain ⟨r', hr', e⟩ := List.mem_map.1 ((coord sh r.xy).2 ⟨ht, r, hr, rfl⟩)
    rw [← eq_of_xy hn (mem sh r' hr').1 hr e]
    exact hr'
  refine ⟨fun r hr => (mem _ r hr).1, shift_nodup _ (fun q r e => (h1 q r e).2) p _ (by decide),
    shift_nodup _ (fun q r e => (h1 q r e).2) p _ (by decide), fun q => ?_, fun q => ?_, fun hn => ⟨fun r => ?_, fun r => ?_⟩⟩
  · rw [coord, full_shift_iff]
  · rw [coord, orth_shift_iff]
  · rw [exact hn, full_shift_iff]
  · rw [exact hn, orth_shift_iff]

/-- Item assignment in a GridPointContainer leaves the table as it was. Whatever the container, an
assignment that moves the member `o` elsewhere keeps yielding `o`, which is no member any more. -/
theorem C80_setItem_refuted {c c' : GPC} (h : GrownGrid c) (hn : (c.points.map P3.xy).Nodup) {k : Nat} {o n : P3}
    (hk : c.points[k]? = some o) (hc : c.setItem k n = .ok c') (hm : n ≠ o) (p : Pt) (ha : Adj p o.xy) :
    o ∈ c'.nbrs fullShift p ∧ o ∉ c'.points := by
  have hlt : k < c.points.length := by
    by_contra hcon
    rw [List.getElem?_eq_none (by omega)] at hk
    cases hk
  unfold GPC.setItem pyIndex at hc
  rw [if_pos ⟨by omega, by exact_mod_cast hlt⟩] at hc
  simp only [Int.toNat_natCast, Except.ok.injEq] at hc
  subst hc
  have hr := ((C80_grid_partial h p).2.2.2.2.2 hn).1 o
  refine ⟨hr.2 ⟨List.mem_of_getElem? hk, ha⟩, ?_⟩
  intro hmem
  obtain ⟨j, hj, e⟩ := List.getElem_of_mem hmem
  simp only [List.length_set] at hj
  rw [List.getElem_set] at e
  split at e
  · exact hm e
  · rename_i hjk
    have hkk : c.points[k]'hlt = o := by
      rw [List.getElem?_eq_getElem hlt] at hk
      exact Option.some.inj hk
    have hnd := hn.of_map
    exact hjk ((List.Nodup.getElem_inj_iff hnd).1 (hkk.trans e.symm))

/-- A Perimeter with an index that finds exactly the members. -/
def Spec.PerimExact (s : Perim) (p : Pt) : Prop := ∃ full orth,
  s.nbrsFull p = .ok full ∧ s.nbrsOrthogonal p = .ok orth ∧ full.Nodup ∧ orth.Nodup ∧
  (∀ r, r ∈ full ↔ r ∈ s.points ∧ Adj p r.xy) ∧ ∀ r, r ∈ orth ↔ r ∈ s.points ∧ SideAdj p r.xy

theorem perimExact_of {s : Perim} {idx : IntDict (IntDict P3)} (hi : s.index = some idx) (h : IndexExact s) (p : Pt) :
    PerimExact s p := by
  have hk : ∀ q r, idxGet idx q.1 q.2 = some r ↔ r ∈ s.points ∧ r.xy = q := by
    intro q r
    have := h q.1 q.2 r
    rw [hi] at this
    rw [idxGet]
    exact this.trans (by simp [P3.xy, Prod.ext_iff])
  have mem : ∀ (sh : List Pt) r, r ∈ (sh.filterMap fun t => idxGet idx (p.1 + t.1) (p.2 + t.2)) ↔
      r ∈ s.points ∧ ∃ t ∈ sh, (p.1 + t.1, p.2 + t.2) = r.xy := by
    intro sh r
    rw [List.mem_filterMap]
    constructor
    · rintro ⟨t, ht, e⟩
      have := (hk (p.1 + t.1, p.2 + t.2) r).1 e
      exact ⟨this.1, t, ht, this.2.symm⟩
    · rintro ⟨hr, t, ht, e⟩
      exact ⟨t, ht, (hk (p.1 + t.1, p.2 + t.2) r).2 ⟨hr, e.symm⟩⟩
  have nd : ∀ sh : List Pt, sh.Nodup → (sh.filterMap fun t => idxGet idx (p.1 + t.1) (p.2 + t.2)).Nodup := fun sh hs =>
    (shift_nodup (fun q => idxGet idx q.1 q.2) (fun q r e => ((hk q r).1 e).2) p sh hs).of_map
  refine ⟨fullShift.filterMap fun t => idxGet idx (p.1 + t.1) (p.2 + t.2),
    orthogonalShift.filterMap fun t => idxGet idx (p.1 + t.1) (p.2 + t.2), ?_, ?_, nd _ (by decide), nd _ (by decide),
    fun r => ?_, fun r => ?_⟩
  · simp only [Perim.nbrsFull, Perim.nbrs, hi]; rfl
  · simp only [Perim.nbrsOrthogonal, Perim.nbrs, hi]; rfl
  · rw [mem, full_shift_iff]
  · rw [mem, orth_shift_iff]

/-- The index built from a list finds exactly its members. -/
theorem list_index_exact {l : List P3} (h : Apart l) (x y : Int) (r : P3) :
    ((l.foldl indexPut []).lookup x).bind (·.lookup y) = some r ↔ r ∈ l ∧ r.x = x ∧ r.y = y := by
  have hp := perim_reloaded_index (p := ⟨l, none, false, none⟩) h x y r
  rw [(perim_reloaded_points (p := ⟨l, none, false, none⟩) h).mem_iff] at hp
  have hi : (Perim.reloaded ⟨l, none, false, none⟩).index.getD [] = l.foldl indexPut [] := by
    unfold Perim.reloaded Perim.ofIndex
    cases l.foldl indexPut [] <;> rfl
  rw [hi] at hp
  exact hp

/-- C80 for collections made from a list of points at distinct coordinates, for those loaded from a file,
and for the Perimeters that exploring a flat area makes. Missing for the claim: empty collections and
points added later. -/
theorem C80_perimeter_partial (p : Pt) :
    (∀ (l : List P3) (e : Bool) (m : Option (List P3)), l ≠ [] → Apart l → PerimExact (.ofList l e m) p) ∧
    (∀ (s : Perim), s.points ≠ [] → Apart s.points → PerimExact s.reloaded p) ∧
    ∀ (d : DataMap) (q : Pt) (b : Blob), Data d q → equalHeightBlob d q.1 q.2 (el d q) = some b →
      PerimExact (.ofBlob b) p := by
  refine ⟨fun l e m hl ha => ?_, fun s hs ha => ?_, fun d q b hd hb => ?_⟩
  · refine perimExact_of (idx := l.foldl indexPut []) ?_ ?_ p
    · simp [Perim.ofList, hl]
    · intro x y r
      simp only [Perim.ofList, List.isEmpty_iff, hl, if_false, Option.getD_some]
      exact list_index_exact ha x y r
  · have hne : s.points.foldl indexPut [] ≠ [] := by
      intro hcon
      have := (perim_reloaded_points ha).length_eq
      unfold Perim.reloaded Perim.ofIndex at this
      rw [hcon] at this
      simp only [List.isEmpty_nil, if_true, List.length_nil] at this
      exact hs (List.length_eq_zero_iff.1 this.symm)
    refine perimExact_of (idx := s.points.foldl indexPut []) ?_ (perim_reloaded_index ha) p
    simp [Perim.reloaded, Perim.ofIndex, hne]
  · refine perimExact_of (idx := b.perim.foldl indexPut []) rfl ?_ p
    have hn := (C04_perimeter d q hd b hb).1
    have ha : Apart b.perim := by
      unfold Apart
      refine (List.pairwise_map.1 hn).imp ?_
      intro u v h1 h2
      exact h1 (Prod.ext h2.1 h2.2)
    intro x y r
    exact list_index_exact ha x y r

/-- An empty collection cannot be asked for neighbours: AttributeError. -/
theorem C80_empty_refuted (e : Bool) (m : Option (List P3)) (p : Pt) :
    (Perim.ofList [] e m).nbrsFull p = .error .attributeError ∧ (Perim.ofIndex [] e m).nbrsFull p = .error .attributeError :=
  ⟨rfl, rfl⟩

/-- A point appended to a Perimeter is never found as a neighbour. -/
theorem C80_append_refuted (l : List P3) (e : Bool) (m : Option (List P3)) (hl : l ≠ []) (ha : Apart l) (n : P3)
    (hn : n ∉ l) (p : Pt) : n ∈ ((Perim.ofList l e m).append n).points ∧
      ∃ r, ((Perim.ofList l e m).append n).nbrsFull p = .ok r ∧ n ∉ r := by
  obtain ⟨r, _, h1, _, _, _, h2, _⟩ := (C80_perimeter_partial p).1 l e m hl ha
  refine ⟨by simp [Perim.append], r, h1, fun hr => hn ((h2 n).1 hr).1⟩

/-- `iterNeighborOrthogonalDiagonal` yields no diagonal neighbour, although it is said to yield the
orthogonal and then the diagonal ones. -/
theorem C80_diagonal_refuted (l : List P3) (e : Bool) (m : Option (List P3)) (hl : l ≠ []) (ha : Apart l) (p : Pt)
    (n : P3) (hc : CornerAdj p n.xy) : ∃ r, (Perim.ofList l e m).nbrsOrthogonalDiagonal p = .ok r ∧ n ∉ r := by
  obtain ⟨_, r, _, h1, _, _, _, h2⟩ := (C80_perimeter_partial p).1 l e m hl ha
  refine ⟨r, h1, fun hr => ?_⟩
  have := ((h2 n).1 hr).2
  simp only [SideAdj, CornerAdj] at this hc
  omega

example : GrownGrid ((GPC.mk' [⟨0, 0, 5⟩, ⟨3, 3, 1⟩]).append ⟨1, 1, 2⟩) ∧
    (((GPC.mk' [⟨0, 0, 5⟩, ⟨3, 3, 1⟩]).append ⟨1, 1, 2⟩).nbrs fullShift (0, 1)) = [⟨1, 1, 2⟩, ⟨0, 0, 5⟩] :=
  ⟨.append _ (.new _), by decide +kernel⟩

example : Apart [⟨0, 0, 5⟩, ⟨1, 1, 1⟩] ∧ CornerAdj (0, 0) (1, 1) := by
  constructor
  · simp [Apart]
  · simp [CornerAdj]

/-! ### C81: collections only take what they are for -/

/-- What a container is for. -/
def Spec.Fits : CCls → Cls → Prop
  | .spots, c => c = .spot ∨ c = .summit ∨ c = .saddle ∨ c = .runoff
  | .summits, c => c = .summit
  | .saddles, c => c = .saddle ∨ c = .runoff
  | .runoffs, c => c = .runoff

theorem growAccepts_fits {k : CCls} {c : Cls} (hk : k ≠ .runoffs) : k.growAccepts c = true ↔ Fits k c := by
  cases k <;> cases c <;> simp_all [CCls.growAccepts, Cls.isa, Cls.mro, Fits]

theorem initAccepts_fits {k : CCls} {c : Cls} (hk : k ≠ .spots) : k.initAccepts c = true ↔ Fits k c := by
  cases k <;> cases c <;> simp_all [CCls.initAccepts, Cls.isa, Cls.mro, Fits]

theorem new_ok_iff (k : CCls) (l : List TObj) (c : TContainer) :
    TContainer.new k l = .ok c ↔ (∀ o ∈ l, k.initAccepts o.cls = true) ∧ c = ⟨k, l⟩ := by
  unfold TContainer.new
  have : (l.filter fun o => !k.initAccepts o.cls).length ≠ 0 ↔ ¬ ∀ o ∈ l, k.initAccepts o.cls = true := by
    rw [ne_eq, List.length_eq_zero_iff, List.filter_eq_nil_iff]
    simp
  split
  · rename_i h
    rw [this] at h
    simp [h]
  · rename_i h
    rw [this, not_not] at h
    constructor
    · intro e; cases e; exact ⟨h, rfl⟩
    · rintro ⟨_, rfl⟩; rfl

/-- The constructors of SummitsContainer, SaddlesContainer and RunoffsContainer succeed exactly if all
objects given are of the right kind, and keep them in order; otherwise they raise TypeError. -/
theorem C81_new (k : CCls) (hk : k ≠ .spots) (l : List TObj) :
    ((∀ o ∈ l, Fits k o.cls) → TContainer.new k l = .ok ⟨k, l⟩) ∧
    ((¬ ∀ o ∈ l, Fits k o.cls) → TContainer.new k l = .error .typeError) := by
  have e : (∀ o ∈ l, Fits k o.cls) ↔ ∀ o ∈ l, k.initAccepts o.cls = true :=
    forall_congr' fun o => imp_congr_right fun _ => (initAccepts_fits hk).symm
  rw [e]
  refine ⟨fun h => (new_ok_iff _ _ _).2 ⟨h, rfl⟩, fun h => ?_⟩
  cases hc : TContainer.new k l with
  | ok c => exact absurd ((new_ok_iff _ _ _).1 hc).1 h
  | error x =>
    unfold TContainer.new at hc
    split at hc
    · exact hc.symm
    · cases hc

/-- One call on a container that is not for runoffs: it succeeds only with objects of the right kind,
fails with TypeError otherwise, and then changes nothing. -/
theorem C81_call_partial (c : TContainer) (hk : c.cls ≠ .runoffs) (op : TOp)
    (hc : ∀ o ∈ c.items, Fits c.cls o.cls) : (c.after op).cls = c.cls ∧ ∀ o ∈ (c.after op).items, Fits c.cls o.cls := by
  cases op with
  | append o =>
    simp only [TContainer.after, TContainer.call]
    split
    · rename_i h
      refine ⟨rfl, fun x hx => ?_⟩
      rcases List.mem_append.1 hx with hx | hx
      · exact hc x hx
      · rw [List.mem_singleton.1 hx]; exact (growAccepts_fits hk).1 h
    · exact ⟨rfl, hc⟩
  | extend l =>
    simp only [TContainer.after, TContainer.call]
    split
    · rename_i h
      refine ⟨rfl, fun x hx => ?_⟩
      rcases List.mem_append.1 hx with hx | hx
      · exact hc x hx
      · exact (growAccepts_fits hk).1 (List.all_eq_true.1 h x hx)
    · exact ⟨rfl, hc⟩
  | setItem i o =>
    simp only [TContainer.after, TContainer.call]
    split
    · rename_i h
      cases e : pyIndex c.items.length i with
      | none => exact ⟨rfl, hc⟩
      | some n =>
        refine ⟨rfl, fun x hx => ?_⟩
        rcases List.mem_or_eq_of_mem_set hx with hx | rfl
        · exact hc x hx
        · exact (growAccepts_fits hk).1 h
    · exact ⟨rfl, hc⟩

/-- C81 for SummitsContainers and SaddlesContainers, and for SpotElevationContainers made with
SpotElevations: after any calls, with any arguments, whether they raise or not, all members are of the
right kind. In consequence the range filters never raise. Missing for the claim: RunoffsContainers. -/
theorem C81_members_partial (k : CCls) (hk : k ≠ .runoffs) (l : List TObj) (hl : ∀ o ∈ l, Fits k o.cls)
    (ops : List TOp) :
    ∃ c, TContainer.new k l = .ok c ∧ (∀ o ∈ (ops.foldl TContainer.after c).items, Fits k o.cls) ∧
      ∀ keep, ∃ r, (ops.foldl TContainer.after c).select keep = .ok r ∧
        r.items = (ops.foldl TContainer.after c).items.filter fun o => keep o.s := by
  have hi : ∀ {c}, Fits k c → k.initAccepts c = true := by
    intro c hc
    by_cases hs : k = .spots
    · subst hs; rfl
    · exact (initAccepts_fits hs).2 hc
  refine ⟨⟨k, l⟩, (new_ok_iff _ _ _).2 ⟨fun o ho => hi (hl o ho), rfl⟩, ?_⟩
  have key : ∀ (ops : List TOp) (c : TContainer), c.cls = k → (∀ o ∈ c.items, Fits k o.cls) →
      (ops.foldl TContainer.after c).cls = k ∧ ∀ o ∈ (ops.foldl TContainer.after c).items, Fits k o.cls := by
    intro ops
    induction ops with
    | nil => intro c h1 h2; exact ⟨h1, h2⟩
    | cons op ops ih =>
      intro c h1 h2
      subst h1
      obtain ⟨a, b⟩ := C81_call_partial c hk op h2
      exact ih _ a b
  obtain ⟨h1, h2⟩ := key ops ⟨k, l⟩ rfl hl
  refine ⟨h2, fun keep => ⟨⟨k, _⟩, ?_, rfl⟩⟩
  unfold TContainer.select
  rw [h1]
  exact (new_ok_iff _ _ _).2 ⟨fun o ho => hi (h2 o (List.mem_filter.1 ho).1), rfl⟩

/-- A saddle that is no runoff can be put into any RunoffsContainer; afterwards every range filter that
keeps it raises TypeError. -/
theorem C81_runoffs_refuted (l : List TObj) (o : TObj) (ho : o.cls = .saddle) (keep : Spot → Bool)
    (hk : keep o.s = true) :
    ∃ c', (TContainer.mk .runoffs l).call (.append o) = .ok c' ∧ o ∈ c'.items ∧ ¬ Fits .runoffs o.cls ∧
      c'.select keep = .error .typeError := by
  refine ⟨⟨.runoffs, l ++ [o]⟩, ?_, by simp, by simp [Fits, ho], ?_⟩
  · simp [TContainer.call, CCls.growAccepts, ho, Cls.isa, Cls.mro]
  · unfold TContainer.select TContainer.new
    rw [if_pos]
    intro h
    rw [List.length_eq_zero_iff, List.filter_eq_nil_iff] at h
    have := h o (List.mem_filter.2 ⟨by simp, hk⟩)
    simp [CCls.initAccepts, ho, Cls.isa, Cls.mro] at this

/-- The constructor of SpotElevationContainer takes anything that has an id, for instance a Linker, which
`append` refuses. -/
theorem C81_spots_refuted (o : TObj) (ho : o.cls = .other) :
    TContainer.new .spots [o] = .ok ⟨.spots, [o]⟩ ∧ ¬ Fits .spots o.cls ∧
      (TContainer.mk .spots []).call (.append o) = .error .typeError := by
  simp [TContainer.new, CCls.initAccepts, TContainer.call, CCls.growAccepts, ho, Cls.isa, Cls.mro, Fits]

/-- MultiPoints take pairs and BaseGridPoints, Perimeters take triples and GridPoints; other arguments
raise and change nothing. So all entries of a MultiPoint stay pairs, all entries of a Perimeter triples. -/
theorem C81_points (l l' : List (List Rat)) (p : PyPoint) (k : Int) :
    (((∃ x y, p = .base x y) ∨ ∃ t, p = .tuple t ∧ t.length = 2) ↔ ∃ m, appendPoint multiIncoming l p = .ok m) ∧
    (((∃ q, p = .grid q) ∨ ∃ t, p = .tuple t ∧ t.length = 3) ↔ ∃ m, appendPoint perimIncoming l p = .ok m) ∧
    ((∀ t ∈ l, t.length = 2) → appendPoint multiIncoming l p = .ok l' ∨ setPoint multiIncoming l k p = .ok l' →
      ∀ t ∈ l', t.length = 2) ∧
    ((∀ t ∈ l, t.length = 3) → appendPoint perimIncoming l p = .ok l' ∨ setPoint perimIncoming l k p = .ok l' →
      ∀ t ∈ l', t.length = 3) := by
  have grow : ∀ (inc : PyPoint → Except PyErr (List Rat)) (n : Nat), (∀ i, inc p = .ok i → i.length = n) →
      (∀ t ∈ l, t.length = n) → appendPoint inc l p = .ok l' ∨ setPoint inc l k p = .ok l' → ∀ t ∈ l', t.length = n := by
    intro inc n hi hl h t ht
    unfold appendPoint setPoint at h
    cases e : inc p with
    | error x => rw [e] at h; rcases h with h | h <;> cases h
    | ok i =>
      rw [e] at h
      dsimp only [bind, Except.bind, pure, Except.pure] at h
      rcases h with h | h
      · cases h
        rcases List.mem_append.1 ht with ht | ht
        · exact hl t ht
        · rw [List.mem_singleton.1 ht]; exact hi i e
      · cases e' : pyIndex l.length k with
        | none => rw [e'] at h; cases h
        | some j =>
          rw [e'] at h
          cases h
          rcases List.mem_or_eq_of_mem_set ht with ht | rfl
          · exact hl t ht
          · exact hi _ e
  have two : ∀ i, multiIncoming p = .ok i → i.length = 2 := by
    have hc : ∀ t i, multiIncoming.check t = .ok i → i.length = 2 := by
      intro t i h
      unfold multiIncoming.check at h
      split at h
      · cases h
      · rename_i hn
        cases h
        exact not_not.1 hn
    intro i h
    cases p with
    | other => cases h
    | tuple t => exact hc _ _ h
    | base x y => exact hc _ _ h
    | grid q => exact hc _ _ h
  have three : ∀ i, perimIncoming p = .ok i → i.length = 3 := by
    have hc : ∀ t i, perimIncoming.check t = .ok i → i.length = 3 := by
      intro t i h
      unfold perimIncoming.check at h
      split at h
      · cases h
      · rename_i hn
        cases h
        exact not_not.1 hn
    intro i h
    cases p with
    | other => cases h
    | base x y => cases h
    | tuple t => exact hc _ _ h
    | grid q => exact hc _ _ h
  refine ⟨?_, ?_, grow _ _ two, grow _ _ three⟩
  · cases p with
    | tuple t =>
      by_cases ht : t.length = 2 <;>
        simp [appendPoint, multiIncoming, multiIncoming.check, ht, bind, Except.bind, pure, Except.pure]
    | base x y => simp [appendPoint, multiIncoming, multiIncoming.check, bind, Except.bind, pure, Except.pure]
    | grid q => simp [appendPoint, multiIncoming, multiIncoming.check, bind, Except.bind]
    | other => simp [appendPoint, multiIncoming, bind, Except.bind]
  · cases p with
    | tuple t =>
      by_cases ht : t.length = 3 <;>
        simp [appendPoint, perimIncoming, perimIncoming.check, ht, bind, Except.bind, pure, Except.pure]
    | base x y => simp [appendPoint, perimIncoming, bind, Except.bind]
    | grid q => simp [appendPoint, perimIncoming, perimIncoming.check, bind, Except.bind, pure, Except.pure]
    | other => simp [appendPoint, perimIncoming, bind, Except.bind]

/-- Position `j` of a list of `n` entries is what the Python index `i` means. -/
def Spec.IndexMeans (n : Nat) (i : Int) (j : Nat) : Prop := j < n ∧ ((j : Int) = i ∨ (j : Int) = i + n)

theorem pyIndex_iff (n : Nat) (i : Int) (j : Nat) : pyIndex n i = some j ↔ IndexMeans n i j := by
  unfold pyIndex IndexMeans
  split
  · simp only [Option.some.injEq]; omega
  · split
    · simp only [Option.some.injEq]; omega
    · simp only [reduceCtorEq, false_iff]; omega

theorem pyIndex_none_iff (n : Nat) (i : Int) : pyIndex n i = none ↔ ¬ ∃ j, IndexMeans n i j := by
  constructor
  · rintro h ⟨j, hj⟩
    rw [(pyIndex_iff n i j).2 hj] at h; cases h
  · intro h
    cases e : pyIndex n i with
    | none => rfl
    | some j => exact absurd ⟨j, (pyIndex_iff n i j).1 e⟩ h

/-- `l'` is `l` with the entry at `j` replaced by `x`. -/
def Spec.Replaced {α : Type} (l : List α) (j : Nat) (x : α) (l' : List α) : Prop :=
  l'.length = l.length ∧ l'[j]? = some x ∧ ∀ i ≠ j, l'[i]? = l[i]?

theorem replaced_set {α : Type} (l : List α) (j : Nat) (x : α) (hj : j < l.length) : Replaced l j x (l.set j x) := by
  refine ⟨by simp, by simp [hj], fun i hi => ?_⟩
  rw [List.getElem?_set_ne hi.symm]

/-- What a call on a container does when it is given objects it takes: `append` adds the object at the end,
`extend` all of them in order, and item assignment replaces exactly the entry the index means, or raises
IndexError if there is none. -/
theorem C81_effect (c : TContainer) (o : TObj) (l : List TObj) (i : Int)
    (ho : c.cls.growAccepts o.cls = true) (hl : ∀ x ∈ l, c.cls.growAccepts x.cls = true) :
    c.call (.append o) = .ok ⟨c.cls, c.items ++ [o]⟩ ∧ c.call (.extend l) = .ok ⟨c.cls, c.items ++ l⟩ ∧
    (∀ j, IndexMeans c.items.length i j →
      ∃ c', c.call (.setItem i o) = .ok c' ∧ c'.cls = c.cls ∧ Replaced c.items j o c'.items) ∧
    ((¬ ∃ j, IndexMeans c.items.length i j) → c.call (.setItem i o) = .error .indexError) := by
  refine ⟨?_, ?_, ?_, ?_⟩
  · simp only [TContainer.call, ho, if_true]
  · have : (l.all fun o => c.cls.growAccepts o.cls) = true := List.all_eq_true.2 hl
    simp only [TContainer.call, this, if_true]
  · intro j hj
    refine ⟨⟨c.cls, c.items.set j o⟩, ?_, rfl, replaced_set _ _ _ hj.1⟩
    simp only [TContainer.call, ho, if_true, (pyIndex_iff _ i j).2 hj]
  · intro h
    simp only [TContainer.call, ho, if_true, (pyIndex_none_iff _ i).2 h]

/-- What is stored for a point that is accepted: the coordinates of the point in order, for a triple or
GridPoint followed by the elevation. `append` puts it at the end; item assignment replaces exactly the
entry the index means, or raises IndexError if there is none. -/
theorem C81_stored (l : List (List Rat)) (k : Int) (x y e : Rat) (gx gy : Int) (ge : Rat) :
    (∀ p : PyPoint, ∀ t : List Rat, (p = .base gx gy ∧ t = [(gx : Rat), (gy : Rat)]) ∨
        (p = .tuple [x, y] ∧ t = [x, y]) →
      appendPoint multiIncoming l p = .ok (l ++ [t]) ∧
      (∀ j, IndexMeans l.length k j → ∃ l', setPoint multiIncoming l k p = .ok l' ∧ Replaced l j t l') ∧
      ((¬ ∃ j, IndexMeans l.length k j) → setPoint multiIncoming l k p = .error .indexError)) ∧
    (∀ p : PyPoint, ∀ t : List Rat, (p = .grid ⟨gx, gy, ge⟩ ∧ t = [(gx : Rat), (gy : Rat), ge]) ∨
        (p = .tuple [x, y, e] ∧ t = [x, y, e]) →
      appendPoint perimIncoming l p = .ok (l ++ [t]) ∧
      (∀ j, IndexMeans l.length k j → ∃ l', setPoint perimIncoming l k p = .ok l' ∧ Replaced l j t l') ∧
      ((¬ ∃ j, IndexMeans l.length k j) → setPoint perimIncoming l k p = .error .indexError)) := by
  have key : ∀ (inc : PyPoint → Except PyErr (List Rat)) (p : PyPoint) (t : List Rat), inc p = .ok t →
      appendPoint inc l p = .ok (l ++ [t]) ∧
      (∀ j, IndexMeans l.length k j → ∃ l', setPoint inc l k p = .ok l' ∧ Replaced l j t l') ∧
      ((¬ ∃ j, IndexMeans l.length k j) → setPoint inc l k p = .error .indexError) := by
    intro inc p t h
    unfold appendPoint setPoint
    rw [h]
    dsimp only [bind, Except.bind, pure, Except.pure]
    refine ⟨rfl, fun j hj => ⟨l.set j t, ?_, replaced_set _ _ _ hj.1⟩, fun hn => ?_⟩
    · rw [(pyIndex_iff _ k j).2 hj]
    · rw [(pyIndex_none_iff _ k).2 hn]
  refine ⟨?_, ?_⟩
  · rintro p t (⟨rfl, rfl⟩ | ⟨rfl, rfl⟩)
    · exact key _ _ _ rfl
    · exact key _ _ _ rfl
  · rintro p t (⟨rfl, rfl⟩ | ⟨rfl, rfl⟩)
    · exact key _ _ _ rfl
    · exact key _ _ _ rfl

/-- Instance: the last entry of a MultiPoint is replaced. -/
example : IndexMeans 2 (-1) 1 ∧
    setPoint multiIncoming [[1, 2], [3, 4]] (-1) (.base 5 6) = .ok [[1, 2], [5, 6]] := by
  refine ⟨by unfold IndexMeans; omega, by decide +kernel⟩

example : TContainer.new .saddles [⟨.saddle, ⟨0, 0, 1, 1⟩⟩, ⟨.runoff, ⟨0, 0, 2, 2⟩⟩] =
    .ok ⟨.saddles, [⟨.saddle, ⟨0, 0, 1, 1⟩⟩, ⟨.runoff, ⟨0, 0, 2, 2⟩⟩]⟩ ∧
  (TContainer.mk .saddles []).call (.append ⟨.summit, ⟨0, 0, 2, 2⟩⟩) = .error .typeError := by decide +kernel

end PyProm
