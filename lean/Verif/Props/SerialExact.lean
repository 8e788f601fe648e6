import Verif.Props.Serial
import Mathlib.Data.List.Perm.Subperm
import Mathlib.Data.List.Nodup

/-
C43, C46: objects that no copy is equal to.
-/
namespace PyProm
open Spec

/-- No key of an index, and no key of a row, is repeated. -/
def KeysOnce (idx : IntDict (IntDict P3)) : Prop := (idx.map (·.1)).Nodup ∧ ∀ r ∈ idx, (r.2.map (·.1)).Nodup

theorem upd_keysOnce {β} {k : Int} {g : Option β → β} {l : IntDict β} (h : (l.map (·.1)).Nodup) :
    ((IntDict.upd k g l).map (·.1)).Nodup := by
  induction l with
  | nil => simp [IntDict.upd]
  | cons c l ih =>
    obtain ⟨q, b⟩ := c
    rw [List.map_cons, List.nodup_cons] at h
    unfold IntDict.upd
    split
    · rw [List.map_cons, List.nodup_cons]
      exact h
    · rename_i hq
      rw [List.map_cons, List.nodup_cons]
      refine ⟨fun hm => ?_, ih h.2⟩
      obtain ⟨a, ha, e⟩ := List.mem_map.1 hm
      rcases upd_mem ha with h' | rfl | ⟨_, _, rfl⟩
      · exact h.1 (List.mem_map.2 ⟨a, h', e⟩)
      · exact hq e.symm
      · exact hq e.symm

theorem KeysOnce.put {idx : IntDict (IntDict P3)} (h : KeysOnce idx) (p : P3) : KeysOnce (indexPut idx p) := by
  refine ⟨upd_keysOnce h.1, fun r hr => ?_⟩
  rcases upd_mem hr with hr | rfl | ⟨b, hb, rfl⟩
  · exact h.2 r hr
  · exact upd_keysOnce List.nodup_nil
  · exact upd_keysOnce (h.2 _ hb)

theorem put_mem {idx : IntDict (IntDict P3)} {p q : P3} (h : q ∈ idxFlat (indexPut idx p)) : q = p ∨ q ∈ idxFlat idx := by
  unfold idxFlat at h ⊢
  rw [List.mem_flatMap] at h
  obtain ⟨r, hr, hq⟩ := h
  obtain ⟨c, hc, rfl⟩ := List.mem_map.1 hq
  rcases upd_mem hr with hr | rfl | ⟨b, hb, rfl⟩
  · exact .inr (List.mem_flatMap.2 ⟨r, hr, List.mem_map_of_mem hc⟩)
  · rcases upd_mem hc with hc | rfl | ⟨_, hc, _⟩
    · cases hc
    · exact .inl rfl
    · cases hc
  · rcases upd_mem hc with hc | rfl | ⟨_, _, rfl⟩
    · exact .inr (List.mem_flatMap.2 ⟨_, hb, List.mem_map_of_mem hc⟩)
    · exact .inl rfl
    · exact .inl rfl

theorem fold_put_keys (l : List P3) : ∀ {idx : IntDict (IntDict P3)}, Keyed idx → KeysOnce idx →
    Keyed (l.foldl indexPut idx) ∧ KeysOnce (l.foldl indexPut idx) ∧
      ∀ q ∈ idxFlat (l.foldl indexPut idx), q ∈ l ∨ q ∈ idxFlat idx := by
  induction l with
  | nil => exact fun h1 h2 => ⟨h1, h2, fun _ h => .inr h⟩
  | cons p l ih =>
    intro idx h1 h2
    obtain ⟨a, b, c⟩ := ih (h1.put p) (h2.put p)
    refine ⟨a, b, fun q hq => ?_⟩
    rcases c q hq with h | h
    · exact .inl (List.mem_cons_of_mem _ h)
    · rcases put_mem h with rfl | h
      · exact .inl (List.mem_cons_self ..)
      · exact .inr h

theorem flat_apart {idx : IntDict (IntDict P3)} (h1 : Keyed idx) (h2 : KeysOnce idx) : Apart (idxFlat idx) := by
  unfold Apart idxFlat
  obtain ⟨k1, k2⟩ := h2
  rw [List.pairwise_flatMap]
  constructor
  · intro r hr
    rw [List.pairwise_map]
    refine (List.pairwise_map.1 (k2 r hr)).imp_of_mem fun {a b} ha hb hne he => hne ?_
    rw [← (h1 r hr a ha).2, ← (h1 r hr b hb).2]
    exact he.2
  · refine (List.pairwise_map.1 k1).imp_of_mem fun {r s} hr hs hne => ?_
    intro a ha b hb he
    obtain ⟨c, hc, rfl⟩ := List.mem_map.1 ha
    obtain ⟨d, hd, rfl⟩ := List.mem_map.1 hb
    exact hne ((h1 r hr c hc).1.symm.trans (he.1.trans (h1 s hs d hd).1))

/-- C43 fails for every perimeter with a repeated cell: the copy has fewer points and compares unequal. -/
theorem C43_every_repeated_cell_refuted (p : Perim) (l : List P3) (hl : p.mapEdgePoints = some l) (hn : ¬ Apart p.points) :
    ∃ q, Perim.fromDict p.toDict.cbor = .ok q ∧ q.points.length < p.points.length ∧ perimEq p.points q.points = false := by
  have e : Perim.fromDict p.toDict = .ok p.reloaded := by
    rw [p.load l hl]
    simp [Perim.reloaded, hl]
  refine ⟨p.reloaded, by rw [Perim.fromDict_blind]; exact e, ?_⟩
  obtain ⟨k1, k2, k3⟩ := fold_put_keys p.points (idx := []) (fun r hr => nomatch hr) ⟨List.nodup_nil, fun r hr => nomatch hr⟩
  have hpts : p.reloaded.points = idxFlat (p.points.foldl indexPut []) := by
    unfold Perim.reloaded
    rw [Perim.ofIndex_points]
  have ha := flat_apart k1 k2
  rw [hpts]
  have hsub : ∀ q ∈ idxFlat (p.points.foldl indexPut []), q ∈ p.points := fun q hq => by
    rcases k3 q hq with h | h
    · exact h
    · cases h
  have hco : ∀ l : List P3, Apart l ↔ (l.map fun q => (q.x, q.y)).Nodup := by
    intro l
    unfold Apart List.Nodup
    rw [List.pairwise_map]
    simp
  have hsp : ((idxFlat (p.points.foldl indexPut [])).map fun q => (q.x, q.y)).Subperm (p.points.map fun q => (q.x, q.y)) := by
    refine List.Nodup.subperm ((hco _).1 ha) fun x hx => ?_
    obtain ⟨q, hq, rfl⟩ := List.mem_map.1 hx
    exact List.mem_map_of_mem (hsub q hq)
  refine ⟨lt_of_le_of_ne (by simpa using hsp.length_le) fun he => hn ((hco _).2 ?_), ?_⟩
  · refine (hsp.perm_of_length_le (by simp [he])).nodup_iff.1 ((hco _).1 ha)
  · rw [Bool.eq_false_iff]
    intro heq
    refine hn ?_
    have := (C37_order_perimeter _ _).1 heq
    refine (hco _).2 ((this.map fun q => (q.x, q.y)).nodup_iff.2 ((hco _).1 ha))

/-- Instance: three points, two of them with the same cell but different heights. -/
example : ¬ Apart [⟨1, 1, 5⟩, ⟨2, 1, 5⟩, ⟨1, 1, 6⟩] := by unfold Apart; decide +kernel

/-- C43 fails for every saddle whose disqualification was lifted by hand: the copy is disqualified. -/
theorem C43_every_qualified_refuted (s : LSaddle) (sadId linkId : Nat → Nat) (ho : s.over = some false)
    (hd : s.single = true ∨ s.basin = true) (ha : ∀ a, s.mp = some a → AreaSound a) :
    ∃ v t, s.toDict sadId linkId = .ok v ∧ LSaddle.fromDict s.runoff v.cbor = .ok t ∧ s.disqualified = false ∧
      t.disqualified = true := by
  obtain ⟨v, h1, h2, _⟩ := s.load sadId linkId s.runoff (areas_load ha)
  refine ⟨v, _, h1, by rw [LSaddle.fromDict_blind]; exact h2, by simp [LSaddle.disqualified, ho], ?_⟩
  rcases hd with h | h <;> simp [LSaddle.disqualified, ho, h]

example : { exSad 1 with over := some false }.over = some false ∧ ({ exSad 1 with over := some false }.single = true ∨
    { exSad 1 with over := some false }.basin = true) := by decide

/-- Positions that no change is for stay. -/
theorem fold_modify_other {α} (pos : Nat → Nat) (up : Nat → α → α) (q : Nat) : ∀ (ks : List Nat) (l : List α), (∀ k ∈ ks, pos k ≠ q) →
    (ks.foldl (fun l k => l.modify (pos k) (up k)) l)[q]? = l[q]?
  | [], _, _ => rfl
  | k :: ks, l, h => by
    rw [List.foldl_cons, fold_modify_other pos up q ks _ fun k hk => h k (List.mem_cons_of_mem _ hk), List.getElem?_modify]
    have := h k (List.mem_cons_self ..)
    cases l[q]? <;> simp [this]

/-- C46 fails for every container that holds two saddles with one id, for instance one saddle twice: the first of them comes back without parent,
children and alternatives, whatever it had. -/
theorem C46_every_twice_refuted (m : LMap) (ks : List Nat)
    (hc : ∀ k ∈ ks, (∀ c ∈ (m.sad k).children, c ∈ ks) ∧ (∀ c, (m.sad k).parent = some c → c ∈ ks) ∧
      ∀ c ∈ (m.sad k).alts, c ∈ ks) (ha : ∀ k ∈ ks, ∀ a, (m.sad k).mp = some a → AreaSound a)
    (i j k k' : Nat) (hij : i < j) (hi : ks[i]? = some k) (hj : ks[j]? = some k') (he : (m.sad k).id = (m.sad k').id) :
    ∃ v l t, m.saddlesToDict "saddles" ks = .ok v ∧ saddlesFromDict v.cbor = .ok l ∧ l[i]? = some t ∧
      t.id = (m.sad k).id ∧ t.parent = none ∧ t.children = [] ∧ t.alts = [] ∧
      (FamilyKept m ks l → (m.sad k).parent = none ∧ (m.sad k).children = [] ∧ (m.sad k).alts = []) := by
  obtain ⟨ds, b1, b2⟩ := save_saddles m false "saddles" ks fun k hk => areas_load (ha k hk)
  have e1 : ds.mapM (LSaddle.fromDict false) = .ok (ks.map fun k => (m.sad k).reloaded false) :=
    mapM_forall2 (b2.imp fun k v hv => hv.load)
  have e2 := fold_restore m ks ks ds b2 (fun _ h => h) hc (ks.map fun k => (m.sad k).reloaded false)
    (by rw [List.map_map]; rfl)
  have e3 := fold_modify_other (fun k => posOf (ks.map m.sadId) (m.sadId k)) (fun k => addRefs (ks.map m.sadId)
    ((m.sad k).children.map m.sadId) ((m.sad k).parent.map m.sadId) ((m.sad k).alts.map m.sadId)) i ks
    (ks.map fun k => (m.sad k).reloaded false) fun c hcm heq => by
      have hm : m.sadId c ∈ ks.map m.sadId := List.mem_map_of_mem hcm
      obtain ⟨x, hx⟩ := lastPos_mem hm
      unfold posOf at heq
      rw [hx] at heq
      simp only [Option.getD_some] at heq
      subst heq
      obtain ⟨g1, g2⟩ := (lastPos_some _ _ _).1 hx
      refine g2 j hij ?_
      rw [← g1, List.getElem?_map, List.getElem?_map, hi, hj]
      exact congrArg some he.symm
  rw [List.getElem?_map, hi] at e3
  refine ⟨_, _, _, b1, ?_, e3, rfl, rfl, rfl, rfl, fun hF => ?_⟩
  · rw [saddlesFromDict_blind]
    unfold saddlesFromDict
    simp only [PyVal.get, List.lookup, beq_self_eq_true, PyVal.seq, bind, Except.bind, e1]
    exact e2
  · obtain ⟨f1, f2, f3⟩ := hF.2 i k _ hi e3
    refine ⟨?_, ?_, ?_⟩
    · rcases h : (m.sad k).parent with _ | c
      · rfl
      · rw [h] at f2
        simp [LSaddle.reloaded] at f2
    · exact List.map_eq_nil_iff.1 f1.symm
    · exact List.map_eq_nil_iff.1 f3.symm

/-- Instance: the family with its parent twice. -/
example : (∀ k ∈ ([0, 1, 2, 2] : List Nat), (∀ c ∈ (exFamilyMap.sad k).children, c ∈ ([0, 1, 2, 2] : List Nat)) ∧
      (∀ c ∈ (exFamilyMap.sad k).parent, c ∈ ([0, 1, 2, 2] : List Nat)) ∧
      ∀ c ∈ (exFamilyMap.sad k).alts, c ∈ ([0, 1, 2, 2] : List Nat)) ∧ (exFamilyMap.sad 2).children = [0, 1] := by decide +kernel

end PyProm
