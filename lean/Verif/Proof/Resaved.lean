import Verif.Model.Loaded
import Verif.Props.Serial

/-
Proof of C104: what a loaded map becomes when it is saved and loaded again
-/
namespace PyProm
open Spec

/-! ### Perimeters -/

theorem upd_keys {β} (k : Int) (g : Option β → β) (l : IntDict β) :
    (IntDict.upd k g l).map (·.1) = if k ∈ l.map (·.1) then l.map (·.1) else l.map (·.1) ++ [k] := by
  induction l with
  | nil => simp [IntDict.upd]
  | cons c l ih =>
    obtain ⟨q, b⟩ := c
    unfold IntDict.upd
    by_cases hq : q = k
    · simp [hq]
    · rw [if_neg hq]
      simp only [List.map_cons, ih, List.mem_cons]
      by_cases hk : k ∈ l.map (·.1)
      · simp [hk]
      · have : ¬ (k = q ∨ k ∈ l.map (·.1)) := by
          rintro (h | h)
          · exact hq h.symm
          · exact hk h
        rw [if_neg this, if_neg hk]
        rfl

theorem upd_nodup {β} {k : Int} {g : Option β → β} {l : IntDict β} (h : (l.map (·.1)).Nodup) :
    ((IntDict.upd k g l).map (·.1)).Nodup := by
  rw [upd_keys]
  split
  · exact h
  · rename_i hk
    rw [List.nodup_append]
    exact ⟨h, by simp, fun a ha b hb => by
      rw [List.mem_singleton] at hb
      subst hb
      rintro rfl
      exact hk ha⟩

theorem upd_absent {β} {k : Int} {g : Option β → β} {l : IntDict β} (h : k ∉ l.map (·.1)) :
    IntDict.upd k g l = l ++ [(k, g none)] := by
  induction l with
  | nil => rfl
  | cons c l ih =>
    obtain ⟨q, b⟩ := c
    simp only [List.map_cons, List.mem_cons, not_or] at h
    unfold IntDict.upd
    rw [if_neg (fun e => h.1 e.symm), ih h.2]
    rfl

theorem upd_last {β} {k : Int} {g : Option β → β} {l : IntDict β} (b : β) (h : k ∉ l.map (·.1)) :
    IntDict.upd k g (l ++ [(k, b)]) = l ++ [(k, g (some b))] := by
  induction l with
  | nil => simp [IntDict.upd]
  | cons c l ih =>
    obtain ⟨q, b'⟩ := c
    simp only [List.map_cons, List.mem_cons, not_or] at h
    rw [List.cons_append]
    unfold IntDict.upd
    rw [if_neg (fun e => h.1 e.symm), ih h.2]
    rfl

/-- The index has every coordinate once and no empty rows. -/
structure IdxTidy (idx : IntDict (IntDict P3)) : Prop where
  keyed : Keyed idx
  rows : (idx.map (·.1)).Nodup
  cols : ∀ r ∈ idx, r.2 ≠ [] ∧ (r.2.map (·.1)).Nodup

theorem IdxTidy.put {idx : IntDict (IntDict P3)} (h : IdxTidy idx) (p : P3) : IdxTidy (indexPut idx p) := by
  refine ⟨h.keyed.put p, upd_nodup h.rows, fun r hr => ?_⟩
  have row : ∀ l : IntDict P3, (l.map (·.1)).Nodup → IntDict.upd p.y (fun _ => p) l ≠ [] ∧
      ((IntDict.upd p.y (fun _ => p) l).map (·.1)).Nodup := by
    intro l hl
    refine ⟨?_, upd_nodup hl⟩
    intro he
    have := congrArg (List.map (·.1)) he
    rw [upd_keys] at this
    split at this
    · rename_i hk
      rw [this] at hk
      cases hk
    · simp at this
  rcases upd_mem hr with hr | hr | ⟨b, hb, hr⟩
  · exact h.cols r hr
  · subst hr
    exact row [] (by simp)
  · subst hr
    exact row b (h.cols _ hb).2

theorem idxTidy_fold (l : List P3) : ∀ {idx : IntDict (IntDict P3)}, IdxTidy idx → IdxTidy (l.foldl indexPut idx) := by
  induction l with
  | nil => intro idx h; exact h
  | cons p l ih => intro idx h; exact ih (h.put p)

theorem idxTidy_nil : IdxTidy [] := ⟨fun _ h => (nomatch h), by simp, fun _ h => (nomatch h)⟩

theorem put_row {pre : IntDict (IntDict P3)} {x : Int} (hx : x ∉ pre.map (·.1)) : ∀ (rest done : IntDict P3),
    (∀ c ∈ rest, c.2.x = x ∧ c.2.y = c.1) → ((done ++ rest).map (·.1)).Nodup →
    (rest.map (·.2)).foldl indexPut (pre ++ [(x, done)]) = pre ++ [(x, done ++ rest)] := by
  intro rest
  induction rest with
  | nil => intro done _ _; simp
  | cons c rest ih =>
    obtain ⟨y, p⟩ := c
    intro done hk hn
    obtain ⟨k1, k2⟩ := hk (y, p) (by simp)
    dsimp only at k1 k2
    subst k1 k2
    rw [List.map_cons, List.foldl_cons]
    have e : indexPut (pre ++ [(p.x, done)]) p = pre ++ [(p.x, done ++ [(p.y, p)])] := by
      unfold indexPut
      rw [upd_last _ hx, Option.getD_some, upd_absent]
      intro hm
      rw [List.map_append, List.nodup_append] at hn
      exact hn.2.2 _ hm _ (by simp) rfl
    rw [e, ih (done ++ [(p.y, p)]) (fun c hc => hk c (by simp [hc])) (by simpa using hn)]
    simp

theorem put_rows : ∀ (rest pre : IntDict (IntDict P3)), IdxTidy (pre ++ rest) →
    (idxFlat rest).foldl indexPut pre = pre ++ rest := by
  intro rest
  induction rest with
  | nil => intro pre _; simp [idxFlat]
  | cons r rest ih =>
    obtain ⟨x, row⟩ := r
    intro pre h
    obtain ⟨h1, h2⟩ := h.cols (x, row) (by simp)
    have hx : x ∉ pre.map (·.1) := by
      have := h.rows
      rw [List.map_append, List.nodup_append] at this
      intro hm
      exact this.2.2 _ hm _ (by simp) rfl
    have hr : (row.map (·.2)).foldl indexPut pre = pre ++ [(x, row)] := by
      cases row with
      | nil => exact absurd rfl h1
      | cons c row =>
        obtain ⟨y, p⟩ := c
        obtain ⟨k1, k2⟩ := h.keyed (x, (y, p) :: row) (by simp) (y, p) (by simp)
        dsimp only at k1 k2
        subst k1 k2
        rw [List.map_cons, List.foldl_cons]
        have e : indexPut pre p = pre ++ [(p.x, [(p.y, p)])] := by
          unfold indexPut
          rw [upd_absent hx]
          rfl
        rw [e, put_row hx row [(p.y, p)] (fun c hc => h.keyed (p.x, (p.y, p) :: row) (by simp) c (by simp [hc])) h2]
        rfl
    have hf : idxFlat ((x, row) :: rest) = row.map (·.2) ++ idxFlat rest := rfl
    rw [hf, List.foldl_append, hr, ih (pre ++ [(x, row)]) (by simpa using h)]
    simp

theorem Perim.reloaded_twice (p : Perim) : p.reloaded.reloaded = p.reloaded := by
  have h1 : p.reloaded.points = idxFlat (p.points.foldl indexPut []) := Perim.ofIndex_points _ _ _
  have h2 : p.reloaded.points.foldl indexPut [] = p.points.foldl indexPut [] := by
    rw [h1]
    exact put_rows _ [] (idxTidy_fold _ idxTidy_nil)
  show Perim.ofIndex (p.reloaded.points.foldl indexPut []) _ _ = _
  rw [h2]
  rfl

theorem multiReloaded_twice (o : Option MultiObj) : multiReloaded (multiReloaded o) = multiReloaded o := by
  cases o with
  | none => rfl
  | some m =>
    unfold multiReloaded
    by_cases h : m.points.isEmpty
    · simp [h]
    · simp only [h]
      have : m.reloaded.points.isEmpty = false := by
        unfold MultiObj.reloaded
        cases hm : m.points with
        | nil => rw [hm] at h; exact absurd rfl h
        | cons a l => rfl
      simp only [Bool.false_eq_true, if_false, this, Option.some.injEq]
      unfold MultiObj.reloaded
      simp only [List.map_map, MultiObj.mk.injEq, true_and]
      refine ⟨rfl, ?_⟩
      cases m.perimeter with
      | none => rfl
      | some p => exact congrArg some p.reloaded_twice

/-! ### Maps -/

section
variable {m : LMap}

/-- The loaded map, as an object that can be saved. -/
abbrev LMap.again (m : LMap) (ds : List Nat) : LMap := m.loaded.toMap m.saddles.length ds

theorem loaded_summits_length (m : LMap) : m.loaded.summits.length = m.summits.length := by
  simp [LMap.loaded, domState, linkState, LMap.baseSummits]

theorem loaded_saddles_length (m : LMap) : m.loaded.saddles.length = (m.saddles ++ m.runoffs).length := by
  simp [LMap.loaded, domState, linkState, LMap.baseSaddles]

theorem again_sumId (m : LMap) (ds : List Nat) {P D : Nat} (hP : m.summits[P]? = some D) :
    (m.again ds).sumId P = m.sumId D := by
  show ((m.loaded.summits[P]?).getD .blank).id = _
  rw [loaded_summit_get, hP]
  rfl

theorem again_sadId (m : LMap) (ds : List Nat) {P k : Nat} (hP : (m.saddles ++ m.runoffs)[P]? = some k) :
    (m.again ds).sadId P = m.sadId k := by
  show ((m.loaded.saddles[P]?).getD .blank).id = _
  rw [loaded_saddle_get m P k hP]
  show (if P < m.saddles.length then m.loadedSaddle m.saddles k else (m.sad k).reloaded true).id = _
  split <;> rfl

theorem again_sumIds (m : LMap) (ds : List Nat) : (m.again ds).summits.map (m.again ds).sumId = m.summits.map m.sumId := by
  apply List.ext_getElem?
  intro P
  show ((List.range m.loaded.summits.length).map _)[P]? = _
  rw [List.getElem?_map, List.getElem?_map, loaded_summits_length]
  cases hP : m.summits[P]? with
  | none => rw [List.getElem?_eq_none (by simpa using List.getElem?_eq_none_iff.1 hP)]; rfl
  | some D =>
    rw [List.getElem?_range (lt_of_getElem? hP)]
    exact congrArg some (again_sumId m ds hP)

theorem again_all (m : LMap) (ds : List Nat) : (m.again ds).saddles ++ (m.again ds).runoffs =
    List.range (m.saddles ++ m.runoffs).length := by
  show List.range m.saddles.length ++ (List.range (m.loaded.saddles.length - m.saddles.length)).map (m.saddles.length + ·) = _
  rw [loaded_saddles_length, List.length_append, Nat.add_sub_cancel_left, List.range_add]

theorem again_allIds (m : LMap) (ds : List Nat) :
    ((m.again ds).saddles ++ (m.again ds).runoffs).map (m.again ds).sadId = (m.saddles ++ m.runoffs).map m.sadId := by
  rw [again_all]
  apply List.ext_getElem?
  intro P
  rw [List.getElem?_map, List.getElem?_map]
  cases hP : (m.saddles ++ m.runoffs)[P]? with
  | none => rw [List.getElem?_eq_none (by simpa using List.getElem?_eq_none_iff.1 hP)]; rfl
  | some D =>
    rw [List.getElem?_range (lt_of_getElem? hP)]
    exact congrArg some (again_sadId m ds hP)

theorem again_ids (m : LMap) (ds : List Nat) : (m.again ds).saddles.map (m.again ds).sadId = m.saddles.map m.sadId := by
  have := congrArg (List.take m.saddles.length) (again_allIds m ds)
  rw [List.map_append, List.map_append, List.take_append_of_le_length, List.take_append_of_le_length,
    List.take_of_length_le, List.take_of_length_le] at this
  · exact this
  all_goals simp [LState.toMap]

theorem posOf_again {ids : List Nat} {i : Nat} (h : i ∈ ids) : posOf ids i < ids.length := by
  exact lt_of_getElem? (posOf_get h)

theorem again_pos_sum (ds : List Nat) {D : Nat} (hD : D ∈ m.summits) :
    (m.again ds).sumId (posOf (m.summits.map m.sumId) (m.sumId D)) = m.sumId D := by
  have := posOf_get (List.mem_map_of_mem (f := m.sumId) hD)
  rw [List.getElem?_map, Option.map_eq_some_iff] at this
  obtain ⟨D', h1, h2⟩ := this
  rw [again_sumId m ds h1, h2]

theorem again_pos_sad (ds : List Nat) {k : Nat} (hk : k ∈ m.saddles ++ m.runoffs) :
    (m.again ds).sadId (posOf ((m.saddles ++ m.runoffs).map m.sadId) (m.sadId k)) = m.sadId k := by
  have := posOf_get (List.mem_map_of_mem (f := m.sadId) hk)
  rw [List.getElem?_map, Option.map_eq_some_iff] at this
  obtain ⟨D', h1, h2⟩ := this
  rw [again_sadId m ds h1, h2]

theorem again_pos_sad0 (ds : List Nat) {k : Nat} (hk : k ∈ m.saddles) :
    (m.again ds).sadId (posOf (m.saddles.map m.sadId) (m.sadId k)) = m.sadId k := by
  have := posOf_get (List.mem_map_of_mem (f := m.sadId) hk)
  rw [List.getElem?_map, Option.map_eq_some_iff] at this
  obtain ⟨D', h1, h2⟩ := this
  rw [again_sadId m ds (by rw [List.getElem?_append_left (lt_of_getElem? h1)]; exact h1), h2]

end

theorem multiLoads_again {o : Option MultiObj} (h : MultiLoads o) : MultiLoads (multiReloaded o) := by
  intro n hn hne
  cases o with
  | none => cases hn
  | some a =>
    unfold multiReloaded at hn
    simp only at hn
    split at hn
    · cases hn
    · rename_i he
      simp only [Option.some.injEq] at hn
      subst hn
      obtain ⟨p, p1, l, p2⟩ := h a rfl (by rintro e; rw [e] at he; exact he rfl)
      exact ⟨p.reloaded, by unfold MultiObj.reloaded; rw [p1]; rfl, _, rfl⟩

theorem again_sum (m : LMap) (ds : List Nat) {P D : Nat} (hP : m.summits[P]? = some D) :
    ((m.again ds).sum P).reloaded = (m.sum D).reloaded ∧ ((m.again ds).sum P).mp = multiReloaded (m.sum D).mp := by
  have e : (m.again ds).sum P = m.loaded.summits[P]?.getD .blank := rfl
  rw [e, loaded_summit_get, hP]
  refine ⟨?_, rfl⟩
  simp only [Option.map_some, Option.getD_some, LSummit.reloaded, multiReloaded_twice]

theorem again_sad (m : LMap) (ds : List Nat) {P k : Nat} (hP : (m.saddles ++ m.runoffs)[P]? = some k) :
    (m.again ds).sad P =
    { (if P < m.saddles.length then m.loadedSaddle m.saddles k else (m.sad k).reloaded true) with
      links := keepL (LState.linkerEq ⟨m.baseSummits, m.baseSaddles, [], []⟩) LLinker.saddle P m.loaded.linkers } := by
  have e : (m.again ds).sad P = m.loaded.saddles[P]?.getD .blank := rfl
  rw [e, loaded_saddle_get m P k hP]
  rfl

theorem again_sad_mp (m : LMap) (ds : List Nat) {P k : Nat} (hP : (m.saddles ++ m.runoffs)[P]? = some k) :
    ((m.again ds).sad P).mp = multiReloaded (m.sad k).mp := by
  rw [again_sad m ds hP]
  show (if P < m.saddles.length then m.loadedSaddle m.saddles k else (m.sad k).reloaded true).mp = _
  split <;> rfl

theorem reloaded_twice (s : LSaddle) (r : Bool) : (s.reloaded r).reloaded r = s.reloaded r := by
  unfold LSaddle.reloaded
  simp only [multiReloaded_twice, Bool.or_assoc, Bool.or_self, LSaddle.mk.injEq, true_and, and_true]
  split <;> simp_all

theorem again_refs (m : LMap) (ds : List Nat) {P k : Nat} (hP : m.saddles[P]? = some k) :
    ((m.again ds).sad P).children = (m.sad k).children.map (fun c => posOf (m.saddles.map m.sadId) (m.sadId c)) ∧
    ((m.again ds).sad P).parent = (m.sad k).parent.map (fun c => posOf (m.saddles.map m.sadId) (m.sadId c)) ∧
    ((m.again ds).sad P).alts = (m.sad k).alts.map (fun c => posOf (m.saddles.map m.sadId) (m.sadId c)) := by
  have hlt := lt_of_getElem? hP
  have hP' : (m.saddles ++ m.runoffs)[P]? = some k := by rw [List.getElem?_append_left hlt]; exact hP
  rw [again_sad m ds hP', if_pos hlt]
  simp only [LMap.loadedSaddle, addRefs, LSaddle.reloaded, List.map_map, List.nil_append, Option.map_map, Option.or_none]
  exact ⟨rfl, rfl, rfl⟩

theorem again_saddle {m : LMap} (h : m.Loads) (ds : List Nat) {P k : Nat} (hP : m.saddles[P]? = some k) :
    (m.again ds).loadedSaddle (m.again ds).saddles P = m.loadedSaddle m.saddles k := by
  have hlt := lt_of_getElem? hP
  have hP' : (m.saddles ++ m.runoffs)[P]? = some k := by rw [List.getElem?_append_left hlt]; exact hP
  obtain ⟨r1, r2, r3⟩ := again_refs m ds hP
  obtain ⟨c1, c2, c3⟩ := h.closed k (List.mem_of_getElem? hP)
  have map_ids : ∀ l : List Nat, (∀ c ∈ l, c ∈ m.saddles) →
      (l.map fun c => posOf (m.saddles.map m.sadId) (m.sadId c)).map (m.again ds).sadId = l.map m.sadId := by
    intro l hl
    rw [List.map_map]
    exact List.map_congr_left fun c hc => again_pos_sad0 ds (hl c hc)
  unfold LMap.loadedSaddle
  rw [again_ids, r1, r2, r3, map_ids _ c1, map_ids _ c3]
  have e2 : ((m.sad k).parent.map fun c => posOf (m.saddles.map m.sadId) (m.sadId c)).map (m.again ds).sadId =
      (m.sad k).parent.map m.sadId := by
    cases hp : (m.sad k).parent with
    | none => rfl
    | some c => exact congrArg some (again_pos_sad0 ds (c2 c hp))
  rw [e2]
  congr 1
  have : ((m.again ds).sad P).reloaded false = ((m.sad k).reloaded false).reloaded false := by
    rw [again_sad m ds hP', if_pos hlt]
    rfl
  rw [this, reloaded_twice]

theorem again_runoff (m : LMap) (ds : List Nat) {P k : Nat} (hP : (m.saddles ++ m.runoffs)[P]? = some k)
    (hn : ¬ P < m.saddles.length) : ((m.again ds).sad P).reloaded true = (m.sad k).reloaded true := by
  have : ((m.again ds).sad P).reloaded true = ((m.sad k).reloaded true).reloaded true := by
    rw [again_sad m ds hP, if_neg hn]
    rfl
  rw [this, reloaded_twice]

theorem again_baseSummits (m : LMap) (ds : List Nat) : (m.again ds).baseSummits = m.baseSummits := by
  apply List.ext_getElem?
  intro P
  show ((List.range m.loaded.summits.length).map _)[P]? = (m.summits.map _)[P]?
  rw [List.getElem?_map, List.getElem?_map, loaded_summits_length]
  cases hP : m.summits[P]? with
  | none => rw [List.getElem?_eq_none (by simpa using List.getElem?_eq_none_iff.1 hP)]; rfl
  | some D =>
    rw [List.getElem?_range (lt_of_getElem? hP)]
    exact congrArg some (again_sum m ds hP).1

theorem again_baseSaddles {m : LMap} (h : m.Loads) (ds : List Nat) : (m.again ds).baseSaddles = m.baseSaddles := by
  apply List.ext_getElem?
  intro P
  cases hP : (m.saddles ++ m.runoffs)[P]? with
  | none =>
    have hle := List.getElem?_eq_none_iff.1 hP
    have l1 : (m.again ds).baseSaddles.length = (m.saddles ++ m.runoffs).length := by
      have := congrArg List.length (again_all m ds)
      simpa [LMap.baseSaddles] using this
    have l2 : m.baseSaddles.length = (m.saddles ++ m.runoffs).length := by simp [LMap.baseSaddles]
    rw [List.getElem?_eq_none (by omega), List.getElem?_eq_none (by omega)]
  | some k =>
    have hlt := lt_of_getElem? hP
    have hP' : ((m.again ds).saddles ++ (m.again ds).runoffs)[P]? = some P := by
      rw [again_all, List.getElem?_range hlt]
    rw [baseSaddles_get _ _ _ hP', baseSaddles_get _ _ _ hP]
    have hl : (m.again ds).saddles.length = m.saddles.length := by simp [LState.toMap]
    rw [hl]
    by_cases hn : P < m.saddles.length
    · rw [if_pos hn, if_pos hn, again_saddle h ds (by rw [List.getElem?_append_left hn] at hP; exact hP)]
    · rw [if_neg hn, if_neg hn, again_runoff m ds hP hn]

theorem again_linkers {m : LMap} (h : m.Loads) (ds : List Nat) : (m.again ds).loaded.linkers = m.loaded.linkers := by
  have e : ∀ m : LMap, m.loaded.linkers = m.linkers.map
    (m.loadedLinker (m.summits.map m.sumId) ((m.saddles ++ m.runoffs).map m.sadId)) := fun _ => rfl
  rw [e (m.again ds), again_sumIds, again_allIds]
  apply List.ext_getElem?
  intro i
  show ((List.range m.loaded.linkers.length).map _)[i]? = _
  rw [List.getElem?_map]
  cases hi : m.loaded.linkers[i]? with
  | none => rw [List.getElem?_eq_none (by simpa using List.getElem?_eq_none_iff.1 hi)]; rfl
  | some l =>
    rw [List.getElem?_range (lt_of_getElem? hi), Option.map_some]
    congr 1
    have hl : (m.again ds).link i = l := by
      show m.loaded.linkers[i]?.getD .blank = l
      rw [hi]
      rfl
    rw [e m, List.getElem?_map, Option.map_eq_some_iff] at hi
    obtain ⟨j, hj, hl'⟩ := hi
    obtain ⟨a, b⟩ := h.linkers j (List.mem_of_getElem? hj)
    unfold LMap.loadedLinker LMap.linkId
    rw [hl, ← hl']
    simp only [LMap.loadedLinker]
    rw [again_pos_sum ds a, again_pos_sad ds b]

theorem again_domains {m : LMap} (h : m.Loads) {ds : List Nat} (hds : ∀ i ∈ ds, i < m.domains.length) :
    (m.again ds).loaded.domains.map some = ds.map (m.loaded.domains[·]?) := by
  have e : ∀ m : LMap, m.loaded.domains = m.domains.map
    (m.loadedDomain (m.summits.map m.sumId) ((m.saddles ++ m.runoffs).map m.sadId)) := fun _ => rfl
  rw [e (m.again ds), again_sumIds, again_allIds]
  show (ds.map _).map some = _
  rw [List.map_map]
  apply List.map_congr_left
  intro i hi
  have hlt : i < m.loaded.domains.length := by rw [e m, List.length_map]; exact hds i hi
  obtain ⟨d, hd⟩ : ∃ d, m.loaded.domains[i]? = some d := ⟨_, List.getElem?_eq_getElem hlt⟩
  rw [hd]
  have hl : (m.again ds).dom i = d := by
    show m.loaded.domains[i]?.getD .blank = d
    rw [hd]
    rfl
  rw [e m, List.getElem?_map, Option.map_eq_some_iff] at hd
  obtain ⟨j, hj, hd'⟩ := hd
  obtain ⟨a, b⟩ := h.domains j (List.mem_of_getElem? hj)
  show some _ = _
  congr 1
  unfold LMap.loadedDomain
  rw [hl, ← hd']
  simp only [LMap.loadedDomain]
  rw [again_pos_sum ds a, List.map_map]
  congr 1
  exact List.map_congr_left fun k hk => by
    show posOf _ ((m.again ds).sadId _) = _
    rw [again_pos_sad ds (b k hk)]

theorem again_loads {m : LMap} (h : m.Loads) {ds : List Nat} (hds : ∀ i ∈ ds, i < m.domains.length) : (m.again ds).Loads := by
  have hsum : ∀ {D}, D ∈ m.summits → posOf (m.summits.map m.sumId) (m.sumId D) ∈ (m.again ds).summits := by
    intro D hD
    have := posOf_again (List.mem_map_of_mem (f := m.sumId) hD)
    rw [List.length_map] at this
    show _ ∈ List.range _
    rw [loaded_summits_length]
    exact List.mem_range.2 this
  have hsad : ∀ {k}, k ∈ m.saddles ++ m.runoffs → posOf ((m.saddles ++ m.runoffs).map m.sadId) (m.sadId k) ∈
      (m.again ds).saddles ++ (m.again ds).runoffs := by
    intro k hk
    have := posOf_again (List.mem_map_of_mem (f := m.sadId) hk)
    rw [List.length_map] at this
    rw [again_all]
    exact List.mem_range.2 this
  have hsad0 : ∀ {k}, k ∈ m.saddles → posOf (m.saddles.map m.sadId) (m.sadId k) ∈ (m.again ds).saddles := by
    intro k hk
    have := posOf_again (List.mem_map_of_mem (f := m.sadId) hk)
    rw [List.length_map] at this
    exact List.mem_range.2 this
  refine ⟨by rw [again_ids]; exact h.ids, ?_, ?_, ?_, ?_, ?_⟩
  · intro P hP
    obtain ⟨k, hk⟩ : ∃ k, m.saddles[P]? = some k := ⟨_, List.getElem?_eq_getElem (List.mem_range.1 hP)⟩
    obtain ⟨r1, r2, r3⟩ := again_refs m ds hk
    obtain ⟨c1, c2, c3⟩ := h.closed k (List.mem_of_getElem? hk)
    rw [r1, r2, r3]
    refine ⟨fun c hc => ?_, fun c hc => ?_, fun c hc => ?_⟩
    · obtain ⟨c', h1, rfl⟩ := List.mem_map.1 hc
      exact hsad0 (c1 c' h1)
    · obtain ⟨c', h1, rfl⟩ := Option.map_eq_some_iff.1 hc
      exact hsad0 (c2 c' h1)
    · obtain ⟨c', h1, rfl⟩ := List.mem_map.1 hc
      exact hsad0 (c3 c' h1)
  · intro i hi
    obtain ⟨l, hl⟩ : ∃ l, m.loaded.linkers[i]? = some l := ⟨_, List.getElem?_eq_getElem (List.mem_range.1 hi)⟩
    have e : (m.again ds).link i = l := by
      show m.loaded.linkers[i]?.getD .blank = l
      rw [hl]; rfl
    rw [show m.loaded.linkers = m.linkers.map
      (m.loadedLinker (m.summits.map m.sumId) ((m.saddles ++ m.runoffs).map m.sadId)) from rfl,
      List.getElem?_map, Option.map_eq_some_iff] at hl
    obtain ⟨j, hj, rfl⟩ := hl
    obtain ⟨a, b⟩ := h.linkers j (List.mem_of_getElem? hj)
    rw [e]
    exact ⟨hsum a, hsad b⟩
  · intro i hi
    have hlt : i < m.loaded.domains.length := by
      rw [show m.loaded.domains.length = m.domains.length by simp [LMap.loaded, domState]]; exact hds i hi
    obtain ⟨d, hd⟩ : ∃ d, m.loaded.domains[i]? = some d := ⟨_, List.getElem?_eq_getElem hlt⟩
    have e : (m.again ds).dom i = d := by
      show m.loaded.domains[i]?.getD .blank = d
      rw [hd]; rfl
    rw [show m.loaded.domains = m.domains.map
      (m.loadedDomain (m.summits.map m.sumId) ((m.saddles ++ m.runoffs).map m.sadId)) from rfl,
      List.getElem?_map, Option.map_eq_some_iff] at hd
    obtain ⟨j, hj, rfl⟩ := hd
    obtain ⟨a, b⟩ := h.domains j (List.mem_of_getElem? hj)
    rw [e]
    refine ⟨hsum a, fun k hk => ?_⟩
    obtain ⟨k', h1, rfl⟩ := List.mem_map.1 hk
    exact hsad (b k' h1)
  · intro P hP
    have hP : P < m.summits.length := by rw [← loaded_summits_length]; exact List.mem_range.1 hP
    obtain ⟨D, hD⟩ : ∃ D, m.summits[P]? = some D := ⟨_, List.getElem?_eq_getElem hP⟩
    rw [(again_sum m ds hD).2]
    exact multiLoads_again (h.summitMp D (List.mem_of_getElem? hD))
  · intro P hP
    rw [again_all] at hP
    obtain ⟨D, hD⟩ : ∃ D, (m.saddles ++ m.runoffs)[P]? = some D := ⟨_, List.getElem?_eq_getElem (List.mem_range.1 hP)⟩
    rw [again_sad_mp m ds hD]
    exact multiLoads_again (h.saddleMp D (List.mem_of_getElem? hD))

/-- The map that is loaded again differs only in the numbers of the domains. -/
theorem again_loaded {m : LMap} (h : m.Loads) (ds : List Nat) : (m.again ds).loaded =
    domState (linkState m.baseSummits m.baseSaddles m.loaded.linkers) (m.again ds).loaded.domains := by
  have e1 : (m.again ds).loaded = domState (linkState (m.again ds).baseSummits (m.again ds).baseSaddles
    (m.again ds).loaded.linkers) (m.again ds).loaded.domains := rfl
  rw [e1, again_baseSummits, again_baseSaddles h, again_linkers h]
  rfl

end PyProm
