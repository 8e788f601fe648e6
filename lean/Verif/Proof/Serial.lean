import Verif.Model.Serial
import Verif.Proof.Equality
import Mathlib.Data.List.Perm.Basic
import Mathlib.Data.List.Nodup

/-
Lemmas about saving and loading
-/
namespace PyProm

/-! ### cbor -/

theorem cborL_eq (l : List PyVal) : cborL l = l.map PyVal.cbor := by
  induction l with
  | nil => rfl
  | cons a l ih => simp [cborL, ih]

theorem cborD_lookup (l : List (String × PyVal)) (k : String) :
    (cborD l).lookup k = (l.lookup k).map PyVal.cbor := by
  induction l with
  | nil => rfl
  | cons e l ih =>
    obtain ⟨a, v⟩ := e
    simp only [cborD, cborE, List.lookup]
    cases k == a <;> simp [ih]

theorem get_cbor (v : PyVal) (k : String) : v.cbor.get k = (v.get k).map PyVal.cbor := by
  cases v <;> simp only [PyVal.cbor, PyVal.get, Except.map]
  rw [cborD_lookup]
  rename_i l
  cases l.lookup k <;> rfl

theorem find_cbor (v : PyVal) (k : String) : v.cbor.find k = (v.find k).map (Option.map PyVal.cbor) := by
  cases v <;> simp only [PyVal.cbor, PyVal.find, Except.map]
  rw [cborD_lookup]

theorem seq_cbor (v : PyVal) : v.cbor.seq = v.seq.map (List.map PyVal.cbor) := by
  cases v <;> simp [PyVal.cbor, PyVal.seq, Except.map, cborL_eq]

theorem toNum_cbor (v : PyVal) : v.cbor.toNum = v.toNum := by cases v <;> rfl
theorem toInt_cbor (v : PyVal) : v.cbor.toInt = v.toInt := by cases v <;> rfl
theorem toBool_cbor (v : PyVal) : v.cbor.toBool = v.toBool := by cases v <;> rfl
theorem toId_cbor (v : PyVal) : v.cbor.toId = v.toId := by cases v <;> rfl

/-- A reader that cannot tell a value from its saved copy. -/
def Blind {α} (f : PyVal → Except PyErr α) : Prop := ∀ v, f v.cbor = f v

theorem mapM_blind {α} {f : PyVal → Except PyErr α} (h : Blind f) (l : List PyVal) :
    (l.map PyVal.cbor).mapM f = l.mapM f := by
  induction l with
  | nil => rfl
  | cons a l ih => rw [List.map_cons, List.mapM_cons, List.mapM_cons, h a, ih]

theorem mapSeq_blind {α} {f : PyVal → Except PyErr α} (h : Blind f) : Blind (·.mapSeq f) := by
  intro v
  show v.cbor.mapSeq f = v.mapSeq f
  unfold PyVal.mapSeq
  rw [seq_cbor]
  cases v.seq with
  | error e => rfl
  | ok l => simpa [Except.map, bind, Except.bind] using mapM_blind h l

/-- Reading an entry and going on with it. -/
theorem get_blind {α} {f : PyVal → Except PyErr α} (h : Blind f) (k : String) :
    Blind fun v => (do f (← v.get k)) := by
  intro v
  dsimp only
  rw [get_cbor]
  cases v.get k with
  | error e => rfl
  | ok l => simpa [Except.map, bind, Except.bind] using h l

theorem bind_blind {α β} {f : PyVal → Except PyErr α} {g : α → PyVal → Except PyErr β} (hf : Blind f)
    (hg : ∀ a, Blind (g a)) : Blind fun v => (do let a ← f v; g a v) := by
  intro v
  dsimp only
  rw [hf v]
  cases f v with
  | error e => rfl
  | ok a => exact hg a v

theorem gb {α β} {f : PyVal → Except PyErr α} {k : String} {g : α → PyVal → Except PyErr β} (hf : Blind f)
    (hg : ∀ a, Blind (g a)) : Blind fun v => (do let w ← v.get k; let a ← f w; g a v) := by
  intro v
  dsimp only
  rw [get_cbor]
  cases v.get k with
  | error e => rfl
  | ok w =>
    dsimp only [Except.map, bind, Except.bind]
    rw [hf w]
    cases f w with
    | error e => rfl
    | ok a => exact hg a v

theorem fb {α β} {f : Option PyVal → Except PyErr α} {k : String} {g : α → PyVal → Except PyErr β}
    (hf : ∀ w : PyVal, f (some w.cbor) = f (some w))
    (hg : ∀ a, Blind (g a)) : Blind fun v => (do let w ← v.find k; let a ← f w; g a v) := by
  intro v
  dsimp only
  rw [find_cbor]
  cases v.find k with
  | error e => rfl
  | ok w =>
    have : f (w.map PyVal.cbor) = f w := by
      cases w with
      | none => rfl
      | some w => exact hf w
    dsimp only [Except.map, bind, Except.bind]
    rw [this]
    cases f w with
    | error e => rfl
    | ok a => exact hg a v

theorem pure_blind {α} (a : α) : Blind fun _ => (pure a : Except PyErr α) := fun _ => rfl

theorem P3.ofVal_blind : Blind P3.ofVal := by
  intro v
  unfold P3.ofVal
  rw [seq_cbor]
  cases v.seq with
  | error e => rfl
  | ok l =>
    match l with
    | [] => rfl
    | [_] => rfl
    | [_, _] => rfl
    | [x, y, e] => simp [Except.map, bind, Except.bind, toInt_cbor, toNum_cbor]
    | _ :: _ :: _ :: _ :: _ => rfl

theorem MPt.ofVal_blind : Blind MPt.ofVal := by
  intro v
  unfold MPt.ofVal
  rw [seq_cbor]
  cases v.seq with
  | error e => rfl
  | ok l =>
    match l with
    | [] => rfl
    | [_] => rfl
    | [x, y] => simp [Except.map, bind, Except.bind, toInt_cbor]
    | [x, y, e] => simp [Except.map, bind, Except.bind, toInt_cbor, toNum_cbor]
    | _ :: _ :: _ :: _ :: _ => rfl

theorem MPt.ofVal2_blind : Blind MPt.ofVal2 := by
  intro v
  unfold MPt.ofVal2
  rw [seq_cbor]
  cases v.seq with
  | error e => rfl
  | ok l =>
    match l with
    | [] => rfl
    | [_] => rfl
    | x :: y :: _ => simp [Except.map, bind, Except.bind, toInt_cbor]

theorem bgpFromDict_blind : Blind bgpFromDict :=
  gb toInt_cbor fun _ => gb toInt_cbor fun _ => pure_blind _

theorem gpFromDict_blind : Blind gpFromDict :=
  gb toInt_cbor fun _ => gb toInt_cbor fun _ =>
  gb toNum_cbor fun _ => pure_blind _

theorem gpcFromDict_blind : Blind gpcFromDict := get_blind (mapSeq_blind gpFromDict_blind) _

theorem Perim.fromDict_blind : Blind Perim.fromDict :=
  gb (mapSeq_blind P3.ofVal_blind) fun _ => gb toBool_cbor fun _ =>
  gb (mapSeq_blind P3.ofVal_blind) fun _ => pure_blind _

theorem MultiObj.fromDict_blind : Blind MultiObj.fromDict :=
  gb (mapSeq_blind MPt.ofVal2_blind) fun _ =>
  gb Perim.fromDict_blind fun _ =>
  gb toNum_cbor fun _ => pure_blind _

theorem find_blind {α} (k : String) {f : Option PyVal → Except PyErr α}
    (h : ∀ w : PyVal, f (some w.cbor) = f (some w)) : Blind fun v => (do f (← v.find k)) := by
  intro v
  dsimp only
  rw [find_cbor]
  cases v.find k with
  | error e => rfl
  | ok o =>
    cases o with
    | none => rfl
    | some w => exact h w

theorem multiRead_blind : Blind multiRead :=
  find_blind _ fun w => by dsimp only; rw [MultiObj.fromDict_blind w]

theorem flagRead_blind (k : String) : Blind (flagRead · k) :=
  find_blind _ fun w => by dsimp only; rw [toBool_cbor w]

theorem idsRead_blind (k : String) : Blind (idsRead · k) :=
  find_blind _ fun w => by dsimp only; exact mapSeq_blind toId_cbor w

theorem hpnRead_blind : Blind hpnRead :=
  find_blind _ fun w => by dsimp only; exact mapSeq_blind (mapSeq_blind P3.ofVal_blind) w

theorem LSummit.fromDict_blind : Blind LSummit.fromDict :=
  gb toNum_cbor fun _ => gb toNum_cbor fun _ =>
  gb toNum_cbor fun _ => gb toBool_cbor fun _ =>
  gb (mapSeq_blind P3.ofVal_blind) fun _ => gb toId_cbor fun _ =>
  bind_blind multiRead_blind fun _ => pure_blind _

theorem SpotObj.fromDict_blind : Blind SpotObj.fromDict :=
  gb toNum_cbor fun _ => gb toNum_cbor fun _ =>
  gb toNum_cbor fun _ => gb toBool_cbor fun _ =>
  gb (mapSeq_blind bgpFromDict_blind) fun _ => gb toId_cbor fun _ =>
  pure_blind _

theorem LSaddle.fromDict_blind (r : Bool) : Blind (LSaddle.fromDict r) :=
  gb toNum_cbor fun _ => gb toNum_cbor fun _ =>
  gb toNum_cbor fun _ => gb toBool_cbor fun _ =>
  gb (mapSeq_blind P3.ofVal_blind) fun _ => gb toId_cbor fun _ =>
  bind_blind (flagRead_blind _) fun _ => bind_blind (flagRead_blind _) fun _ =>
  bind_blind (flagRead_blind _) fun _ => bind_blind multiRead_blind fun _ =>
  bind_blind hpnRead_blind fun _ => pure_blind _

/-! ### Points -/

theorem mapM_map_ok {α β γ} {f : β → Except PyErr γ} {g : α → β} {h : α → γ} {l : List α}
    (H : ∀ x ∈ l, f (g x) = .ok (h x)) : (l.map g).mapM f = .ok (l.map h) := by
  induction l with
  | nil => rfl
  | cons a l ih =>
    rw [List.map_cons, List.mapM_cons, H a (by simp), ih fun x hx => H x (by simp [hx])]
    rfl

theorem mapSeq_ofList {α γ} {f : PyVal → Except PyErr γ} {g : α → PyVal} {h : α → γ} {l : List α}
    (H : ∀ x ∈ l, f (g x) = .ok (h x)) : (PyVal.ofList g l).mapSeq f = .ok (l.map h) := by
  simpa [PyVal.ofList, PyVal.mapSeq, PyVal.seq, bind, Except.bind] using mapM_map_ok H

theorem P3.ofVal_toVal (p : P3) : P3.ofVal p.toVal = .ok p := rfl

theorem MPt.ofVal_toVal (p : MPt) : MPt.ofVal p.toVal = .ok p := by
  obtain ⟨x, y, e⟩ := p
  cases e <;> rfl

theorem MPt.ofVal2_toVal (p : MPt) : MPt.ofVal2 p.toVal = .ok ⟨p.x, p.y, none⟩ := by
  obtain ⟨x, y, e⟩ := p
  cases e <;> rfl

theorem p3s_round (l : List P3) : (PyVal.ofList P3.toVal l).mapSeq P3.ofVal = .ok l := by
  simpa using mapSeq_ofList (l := l) (h := fun p => p) fun p _ => P3.ofVal_toVal p

theorem ids_round {α} (f : α → Nat) (l : List α) :
    (PyVal.ofList (fun i => .id (f i)) l).mapSeq PyVal.toId = .ok (l.map f) :=
  mapSeq_ofList fun _ _ => rfl

theorem gp_round (p : P3) : gpFromDict (gpToDict p) = .ok p := rfl

theorem bgp_round (p : Pt) : bgpFromDict (bgpToDict p) = .ok p := rfl

theorem gpc_round (l : List P3) : gpcFromDict (gpcToDict l) = .ok l := by
  have := mapSeq_ofList (l := l) (h := fun p => p) fun p _ => gp_round p
  simpa [gpcFromDict, gpcToDict, PyVal.get, List.lookup, bind, Except.bind] using this

/-! ### Index of a perimeter -/

theorem IntDict.lookup_upd {β} (k k' : Int) (g : Option β → β) (l : IntDict β) :
    (IntDict.upd k g l).lookup k' = if k' = k then some (g (l.lookup k)) else l.lookup k' := by
  induction l with
  | nil =>
    by_cases h : k' = k
    · subst h; simp [IntDict.upd, List.lookup]
    · simp [IntDict.upd, List.lookup, h, beq_eq_false_iff_ne.mpr h]
  | cons a l ih =>
    obtain ⟨q, b⟩ := a
    by_cases hq : q = k
    · subst hq
      by_cases h : k' = q
      · subst h; simp [IntDict.upd, List.lookup]
      · simp [IntDict.upd, List.lookup, h, beq_eq_false_iff_ne.mpr h]
    · by_cases h : k' = q
      · subst h
        simp [IntDict.upd, List.lookup, hq]
      · simp only [IntDict.upd, hq, if_false, List.lookup, beq_eq_false_iff_ne.mpr h, ih]
        by_cases h' : k' = k
        · subst h'
          simp [beq_eq_false_iff_ne.mpr h]
        · simp [h']

/-- The point stored at `(x, y)`. -/
def idxGet (idx : IntDict (IntDict P3)) (x y : Int) : Option P3 := (idx.lookup x).bind (·.lookup y)

theorem idxGet_put (idx : IntDict (IntDict P3)) (p : P3) (x y : Int) :
    idxGet (indexPut idx p) x y = if x = p.x ∧ y = p.y then some p else idxGet idx x y := by
  unfold idxGet indexPut
  rw [IntDict.lookup_upd]
  by_cases hx : x = p.x
  · subst hx
    simp only [if_true, Option.bind_some, IntDict.lookup_upd, true_and]
    by_cases hy : y = p.y
    · simp [hy]
    · simp only [hy, if_false]
      cases idx.lookup p.x <;> simp
  · simp [hx]

/-- All stored points. -/
def idxFlat (idx : IntDict (IntDict P3)) : List P3 := idx.flatMap fun r => r.2.map (·.2)

/-- Points are stored under their own coordinates. -/
def Keyed (idx : IntDict (IntDict P3)) : Prop := ∀ r ∈ idx, ∀ c ∈ r.2, c.2.x = r.1 ∧ c.2.y = c.1

theorem upd_mem {β} {k : Int} {g : Option β → β} {l : IntDict β} {a : Int × β} (h : a ∈ IntDict.upd k g l) :
    a ∈ l ∨ (a = (k, g none)) ∨ ∃ b, (k, b) ∈ l ∧ a = (k, g (some b)) := by
  induction l with
  | nil => simp [IntDict.upd] at h; exact .inr (.inl h)
  | cons c l ih =>
    obtain ⟨q, b⟩ := c
    unfold IntDict.upd at h
    split at h
    · rename_i hq
      subst hq
      rcases List.mem_cons.1 h with h | h
      · exact .inr (.inr ⟨b, by simp, h⟩)
      · exact .inl (by simp [h])
    · rcases List.mem_cons.1 h with h | h
      · exact .inl (by simp [h])
      · rcases ih h with h | h | ⟨b', h1, h2⟩
        · exact .inl (by simp [h])
        · exact .inr (.inl h)
        · exact .inr (.inr ⟨b', by simp [h1], h2⟩)

theorem Keyed.put {idx : IntDict (IntDict P3)} (h : Keyed idx) (p : P3) : Keyed (indexPut idx p) := by
  have row : ∀ (l : IntDict P3), (∀ c ∈ l, c.2.x = p.x ∧ c.2.y = c.1) →
      ∀ c ∈ IntDict.upd p.y (fun _ => p) l, c.2.x = p.x ∧ c.2.y = c.1 := by
    intro l hl c hc
    rcases upd_mem hc with hc | hc | ⟨b, -, hc⟩
    · exact hl c hc
    · subst hc; exact ⟨rfl, rfl⟩
    · subst hc; exact ⟨rfl, rfl⟩
  intro r hr c hc
  rcases upd_mem hr with hr | hr | ⟨b, hb, hr⟩
  · exact h r hr c hc
  · subst hr
    exact row [] (fun c hc => nomatch hc) c hc
  · subst hr
    exact row b (fun c hc => h _ hb c hc) c hc

theorem row_perm (p : P3) (l : IntDict P3) (h : ∀ c ∈ l, c.1 ≠ p.y) :
    ((IntDict.upd p.y (fun _ => p) l).map (·.2)).Perm (p :: l.map (·.2)) := by
  induction l with
  | nil => simp [IntDict.upd]
  | cons c l ih =>
    obtain ⟨q, b⟩ := c
    have hq : q ≠ p.y := h (q, b) (by simp)
    simp only [IntDict.upd, hq, if_false, List.map_cons]
    exact ((ih fun c hc => h c (by simp [hc])).cons b).trans (List.Perm.swap ..)

theorem put_perm {idx : IntDict (IntDict P3)} (hk : Keyed idx) (p : P3)
    (h : ∀ q ∈ idxFlat idx, ¬ (q.x = p.x ∧ q.y = p.y)) : (idxFlat (indexPut idx p)).Perm (p :: idxFlat idx) := by
  induction idx with
  | nil => simp [indexPut, IntDict.upd, idxFlat]
  | cons r idx ih =>
    obtain ⟨q, b⟩ := r
    by_cases hq : q = p.x
    · subst hq
      simp only [indexPut, IntDict.upd, if_true, idxFlat, List.flatMap_cons, Option.getD_some]
      have := row_perm p b fun c hc hy => by
        have h1 := hk (p.x, b) (by simp) c hc
        exact h c.2 (by simp only [idxFlat, List.flatMap_cons, List.mem_append, List.mem_map]; exact .inl ⟨c, hc, rfl⟩)
          ⟨h1.1, h1.2.trans hy⟩
      exact this.append_right _
    · simp only [indexPut, IntDict.upd, hq, if_false, idxFlat, List.flatMap_cons]
      have := ih (fun r hr => hk r (by simp [hr])) fun c hc => h c (by
        simp only [idxFlat, List.flatMap_cons, List.mem_append]; exact .inr hc)
      exact (this.append_left _).trans List.perm_middle

theorem put_ne_nil (idx : IntDict (IntDict P3)) (p : P3) : indexPut idx p ≠ [] := by
  unfold indexPut
  cases idx with
  | nil => simp [IntDict.upd]
  | cons r l =>
    obtain ⟨q, b⟩ := r
    unfold IntDict.upd
    split <;> simp

/-- Points with different coordinates are all kept. -/
theorem fold_put {l : List P3} : ∀ {idx : IntDict (IntDict P3)}, Keyed idx →
    (idxFlat idx ++ l).Pairwise (fun p q => ¬ (p.x = q.x ∧ p.y = q.y)) →
    Keyed (l.foldl indexPut idx) ∧ (idxFlat (l.foldl indexPut idx)).Perm (idxFlat idx ++ l) := by
  induction l with
  | nil => intro idx hk _; exact ⟨hk, by simp⟩
  | cons p l ih =>
    intro idx hk h
    rw [List.pairwise_append] at h
    obtain ⟨h1, h2, h3⟩ := h
    have hp := put_perm hk p fun q hq => h3 q hq p (by simp)
    have hsym : ∀ {p q : P3}, ¬ (p.x = q.x ∧ p.y = q.y) → ¬ (q.x = p.x ∧ q.y = p.y) :=
      fun h h' => h ⟨h'.1.symm, h'.2.symm⟩
    have hpw : (idxFlat (indexPut idx p) ++ l).Pairwise (fun p q => ¬ (p.x = q.x ∧ p.y = q.y)) := by
      have : (idxFlat (indexPut idx p) ++ l).Perm (idxFlat idx ++ p :: l) :=
        (hp.append_right l).trans List.perm_middle.symm
      rw [this.pairwise_iff fun h => hsym h, List.pairwise_append]
      exact ⟨h1, h2, h3⟩
    obtain ⟨a, b⟩ := ih (hk.put p) hpw
    refine ⟨a, b.trans ?_⟩
    exact (hp.append_right l).trans List.perm_middle.symm

/-- The last point at a place is found there. -/
theorem fold_get (l : List P3) (x y : Int) : ∀ idx, idxGet (l.foldl indexPut idx) x y =
    match l.reverse.find? fun p => decide (p.x = x) && decide (p.y = y) with
    | some p => some p
    | none => idxGet idx x y := by
  induction l with
  | nil => intro idx; rfl
  | cons p l ih =>
    intro idx
    rw [List.foldl_cons, ih, List.reverse_cons, List.find?_append]
    cases l.reverse.find? fun p => decide (p.x = x) && decide (p.y = y) with
    | some q => rfl
    | none =>
      rw [idxGet_put]
      by_cases h : x = p.x ∧ y = p.y
      · simp [h]
      · have : (decide (p.x = x) && decide (p.y = y)) = false := by
          simp only [Bool.and_eq_false_iff, decide_eq_false_iff_not]
          by_cases hx : p.x = x
          · exact .inr fun hy => h ⟨hx.symm, hy.symm⟩
          · exact .inl hx
        simp [List.find?, this, h]

theorem Perim.load (p : Perim) (l : List P3) (h : p.mapEdgePoints = some l) :
    Perim.fromDict p.toDict = .ok (.ofIndex (p.points.foldl indexPut []) p.mapEdge (some l)) := by
  have e1 := p3s_round p.points
  have e2 := p3s_round l
  simp [Perim.fromDict, Perim.toDict, PyVal.get, List.lookup, bind, Except.bind, e1, e2, h, PyVal.toBool, pure,
    Except.pure]

theorem Perim.load_none (p : Perim) (h : p.mapEdgePoints = none) : Perim.fromDict p.toDict = .error .typeError := by
  have e1 := p3s_round p.points
  have e2 : PyVal.none.mapSeq P3.ofVal = .error .typeError := rfl
  simp [Perim.fromDict, Perim.toDict, PyVal.get, List.lookup, bind, Except.bind, e1, e2, h, PyVal.toBool]

theorem Perim.ofIndex_points (idx : IntDict (IntDict P3)) (b : Bool) (o : Option (List P3)) :
    (Perim.ofIndex idx b o).points = idxFlat idx := by
  unfold Perim.ofIndex idxFlat
  cases idx <;> rfl

/-! ### Features -/

/-- What becomes of a perimeter whose edge points are known. -/
def Perim.reloaded (p : Perim) : Perim := .ofIndex (p.points.foldl indexPut []) p.mapEdge (some (p.mapEdgePoints.getD []))

/-- What becomes of a MultiPoint. -/
def MultiObj.reloaded (m : MultiObj) : MultiObj :=
  ⟨m.points.map fun p => ⟨p.x, p.y, none⟩, m.elevation, m.perimeter.map Perim.reloaded⟩

/-- The MultiPoint can be saved and loaded. -/
def MultiObj.Loads (m : MultiObj) : Prop := ∃ p, m.perimeter = some p ∧ ∃ l, p.mapEdgePoints = some l

theorem MultiObj.load {m : MultiObj} (h : m.Loads) : ∃ v, m.toDict = .ok v ∧ MultiObj.fromDict v = .ok m.reloaded := by
  obtain ⟨p, hp, l, hl⟩ := h
  refine ⟨_, by simp only [MultiObj.toDict, hp]; rfl, ?_⟩
  have e1 : (PyVal.ofList MPt.toVal m.points).mapSeq MPt.ofVal2 = .ok (m.points.map fun p => ⟨p.x, p.y, none⟩) :=
    mapSeq_ofList fun p _ => MPt.ofVal2_toVal p
  simp [MultiObj.fromDict, PyVal.get, List.lookup, bind, Except.bind, e1, p.load l hl, PyVal.toNum, pure,
    Except.pure, MultiObj.reloaded, hp, Perim.reloaded, hl]

/-- What becomes of the attribute `multipoint`. -/
def multiReloaded (o : Option MultiObj) : Option MultiObj :=
  match o with
  | none => none
  | some m => if m.points.isEmpty then none else some m.reloaded

/-- The attribute can be saved and loaded. -/
def MultiLoads (o : Option MultiObj) : Prop := ∀ m, o = some m → m.points ≠ [] → m.Loads

theorem multi_entry {o : Option MultiObj} (h : MultiLoads o) :
    ∃ e, multiEntry o = .ok e ∧ (∀ k, k ≠ "multipoint" → e.lookup k = none) ∧
      (match (e.lookup "multipoint" : Option PyVal) with
        | none => multiReloaded o = none
        | some w => ∃ m, MultiObj.fromDict w = .ok m ∧ multiReloaded o = some m) := by
  cases o with
  | none => exact ⟨[], rfl, fun _ _ => rfl, rfl⟩
  | some m =>
    by_cases hm : m.points.isEmpty
    · exact ⟨[], by simp [multiEntry, hm], fun _ _ => rfl, by simp [multiReloaded, hm]⟩
    · obtain ⟨v, h1, h2⟩ := MultiObj.load (h m rfl (by simpa using hm))
      refine ⟨[("multipoint", v)], by simp [multiEntry, hm, h1, bind, Except.bind, pure, Except.pure], ?_, ?_⟩
      · intro k hk
        simp [List.lookup, beq_eq_false_iff_ne.mpr hk]
      · simp only [List.lookup, beq_self_eq_true]
        exact ⟨_, h2, by simp [multiReloaded, hm]⟩

theorem lookup_append' {β} (l m : List (String × β)) (k : String) :
    (l ++ m).lookup k = (l.lookup k).or (m.lookup k) := by
  induction l with
  | nil => simp
  | cons a l ih =>
    obtain ⟨q, b⟩ := a
    simp only [List.cons_append, List.lookup]
    cases k == q <;> simp [ih]

theorem lookup_flag (k q : String) (b : Bool) :
    (flagEntry q b).lookup k = if k = q ∧ b = true then some (.bool true) else none := by
  unfold flagEntry
  cases b with
  | false => simp
  | true =>
    by_cases h : k = q
    · subst h; simp
    · simp [h]

theorem LSummit.load (s : LSummit) (linkId : Nat → Nat) (h : MultiLoads s.mp) :
    ∃ v, s.toDict linkId = .ok v ∧ LSummit.fromDict v = .ok
      { s with mp := multiReloaded s.mp, disq := false, links := [], domain := none } := by
  obtain ⟨e, h1, h2, h3⟩ := multi_entry h
  refine ⟨_, by simp only [LSummit.toDict, h1]; rfl, ?_⟩
  have e1 := p3s_round s.edgePoints
  have e2 : ∀ l1 l2 : List (String × PyVal), l1.lookup "multipoint" = none → l2.lookup "multipoint" = none →
      multiRead (.dict (l1 ++ e ++ l2)) = .ok (multiReloaded s.mp) := by
    intro l1 l2 a1 a2
    simp only [multiRead, PyVal.find, lookup_append', a1, a2, Option.or_none, Option.none_or]
    cases hw : e.lookup "multipoint" with
    | none =>
      rw [hw] at h3
      simp only at h3
      simp [bind, Except.bind, h3, pure, Except.pure]
    | some w =>
      rw [hw] at h3
      obtain ⟨m, h4, h5⟩ := h3
      simp [bind, Except.bind, h4, h5, pure, Except.pure]
  unfold LSummit.fromDict
  rw [e2 _ _ (by simp [List.lookup]) (by simp [List.lookup])]
  simp [PyVal.get, List.lookup, bind, Except.bind, e1, PyVal.toNum, PyVal.toBool, PyVal.toId, pure, Except.pure]

/-- What a saved saddle has under each key. -/
theorem saddle_lookup (s : LSaddle) (sadId linkId : Nat → Nat) (e : List (String × PyVal))
    (h2 : ∀ k, k ≠ "multipoint" → e.lookup k = none) (D : List (String × PyVal))
    (hD : s.entries sadId linkId e = D) :
    D.lookup "lat" = some (.num s.lat) ∧ D.lookup "lon" = some (.num s.lon) ∧ D.lookup "ele" = some (.num s.ele) ∧
    D.lookup "edge" = some (.bool s.edge) ∧ D.lookup "edgepoints" = some (.ofList P3.toVal s.edgePoints) ∧
    D.lookup "id" = some (.id s.id) ∧
    D.lookup "singleSummit" = (if s.single then some (.bool true) else none) ∧
    D.lookup "basinSaddle" = (if s.basin then some (.bool true) else none) ∧
    D.lookup "disqualified" = (if s.over = some true then some (.bool true) else none) ∧
    D.lookup "multipoint" = e.lookup "multipoint" ∧
    D.lookup "highPerimeterNeighborhoods" = (if s.hpn.isEmpty then none else
      some (.ofList (PyVal.ofList P3.toVal) s.hpn)) ∧
    D.lookup "children" = some (.ofList (fun i => .id (sadId i)) s.children) ∧
    D.lookup "parent" = s.parent.map (fun p => .id (sadId p)) ∧
    D.lookup "basinSaddleAlternatives" = (if s.alts.isEmpty then none else
      some (.ofList (fun i => .id (sadId i)) s.alts)) := by
  subst hD
  unfold LSaddle.entries
  refine ⟨rfl, rfl, rfl, rfl, rfl, rfl, ?_, ?_, ?_, ?_, ?_, ?_, ?_, ?_⟩ <;>
    cases s.parent <;> cases s.hpn.isEmpty <;> cases s.alts.isEmpty <;>
    simp [lookup_append', lookup_flag, h2, -List.lookup_eq_none_iff, List.lookup_cons]

theorem LSaddle.load (s : LSaddle) (sadId linkId : Nat → Nat) (r : Bool) (h : MultiLoads s.mp) :
    ∃ v, s.toDict sadId linkId = .ok v ∧ LSaddle.fromDict r v = .ok
      { s with runoff := r, edge := s.edge || r, over := if s.over = some true then some true else none,
               mp := multiReloaded s.mp, parent := none, children := [], alts := [], links := [] } ∧
      v.get "id" = .ok (.id s.id) ∧ idsRead v "children" = .ok (s.children.map sadId) ∧
      v.find "parent" = .ok (s.parent.map fun p => .id (sadId p)) ∧
      idsRead v "basinSaddleAlternatives" = .ok (s.alts.map sadId) := by
  obtain ⟨e, h1, h2, h3⟩ := multi_entry h
  refine ⟨.dict (s.entries sadId linkId e), by simp only [LSaddle.toDict, h1]; rfl, ?_⟩
  generalize hD : s.entries sadId linkId e = D
  obtain ⟨a1, a2, a3, a4, a5, a6, a7, a8, a9, a10, a11, a12, a13, a14⟩ :=
    saddle_lookup s sadId linkId e h2 D hD
  refine ⟨?_, ?_, ?_, ?_, ?_⟩
  · have e1 := p3s_round s.edgePoints
    have e3 : (PyVal.ofList (PyVal.ofList P3.toVal) s.hpn).mapSeq (fun nb => nb.mapSeq P3.ofVal) = .ok s.hpn := by
      simpa using mapSeq_ofList (l := s.hpn) (h := fun p => p) fun p _ => p3s_round p
    have e2 : multiRead (.dict D) = .ok (multiReloaded s.mp) := by
      simp only [multiRead, PyVal.find, a10]
      cases hw : e.lookup "multipoint" with
      | none =>
        rw [hw] at h3
        simp only at h3
        simp [bind, Except.bind, h3, pure, Except.pure]
      | some w =>
        rw [hw] at h3
        obtain ⟨m, h4, h5⟩ := h3
        simp [bind, Except.bind, h4, h5, pure, Except.pure]
    have fl : ∀ k (b : Bool), D.lookup k = (if b then some (.bool true) else none) →
        flagRead (.dict D) k = .ok (if b then some true else none) := by
      intro k b hk
      simp only [flagRead, PyVal.find, hk]
      cases b <;> rfl
    have hh : hpnRead (.dict D) = .ok s.hpn := by
      simp only [hpnRead, PyVal.find, a11]
      cases hh : s.hpn with
      | nil => rfl
      | cons c cs => rw [hh] at e3; exact e3
    have f3 := fl "disqualified" (decide (s.over = some true)) (by simpa using a9)
    unfold LSaddle.fromDict
    rw [e2, fl _ _ a7, fl _ _ a8, f3, hh]
    simp only [PyVal.get, a1, a2, a3, a4, a5, a6, bind, Except.bind, PyVal.toNum, PyVal.toBool,
      PyVal.toId, e1, pure, Except.pure]
    cases s.single <;> cases s.basin <;> simp
  · simp [PyVal.get, a6]
  · simp only [idsRead, PyVal.find, a12, bind, Except.bind]
    exact ids_round sadId s.children
  · simp [PyVal.find, a13]
  · simp only [idsRead, PyVal.find, a14, bind, Except.bind]
    cases hh : s.alts with
    | nil => rfl
    | cons c cs => rw [← hh]; simpa [hh] using ids_round sadId s.alts

end PyProm
