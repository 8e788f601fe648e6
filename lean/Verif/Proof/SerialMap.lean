import Verif.Proof.Serial
import Verif.Proof.DomainMap

/-
Lemmas about saving and loading containers and whole maps
-/
namespace PyProm

/-! ### Positions -/

/-- The last position of an id. -/
def lastPos (ids : List Nat) (i : Nat) : Option Nat :=
  (List.range ids.length).foldl (fun r k => if ids[k]? = some i then some k else r) none

/-- The same, for ids that occur. -/
def posOf (ids : List Nat) (i : Nat) : Nat := (lastPos ids i).getD 0

theorem lookupId_eq {α} (idOf : α → Nat) (l : List α) (i : Nat) : lookupId idOf l i = lastPos (l.map idOf) i := by
  unfold lookupId lastPos
  rw [List.length_map]
  congr 1
  funext r k
  rw [List.getElem?_map]

theorem lastPos_append (l : List Nat) (a i : Nat) :
    lastPos (l ++ [a]) i = if a = i then some l.length else lastPos l i := by
  unfold lastPos
  rw [List.length_append, List.length_singleton, List.range_succ, List.foldl_append]
  have : (List.range l.length).foldl (fun r k => if (l ++ [a])[k]? = some i then some k else r) none =
      (List.range l.length).foldl (fun r k => if l[k]? = some i then some k else r) none := by
    apply List.foldl_ext
    intro r k hk
    rw [List.getElem?_append_left (List.mem_range.mp hk)]
  rw [this]
  by_cases h : a = i <;> simp [h]

theorem lastPos_some (l : List Nat) : ∀ i k, lastPos l i = some k ↔ l[k]? = some i ∧ ∀ j, k < j → l[j]? ≠ some i := by
  induction l using List.reverseRecOn with
  | nil => intro i k; simp [lastPos]
  | append_singleton l a ih =>
    intro i k
    rw [lastPos_append]
    by_cases h : a = i
    · subst h
      rw [if_pos rfl]
      constructor
      · intro h
        obtain rfl := Option.some.inj h
        refine ⟨by simp, fun j hj => ?_⟩
        rw [List.getElem?_eq_none (by simp; omega)]
        simp
      · rintro ⟨h1, h2⟩
        have hk : k < (l ++ [a]).length := (List.getElem?_eq_some_iff.mp h1).1
        simp only [List.length_append, List.length_singleton] at hk
        by_cases hk' : k < l.length
        · exact absurd (by simp) (h2 l.length hk')
        · congr; omega
    · rw [if_neg h, ih]
      have key : ∀ j : Nat, (l ++ [a])[j]? = some i ↔ l[j]? = some i := by
        intro j
        by_cases hj : j < l.length
        · rw [List.getElem?_append_left hj]
        · rw [List.getElem?_append_right (by omega), List.getElem?_eq_none (l := l) (by omega)]
          simp only [reduceCtorEq, iff_false]
          intro hc
          have := List.mem_of_getElem? hc
          simp at this
          exact h this.symm
      simp only [key, ne_eq]

theorem lastPos_mem {l : List Nat} : ∀ {i}, i ∈ l → ∃ k, lastPos l i = some k := by
  induction l using List.reverseRecOn with
  | nil => intro i h; simp at h
  | append_singleton l a ih =>
    intro i h
    rw [lastPos_append]
    by_cases h' : a = i
    · simp [h']
    · rw [if_neg h']
      apply ih
      simp only [List.mem_append, List.mem_singleton] at h
      exact h.resolve_right fun e => h' e.symm

theorem posOf_get {l : List Nat} {i : Nat} (h : i ∈ l) : l[posOf l i]? = some i := by
  obtain ⟨k, hk⟩ := lastPos_mem h
  simp only [posOf, hk, Option.getD_some]
  exact ((lastPos_some l i k).mp hk).1

theorem posOf_nodup {l : List Nat} (hl : l.Nodup) {k i : Nat} (h : l[k]? = some i) : posOf l i = k := by
  have h' := posOf_get (List.mem_of_getElem? h)
  have a := List.getElem?_eq_some_iff.mp h
  have b := List.getElem?_eq_some_iff.mp h'
  exact (hl.getElem_inj_iff (hi := b.1) (hj := a.1)).mp (b.2.trans a.2.symm)

theorem byId_ok {α} {idOf : α → Nat} {l : List α} {ids : List Nat} (hl : l.map idOf = ids) {i : Nat} (h : i ∈ ids) :
    byId idOf l i = .ok (posOf ids i) := by
  subst hl
  obtain ⟨k, hk⟩ := lastPos_mem h
  simp [byId, lookupId_eq, hk, posOf]

/-! ### Saddles -/

/-- References added to a loaded saddle. -/
def addRefs (ids cs : List Nat) (p : Option Nat) (as : List Nat) (s : LSaddle) : LSaddle :=
  { s with
    children := s.children ++ cs.map (posOf ids)
    parent := (p.map (posOf ids)).or s.parent
    alts := s.alts ++ as.map (posOf ids) }

theorem modify_id {l : List LSaddle} {ids : List Nat} (hl : l.map LSaddle.id = ids) (k : Nat) (g : LSaddle → LSaddle)
    (hg : ∀ s, (g s).id = s.id) : (l.modify k g).map LSaddle.id = ids := by
  subst hl
  apply List.ext_getElem?
  intro j
  simp only [List.getElem?_map, List.getElem?_modify]
  cases l[j]? with
  | none => rfl
  | some s =>
    by_cases h : k = j <;> simp [h, hg]

theorem modify_twice {α} (l : List α) (k : Nat) (g h : α → α) : (l.modify k g).modify k h = l.modify k fun s => h (g s) := by
  apply List.ext_getElem?
  intro j
  simp only [List.getElem?_modify]
  cases l[j]? with
  | none => rfl
  | some s => by_cases hk : k = j <;> simp [hk]

theorem modify_same {α} (l : List α) (k : Nat) (g : α → α) (h : ∀ s, g s = s) : l.modify k g = l := by
  apply List.ext_getElem?
  intro j
  simp only [List.getElem?_modify]
  cases l[j]? with
  | none => rfl
  | some s => by_cases hk : k = j <;> simp [hk, h]

theorem fold_refs (ids : List Nat) (sid : Nat) (hs : sid ∈ ids) (up : Nat → LSaddle → LSaddle)
    (hup : ∀ c s, (up c s).id = s.id) (cs : List Nat) (hc : ∀ c ∈ cs, c ∈ ids) :
    ∀ l : List LSaddle, l.map LSaddle.id = ids →
    cs.foldlM (fun l c => (do
      let k ← byId LSaddle.id l sid
      let c ← byId LSaddle.id l c
      pure (l.modify k (up c)) : Except PyErr (List LSaddle))) l =
      .ok (l.modify (posOf ids sid) fun s => cs.foldl (fun s c => up (posOf ids c) s) s) := by
  induction cs with
  | nil => intro l hl; rw [modify_same _ _ _ (by intro s; rfl)]; rfl
  | cons c cs ih =>
    intro l hl
    rw [List.foldlM_cons, byId_ok hl hs]
    dsimp only [bind, Except.bind]
    rw [byId_ok hl (hc c (by simp))]
    dsimp only [pure, Except.pure]
    have := ih (fun c' h => hc c' (by simp [h])) _ (modify_id hl (posOf ids sid) (up (posOf ids c)) (hup _))
    rw [modify_twice] at this
    exact this

theorem restoreRefs_ok {ids : List Nat} {l : List LSaddle} (hl : l.map LSaddle.id = ids) {v : PyVal}
    {sid : Nat} {cs as : List Nat} {p : Option Nat} (hid : v.get "id" = .ok (.id sid))
    (hcs : idsRead v "children" = .ok cs) (hp : v.find "parent" = .ok (p.map .id))
    (has : idsRead v "basinSaddleAlternatives" = .ok as)
    (h1 : sid ∈ ids) (h2 : ∀ c ∈ cs, c ∈ ids) (h3 : ∀ c, p = some c → c ∈ ids) (h4 : ∀ c ∈ as, c ∈ ids) :
    restoreRefs l v = .ok (l.modify (posOf ids sid) (addRefs ids cs p as)) := by
  unfold restoreRefs
  rw [hid]
  dsimp only [bind, Except.bind, PyVal.toId]
  rw [hcs]
  dsimp only
  have e1 := fold_refs ids sid h1 (fun c s => { s with children := s.children ++ [c] }) (fun _ _ => rfl) cs h2 l hl
  dsimp only [bind, Except.bind] at e1
  rw [e1]
  dsimp only
  rw [hp]
  dsimp only
  have hf1 : ∀ (cs : List Nat) (s : LSaddle), (cs.foldl (fun s c => { s with children := s.children ++ [posOf ids c] }) s) =
      { s with children := s.children ++ cs.map (posOf ids) } := by
    intro cs
    induction cs with
    | nil => intro s; simp
    | cons c cs ih => intro s; rw [List.foldl_cons, ih]; simp
  have hf2 : ∀ (cs : List Nat) (s : LSaddle), (cs.foldl (fun s c => { s with alts := s.alts ++ [posOf ids c] }) s) =
      { s with alts := s.alts ++ cs.map (posOf ids) } := by
    intro cs
    induction cs with
    | nil => intro s; simp
    | cons c cs ih => intro s; rw [List.foldl_cons, ih]; simp
  simp only [hf1]
  have hl1 := modify_id hl (posOf ids sid) (fun s => { s with children := s.children ++ cs.map (posOf ids) }) fun _ => rfl
  cases p with
  | none =>
    dsimp only [Option.map, pure, Except.pure]
    rw [has]
    dsimp only
    have e2 := fold_refs ids sid h1 (fun c s => { s with alts := s.alts ++ [c] }) (fun _ _ => rfl) as h4 _ hl1
    dsimp only [bind, Except.bind] at e2
    simp only [hf2] at e2
    refine e2.trans ?_
    rw [modify_twice]
    rfl
  | some q =>
    dsimp only [Option.map, pure, Except.pure]
    rw [byId_ok hl1 h1]
    dsimp only
    rw [byId_ok hl1 (h3 q rfl)]
    dsimp only
    rw [has]
    dsimp only
    rw [modify_twice]
    have hl2 := modify_id hl (posOf ids sid)
      (fun s => { s with children := s.children ++ cs.map (posOf ids), parent := some (posOf ids q) }) fun _ => rfl
    have e2 := fold_refs ids sid h1 (fun c s => { s with alts := s.alts ++ [c] }) (fun _ _ => rfl) as h4 _ hl2
    dsimp only [bind, Except.bind] at e2
    simp only [hf2] at e2
    refine e2.trans ?_
    rw [modify_twice]
    rfl

/-- A saddle as it is after loading, without references. -/
def LSaddle.reloaded (r : Bool) (s : LSaddle) : LSaddle :=
  { s with runoff := r, edge := s.edge || r, over := if s.over = some true then some true else none,
           mp := multiReloaded s.mp, parent := none, children := [], alts := [], links := [] }

/-- A summit as it is after loading, without references. -/
def LSummit.reloaded (s : LSummit) : LSummit :=
  { s with mp := multiReloaded s.mp, disq := false, links := [], domain := none }

/-- A saddle of a container after loading. -/
def LMap.loadedSaddle (m : LMap) (ks : List Nat) (k : Nat) : LSaddle :=
  addRefs (ks.map m.sadId) ((m.sad k).children.map m.sadId) ((m.sad k).parent.map m.sadId)
    ((m.sad k).alts.map m.sadId) ((m.sad k).reloaded false)

theorem mapM_ok_of {α β} {f : α → Except PyErr β} {l : List α} {P : α → β → Prop}
    (h : ∀ x ∈ l, ∃ y, f x = .ok y ∧ P x y) : ∃ ys, l.mapM f = .ok ys ∧ List.Forall₂ P l ys := by
  induction l with
  | nil => exact ⟨[], rfl, .nil⟩
  | cons a l ih =>
    obtain ⟨y, h1, h2⟩ := h a (by simp)
    obtain ⟨ys, h3, h4⟩ := ih fun x hx => h x (by simp [hx])
    refine ⟨y :: ys, ?_, .cons h2 h4⟩
    rw [List.mapM_cons, h1, h3]
    rfl

theorem mapM_forall2 {α β γ} {f : β → Except PyErr γ} {g : α → γ} {l : List α} {ys : List β}
    (h : List.Forall₂ (fun x y => f y = .ok (g x)) l ys) : ys.mapM f = .ok (l.map g) := by
  induction h with
  | nil => rfl
  | cons h1 _ ih =>
    rw [List.mapM_cons, h1, ih]
    rfl

/-- All references of the saddles `ks` belong to saddles in `all`. -/
def LMap.Closed (m : LMap) (ks all : List Nat) : Prop :=
  ∀ k ∈ ks, (∀ c ∈ (m.sad k).children, c ∈ all) ∧ (∀ c, (m.sad k).parent = some c → c ∈ all) ∧
    ∀ c ∈ (m.sad k).alts, c ∈ all

/-- What is known of a saved saddle. -/
structure SavedSaddle (m : LMap) (r : Bool) (k : Nat) (v : PyVal) : Prop where
  load : LSaddle.fromDict r v = .ok ((m.sad k).reloaded r)
  id : v.get "id" = .ok (.id (m.sadId k))
  children : idsRead v "children" = .ok ((m.sad k).children.map m.sadId)
  parent : v.find "parent" = .ok (((m.sad k).parent.map m.sadId).map .id)
  alts : idsRead v "basinSaddleAlternatives" = .ok ((m.sad k).alts.map m.sadId)

theorem save_saddles (m : LMap) (r : Bool) (key : String) (ks : List Nat) (h : ∀ k ∈ ks, MultiLoads (m.sad k).mp) :
    ∃ ds, m.saddlesToDict key ks = .ok (.dict [(key, .list ds)]) ∧ List.Forall₂ (SavedSaddle m r) ks ds := by
  obtain ⟨ds, h1, h2⟩ := mapM_ok_of (f := fun k => (m.sad k).toDict m.sadId m.linkId) (l := ks)
    (P := SavedSaddle m r) fun k hk => by
      obtain ⟨v, a1, a2, a3, a4, a5, a6⟩ := (m.sad k).load m.sadId m.linkId r (h k hk)
      refine ⟨v, a1, ⟨a2, a3, a4, ?_, a6⟩⟩
      rw [a5, Option.map_map]
      rfl
  refine ⟨ds, ?_, h2⟩
  simp only [LMap.saddlesToDict, h1]
  rfl

theorem fold_restore (m : LMap) (all : List Nat) : ∀ (ks : List Nat) (ds : List PyVal),
    List.Forall₂ (SavedSaddle m false) ks ds → (∀ k ∈ ks, k ∈ all) → m.Closed ks all →
    ∀ l : List LSaddle, l.map LSaddle.id = all.map m.sadId →
    ds.foldlM restoreRefs l = .ok (ks.foldl (fun l k => l.modify (posOf (all.map m.sadId) (m.sadId k))
      (addRefs (all.map m.sadId) ((m.sad k).children.map m.sadId) ((m.sad k).parent.map m.sadId)
        ((m.sad k).alts.map m.sadId))) l) := by
  intro ks ds h
  induction h with
  | nil => intro _ _ l _; rfl
  | @cons k v ks ds h1 _ ih =>
    intro hks hc l hl
    obtain ⟨c1, c2, c3⟩ := hc k (by simp)
    have := restoreRefs_ok hl h1.id h1.children h1.parent h1.alts
      (List.mem_map_of_mem (hks k (by simp)))
      (by
        intro c hc
        obtain ⟨c', hc', rfl⟩ := List.mem_map.mp hc
        exact List.mem_map_of_mem (c1 c' hc'))
      (by
        intro c hc
        obtain ⟨c', hc', rfl⟩ := Option.map_eq_some_iff.mp hc
        exact List.mem_map_of_mem (c2 c' hc'))
      (by
        intro c hc
        obtain ⟨c', hc', rfl⟩ := List.mem_map.mp hc
        exact List.mem_map_of_mem (c3 c' hc'))
    rw [List.foldlM_cons, this, List.foldl_cons]
    exact ih (fun k' hk' => hks k' (by simp [hk'])) (fun k' hk' => hc k' (by simp [hk'])) _
      (modify_id hl _ _ fun _ => rfl)

theorem fold_modify_get {α} (pos : Nat → Nat) (up : Nat → α → α) (ks : List Nat) : ∀ (n : Nat) (l : List α),
    (∀ p k, ks[p]? = some k → pos k = n + p) → ∀ q,
    (ks.foldl (fun l k => l.modify (pos k) (up k)) l)[q]? =
      if n ≤ q then (match ks[q - n]? with
        | some k => l[q]?.map (up k)
        | none => l[q]?) else l[q]? := by
  induction ks with
  | nil => intro n l _ q; simp
  | cons k ks ih =>
    intro n l h q
    have hk : pos k = n := by simpa using h 0 k rfl
    rw [List.foldl_cons, ih (n + 1) _ (fun p k' hk' => by rw [h (p + 1) k' (by simpa using hk')]; omega) q, hk]
    rw [List.getElem?_modify]
    rcases Nat.lt_trichotomy q n with hq | hq | hq
    · rw [if_neg (by omega), if_neg (by omega)]
      have : n ≠ q := by omega
      cases l[q]? <;> simp [this]
    · subst hq
      rw [if_neg (by omega), if_pos (Nat.le_refl _)]
      cases l[q]? <;> simp
    · rw [if_pos (by omega), if_pos (by omega)]
      have h1 : q - n = (q - (n + 1)) + 1 := by omega
      have h2 : n ≠ q := by omega
      rw [h1, List.getElem?_cons_succ]
      cases l[q]? <;> simp [h2]

theorem load_saddles (m : LMap) (ks : List Nat) (hnd : (ks.map m.sadId).Nodup) (hc : m.Closed ks ks) (ds : List PyVal)
    (h : List.Forall₂ (SavedSaddle m false) ks ds) :
    saddlesFromDict (.dict [("saddles", .list ds)]) = .ok (ks.map (m.loadedSaddle ks)) := by
  have e1 : ds.mapM (LSaddle.fromDict false) = .ok (ks.map fun k => (m.sad k).reloaded false) :=
    mapM_forall2 (h.imp fun k v hv => hv.load)
  have e2 := fold_restore m ks ks ds h (fun _ h => h) hc (ks.map fun k => (m.sad k).reloaded false)
    (by rw [List.map_map]; rfl)
  unfold saddlesFromDict
  simp only [PyVal.get, List.lookup, beq_self_eq_true, PyVal.seq, bind, Except.bind, e1]
  rw [e2]
  congr 1
  apply List.ext_getElem?
  intro q
  rw [fold_modify_get (fun k => posOf (ks.map m.sadId) (m.sadId k)) _ ks 0 _ (fun p k hk => by
    rw [Nat.zero_add]
    exact posOf_nodup hnd (by rw [List.getElem?_map, hk]; rfl)) q]
  rw [if_pos (Nat.zero_le _), Nat.sub_zero, List.getElem?_map, List.getElem?_map]
  cases ks[q]? <;> rfl

theorem load_runoffs (m : LMap) (ks : List Nat) (ds : List PyVal)
    (h : List.Forall₂ (SavedSaddle m true) ks ds) :
    runoffsFromDict (.dict [("runoffs", .list ds)]) = .ok (ks.map fun k => (m.sad k).reloaded true) := by
  have e1 : ds.mapM (LSaddle.fromDict true) = .ok (ks.map fun k => (m.sad k).reloaded true) :=
    mapM_forall2 (h.imp fun k v hv => hv.load)
  simp [runoffsFromDict, PyVal.get, List.lookup, PyVal.mapSeq, PyVal.seq, bind, Except.bind, e1]

theorem load_summits (m : LMap) (h : ∀ D ∈ m.summits, MultiLoads (m.sum D).mp) :
    ∃ v, m.summitsToDict = .ok v ∧ summitsFromDict v = .ok (m.summits.map fun D => (m.sum D).reloaded) := by
  obtain ⟨ds, h1, h2⟩ := mapM_ok_of (f := fun D => (m.sum D).toDict m.linkId) (l := m.summits)
    (P := fun D v => LSummit.fromDict v = .ok (m.sum D).reloaded) fun D hD => (m.sum D).load m.linkId (h D hD)
  refine ⟨.dict [("summits", .list ds)], by simp only [LMap.summitsToDict, h1]; rfl, ?_⟩
  simp [summitsFromDict, PyVal.get, List.lookup, PyVal.mapSeq, PyVal.seq, bind, Except.bind, mapM_forall2 h2]

/-! ### Saved copies -/

theorem eb {α β} {x : Except PyErr α} {g : α → PyVal → Except PyErr β} (hg : ∀ a, Blind (g a)) :
    Blind fun v => (do let a ← x; g a v) := by
  intro v
  cases x with
  | error e => rfl
  | ok a => exact hg a v

theorem foldlM_blind {σ} {f : σ → PyVal → Except PyErr σ} (h : ∀ s, Blind (f s)) (l : List PyVal) :
    ∀ s, (l.map PyVal.cbor).foldlM f s = l.foldlM f s := by
  induction l with
  | nil => intro s; rfl
  | cons a l ih =>
    intro s
    rw [List.map_cons, List.foldlM_cons, List.foldlM_cons, h s a]
    congr 1
    funext s'
    exact ih s'

theorem restoreRefs_blind (l : List LSaddle) : Blind (restoreRefs l) :=
  gb toId_cbor fun _ => bind_blind (idsRead_blind _) fun _ => eb fun _ =>
  fb (fun w => by dsimp only; rw [toId_cbor w]) fun _ => bind_blind (idsRead_blind _) fun _ => fun _ => rfl

theorem saddlesFromDict_blind : Blind saddlesFromDict := by
  intro v
  unfold saddlesFromDict
  rw [get_cbor]
  cases v.get "saddles" with
  | error e => rfl
  | ok w =>
    dsimp only [Except.map, bind, Except.bind]
    rw [seq_cbor]
    cases w.seq with
    | error e => rfl
    | ok ds =>
      dsimp only [Except.map]
      rw [mapM_blind (LSaddle.fromDict_blind false)]
      cases ds.mapM (LSaddle.fromDict false) with
      | error e => rfl
      | ok l => exact foldlM_blind restoreRefs_blind ds l

theorem runoffsFromDict_blind : Blind runoffsFromDict := get_blind (mapSeq_blind (LSaddle.fromDict_blind true)) _

theorem summitsFromDict_blind : Blind summitsFromDict := get_blind (mapSeq_blind LSummit.fromDict_blind) _

theorem loadLinker_blind (s : LState) : Blind (loadLinker s) :=
  gb toId_cbor fun _ => eb fun _ => gb toId_cbor fun _ => eb fun _ => gb toId_cbor fun _ =>
  bind_blind (flagRead_blind _) fun _ => pure_blind _

theorem loadDomain_blind (s : LState) : Blind (loadDomain s) :=
  gb (mapSeq_blind MPt.ofVal_blind) fun _ => gb (mapSeq_blind toId_cbor) fun _ => eb fun _ =>
  gb toId_cbor fun _ => eb fun _ => pure_blind _

theorem loadBody_blind : Blind loadBody :=
  gb saddlesFromDict_blind fun _ => gb summitsFromDict_blind fun _ => gb runoffsFromDict_blind fun _ => by
    intro v
    dsimp only
    rw [get_cbor]
    cases v.get "linkers" with
    | error e => rfl
    | ok w =>
      dsimp only [Except.map, bind, Except.bind]
      rw [seq_cbor]
      cases w.seq with
      | error e => rfl
      | ok ds =>
        dsimp only [Except.map]
        rw [foldlM_blind loadLinker_blind]
        generalize ds.foldlM loadLinker _ = r
        cases r with
        | error e => rfl
        | ok s =>
          dsimp only
          rw [get_cbor]
          cases v.get "summit_domains" with
          | error e => rfl
          | ok w =>
            dsimp only [Except.map]
            rw [seq_cbor]
            cases w.seq with
            | error e => rfl
            | ok ds =>
              dsimp only [Except.map]
              rw [foldlM_blind loadDomain_blind]

theorem fpRead_blind : Blind fpRead := by
  intro v
  unfold fpRead
  rw [get_cbor]
  cases v.get "file_md5" with
  | error e => rfl
  | ok w =>
    dsimp only [Except.map, bind, Except.bind]
    rw [seq_cbor]
    cases w.seq with
    | error e => rfl
    | ok l =>
      match l with
      | [] => rfl
      | [_] => rfl
      | [c, h] => simp [Except.map, toId_cbor, toInt_cbor]
      | _ :: _ :: _ :: _ => rfl

theorem LState.fromDict_blind (v : PyVal) (fp : Fingerprint) : LState.fromDict v.cbor fp = LState.fromDict v fp := by
  unfold LState.fromDict
  rw [fpRead_blind v, loadBody_blind v]

/-! ### Linkers -/

/-- Membership test of `add_to_remote_saddle_and_summit` on positions. -/
def anyEq (eq : LLinker → LLinker → Bool) (ls : List LLinker) (l : LLinker) (acc : List Nat) : Bool :=
  acc.any fun i => match ls[i]? with
    | some b => eq b l
    | none => false

/-- Positions of the Linkers at the feature with position `P` of which no equal one came before. -/
def keepL (eq : LLinker → LLinker → Bool) (sel : LLinker → Nat) (P : Nat) (ls : List LLinker) : List Nat :=
  (List.range ls.length).foldl (fun acc j => match ls[j]? with
    | some l => if sel l = P ∧ anyEq eq ls l acc = false then acc ++ [j] else acc
    | none => acc) []

theorem foldl_append_lt (n : Nat) (c : List Nat → Nat → Bool) : ∀ acc : List Nat, (∀ i ∈ acc, i < n) →
    ∀ k ≤ n, ∀ i ∈ (List.range k).foldl (fun acc j => if c acc j then acc ++ [j] else acc) acc, i < n := by
  intro acc h k
  induction k with
  | zero => intro _ i hi; exact h i (by simpa using hi)
  | succ k ih =>
    intro hk i hi
    rw [List.range_succ, List.foldl_append, List.foldl_cons, List.foldl_nil] at hi
    have ih := ih (by omega)
    split at hi
    · simp only [List.mem_append, List.mem_singleton] at hi
      rcases hi with hi | rfl
      · exact ih i hi
      · omega
    · exact ih i hi

theorem keepL_lt {eq : LLinker → LLinker → Bool} {sel : LLinker → Nat} {P : Nat} {ls : List LLinker} :
    ∀ i ∈ keepL eq sel P ls, i < ls.length := by
  have : keepL eq sel P ls = (List.range ls.length).foldl (fun acc j => if (match ls[j]? with
      | some l => decide (sel l = P ∧ anyEq eq ls l acc = false)
      | none => false) then acc ++ [j] else acc) [] := by
    unfold keepL
    congr 1
    funext acc j
    cases ls[j]? with
    | none => simp
    | some l => by_cases h : sel l = P ∧ anyEq eq ls l acc = false <;> simp [h]
  rw [this]
  exact foldl_append_lt ls.length _ [] (by simp) ls.length (Nat.le_refl _)

theorem anyEq_append {eq : LLinker → LLinker → Bool} {ls : List LLinker} {l a : LLinker} {acc : List Nat}
    (h : ∀ i ∈ acc, i < ls.length) : anyEq eq (ls ++ [a]) l acc = anyEq eq ls l acc := by
  unfold anyEq
  induction acc with
  | nil => rfl
  | cons i acc ih =>
    rw [List.any_cons, List.any_cons, ih fun j hj => h j (by simp [hj]),
      List.getElem?_append_left (h i (by simp))]

theorem keepL_prefix (eq : LLinker → LLinker → Bool) (sel : LLinker → Nat) (P : Nat) (ls : List LLinker) (a : LLinker) :
    ∀ k ≤ ls.length,
    (∀ i ∈ (List.range k).foldl (fun acc j => match ls[j]? with
        | some l => if sel l = P ∧ anyEq eq ls l acc = false then acc ++ [j] else acc
        | none => acc) [], i < ls.length) ∧
    (List.range k).foldl (fun acc j => match (ls ++ [a])[j]? with
        | some l => if sel l = P ∧ anyEq eq (ls ++ [a]) l acc = false then acc ++ [j] else acc
        | none => acc) [] =
    (List.range k).foldl (fun acc j => match ls[j]? with
        | some l => if sel l = P ∧ anyEq eq ls l acc = false then acc ++ [j] else acc
        | none => acc) [] := by
  intro k
  induction k with
  | zero => intro _; simp
  | succ k ih =>
    intro hk
    obtain ⟨h1, h2⟩ := ih (by omega)
    rw [List.range_succ, List.foldl_append, List.foldl_append, h2]
    simp only [List.foldl_cons, List.foldl_nil]
    generalize (List.range k).foldl (fun acc j => match ls[j]? with
        | some l => if sel l = P ∧ anyEq eq ls l acc = false then acc ++ [j] else acc
        | none => acc) [] = acc at h1
    rw [List.getElem?_append_left (by omega : k < ls.length)]
    cases hl : ls[k]? with
    | none => exact ⟨h1, rfl⟩
    | some l =>
      simp only
      rw [anyEq_append h1]
      refine ⟨?_, rfl⟩
      intro i hi
      split at hi
      · simp only [List.mem_append, List.mem_singleton] at hi
        rcases hi with hi | rfl
        · exact h1 i hi
        · omega
      · exact h1 i hi

theorem keepL_append (eq : LLinker → LLinker → Bool) (sel : LLinker → Nat) (P : Nat) (ls : List LLinker) (a : LLinker) :
    keepL eq sel P (ls ++ [a]) = if sel a = P ∧ anyEq eq ls a (keepL eq sel P ls) = false
      then keepL eq sel P ls ++ [ls.length] else keepL eq sel P ls := by
  obtain ⟨h1, h2⟩ := keepL_prefix eq sel P ls a ls.length (Nat.le_refl _)
  conv => lhs; unfold keepL
  rw [List.length_append, List.length_singleton, List.range_succ, List.foldl_append, h2]
  simp only [List.foldl_cons, List.foldl_nil, List.getElem?_concat_length]
  rw [anyEq_append h1]
  rfl

/-- What is saved of a Linker, with the positions of its ends. -/
def LMap.loadedLinker (m : LMap) (sumIds sadIds : List Nat) (i : Nat) : LLinker :=
  ⟨m.linkId i, posOf sumIds (m.sumId (m.link i).summit), posOf sadIds (m.sadId (m.link i).saddle), (m.link i).disq⟩

/-- The state after some Linkers. -/
def linkState (A : List LSummit) (B : List LSaddle) (ls : List LLinker) : LState where
  summits := A.mapIdx fun P x => { x with links := keepL (LState.linkerEq ⟨A, B, [], []⟩) LLinker.summit P ls }
  saddles := B.mapIdx fun P x => { x with links := keepL (LState.linkerEq ⟨A, B, [], []⟩) LLinker.saddle P ls }
  linkers := ls
  domains := []

theorem linkState_eq (A : List LSummit) (B : List LSaddle) (ls : List LLinker) :
    (linkState A B ls).linkerEq = LState.linkerEq ⟨A, B, [], []⟩ := by
  funext a b
  simp only [LState.linkerEq, linkState, List.getElem?_mapIdx]
  congr 1
  · cases A[a.summit]? <;> cases A[b.summit]? <;> rfl
  · cases B[a.saddle]? <;> cases B[b.saddle]? <;> rfl

theorem linkState_notIn (A : List LSummit) (B : List LSaddle) (ls : List LLinker) (l : LLinker) (acc : List Nat) :
    (linkState A B ls).notIn l acc = !anyEq (LState.linkerEq ⟨A, B, [], []⟩) ls l acc := by
  unfold LState.notIn anyEq
  rw [linkState_eq]
  rfl

theorem link_step (A : List LSummit) (B : List LSaddle) (ls : List LLinker) (l : LLinker) (v : PyVal) (a b : Nat)
    (h1 : v.get "saddle" = .ok (.id b)) (h2 : v.get "summit" = .ok (.id a)) (h3 : v.get "id" = .ok (.id l.id))
    (h4 : flagRead v "disqualified" = .ok (if l.disq then some true else none))
    (hb : b ∈ B.map LSaddle.id) (ha : a ∈ A.map LSummit.id)
    (hl1 : l.summit = posOf (A.map LSummit.id) a) (hl2 : l.saddle = posOf (B.map LSaddle.id) b) :
    loadLinker (linkState A B ls) v = .ok (linkState A B (ls ++ [l])) := by
  obtain ⟨lid, lD, lk, ld⟩ := l
  dsimp only at h3 h4 hl1 hl2
  have i1 : (linkState A B ls).saddles.map LSaddle.id = B.map LSaddle.id := by
    apply List.ext_getElem?
    intro j
    simp only [linkState, List.getElem?_map, List.getElem?_mapIdx, Option.map_map]
    rfl
  have i2 : (linkState A B ls).summits.map LSummit.id = A.map LSummit.id := by
    apply List.ext_getElem?
    intro j
    simp only [linkState, List.getElem?_map, List.getElem?_mapIdx, Option.map_map]
    rfl
  unfold loadLinker
  rw [h1]
  dsimp only [bind, Except.bind, PyVal.toId]
  rw [byId_ok i1 hb]
  dsimp only
  rw [h2]
  dsimp only
  rw [byId_ok i2 ha]
  dsimp only
  rw [h3]
  dsimp only
  rw [h4, ← hl1, ← hl2]
  dsimp only [pure, Except.pure]
  have hd : (if ld = true then some true else none).getD false = ld := by cases ld <;> rfl
  rw [hd]
  congr 1
  obtain ⟨x, hx⟩ : ∃ x, A[lD]? = some x := by
    have := posOf_get ha
    rw [← hl1, List.getElem?_map, Option.map_eq_some_iff] at this
    exact ⟨_, this.choose_spec.1⟩
  obtain ⟨y, hy⟩ : ∃ y, B[lk]? = some y := by
    have := posOf_get hb
    rw [← hl2, List.getElem?_map, Option.map_eq_some_iff] at this
    exact ⟨_, this.choose_spec.1⟩
  have s1 : ((linkState A B ls).summits[lD]?.map (·.links)).getD [] =
      keepL (LState.linkerEq ⟨A, B, [], []⟩) LLinker.summit lD ls := by
    simp [linkState, List.getElem?_mapIdx, hx]
  have s2 : ((linkState A B ls).saddles[lk]?.map (·.links)).getD [] =
      keepL (LState.linkerEq ⟨A, B, [], []⟩) LLinker.saddle lk ls := by
    simp [linkState, List.getElem?_mapIdx, hy]
  rw [s1, s2, linkState_notIn, linkState_notIn]
  have e1 : (if (!anyEq (LState.linkerEq ⟨A, B, [], []⟩) ls ⟨lid, lD, lk, ld⟩
        (keepL (LState.linkerEq ⟨A, B, [], []⟩) LLinker.summit lD ls)) = true then
      (linkState A B ls).summits.modify lD fun x => { x with links := x.links ++ [(linkState A B ls).linkers.length] }
      else (linkState A B ls).summits) = (linkState A B (ls ++ [⟨lid, lD, lk, ld⟩])).summits := by
    apply List.ext_getElem?
    intro P
    simp only [linkState, List.getElem?_mapIdx, keepL_append]
    by_cases hc : anyEq (LState.linkerEq ⟨A, B, [], []⟩) ls ⟨lid, lD, lk, ld⟩
        (keepL (LState.linkerEq ⟨A, B, [], []⟩) LLinker.summit lD ls) = true
    · rw [hc]
      simp only [Bool.not_true, Bool.false_eq_true, if_false, List.getElem?_mapIdx]
      cases A[P]? with
      | none => rfl
      | some z =>
        by_cases hP : lD = P
        · subst hP; simp [hc]
        · simp [hP]
    · simp only [Bool.not_eq_true] at hc
      rw [hc]
      simp only [Bool.not_false, if_true, List.getElem?_modify, List.getElem?_mapIdx]
      cases A[P]? with
      | none => rfl
      | some z =>
        by_cases hP : lD = P
        · subst hP; simp [hc]
        · simp [hP]
  have e2 : (if (!anyEq (LState.linkerEq ⟨A, B, [], []⟩) ls ⟨lid, lD, lk, ld⟩
        (keepL (LState.linkerEq ⟨A, B, [], []⟩) LLinker.saddle lk ls)) = true then
      (linkState A B ls).saddles.modify lk fun x => { x with links := x.links ++ [(linkState A B ls).linkers.length] }
      else (linkState A B ls).saddles) = (linkState A B (ls ++ [⟨lid, lD, lk, ld⟩])).saddles := by
    apply List.ext_getElem?
    intro P
    simp only [linkState, List.getElem?_mapIdx, keepL_append]
    by_cases hc : anyEq (LState.linkerEq ⟨A, B, [], []⟩) ls ⟨lid, lD, lk, ld⟩
        (keepL (LState.linkerEq ⟨A, B, [], []⟩) LLinker.saddle lk ls) = true
    · rw [hc]
      simp only [Bool.not_true, Bool.false_eq_true, if_false, List.getElem?_mapIdx]
      cases B[P]? with
      | none => rfl
      | some z =>
        by_cases hP : lk = P
        · subst hP; simp [hc]
        · simp [hP]
    · simp only [Bool.not_eq_true] at hc
      rw [hc]
      simp only [Bool.not_false, if_true, List.getElem?_modify, List.getElem?_mapIdx]
      cases B[P]? with
      | none => rfl
      | some z =>
        by_cases hP : lk = P
        · subst hP; simp [hc]
        · simp [hP]
  rw [e1, e2]
  rfl

theorem saved_linker (l : LLinker) (sumId sadId : Nat → Nat) :
    (l.toDict sumId sadId).get "saddle" = .ok (.id (sadId l.saddle)) ∧
    (l.toDict sumId sadId).get "summit" = .ok (.id (sumId l.summit)) ∧
    (l.toDict sumId sadId).get "id" = .ok (.id l.id) ∧
    flagRead (l.toDict sumId sadId) "disqualified" = .ok (if l.disq then some true else none) := by
  unfold LLinker.toDict
  cases l.disq <;> exact ⟨rfl, rfl, rfl, rfl⟩

theorem load_linkers (m : LMap) (A : List LSummit) (B : List LSaddle) : ∀ is : List Nat,
    (∀ i ∈ is, m.sumId (m.link i).summit ∈ A.map LSummit.id ∧ m.sadId (m.link i).saddle ∈ B.map LSaddle.id) →
    ∀ ls, (is.map fun i => (m.link i).toDict m.sumId m.sadId).foldlM loadLinker (linkState A B ls) =
      .ok (linkState A B (ls ++ is.map (m.loadedLinker (A.map LSummit.id) (B.map LSaddle.id)))) := by
  intro is
  induction is with
  | nil => intro _ ls; simp only [List.map_nil, List.append_nil]; rfl
  | cons i is ih =>
    intro h ls
    obtain ⟨a1, a2, a3, a4⟩ := saved_linker (m.link i) m.sumId m.sadId
    obtain ⟨b1, b2⟩ := h i (by simp)
    have := link_step A B ls (m.loadedLinker (A.map LSummit.id) (B.map LSaddle.id) i) _ _ _ a1 a2 a3 a4 b2 b1 rfl rfl
    rw [List.map_cons, List.foldlM_cons, this]
    dsimp only [bind, Except.bind]
    rw [ih (fun i' h' => h i' (by simp [h'])), List.map_cons, List.append_assoc]
    rfl

theorem linkState_nil (A : List LSummit) (B : List LSaddle) (hA : ∀ x ∈ A, x.links = []) (hB : ∀ x ∈ B, x.links = []) :
    linkState A B [] = ⟨A, B, [], []⟩ := by
  unfold linkState
  congr 1
  · apply List.ext_getElem?
    intro P
    rw [List.getElem?_mapIdx]
    cases h : A[P]? with
    | none => rfl
    | some x =>
      obtain ⟨i, la, lo, el, ed, ep, mp, dq, lk, dm⟩ := x
      have : lk = [] := hA _ (List.mem_of_getElem? h)
      subst this
      rfl
  · apply List.ext_getElem?
    intro P
    rw [List.getElem?_mapIdx]
    cases h : B[P]? with
    | none => rfl
    | some x =>
      have : x.links = [] := hB _ (List.mem_of_getElem? h)
      obtain ⟨_, _, _, _, _, _, _, _, _, _, _, _, _, _, _, lk⟩ := x
      dsimp only at this
      subst this
      rfl

/-! ### Domains -/

/-- What is saved of a domain, with positions. -/
def LMap.loadedDomain (m : LMap) (sumIds sadIds : List Nat) (i : Nat) : LDomain :=
  ⟨posOf sumIds (m.sumId (m.dom i).summit), (m.dom i).saddles.map (fun k => posOf sadIds (m.sadId k)), (m.dom i).points⟩

/-- The state after some domains. -/
def domState (s : LState) (ds : List LDomain) : LState :=
  { s with
    summits := s.summits.mapIdx fun P x => { x with domain := (lastPos (ds.map LDomain.summit) P).or x.domain }
    domains := ds }

theorem domState_nil (s : LState) (h : s.domains = []) : domState s [] = s := by
  obtain ⟨A, B, ls, ds⟩ := s
  dsimp only at h
  subst h
  unfold domState
  congr 1
  apply List.ext_getElem?
  intro P
  rw [List.getElem?_mapIdx]
  cases A[P]? <;> rfl

theorem mpts_round (l : List MPt) : (PyVal.ofList MPt.toVal l).mapSeq MPt.ofVal = .ok l := by
  simpa using mapSeq_ofList (l := l) (h := fun p => p) fun p _ => MPt.ofVal_toVal p

theorem dom_step (m : LMap) (s : LState) (ds : List LDomain) (i : Nat)
    (h1 : m.sumId (m.dom i).summit ∈ s.summits.map LSummit.id)
    (h2 : ∀ k ∈ (m.dom i).saddles, m.sadId k ∈ s.saddles.map LSaddle.id) :
    loadDomain (domState s ds) ((m.dom i).toDict m.sumId m.sadId) =
      .ok (domState s (ds ++ [m.loadedDomain (s.summits.map LSummit.id) (s.saddles.map LSaddle.id) i])) := by
  have i1 : (domState s ds).summits.map LSummit.id = s.summits.map LSummit.id := by
    apply List.ext_getElem?
    intro j
    simp only [domState, List.getElem?_map, List.getElem?_mapIdx, Option.map_map]
    rfl
  have e1 := mpts_round (m.dom i).points
  have e2 : (PyVal.ofList (fun k => PyVal.id (m.sadId k)) (m.dom i).saddles).mapSeq PyVal.toId =
      .ok ((m.dom i).saddles.map m.sadId) := ids_round m.sadId _
  have e3 : ((m.dom i).saddles.map m.sadId).mapM (byId LSaddle.id (domState s ds).saddles) =
      .ok ((m.dom i).saddles.map fun k => posOf (s.saddles.map LSaddle.id) (m.sadId k)) :=
    mapM_map_ok fun k hk => byId_ok rfl (h2 k hk)
  unfold loadDomain LDomain.toDict
  simp only [PyVal.get, List.lookup, bind, Except.bind]
  simp only [show ("saddles" == "points") = false from rfl, show ("summit" == "points") = false from rfl,
    show ("summit" == "saddles") = false from rfl, beq_self_eq_true, e1, e2, e3, PyVal.toId]
  rw [byId_ok i1 h1]
  simp only [pure, Except.pure]
  congr 1
  unfold domState
  dsimp only
  congr 1
  apply List.ext_getElem?
  intro P
  simp only [List.getElem?_modify, List.getElem?_mapIdx, List.map_append, List.map_cons, List.map_nil, lastPos_append,
    List.length_map]
  cases s.summits[P]? with
  | none => rfl
  | some x =>
    simp only [LMap.loadedDomain]
    by_cases h : posOf (s.summits.map LSummit.id) (m.sumId (m.dom i).summit) = P <;> simp [h]

theorem load_domains (m : LMap) (s : LState) : ∀ is : List Nat,
    (∀ i ∈ is, m.sumId (m.dom i).summit ∈ s.summits.map LSummit.id ∧
      ∀ k ∈ (m.dom i).saddles, m.sadId k ∈ s.saddles.map LSaddle.id) →
    ∀ ds, (is.map fun i => (m.dom i).toDict m.sumId m.sadId).foldlM loadDomain (domState s ds) =
      .ok (domState s (ds ++ is.map (m.loadedDomain (s.summits.map LSummit.id) (s.saddles.map LSaddle.id)))) := by
  intro is
  induction is with
  | nil => intro _ ds; simp only [List.map_nil, List.append_nil]; rfl
  | cons i is ih =>
    intro h ds
    obtain ⟨b1, b2⟩ := h i (by simp)
    rw [List.map_cons, List.foldlM_cons, dom_step m s ds i b1 b2]
    dsimp only [bind, Except.bind]
    rw [ih (fun i' h' => h i' (by simp [h'])), List.map_cons, List.append_assoc]
    rfl

/-! ### Maps -/

/-- Summits after loading, without references. -/
def LMap.baseSummits (m : LMap) : List LSummit := m.summits.map fun D => (m.sum D).reloaded

/-- Saddles and runoffs after loading, without Linkers. -/
def LMap.baseSaddles (m : LMap) : List LSaddle :=
  m.saddles.map (m.loadedSaddle m.saddles) ++ m.runoffs.map fun k => (m.sad k).reloaded true

/-- Everything after loading. -/
def LMap.loaded (m : LMap) : LState :=
  domState (linkState m.baseSummits m.baseSaddles
      (m.linkers.map (m.loadedLinker (m.summits.map m.sumId) ((m.saddles ++ m.runoffs).map m.sadId))))
    (m.domains.map (m.loadedDomain (m.summits.map m.sumId) ((m.saddles ++ m.runoffs).map m.sadId)))

theorem baseSummits_id (m : LMap) : m.baseSummits.map LSummit.id = m.summits.map m.sumId := by
  unfold LMap.baseSummits
  rw [List.map_map]
  rfl

theorem baseSaddles_id (m : LMap) : m.baseSaddles.map LSaddle.id = (m.saddles ++ m.runoffs).map m.sadId := by
  unfold LMap.baseSaddles
  rw [List.map_append, List.map_map, List.map_map, List.map_append]
  rfl

/-- The map can be saved and loaded. -/
structure LMap.Loads (m : LMap) : Prop where
  ids : (m.saddles.map m.sadId).Nodup
  closed : m.Closed m.saddles m.saddles
  linkers : ∀ i ∈ m.linkers, (m.link i).summit ∈ m.summits ∧ (m.link i).saddle ∈ m.saddles ++ m.runoffs
  domains : ∀ i ∈ m.domains, (m.dom i).summit ∈ m.summits ∧ ∀ k ∈ (m.dom i).saddles, k ∈ m.saddles ++ m.runoffs
  summitMp : ∀ D ∈ m.summits, MultiLoads (m.sum D).mp
  saddleMp : ∀ k ∈ m.saddles ++ m.runoffs, MultiLoads (m.sad k).mp

theorem LMap.load (m : LMap) (h : m.Loads) (fp : Fingerprint) :
    ∃ v, m.toDict fp = .ok v ∧ LState.fromDict v.cbor fp = .ok (m.loaded, m.saddles.length) ∧
      ∀ fp', fp' ≠ fp → LState.fromDict v.cbor fp' = .error .mismatch := by
  obtain ⟨su, a1, a2⟩ := load_summits m h.summitMp
  obtain ⟨ds, b1, b2⟩ := save_saddles m false "saddles" m.saddles fun k hk => h.saddleMp k (by simp [hk])
  obtain ⟨dr, c1, c2⟩ := save_saddles m true "runoffs" m.runoffs fun k hk => h.saddleMp k (by simp [hk])
  refine ⟨_, by simp only [LMap.toDict, a1, b1, c1]; rfl, ?_⟩
  rw [LState.fromDict_blind]
  have e1 := load_saddles m m.saddles h.ids h.closed ds b2
  have e2 := load_runoffs m m.runoffs dr c2
  have e3 : (m.linkers.map fun i => (m.link i).toDict m.sumId m.sadId).foldlM loadLinker
      ⟨m.baseSummits, m.baseSaddles, [], []⟩ = .ok (linkState m.baseSummits m.baseSaddles
        ([] ++ m.linkers.map (m.loadedLinker (m.baseSummits.map LSummit.id) (m.baseSaddles.map LSaddle.id)))) := by
    have := load_linkers m m.baseSummits m.baseSaddles m.linkers (by
      intro i hi
      obtain ⟨x, y⟩ := h.linkers i hi
      rw [baseSummits_id, baseSaddles_id]
      exact ⟨List.mem_map_of_mem x, List.mem_map_of_mem y⟩) []
    rw [linkState_nil] at this
    · exact this
    · intro x hx
      obtain ⟨D, _, rfl⟩ := List.mem_map.mp hx
      rfl
    · intro x hx
      rcases List.mem_append.mp hx with hx | hx
      · obtain ⟨D, _, rfl⟩ := List.mem_map.mp hx
        rfl
      · obtain ⟨D, _, rfl⟩ := List.mem_map.mp hx
        rfl
  rw [baseSummits_id, baseSaddles_id, List.nil_append] at e3
  have e4 := load_domains m (linkState m.baseSummits m.baseSaddles
      (m.linkers.map (m.loadedLinker (m.summits.map m.sumId) ((m.saddles ++ m.runoffs).map m.sadId)))) m.domains
  have i1 : (linkState m.baseSummits m.baseSaddles
      (m.linkers.map (m.loadedLinker (m.summits.map m.sumId) ((m.saddles ++ m.runoffs).map m.sadId)))).summits.map
        LSummit.id = m.summits.map m.sumId := by
    rw [← baseSummits_id]
    apply List.ext_getElem?
    intro j
    simp only [linkState, List.getElem?_map, List.getElem?_mapIdx, Option.map_map]
    rfl
  have i2 : (linkState m.baseSummits m.baseSaddles
      (m.linkers.map (m.loadedLinker (m.summits.map m.sumId) ((m.saddles ++ m.runoffs).map m.sadId)))).saddles.map
        LSaddle.id = (m.saddles ++ m.runoffs).map m.sadId := by
    rw [← baseSaddles_id]
    apply List.ext_getElem?
    intro j
    simp only [linkState, List.getElem?_map, List.getElem?_mapIdx, Option.map_map]
    rfl
  rw [i1, i2] at e4
  have e4 := e4 (by
    intro i hi
    obtain ⟨x, y⟩ := h.domains i hi
    exact ⟨List.mem_map_of_mem x, fun k hk => List.mem_map_of_mem (y k hk)⟩) []
  rw [domState_nil _ rfl, List.nil_append] at e4
  have f1 : fpRead (.dict [("file_md5", fp.toVal), ("summits", su), ("saddles", .dict [("saddles", .list ds)]),
      ("runoffs", .dict [("runoffs", .list dr)]),
      ("linkers", .ofList (fun i => (m.link i).toDict m.sumId m.sadId) m.linkers),
      ("summit_domains", .ofList (fun i => (m.dom i).toDict m.sumId m.sadId) m.domains)]) = .ok fp := rfl
  constructor
  · unfold LState.fromDict
    rw [f1]
    simp only [ne_eq, not_true_eq_false, if_false]
    have : loadBody (.dict [("file_md5", fp.toVal), ("summits", su), ("saddles", .dict [("saddles", .list ds)]),
      ("runoffs", .dict [("runoffs", .list dr)]),
      ("linkers", .ofList (fun i => (m.link i).toDict m.sumId m.sadId) m.linkers),
      ("summit_domains", .ofList (fun i => (m.dom i).toDict m.sumId m.sadId) m.domains)]) =
        .ok (m.loaded, m.saddles.length) := by
      unfold loadBody
      simp only [PyVal.get, List.lookup, bind, Except.bind,
        show ("saddles" == "file_md5") = false from rfl, show ("saddles" == "summits") = false from rfl,
        show ("summits" == "file_md5") = false from rfl, show ("runoffs" == "file_md5") = false from rfl,
        show ("runoffs" == "summits") = false from rfl, show ("runoffs" == "saddles") = false from rfl,
        show ("linkers" == "file_md5") = false from rfl, show ("linkers" == "summits") = false from rfl,
        show ("linkers" == "saddles") = false from rfl, show ("linkers" == "runoffs") = false from rfl,
        show ("summit_domains" == "file_md5") = false from rfl, show ("summit_domains" == "summits") = false from rfl,
        show ("summit_domains" == "saddles") = false from rfl, show ("summit_domains" == "runoffs") = false from rfl,
        show ("summit_domains" == "linkers") = false from rfl, beq_self_eq_true, e1, a2, e2, PyVal.ofList, PyVal.seq]
      have e3' := e3
      unfold LMap.baseSummits LMap.baseSaddles at e3'
      rw [e3']
      dsimp only
      have e4' := e4
      unfold LMap.baseSummits LMap.baseSaddles at e4'
      rw [e4']
      simp only [pure, Except.pure, List.length_map]
      rfl
    rw [this]
  · intro fp' hne
    rw [LState.fromDict_blind]
    unfold LState.fromDict
    rw [f1]
    simp only [ne_eq]
    rw [if_pos fun e => hne e.symm]

/-! ### References out of the container -/

theorem byId_miss {α} {idOf : α → Nat} {l : List α} {ids : List Nat} (hl : l.map idOf = ids) {i : Nat} (h : i ∉ ids) :
    byId idOf l i = .error .keyError := by
  subst hl
  unfold byId
  rw [lookupId_eq]
  cases hk : lastPos (l.map idOf) i with
  | none => rfl
  | some k => exact absurd (List.mem_of_getElem? ((lastPos_some _ i k).1 hk).1) h

/-- A step that adds references gives a list of the same objects or stops with a KeyError. -/
def RefStep (ids : List Nat) (r : Except PyErr (List LSaddle)) : Prop :=
  r = .error .keyError ∨ ∃ l, r = .ok l ∧ l.map LSaddle.id = ids

theorem fold_refs_step (ids : List Nat) (sid : Nat) (up : Nat → LSaddle → LSaddle) (hup : ∀ c s, (up c s).id = s.id)
    (cs : List Nat) : ∀ l : List LSaddle, l.map LSaddle.id = ids →
    RefStep ids (cs.foldlM (fun l c => (do
      let k ← byId LSaddle.id l sid
      let c ← byId LSaddle.id l c
      pure (l.modify k (up c)) : Except PyErr (List LSaddle))) l) ∧
    ((∃ c ∈ cs, c ∉ ids) → cs.foldlM (fun l c => (do
      let k ← byId LSaddle.id l sid
      let c ← byId LSaddle.id l c
      pure (l.modify k (up c)) : Except PyErr (List LSaddle))) l = .error .keyError) := by
  induction cs with
  | nil => intro l hl; exact ⟨.inr ⟨l, rfl, hl⟩, fun ⟨c, hc, _⟩ => (nomatch hc)⟩
  | cons c cs ih =>
    intro l hl
    rw [List.foldlM_cons]
    by_cases hs : sid ∈ ids
    · rw [byId_ok hl hs]
      dsimp only [bind, Except.bind]
      by_cases hc : c ∈ ids
      · rw [byId_ok hl hc]
        dsimp only [pure, Except.pure]
        obtain ⟨i1, i2⟩ := ih _ (modify_id hl (posOf ids sid) (up (posOf ids c)) (hup _))
        refine ⟨i1, fun ⟨x, hx, hn⟩ => i2 ⟨x, ?_, hn⟩⟩
        rcases List.mem_cons.1 hx with rfl | hx
        · exact absurd hc hn
        · exact hx
      · rw [byId_miss hl hc]
        exact ⟨.inl rfl, fun _ => rfl⟩
    · rw [byId_miss hl hs]
      exact ⟨.inl rfl, fun _ => rfl⟩

theorem restoreRefs_step {ids : List Nat} {l : List LSaddle} (hl : l.map LSaddle.id = ids) {m : LMap} {k : Nat}
    {v : PyVal} (h : SavedSaddle m false k v) :
    RefStep ids (restoreRefs l v) ∧ ((∃ c ∈ (m.sad k).children, m.sadId c ∉ ids) → restoreRefs l v = .error .keyError) := by
  obtain ⟨a1, a2⟩ := fold_refs_step ids (m.sadId k) (fun c s => { s with children := s.children ++ [c] })
    (fun _ _ => rfl) ((m.sad k).children.map m.sadId) l hl
  unfold restoreRefs
  rw [h.id]
  dsimp only [bind, Except.bind, PyVal.toId]
  rw [h.children]
  dsimp only
  dsimp only [bind, Except.bind] at a1 a2
  constructor
  · rcases a1 with e | ⟨l1, e, hl1⟩
    · rw [e]; exact .inl rfl
    · rw [e]
      dsimp only
      rw [h.parent]
      dsimp only
      have fin : ∀ l2 : List LSaddle, l2.map LSaddle.id = ids → RefStep ids (((m.sad k).alts.map m.sadId).foldlM
          (fun l c => (do
            let k ← byId LSaddle.id l (m.sadId k)
            let c ← byId LSaddle.id l c
            pure (l.modify k fun s => { s with alts := s.alts ++ [c] }) : Except PyErr (List LSaddle))) l2) :=
        fun l2 h2 => (fold_refs_step ids (m.sadId k) (fun c s => { s with alts := s.alts ++ [c] }) (fun _ _ => rfl)
          ((m.sad k).alts.map m.sadId) l2 h2).1
      dsimp only [bind, Except.bind] at fin
      cases hp : (m.sad k).parent with
      | none =>
        dsimp only [Option.map, pure, Except.pure]
        rw [h.alts]
        exact fin l1 hl1
      | some q =>
        dsimp only [Option.map]
        by_cases h1 : m.sadId k ∈ ids
        · rw [byId_ok hl1 h1]
          dsimp only
          by_cases h2 : m.sadId q ∈ ids
          · rw [byId_ok hl1 h2]
            dsimp only [pure, Except.pure]
            rw [h.alts]
            exact fin _ (modify_id hl1 _ _ fun _ => rfl)
          · rw [byId_miss hl1 h2]
            exact .inl rfl
        · rw [byId_miss hl1 h1]
          exact .inl rfl
  · rintro ⟨c, hc, hn⟩
    rw [a2 ⟨_, List.mem_map_of_mem hc, hn⟩]

theorem fold_restore_err (m : LMap) (ids : List Nat) : ∀ (ks : List Nat) (ds : List PyVal),
    List.Forall₂ (SavedSaddle m false) ks ds → (∃ k ∈ ks, ∃ c ∈ (m.sad k).children, m.sadId c ∉ ids) →
    ∀ l : List LSaddle, l.map LSaddle.id = ids → ds.foldlM restoreRefs l = .error .keyError := by
  intro ks ds h
  induction h with
  | nil => rintro ⟨k, hk, _⟩; cases hk
  | @cons k v ks ds h1 _ ih =>
    rintro ⟨j, hj, c, hc, hn⟩ l hl
    obtain ⟨a1, a2⟩ := restoreRefs_step hl h1
    rw [List.foldlM_cons]
    rcases List.mem_cons.1 hj with rfl | hj
    · rw [a2 ⟨c, hc, hn⟩]; rfl
    · rcases a1 with e | ⟨l', e, hl'⟩
      · rw [e]; rfl
      · rw [e]; exact ih ⟨j, hj, c, hc, hn⟩ l' hl'

theorem load_saddles_err (m : LMap) (ks : List Nat) (ds : List PyVal) (h : List.Forall₂ (SavedSaddle m false) ks ds)
    (he : ∃ k ∈ ks, ∃ c ∈ (m.sad k).children, m.sadId c ∉ ks.map m.sadId) :
    saddlesFromDict (.dict [("saddles", .list ds)]) = .error .keyError := by
  have e1 : ds.mapM (LSaddle.fromDict false) = .ok (ks.map fun k => (m.sad k).reloaded false) :=
    mapM_forall2 (h.imp fun k v hv => hv.load)
  unfold saddlesFromDict
  simp only [PyVal.get, List.lookup, beq_self_eq_true, PyVal.seq, bind, Except.bind, e1]
  exact fold_restore_err m _ ks ds h he _ (by rw [List.map_map]; rfl)

/-- A map with a saddle whose child is not among its saddles can be saved, but not loaded. -/
theorem LMap.load_err (m : LMap) (hs : ∀ D ∈ m.summits, MultiLoads (m.sum D).mp)
    (hk : ∀ k ∈ m.saddles ++ m.runoffs, MultiLoads (m.sad k).mp)
    (he : ∃ k ∈ m.saddles, ∃ c ∈ (m.sad k).children, m.sadId c ∉ m.saddles.map m.sadId) (fp : Fingerprint) :
    ∃ v, m.toDict fp = .ok v ∧ LState.fromDict v.cbor fp = .error (.py .keyError) := by
  obtain ⟨su, a1, a2⟩ := load_summits m hs
  obtain ⟨ds, b1, b2⟩ := save_saddles m false "saddles" m.saddles fun k h => hk k (by simp [h])
  obtain ⟨dr, c1, c2⟩ := save_saddles m true "runoffs" m.runoffs fun k h => hk k (by simp [h])
  refine ⟨_, by simp only [LMap.toDict, a1, b1, c1]; rfl, ?_⟩
  rw [LState.fromDict_blind]
  have e1 := load_saddles_err m m.saddles ds b2 he
  have f1 : fpRead (.dict [("file_md5", fp.toVal), ("summits", su), ("saddles", .dict [("saddles", .list ds)]),
      ("runoffs", .dict [("runoffs", .list dr)]),
      ("linkers", .ofList (fun i => (m.link i).toDict m.sumId m.sadId) m.linkers),
      ("summit_domains", .ofList (fun i => (m.dom i).toDict m.sumId m.sadId) m.domains)]) = .ok fp := rfl
  have f2 : loadBody (.dict [("file_md5", fp.toVal), ("summits", su), ("saddles", .dict [("saddles", .list ds)]),
      ("runoffs", .dict [("runoffs", .list dr)]),
      ("linkers", .ofList (fun i => (m.link i).toDict m.sumId m.sadId) m.linkers),
      ("summit_domains", .ofList (fun i => (m.dom i).toDict m.sumId m.sadId) m.domains)]) = .error .keyError := by
    unfold loadBody
    simp only [PyVal.get, List.lookup, bind, Except.bind, show ("saddles" == "file_md5") = false from rfl,
      show ("saddles" == "summits") = false from rfl, beq_self_eq_true, e1]
  unfold LState.fromDict
  rw [f1]
  simp only [ne_eq, not_true_eq_false, if_false]
  rw [f2]

end PyProm
