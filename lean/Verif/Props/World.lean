import Verif.Proof.World
import Verif.Props.Purged

/-
C97: calls on one map do not change another map. C98: running a map again replaces its results.
-/
namespace PyProm
open Spec

/-- The maps that exist are those that were created. -/
theorem ungiven_map {ops : List WorldOp} {i : Nat} {c : Comp} (h : Ungiven ops i c) :
    ∃ m, (World.start.steps ops).maps[i]? = some m ∧ m c = c.default := by
  obtain ⟨g, e, f⟩ := h
  have inv := worldInv_steps ops
  have hi : i < (World.start.steps ops).maps.length := by
    rw [← inv.len]; exact (List.getElem?_eq_some_iff.1 e).1
  exact ⟨_, List.getElem?_eq_getElem hi, (inv.ref i _ g (List.getElem?_eq_getElem hi) e c).2.2 f⟩

/-- Two attributes are one object only if they are of one kind and were never given. -/
theorem same_object {ops : List WorldOp} {i j : Nat} {m n : Comp → Nat} {c d : Comp}
    (hi : (World.start.steps ops).maps[i]? = some m) (hj : (World.start.steps ops).maps[j]? = some n) :
    m c = n d ↔ c = d ∧ (i = j ∨ Ungiven ops i c ∧ Ungiven ops j c) := by
  have inv := worldInv_steps ops
  have gi : i < (given ops).length := by rw [inv.len]; exact (List.getElem?_eq_some_iff.1 hi).1
  have gj : j < (given ops).length := by rw [inv.len]; exact (List.getElem?_eq_some_iff.1 hj).1
  have ri := fun c => inv.ref i m _ hi (List.getElem?_eq_getElem gi) c
  have rj := fun c => inv.ref j n _ hj (List.getElem?_eq_getElem gj) c
  constructor
  · intro e
    cases ec : ((given ops)[i]) c
    · have h1 := (ri c).2.2 ec
      cases ed : ((given ops)[j]) d
      · have h2 := (rj d).2.2 ed
        have := Comp.default_inj (h1.symm.trans (e.trans h2))
        subst this
        exact ⟨rfl, .inr ⟨⟨_, List.getElem?_eq_getElem gi, ec⟩, ⟨_, List.getElem?_eq_getElem gj, ed⟩⟩⟩
      · have h2 := (rj d).2.1 ed
        have := c.default_lt
        omega
    · have h1 := (ri c).2.1 ec
      obtain ⟨a, b⟩ := inv.own i j m n c d hi hj h1 e
      exact ⟨b, .inl a⟩
  · rintro ⟨rfl, rfl | ⟨h1, h2⟩⟩
    · rw [hi] at hj
      cases hj
      rfl
    · obtain ⟨m', e1, f1⟩ := ungiven_map h1
      obtain ⟨n', e2, f2⟩ := ungiven_map h2
      rw [hi] at e1
      rw [hj] at e2
      cases e1
      cases e2
      rw [f1, f2]

/-- C97, what is true. After any calls, on any maps: creating a map, or running or purging one, leaves every other map as
it is; changing a container of map `i` in place leaves everything of another map as it is, except the
container of the same kind if neither map was ever given one. -/
theorem C97_independent_partial (ops : List WorldOp) (i j : Nat) (d : Comp) (hj : j < (given ops).length) :
    (∀ args, (World.start.steps (ops ++ [.create args])).view j d = (World.start.steps ops).view j d) ∧
    (j ≠ i → ∀ args,
      (World.start.steps (ops ++ [.replace i args])).view j d = (World.start.steps ops).view j d) ∧
    (∀ c g, ¬ (c = d ∧ (i = j ∨ Ungiven ops i c ∧ Ungiven ops j c)) →
      (World.start.steps (ops ++ [.edit i c g])).view j d = (World.start.steps ops).view j d) := by
  have inv := worldInv_steps ops
  have hlt : j < (World.start.steps ops).maps.length := by rw [← inv.len]; exact hj
  have so := fun m c n d => same_object (ops := ops) (i := i) (j := j) (m := m) (n := n) (c := c) (d := d)
  have hr := fun m c hm => (inv.ref j m _ hm (List.getElem?_eq_getElem hj) c).1
  simp only [World.steps, List.foldl_append, List.foldl_cons, List.foldl_nil] at *
  generalize List.foldl World.step World.start ops = w at *
  have hn := List.getElem?_eq_getElem hlt
  have hc := hr _ d hn
  refine ⟨fun args => ?_, fun hne args => ?_, fun c g hs => ?_⟩
  · simp only [World.step, World.view, List.getElem?_append_left hlt, hn, Option.bind_some]
    exact List.getElem?_append_left hc
  · rcases hi : w.maps[i]? with _ | m
    · simp only [World.step, hi]
    · simp only [World.step, World.view, hi, List.getElem?_set, if_neg (Ne.symm hne), hn, Option.bind_some]
      exact List.getElem?_append_left hc
  · rcases hi : w.maps[i]? with _ | m
    · simp only [World.step, hi]
    · have hne : m c ≠ w.maps[j] d := fun e => hs ((so m c _ d hi hn).1 e)
      simp only [World.step, World.view, hi, hn, Option.bind_some, List.getElem?_modify, if_neg hne]
      simp

/-- C97 is false of the defaults. After any calls: whatever is done in place to a container that map `i` was not given
is done to every other map that was not given one; and a map created afterwards starts with what it holds. -/
theorem C97_shared_defaults_refuted (ops : List WorldOp) (i : Nat) (c : Comp) (hi : Ungiven ops i c)
    (g : List Nat → List Nat) :
    (∀ j, Ungiven ops j c → ∃ l, (World.start.steps ops).view j c = some l ∧
      (World.start.steps ops).view i c = some l ∧
      (World.start.steps (ops ++ [.edit i c g])).view j c = some (g l)) ∧
    (∀ args, args c = none → (World.start.steps (ops ++ [.create args])).view (given ops).length c =
      (World.start.steps ops).view i c) := by
  have inv := worldInv_steps ops
  obtain ⟨m, hm, fm⟩ := ungiven_map hi
  have um := fun j (h : Ungiven ops j c) => ungiven_map h
  have hl := inv.len
  have h5 := inv.five
  simp only [World.steps, List.foldl_append, List.foldl_cons, List.foldl_nil] at *
  generalize List.foldl World.step World.start ops = w at *
  have := c.default_lt
  have hc : c.default < w.cells.length := by omega
  refine ⟨fun j hj => ?_, fun args ha => ?_⟩
  · obtain ⟨n, hn, fn⟩ := um j hj
    refine ⟨w.cells[c.default], ?_, ?_, ?_⟩
    · simp [World.view, hn, fn, hc]
    · simp [World.view, hm, fm, hc]
    · simp [World.step, World.view, hm, fm, hn, fn, hc]
  · have : w.assign args Comp.default c = c.default := assign_false (by simp [ha])
    simp only [World.step, World.view, hl, List.getElem?_append_right (Nat.le_refl _), Nat.sub_self,
      List.getElem?_cons_zero, Option.bind_some, hm, fm, this]
    exact List.getElem?_append_left hc

/-- Two maps made from data alone, one with a summit appended: the other has it too, and so has a third. -/
example : let w := World.start.steps [.create fun _ => none, .create fun _ => none,
      .edit 0 .summits (· ++ [7]), .create fun _ => none]
    w.view 1 .summits = some [7] ∧ w.view 2 .summits = some [7] ∧ w.view 1 .saddles = some [] := by
  decide +kernel

/-- After a run of one of them they are apart. -/
example : let w := World.start.steps [.create fun _ => none, .create fun _ => none,
      superSparseRun 0 [1, 2] [3] [4], .edit 0 .summits (· ++ [7])]
    w.view 0 .summits = some [1, 2, 7] ∧ w.view 1 .summits = some [] := by
  decide +kernel

/-- The hypotheses of both theorems are met by these maps. -/
example : Ungiven [.create fun _ => none, .create fun _ => none] 0 .summits ∧
    Ungiven [.create fun _ => none, .create fun _ => none] 1 .summits ∧
    1 < (given [.create fun _ => none, .create fun _ => none]).length :=
  ⟨⟨_, rfl, rfl⟩, ⟨_, rfl, rfl⟩, by decide⟩

/-- C98, what is true. After any calls, a run that walks replaces all five containers of the map: it shows exactly what
was found, whatever it held before. A superSparse run replaces all but the domains. -/
theorem C98_run_replaces_partial (ops : List WorldOp) (i : Nat) (hi : i < (given ops).length)
    (su sa ru li dm : List Nat) :
    (let w := World.start.steps (ops ++ [walkedRun i su sa ru li dm])
     w.view i .summits = some su ∧ w.view i .saddles = some sa ∧ w.view i .runoffs = some ru ∧
       w.view i .linkers = some li ∧ w.view i .domains = some dm) ∧
    (let w := World.start.steps (ops ++ [superSparseRun i su sa ru])
     w.view i .summits = some su ∧ w.view i .saddles = some sa ∧ w.view i .runoffs = some ru ∧
       w.view i .linkers = some []) := by
  have inv := worldInv_steps ops
  have hlt : i < (World.start.steps ops).maps.length := by rw [← inv.len]; exact hi
  simp only [World.steps, List.foldl_append, List.foldl_cons, List.foldl_nil] at *
  generalize List.foldl World.step World.start ops = w at *
  have hn := List.getElem?_eq_getElem hlt
  simp [walkedRun, superSparseRun, World.step, World.view, hlt, World.assign, Comp.default, Comp.all]

/-- C98 is false of superSparse runs: the domains of the earlier run stay. -/
theorem C98_domains_stay_refuted (ops : List WorldOp) (i : Nat) (hi : i < (given ops).length) (su sa ru : List Nat) :
    (World.start.steps (ops ++ [superSparseRun i su sa ru])).view i .domains =
      (World.start.steps ops).view i .domains := by
  have inv := worldInv_steps ops
  have hlt : i < (World.start.steps ops).maps.length := by rw [← inv.len]; exact hi
  have hr := fun m c hm => (inv.ref i m _ hm (List.getElem?_eq_getElem hi) c).1
  simp only [World.steps, List.foldl_append, List.foldl_cons, List.foldl_nil] at *
  generalize List.foldl World.step World.start ops = w at *
  have hn := List.getElem?_eq_getElem hlt
  have := hr _ .domains hn
  simp [superSparseRun, World.step, World.view, hlt, World.assign, List.getElem?_append_left this]

/-- C98, the consequence for files. A map with a domain is run again with superSparse, and finds new summits: it can be
saved, and the file cannot be loaded. Had the domains been replaced as well, it could (`C98_fresh_loads`). -/
theorem C98_super_sparse_file_refuted (m : LMap) (su sa ru li dm : List Nat) (hsum : Function.Injective m.sumId)
    (hsad : Function.Injective m.sadId) (hnd : sa.Nodup)
    (hs : ∀ D ∈ su, ∀ a, (m.sum D).mp = some a → AreaSound a)
    (hk : ∀ k ∈ sa ++ ru, ∀ a, (m.sad k).mp = some a → AreaSound a)
    (i : Nat) (hi : i ∈ m.domains) (hold : (m.dom i).summit ∉ su) (fp : Fingerprint) :
    ∃ v, (m.run true su sa ru li dm).toDict fp = .ok v ∧
      LState.fromDict v.cbor fp = .error (.py .keyError) := by
  obtain ⟨v, h1, _, h3⟩ := C45_references_exact (m.run true su sa ru li dm) hsum hsad hnd hs hk fp
  exact ⟨v, h1, h3 fun h => hold (h.domains i hi).1⟩

/-- A run that walks gives a file that loads exactly if what it found refers only to what it found, and so does a
superSparse run of a map without domains, whose saddles have their relatives among them. -/
theorem C98_fresh_loads (m : LMap) (ss : Bool) (su sa ru li dm : List Nat) (hsum : Function.Injective m.sumId)
    (hsad : Function.Injective m.sadId) (hnd : sa.Nodup)
    (hs : ∀ D ∈ su, ∀ a, (m.sum D).mp = some a → AreaSound a)
    (hk : ∀ k ∈ sa ++ ru, ∀ a, (m.sad k).mp = some a → AreaSound a)
    (hd : ss = true → m.domains = []) (fp : Fingerprint) :
    ∃ v, (m.run ss su sa ru li dm).toDict fp = .ok v ∧ ((∃ r, LState.fromDict v.cbor fp = .ok r) ↔
      (∀ k ∈ sa, (∀ c ∈ (m.sad k).children, c ∈ sa) ∧ (∀ c, (m.sad k).parent = some c → c ∈ sa) ∧
        ∀ c ∈ (m.sad k).alts, c ∈ sa) ∧
      (ss = false → (∀ i ∈ li, (m.link i).summit ∈ su ∧ (m.link i).saddle ∈ sa ++ ru) ∧
        ∀ i ∈ dm, (m.dom i).summit ∈ su ∧ ∀ k ∈ (m.dom i).saddles, k ∈ sa ++ ru)) := by
  obtain ⟨v, h1, h2, _⟩ := C45_references_exact (m.run ss su sa ru li dm) hsum hsad hnd hs hk fp
  refine ⟨v, h1, h2.trans ?_⟩
  cases ss with
  | false =>
    exact ⟨fun h => ⟨h.family, fun _ => ⟨h.linkers, h.domains⟩⟩, fun h => ⟨h.1, (h.2 rfl).1, (h.2 rfl).2⟩⟩
  | true =>
    refine ⟨fun h => ⟨h.family, fun t => nomatch t⟩, fun h => ⟨h.1, fun i hi => ?_, fun i hi => ?_⟩⟩
    · simp [LMap.run] at hi
    · simp [LMap.run, hd rfl] at hi

/-- A map with a summit, a saddle and the domain of the summit; numbers from 1 on are what the second run finds. -/
def exAgain : LMap where
  sum := exSum
  sad := exSad
  link i := ⟨i, i, i, false⟩
  dom i := ⟨i, [i], []⟩
  summits := [0]
  saddles := [0]
  runoffs := []
  linkers := [0]
  domains := [0]

/-- The hypotheses of the two theorems about files are met by it. -/
example : Function.Injective exAgain.sumId ∧ Function.Injective exAgain.sadId ∧ [1, 2].Nodup ∧
    (∀ D ∈ [1], ∀ a, (exAgain.sum D).mp = some a → AreaSound a) ∧
    (∀ k ∈ [1, 2] ++ [3], ∀ a, (exAgain.sad k).mp = some a → AreaSound a) ∧
    0 ∈ exAgain.domains ∧ (exAgain.dom 0).summit ∉ [1] ∧ (false = true → exAgain.domains = []) :=
  ⟨fun _ _ h => h, fun _ _ h => h, by decide, fun _ _ _ h => Option.some.inj h ▸ exArea_sound,
    fun _ _ _ h => Option.some.inj h ▸ exArea_sound, by decide,
    by decide, fun h => (nomatch h)⟩

/-- Its second run, superSparse and not. -/
example : ((exAgain.run true [1] [1, 2] [3] [] []).domains, (exAgain.run false [1] [1, 2] [3] [1] [1]).domains) =
    ([0], [1]) := by decide

end PyProm
