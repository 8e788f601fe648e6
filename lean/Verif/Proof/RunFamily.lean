import Verif.Proof.RunBasin
import Verif.Spec.Graph

/-
Parents and children during discovery and walk.
-/
namespace PyProm
open Spec

/-- Parent of an object. -/
def par (objs : List SObj) (k : Nat) : Option Nat := objs[k]?.bind (·.parent)

/-- Children of an object. -/
def kids (objs : List SObj) (k : Nat) : List Nat := (objs[k]?.map (·.children)).getD []

/-- Parents list their children and only those. -/
def Fam (objs : List SObj) : Prop := ∀ j p, j ∈ kids objs p ↔ par objs j = some p

/-- The second list is the first with the saddles `ids` adopted by `base`, and perhaps new objects. -/
structure Adopted (objs objs' : List SObj) (base : Nat) (ids : List Nat) : Prop where
  par : ∀ j, par objs' j = if j ∈ ids then some base else par objs j
  kids : ∀ j p, j ∈ kids objs' p ↔ j ∈ kids objs p ∨ (p = base ∧ j ∈ ids)

theorem Adopted.refl (objs : List SObj) (base : Nat) : Adopted objs objs base [] :=
  ⟨by simp, by simp⟩

theorem Adopted.trans {a b c : List SObj} {base : Nat} {ids ids' : List Nat} (h : Adopted a b base ids)
    (h' : Adopted b c base ids') : Adopted a c base (ids ++ ids') where
  par j := by
    rw [h'.par, h.par]
    by_cases h1 : j ∈ ids' <;> by_cases h2 : j ∈ ids <;> simp [h1, h2]
  kids j p := by
    rw [h'.kids, h.kids, List.mem_append]
    constructor
    · rintro ((h | ⟨h1, h2⟩) | ⟨h1, h2⟩)
      · exact .inl h
      · exact .inr ⟨h1, .inl h2⟩
      · exact .inr ⟨h1, .inr h2⟩
    · rintro (h | ⟨h1, h2 | h2⟩)
      · exact .inl (.inl h)
      · exact .inl (.inr ⟨h1, h2⟩)
      · exact .inr ⟨h1, h2⟩

theorem Adopted.congr {a b : List SObj} {base : Nat} {ids ids' : List Nat} (h : Adopted a b base ids)
    (he : ∀ j, j ∈ ids ↔ j ∈ ids') : Adopted a b base ids' where
  par j := by rw [h.par]; simp only [he]
  kids j p := by rw [h.kids]; simp only [he]

theorem Adopted.fam {a b : List SObj} {base : Nat} {ids : List Nat} (h : Adopted a b base ids) (hF : Fam a)
    (hn : ∀ j ∈ ids, PyProm.par a j = none ∨ PyProm.par a j = some base) : Fam b := by
  intro j p
  rw [h.kids, h.par, hF j p]
  by_cases hj : j ∈ ids
  · rw [if_pos hj]
    constructor
    · rintro (hh | ⟨rfl, _⟩)
      · rcases hn j hj with h0 | h0
        · rw [h0] at hh; cases hh
        · rw [← h0]; exact hh
      · rfl
    · intro hh
      exact .inr ⟨(Option.some.inj hh).symm, hj⟩
  · rw [if_neg hj]
    simp [hj]

/-- New objects without family. -/
theorem adopted_new (objs : List SObj) (fs : List Feature) (base : Nat) :
    Adopted objs (objs ++ fs.map fun f => { f := f }) base [] where
  par j := by
    simp only [List.not_mem_nil, if_false]
    unfold PyProm.par
    by_cases hj : j < objs.length
    · rw [List.getElem?_append_left hj]
    · rw [List.getElem?_append_right (by omega), List.getElem?_eq_none (l := objs) (by omega), List.getElem?_map]
      cases fs[j - objs.length]? <;> rfl
  kids j p := by
    simp only [List.not_mem_nil, and_false, or_false]
    unfold PyProm.kids
    by_cases hj : p < objs.length
    · rw [List.getElem?_append_left hj]
    · rw [List.getElem?_append_right (by omega), List.getElem?_eq_none (l := objs) (by omega), List.getElem?_map]
      cases fs[p - objs.length]? <;> simp

theorem par_modObj (objs : List SObj) (k j : Nat) (g : SObj → SObj) (hg : ∀ o, (g o).parent = o.parent) :
    par (modObj objs k g) j = par objs j := by
  unfold par
  rw [modObj_getElem?]
  cases objs[j]? with
  | none => rfl
  | some o =>
    simp only [Option.map_eq_map, Option.map_some, Option.bind_some]
    split
    · exact hg o
    · rfl

theorem kids_modObj (objs : List SObj) (k j : Nat) (g : SObj → SObj) (hg : ∀ o, (g o).children = o.children) :
    kids (modObj objs k g) j = kids objs j := by
  unfold kids
  rw [modObj_getElem?]
  cases objs[j]? with
  | none => rfl
  | some o =>
    simp only [Option.map_eq_map, Option.map_some, Option.getD_some]
    split
    · exact hg o
    · rfl

theorem par_setParent (objs : List SObj) {k : Nat} (hk : k < objs.length) (base j : Nat) :
    par (modObj objs k fun o => { o with parent := some base }) j = if j = k then some base else par objs j := by
  unfold par
  rw [modObj_getElem?]
  by_cases h : j = k
  · subst h
    rw [List.getElem?_eq_getElem hk]
    simp
  · rw [if_neg h]
    cases objs[j]? with
    | none => rfl
    | some o => simp [Ne.symm h]

theorem kids_push (objs : List SObj) {base : Nat} (hb : base < objs.length) (ids : List Nat) (g : SObj → SObj)
    (hg : ∀ o, (g o).children = o.children ++ ids) (p : Nat) :
    kids (modObj objs base g) p = kids objs p ++ if p = base then ids else [] := by
  unfold kids
  rw [modObj_getElem?]
  by_cases h : p = base
  · subst h
    rw [List.getElem?_eq_getElem hb]
    simp [hg]
  · rw [if_neg h]
    cases objs[p]? with
    | none => rfl
    | some o => simp [Ne.symm h]

theorem adopted_same (objs : List SObj) (k base : Nat) (g : SObj → SObj) (h1 : ∀ o, (g o).parent = o.parent)
    (h2 : ∀ o, (g o).children = o.children) : Adopted objs (modObj objs k g) base [] :=
  ⟨fun j => by simp [par_modObj _ _ _ _ h1], fun j p => by simp [kids_modObj _ _ _ _ h2]⟩

/-- One adoption as in the loop over edge saddles. -/
theorem adopted_one (objs : List SObj) {sid base : Nat} (hs : sid < objs.length) (hb : base < objs.length) :
    Adopted objs (modObj (modObj objs sid (fun o => { o with parent := some base })) base
      (fun o => { o with children := o.children ++ [sid], disq := some true })) base [sid] where
  par j := by
    rw [par_modObj _ _ _ _ (by simp), par_setParent _ hs]
    simp
  kids j p := by
    rw [kids_push _ (by rw [modObj_length]; exact hb) [sid] _ (by simp), kids_modObj _ _ _ _ (by simp)]
    by_cases h : p = base <;> simp [h]

theorem par_foldParent (base : Nat) : ∀ (ids : List Nat) (objs : List SObj), (∀ k ∈ ids, k < objs.length) → ∀ j,
    par (ids.foldl (fun objs k => modObj objs k (fun o => { o with parent := some base })) objs) j =
      if j ∈ ids then some base else par objs j := by
  intro ids
  induction ids with
  | nil => intro objs _ j; simp
  | cons i ids ih =>
    intro objs h j
    rw [List.foldl_cons, ih _ (by intro k hk; rw [modObj_length]; exact h k (by simp [hk])),
      par_setParent _ (h i (by simp))]
    by_cases h1 : j ∈ ids <;> by_cases h2 : j = i <;> simp [h1, h2]

theorem kids_foldParent (base : Nat) : ∀ (ids : List Nat) (objs : List SObj) (p : Nat),
    kids (ids.foldl (fun objs k => modObj objs k (fun o => { o with parent := some base })) objs) p = kids objs p := by
  intro ids
  induction ids with
  | nil => intro objs p; rfl
  | cons i ids ih =>
    intro objs p
    rw [List.foldl_cons, ih, kids_modObj _ _ _ _ (by simp)]

theorem foldParent_length (base : Nat) : ∀ (ids : List Nat) (objs : List SObj),
    (ids.foldl (fun objs k => modObj objs k (fun o => { o with parent := some base })) objs).length = objs.length := by
  intro ids
  induction ids with
  | nil => intro objs; rfl
  | cons i ids ih => intro objs; rw [List.foldl_cons, ih, modObj_length]

theorem adopted_children (s : CSt) {base : Nat} {ids : List Nat} (hb : base < s.objs.length)
    (hi : ∀ k ∈ ids, k < s.objs.length) : Adopted s.objs (adoptChildren s base ids).objs base ids where
  par j := by
    unfold adoptChildren
    dsimp only
    rw [par_modObj _ _ _ _ (by simp), par_foldParent _ _ _ hi]
  kids j p := by
    unfold adoptChildren
    dsimp only
    rw [kids_push _ (by rw [foldParent_length]; exact hb) ids _ (by simp), kids_foldParent]
    by_cases h : p = base <;> simp [h]

/-! ### One feature -/

theorem synthetics_fam {E : SaddleEnv} : ∀ {ids : List Nat} {s s' : CSt},
    ids.foldlM (walkSynthetic E) s = .ok s' → s'.objs = s.objs ∧ s'.walked = s.walked ++ ids ∧
      ∀ l ∈ s'.store, l ∈ s.store ∨ l.saddle ∈ ids := by
  intro ids
  induction ids with
  | nil => intro s s' he; cases he; exact ⟨rfl, by simp, fun _ h => .inl h⟩
  | cons k ids ih =>
    intro s s' he
    rw [List.foldlM_cons] at he
    obtain ⟨s1, e1, e2⟩ := bind_ok he
    unfold walkSynthetic at e1
    cases ho : s.objs[k]? with
    | none => rw [ho] at e1; simp at e1
    | some o =>
      rw [ho] at e1
      obtain ⟨w, _, e1⟩ := bind_ok e1
      obtain ⟨s2, e3, e1⟩ := bind_ok e1
      cases e1
      obtain ⟨g1, g2, g3⟩ := ih e2
      obtain ⟨a1, a2, _, _, a5, _⟩ := linkEdges_count e3
      refine ⟨g1.trans a1, ?_, fun l hl => ?_⟩
      · rw [g2]; dsimp only; rw [a2]; simp
      · rcases g3 l hl with h | h
        · rcases a5 l h with h | h
          · exact .inl h
          · right; simp [h]
        · right; simp [h]

theorem edgeSaddles_fam {E : SaddleEnv} {base : Nat} : ∀ {ids : List Nat} {s s' : CSt}, base < s.objs.length →
    ids.foldlM (walkEdgeSaddle E base) s = .ok s' → Adopted s.objs s'.objs base ids ∧ s'.objs.length = s.objs.length ∧
      s'.walked = s.walked ++ ids ∧ ∀ l ∈ s'.store, l ∈ s.store ∨ l.saddle ∈ ids := by
  intro ids
  induction ids with
  | nil => intro s s' _ he; cases he; exact ⟨.refl _ _, rfl, by simp, fun _ h => .inl h⟩
  | cons k ids ih =>
    intro s s' hb he
    rw [List.foldlM_cons] at he
    obtain ⟨s1, e1, e2⟩ := bind_ok he
    unfold walkEdgeSaddle at e1
    cases ho : s.objs[k]? with
    | none => rw [ho] at e1; simp at e1
    | some o =>
      rw [ho] at e1
      obtain ⟨s2, e3, e1⟩ := bind_ok e1
      cases e1
      obtain ⟨a1, a2, _, _, a5, _⟩ := linkEdges_count e3
      have hk := lt_of_getElem? ho
      obtain ⟨g1, g2, g3, g4⟩ := ih (by dsimp only; rw [modObj_length, modObj_length, a1]; exact hb) e2
      dsimp only at g1 g2 g3 g4
      rw [modObj_length, modObj_length, a1] at g2
      refine ⟨?_, g2, ?_, fun l hl => ?_⟩
      · have := (adopted_one s2.objs (sid := k) (base := base) (by rw [a1]; exact hk) (by rw [a1]; exact hb)).trans g1
        rw [a1] at this
        exact this
      · rw [g3, a2]; simp
      · rcases g4 l hl with h | h
        · rcases a5 l h with h | h
          · exact .inl h
          · right; simp [h]
        · right; simp [h]

theorem finishEdge_fam {E : SaddleEnv} {base : Nat} {ids : List Nat} {s s' : CSt} (hb : base < s.objs.length)
    (he : finishEdge E s base ids = .ok s') : Adopted s.objs s'.objs base ids ∧
      s'.walked = s.walked ++ (ids ++ [base]) ∧ ∀ l ∈ s'.store, l ∈ s.store ∨ l.saddle ∈ ids := by
  unfold finishEdge at he
  obtain ⟨s1, e1, e2⟩ := bind_ok he
  cases e2
  obtain ⟨a1, _, a3, a4⟩ := edgeSaddles_fam hb e1
  refine ⟨?_, by simp [a3], a4⟩
  exact (a1.trans (adopted_same _ base base _ (by simp) (by simp))).congr (by simp)

theorem edgeSynthetic_fam {E : SaddleEnv} {base : Nat} {f : Feature} {s s' : CSt} {ids : List Nat}
    (hb : base < s.objs.length) (he : edgeSynthetic E s base f = .ok (s', ids)) :
    s'.walked = s.walked ∧ s'.store = s.store ∧ base < s'.objs.length ∧
      ((f.hpn.length < 2 ∧ ids = [base] ∧ s'.objs = s.objs) ∨
        ((∀ k ∈ ids, s.objs.length ≤ k) ∧ ∃ ids', (∀ k ∈ ids', k ∈ ids) ∧ Adopted s.objs s'.objs base ids')) := by
  unfold edgeSynthetic at he
  obtain ⟨r, e1, e2⟩ := bind_ok he
  cases r with
  | none =>
    cases e2
    refine ⟨rfl, rfl, hb, .inl ⟨?_, rfl, rfl⟩⟩
    by_contra hc
    unfold generateSynthetic at e1
    rw [if_neg hc] at e1
    split at e1
    · obtain ⟨cs, _, e1⟩ := bind_ok e1
      cases e1
    · split at e1
      · obtain ⟨⟨a, b, m⟩, _, e1⟩ := bind_ok e1
        obtain ⟨a, _, e1⟩ := bind_ok e1
        obtain ⟨b, _, e1⟩ := bind_ok e1
        cases e1
      · obtain ⟨cs, _, e1⟩ := bind_ok e1
        cases e1
  | some fs =>
    dsimp only at e2
    have hids := alloc_ids s fs
    have hnew : ∀ k ∈ (alloc s fs).2, s.objs.length ≤ k := fun k hk => ((hids.2.2 k).1 hk).1
    have hlt : ∀ k ∈ (alloc s fs).2, k < (alloc s fs).1.objs.length := fun k hk => by
      rw [alloc_len]; exact ((hids.2.2 k).1 hk).2
    have hbl : base < (alloc s fs).1.objs.length := by rw [alloc_len]; omega
    have hA : Adopted s.objs (alloc s fs).1.objs base [] := adopted_new _ _ _
    split at e2
    · cases e2
      refine ⟨rfl, rfl, ?_, .inr ⟨hnew, (alloc s fs).2, fun _ h => h, ?_⟩⟩
      · unfold adoptChildren
        dsimp only
        rw [modObj_length, foldParent_length]
        exact hbl
      · exact (hA.trans (adopted_children _ hbl hlt)).congr (by simp)
    · cases e2
      exact ⟨rfl, rfl, hbl, .inr ⟨hnew, [], by simp, hA⟩⟩

/-- What one round of the walk does to families, to the list of walked objects and to the linkers. -/
theorem walkFeature_fam {E : SaddleEnv} {s s' : CSt} {base : Nat} {o : SObj} (ho : s.objs[base]? = some o)
    (hsad : o.f.kind ≠ .runoff → 2 ≤ o.f.hpn.length) (he : walkFeature E s base = .ok s') :
    ∃ new ids, s'.walked = s.walked ++ new ∧ Adopted s.objs s'.objs base ids ∧
      (∀ j ∈ ids, j ∈ new ∧ base ∈ new ∧ o.f.edge = true) ∧
      (∀ j ∈ ids, (o.f.kind = .runoff ∧ j = base) ∨ s.objs.length ≤ j) ∧
      ∀ l ∈ s'.store, l ∈ s.store ∨ l.saddle ∈ new := by
  have hb := lt_of_getElem? ho
  unfold walkFeature at he
  rw [ho] at he
  dsimp only at he
  have viaSynth : ∀ (s2 : CSt), o.f.edge = true → s2.walked = s.walked → s2.objs = s.objs →
      (∀ l ∈ s2.store, l ∈ s.store ∨ l.saddle = base) → (o.f.kind = .runoff → o.f.hpn = []) →
      (edgeSynthetic E s2 base o.f >>= fun r => finishEdge E r.1 base r.2) = .ok s' →
      ∃ new ids, s'.walked = s.walked ++ new ∧ Adopted s.objs s'.objs base ids ∧
        (∀ j ∈ ids, j ∈ new ∧ base ∈ new ∧ o.f.edge = true) ∧
        (∀ j ∈ ids, (o.f.kind = .runoff ∧ j = base) ∨ s.objs.length ≤ j) ∧
        ∀ l ∈ s'.store, l ∈ s.store ∨ l.saddle ∈ new := by
    intro s2 hed h1 h2 h3 h4 h5
    obtain ⟨⟨s3, ids⟩, e1, e2⟩ := bind_ok h5
    obtain ⟨b1, b2, b3, b4⟩ := edgeSynthetic_fam (by rw [h2]; exact hb) e1
    obtain ⟨c1, c2, c3⟩ := finishEdge_fam b3 e2
    have hst : ∀ l ∈ s'.store, l ∈ s.store ∨ l.saddle ∈ ids ++ [base] := by
      intro l hl
      rcases c3 l hl with h | h
      · rw [b2] at h
        rcases h3 l h with h | h
        · exact .inl h
        · right; simp [h]
      · right; simp [h]
    rw [b1, h1] at c2
    rcases b4 with ⟨g1, rfl, g3⟩ | ⟨g1, ids', g2, g3⟩
    · have hk : o.f.kind = .runoff := by
        by_contra hc
        have := hsad hc
        omega
      rw [g3, h2] at c1
      exact ⟨_, [base], c2, c1, by simp [hed], fun j hj => .inl ⟨hk, by simpa using hj⟩, hst⟩
    · rw [h2] at g1 g3
      refine ⟨_, _, c2, (g3.trans c1).congr (ids' := ids) ?_, ?_, fun j hj => .inr (g1 j hj), hst⟩
      · intro j
        rw [List.mem_append]
        exact ⟨fun h => h.elim (g2 j) id, .inr⟩
      · intro j hj
        simp [hj, hed]
  by_cases hed : o.f.edge = false
  · rw [if_pos hed] at he
    obtain ⟨r, e1, e2⟩ := bind_ok he
    cases r with
    | none =>
      obtain ⟨a1, a2, a3⟩ := synthetics_fam (E := E) (ids := [base]) (s := s) (s' := s') (by
        rw [List.foldlM_cons]
        rw [show walkSynthetic E s base = .ok s' from e2]
        rfl)
      exact ⟨[base], [], a2, by rw [a1]; exact .refl _ _, by simp, by simp, a3⟩
    | some fs =>
      obtain ⟨a1, a2, a3⟩ := synthetics_fam e2
      exact ⟨_, [], a2, by rw [a1]; exact adopted_new _ _ _, by simp, by simp, a3⟩
  · rw [if_neg hed] at he
    have hed : o.f.edge = true := by simpa using hed
    obtain ⟨w, _, e2⟩ := bind_ok he
    by_cases hk : o.f.kind = .runoff
    · rw [if_pos hk] at e2
      split at e2
      · rename_i hemp
        split at e2
        · cases e2
        · split at e2
          · cases e2
            exact ⟨[base], [], rfl, .refl _ _, by simp, by simp, fun _ h => .inl h⟩
          · rename_i D _
            refine viaSynth (addLinker E true { s with w := w } D base) hed rfl rfl ?_ (fun _ => by simpa using hemp) e2
            exact fun l hl => (@addLinker_count E true { s with w := w } D base).2.2 l hl
      · obtain ⟨c1, c2, c3⟩ := finishEdge_fam (s := { s with w := w }) hb e2
        refine ⟨_, [base], c2, c1, by simp [hed], fun j hj => .inl ⟨hk, by simpa using hj⟩, fun l hl => ?_⟩
        rcases c3 l hl with h | h
        · exact .inl h
        · right; simp at h; simp [h]
    · rw [if_neg hk] at e2
      exact viaSynth { s with w := w } hed rfl rfl (fun _ h => .inl h) (fun h => absurd h hk) e2

/-! ### All rounds -/

/-- The saddle is not a runoff. -/
def nonRunoff (objs : List SObj) (k : Nat) : Bool := !(match objs[k]? with
  | some o => decide (o.f.kind = .runoff)
  | none => false)

theorem Step.nonRunoff {T : Nat → Prop} {s s' : CSt} (h : Step T s s') {k : Nat} (hk : k < s.objs.length) :
    nonRunoff s'.objs k = PyProm.nonRunoff s.objs k := by
  obtain ⟨o', h1, h2, _⟩ := h.feat k _ (List.getElem?_eq_getElem hk)
  unfold PyProm.nonRunoff
  rw [h1, List.getElem?_eq_getElem hk]
  dsimp only
  rw [h2]

/-- Families during the walk; `rem` are the features still to come. The last field holds if there were no
parents before. -/
structure FamSt (P : Prop) (rem : List Nat) (s : CSt) : Prop where
  fam : Fam s.objs
  todo : ∀ b ∈ rem, ∀ o, s.objs[b]? = some o → o.f.kind = .runoff → par s.objs b = none
  apart : ∀ b ∈ rem, b ∉ s.walked
  store : ∀ l ∈ s.store, l.saddle ∈ s.walked
  once : (s.walked.filter (nonRunoff s.objs)).Nodup
  closed : P → ∀ j p, par s.objs j = some p → j ∈ s.walked ∧ p ∈ s.walked ∧
    ∃ oj op, s.objs[j]? = some oj ∧ s.objs[p]? = some op ∧ oj.f.kind = op.f.kind ∧ (op.f.kind ≠ .runoff → op.disq = some true)

theorem par_lt {objs : List SObj} {j p : Nat} (h : par objs j = some p) : j < objs.length := by
  unfold par at h
  cases ho : objs[j]? with
  | none => rw [ho] at h; cases h
  | some o => exact lt_of_getElem? ho

theorem FamSt.feature {E : SaddleEnv} {sites : List Pt} (hE : SEnvOk E sites) {P : Prop} {b : Nat} {rem : List Nat}
    {s s' : CSt} (h : FamSt P (b :: rem) s) (hc : CInv E sites s) (hn : b ∉ rem)
    (hb : ∀ k ∈ b :: rem, k < s.objs.length) (he : walkFeature E s b = .ok s') : FamSt P rem s' := by
  have hbl := hb b (by simp)
  have ho := List.getElem?_eq_getElem hbl
  obtain ⟨s2, new, a1, a2, a3, a4, _, a6, a7⟩ := walkFeature_spec hE hc ho
  have : s2 = s' := by simpa using a1.symm.trans he
  subst this
  have hfo := hc.objs _ (List.mem_of_getElem? ho)
  obtain ⟨new', ids, c1, c2, c3, c4, c5⟩ := walkFeature_fam ho (fun hk => hfo.saddle (by
    have := hfo.kind
    cases hkk : s.objs[b].f.kind <;> simp_all)) he
  have : new' = new := by
    rw [a4] at c1
    exact (List.append_cancel_left c1).symm
  subst this
  have hbw : b ∉ s.walked := h.apart b (by simp)
  have hnew : ∀ k ∈ new', k ∉ s.walked := by
    intro k hk hw
    rcases a7 k hk with rfl | h1
    · exact hbw hw
    · have := hc.walked k hw; omega
  -- parents
  have hnone : ∀ j ∈ ids, par s.objs j = none := by
    intro j hj
    rcases c4 j hj with ⟨h1, rfl⟩ | h1
    · exact h.todo j (by simp) _ ho h1
    · unfold par
      rw [List.getElem?_eq_none h1]; rfl
  -- features of objects that were there before
  have hkeep : ∀ (k : Nat) (o' : SObj), s2.objs[k]? = some o' → ∀ o : SObj, s.objs[k]? = some o → o'.f = o.f := by
    intro k o' h1 o h2
    obtain ⟨o'', e1, e2, _⟩ := a3.feat k o h2
    have : o' = o'' := by simpa using h1.symm.trans e1
    rw [this, e2]
  obtain ⟨ob', g1, g2, _⟩ := a3.feat b _ ho
  refine ⟨c2.fam h.fam fun j hj => .inl (hnone j hj), ?_, ?_, ?_, ?_, ?_⟩
  · intro k hk o' h1 h2
    have hkl := hb k (by simp [hk])
    have hkb : k ≠ b := fun e => hn (e ▸ hk)
    rw [c2.par, if_neg]
    · refine h.todo k (by simp [hk]) _ (List.getElem?_eq_getElem hkl) ?_
      rw [← hkeep k o' h1 _ (List.getElem?_eq_getElem hkl)]
      exact h2
    · intro hj
      rcases c4 k hj with ⟨_, h3⟩ | h3
      · exact hkb h3
      · omega
  · intro k hk hw
    rw [a4, List.mem_append] at hw
    rcases hw with hw | hw
    · exact h.apart k (by simp [hk]) hw
    · have hkl := hb k (by simp [hk])
      rcases a7 k hw with rfl | h1
      · exact hn hk
      · omega
  · intro l hl
    rw [a4, List.mem_append]
    rcases c5 l hl with h1 | h1
    · exact .inl (h.store l h1)
    · exact .inr h1
  · rw [a4, List.filter_append]
    have e1 : s.walked.filter (nonRunoff s2.objs) = s.walked.filter (nonRunoff s.objs) :=
      List.filter_congr fun k hk => a3.nonRunoff (hc.walked k hk)
    rw [e1, List.nodup_append]
    refine ⟨h.once, ?_, ?_⟩
    · unfold Outcome at a6
      split at a6
      · exact a6.2.1.filter _
      · split at a6
        · rename_i hk
          have : new'.filter (nonRunoff s2.objs) = [] := by
            rw [List.filter_eq_nil_iff]
            intro k hk'
            have hkb : k = b := by
              rcases a6 with ⟨h1, _⟩ | ⟨_, h1⟩ <;> rw [h1] at hk' <;> simpa using hk'
            rw [hkb, a3.nonRunoff hbl]
            unfold nonRunoff
            rw [ho]
            simp [hk]
          rw [this]
          exact List.nodup_nil
        · rename_i hed _
          obtain ⟨is, h1, _, h3, h4, _⟩ := a6
          rw [h1]
          refine List.Nodup.filter _ (List.nodup_append.2 ⟨h3, by simp, ?_⟩)
          intro j hj k hk hjk
          rw [List.mem_singleton.1 hk] at hjk
          obtain ⟨o', i1, i2, _⟩ := h4 j hj
          rw [hjk] at i1
          have : o' = ob' := by simpa using i1.symm.trans g1
          rw [this] at i2
          have := i2.edge
          rw [g2] at this
          exact hed this
    · intro j hj k hk hjk
      subst hjk
      exact hnew j (List.mem_filter.1 hk).1 (List.mem_filter.1 hj).1
  · intro hP j p hp
    rw [c2.par] at hp
    by_cases hj : j ∈ ids
    · rw [if_pos hj] at hp
      have hbp : b = p := Option.some.inj hp
      subst hbp
      obtain ⟨h1, h2, h3⟩ := c3 j hj
      refine ⟨by rw [a4]; simp [h1], by rw [a4]; simp [h2], ?_⟩
      rcases c4 j hj with ⟨h4, rfl⟩ | h4
      · exact ⟨ob', ob', g1, g1, rfl, fun hr => absurd (by rw [g2]; exact h4) hr⟩
      · have hjb : j ≠ b := by omega
        unfold Outcome at a6
        rw [if_neg (by rw [h3]; simp)] at a6
        split at a6
        · exfalso
          rcases a6 with ⟨h5, _⟩ | ⟨_, h5⟩ <;> rw [h5] at h1 <;> simp at h1 <;> exact hjb h1
        · rename_i hkr
          obtain ⟨is, h5, _, _, h6, ob, h7, h8, _⟩ := a6
          rw [g1] at h7
          cases h7
          rw [h5] at h1
          have hji : j ∈ is := by simpa [hjb] using h1
          obtain ⟨o', i1, i2, _⟩ := h6 j hji
          refine ⟨o', ob', i1, g1, ?_, fun _ => h8⟩
          rw [i2.kind, g2]
          have := hfo.kind
          cases hkk : s.objs[b].f.kind <;> simp_all
    · rw [if_neg hj] at hp
      obtain ⟨h1, h2, oj, op, h3, h4, h5⟩ := h.closed hP j p hp
      obtain ⟨oj', i1, i2, _⟩ := a3.feat j oj h3
      obtain ⟨op', i3, i4, i5⟩ := a3.feat p op h4
      have hop : op' = op := i5 (by
        rintro (rfl | hp')
        · exact hbw h2
        · have := hc.walked p h2; omega)
      exact ⟨by rw [a4]; simp [h1], by rw [a4]; simp [h2], oj', op', i1, i3, by rw [i2, i4]; exact h5.1, by
        rw [hop]; exact h5.2⟩

theorem FamSt.features {E : SaddleEnv} {sites : List Pt} (hE : SEnvOk E sites) {P : Prop} :
    ∀ {bases : List Nat} {s s' : CSt}, FamSt P bases s → CInv E sites s → bases.Nodup →
    (∀ b ∈ bases, b < s.objs.length) → bases.foldlM (walkFeature E) s = .ok s' → FamSt P [] s' := by
  intro bases
  induction bases with
  | nil => intro s s' h _ _ _ he; cases he; exact h
  | cons b bases ih =>
    intro s s' h hc hn hb he
    rw [List.foldlM_cons] at he
    obtain ⟨s1, e1, e2⟩ := bind_ok he
    obtain ⟨s2, _, a1, a2, a3, _⟩ := walkFeature_spec hE hc (List.getElem?_eq_getElem (hb b (by simp)))
    have : s2 = s1 := by simpa using a1.symm.trans e1
    subst this
    obtain ⟨hnb, hn'⟩ := List.nodup_cons.1 hn
    exact ih (h.feature hE hc hnb hb e1) a2 hn' (fun k hk => lt_of_lt_of_le (hb k (by simp [hk])) a3.len) e2

/-! ### Discovery -/

theorem fam_start (fs : List Feature) : Fam (fs.map fun f => ({ f := f } : SObj)) := by
  intro j p
  unfold kids par
  simp only [List.getElem?_map]
  cases fs[j]? <;> cases fs[p]? <;> simp

theorem par_start (fs : List Feature) (j : Nat) : par (fs.map fun f => ({ f := f } : SObj)) j = none := by
  unfold par
  rw [List.getElem?_map]
  cases fs[j]? <;> rfl

theorem rebuildOne_fam {d : DataMap} {fc : PairSearch} {objs objs' : List SObj} {k : Nat} {new : List Nat}
    (h : rebuildOne d fc objs k = .ok (objs', new)) (hF : Fam objs) :
    Fam objs' ∧ objs.length ≤ objs'.length ∧ ∀ j, j < objs.length → par objs' j = par objs j := by
  unfold rebuildOne at h
  split at h
  · cases h
  · rename_i o ho
    have hk := lt_of_getElem? ho
    split at h
    · cases h; exact ⟨hF, le_refl _, fun _ _ => rfl⟩
    · obtain ⟨fs, _, h⟩ := bind_ok h
      dsimp only at h
      split at h
      · cases h
        have hA : Adopted objs (modObj (objs ++ fs.map fun f => ({ f := f, parent := some k } : SObj)) k
            (fun o => { o with children := o.children ++ (List.range fs.length).map (objs.length + ·), disq := some true }))
            k ((List.range fs.length).map (objs.length + ·)) := by
          constructor
          · intro j
            rw [par_modObj] <;> try (intro _; rfl)
            unfold par
            by_cases hj : j < objs.length
            · rw [if_neg, List.getElem?_append_left hj]
              simp; omega
            · rw [List.getElem?_append_right (by omega), List.getElem?_map, List.getElem?_eq_none (l := objs) (by omega)]
              by_cases hf : j - objs.length < fs.length
              · rw [if_pos, List.getElem?_eq_getElem hf]
                · rfl
                · exact List.mem_map.2 ⟨j - objs.length, List.mem_range.2 hf, by omega⟩
              · rw [if_neg, List.getElem?_eq_none (l := fs) (by omega)]
                · rfl
                · simp; omega
          · intro j p
            unfold kids
            rw [modObj_getElem?]
            by_cases hp : p = k
            · subst hp
              rw [List.getElem?_append_left hk, ho]
              simp
            · by_cases hpl : p < objs.length
              · rw [List.getElem?_append_left hpl]
                cases objs[p]? <;> simp [hp, Ne.symm hp]
              · rw [List.getElem?_append_right (by omega), List.getElem?_map, List.getElem?_eq_none (l := objs) (by omega)]
                cases fs[p - objs.length]? <;> simp [hp, Ne.symm hp]
        refine ⟨hA.fam hF ?_, by rw [modObj_length]; simp, ?_⟩
        · intro j hj
          left
          simp at hj
          obtain ⟨a, _, rfl⟩ := hj
          unfold par
          rw [List.getElem?_eq_none (by omega)]; rfl
        · intro j hj
          rw [hA.par, if_neg]
          simp; omega
      · cases h
        have hA := adopted_new objs fs k
        refine ⟨hA.fam hF (by simp), by simp, fun j _ => by rw [hA.par]; simp⟩

theorem rebuildSaddles_fam {d : DataMap} {fc : PairSearch} : ∀ (ks : List Nat) (objs objs' : List SObj)
    (new : List Nat), rebuildSaddles d fc ks objs = .ok (objs', new) → Fam objs →
    Fam objs' ∧ objs.length ≤ objs'.length ∧ ∀ j, j < objs.length → par objs' j = par objs j
  | [], objs, objs', new, h, hF => by
    unfold rebuildSaddles at h; cases h; exact ⟨hF, le_refl _, fun _ _ => rfl⟩
  | k :: ks, objs, objs', new, h, hF => by
    unfold rebuildSaddles at h
    obtain ⟨⟨o1, n1⟩, h1, h⟩ := bind_ok h
    obtain ⟨⟨o2, n2⟩, h2, h⟩ := bind_ok h
    cases h
    obtain ⟨a1, a2, a3⟩ := rebuildOne_fam h1 hF
    obtain ⟨b1, b2, b3⟩ := rebuildSaddles_fam ks o1 _ _ h2 a1
    exact ⟨b1, le_trans a2 b2, fun j hj => by rw [b3 j (lt_of_lt_of_le hj a2), a3 j hj]⟩

theorem discover_fam {d : DataMap} {fc : PairSearch} {o : Pt → Oracle} {order : List Pt} {rebuild : Bool}
    {m : DMap} (h : DMap.discover d fc o order rebuild = .ok m) :
    Fam m.st.objs ∧ (∀ k ∈ m.runoffs, par m.st.objs k = none) ∧
      (rebuild = false → ∀ k, par m.st.objs k = none) := by
  unfold DMap.discover at h
  obtain ⟨D, _, h⟩ := bind_ok h
  obtain ⟨corners, _, h⟩ := bind_ok h
  obtain ⟨⟨objs, saddles⟩, h1, h⟩ := bind_ok h
  cases h
  have hlen : ∀ k ∈ (List.range (D.runoffs ++ corners).length).map (D.saddles.length + ·),
      k < ((D.saddles ++ (D.runoffs ++ corners)).map fun f => ({ f := f } : SObj)).length := by
    intro k hk
    obtain ⟨i, hi, rfl⟩ := List.mem_map.1 hk
    have := List.mem_range.1 hi
    simp at this ⊢
    omega
  cases rebuild with
  | false =>
    cases h1
    exact ⟨fam_start _, fun k _ => par_start _ k, fun _ k => par_start _ k⟩
  | true =>
    obtain ⟨a1, _, a3⟩ := rebuildSaddles_fam _ _ _ _ h1 (fam_start _)
    exact ⟨a1, fun k hk => (a3 k (hlen k hk)).trans (par_start _ k), by simp⟩

/-- Families in a walked map. -/
theorem walk_fam {E : SaddleEnv} (hE : RunOk E) {sites : List Pt} {m0 m : DMap} (h0 : Fresh E.d sites m0)
    (hF : Fam m0.st.objs) (hR : ∀ k ∈ m0.runoffs, par m0.st.objs k = none)
    (hw : m0.walk E [] = .ok (m, none)) : FamSt (∀ k, par m0.st.objs k = none) [] m.st := by
  have hst := h0.start
  unfold DMap.walk at hw
  obtain ⟨w, e1, e2⟩ := bind_ok hw
  obtain ⟨⟨r, s⟩, e3, e4⟩ := bind_ok e2
  obtain ⟨w', i1, i2, _⟩ := walkInit_spec hE.geo h0.tops
  have : w' = w := by
    rw [h0.none] at e1
    simpa using i1.symm.trans e1
  subst this
  have hinv : CInv { E with summits := m0.summits } sites
      { m0.st with w := w', walked := [], linkers := [], doms := [] } := by
    refine ⟨i2, h0.ok, ?_, ?_, ?_, ?_, ?_, ?_, ?_, ?_, ?_, h0.disq⟩ <;> rw [hst] <;> simp [CSt.start]
  have hb : ∀ b ∈ m0.saddles ++ m0.runoffs, b < m0.st.objs.length := by
    intro b hb
    rcases List.mem_append.1 hb with h | h
    · obtain ⟨o, ho, _⟩ := h0.sad b h
      exact lt_of_getElem? ho
    · obtain ⟨o, ho, _⟩ := h0.run b h
      exact lt_of_getElem? ho
  have hS : FamSt (∀ k, par m0.st.objs k = none) (m0.saddles ++ m0.runoffs)
      { m0.st with w := w', walked := [], linkers := [], doms := [] } := by
    refine ⟨hF, ?_, by simp, by rw [hst]; simp [CSt.start], by simp, ?_⟩
    · intro b hb o ho hk
      rcases List.mem_append.1 hb with h | h
      · obtain ⟨o', ho', hk'⟩ := h0.sad b h
        have : o = o' := by simpa using ho.symm.trans ho'
        rw [this, hk'] at hk
        cases hk
      · exact hR b h
    · intro hP j p hp
      rw [show par m0.st.objs j = none from hP j] at hp
      cases hp
  unfold climbFromSaddles at e3
  obtain ⟨s1, e5, e6⟩ := bind_ok e3
  cases e6
  simp only [List.isEmpty_nil, if_true] at e5 e4
  have hm : m.st = s := by
    cases e4; rfl
  rw [hm]
  exact hS.features (hE.senv h0.tops) hinv h0.nodup hb e5

end PyProm
