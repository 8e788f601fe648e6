import Verif.Spec.DivideTree
import Verif.Props.Graph

/-
Lemmas on the divide tree
-/
namespace PyProm
open Spec

theorem foldl_rel {α σ : Type} (P : σ → σ → Prop) (Q : α → σ → Prop) (g : σ → α → σ) (refl : ∀ s, P s s)
    (trans : ∀ a b c, P a b → P b c → P a c) (hQ : ∀ a s t, P s t → Q a s → Q a t) (l : List α)
    (step : ∀ a ∈ l, ∀ s, P s (g s a) ∧ Q a (g s a)) (s : σ) :
    P s (l.foldl g s) ∧ ∀ a ∈ l, Q a (l.foldl g s) := by
  induction l generalizing s with
  | nil => exact ⟨refl s, fun a h => by cases h⟩
  | cons b l ih =>
    obtain ⟨h1, h2⟩ := ih (fun a h => step a (List.mem_cons_of_mem _ h)) (g s b)
    obtain ⟨h3, h4⟩ := step b List.mem_cons_self s
    refine ⟨trans _ _ _ h3 h1, fun a ha => ?_⟩
    rcases List.mem_cons.mp ha with rfl | ha
    · exact hQ _ _ _ h1 h4
    · exact h2 a ha

theorem foldl_rel' {α σ : Type} (P : σ → σ → Prop) (g : σ → α → σ) (refl : ∀ s, P s s)
    (trans : ∀ a b c, P a b → P b c → P a c) (l : List α)
    (step : ∀ a ∈ l, ∀ s, P s (g s a)) (s : σ) : P s (l.foldl g s) :=
  (foldl_rel P (fun _ _ => True) g refl trans (fun _ _ _ _ h => h) l (fun a h s => ⟨step a h s, trivial⟩) s).1

theorem mem_via {N : FNet} {f : Flags} {i j : Nat} :
    j ∈ N.linkersViaSaddle f true true i ↔ j ∈ N.sadLinks (N.link i).2 ∧ f.linkDisq j = false ∧ j ≠ i := by
  unfold FNet.linkersViaSaddle linkerOk
  simp only [List.mem_filter]
  cases f.linkDisq j <;> simp
  intro _
  exact ⟨fun h e => h e.symm, fun h e => h e.symm⟩

theorem mem_addNew (eq : Nat → Nat → Bool) (x y : Nat) (l : List Nat) :
    (y ∈ l → y ∈ addNew eq x l) ∧ (y ∈ addNew eq x l → y ∈ l ∨ y = x) ∧
    (∃ z ∈ addNew eq x l, z = x ∨ eq z x = true) := by
  unfold addNew
  by_cases h : l.any (fun y => decide (y = x) || eq y x) = true
  · rw [if_pos h]
    obtain ⟨z, hz, h⟩ := List.any_eq_true.mp h
    exact ⟨id, .inl, z, hz, by simpa using h⟩
  · rw [if_neg h]
    exact ⟨fun h => by simp [h], fun h => by simpa using h, x, by simp, .inl rfl⟩

/-! ### Everything written stays -/

/-- Nothing is ever taken away. -/
structure ChaseMono (s t : ChaseSt) : Prop where
  exempt : ∀ i ∈ s.exempt, i ∈ t.exempt
  paths : ∀ q ∈ s.paths, q ∈ t.paths
  edge : s.edge = true → t.edge = true
  sumBnd : ∀ k ∈ s.sumBnd, k ∈ t.sumBnd
  sadBnd : ∀ k, ∀ D ∈ s.sadBnd k, D ∈ t.sadBnd k
  busted : ∀ D ∈ s.busted, D ∈ t.busted

theorem ChaseMono.refl (s : ChaseSt) : ChaseMono s s := ⟨fun _ h => h, fun _ h => h, id, fun _ h => h, fun _ _ h => h, fun _ h => h⟩

theorem ChaseMono.trans (a b c : ChaseSt) (h : ChaseMono a b) (h' : ChaseMono b c) : ChaseMono a c :=
  ⟨fun i x => h'.1 i (h.1 i x), fun q x => h'.2 q (h.2 q x), fun x => h'.3 (h.3 x), fun k x => h'.4 k (h.4 k x),
    fun k D x => h'.5 k D (h.5 k D x), fun D x => h'.6 D (h.6 D x)⟩

theorem report_mono (s : ChaseSt) (p : List Nat) (k : Nat) (e : Bool) : ChaseMono s (s.report p k e) := by
  constructor <;> simp +contextual [ChaseSt.report]

theorem mark_mono (N : FNet) (s : ChaseSt) (m k : Nat) : ChaseMono s (s.mark N m k) := by
  constructor <;> simp +contextual [ChaseSt.mark]
  · exact fun k' h => (mem_addNew _ _ _ _).1 h
  · intro k' D h
    split
    · rename_i e; subst e; exact (mem_addNew _ _ _ _).1 h
    · exact h

/-- The part of the state that the paths depend on. -/
def Reported (N : FNet) (s : ChaseSt) (i : Nat) : Prop := ∃ q, (⟨q ++ [i], (N.link i).2⟩ : LprPath) ∈ s.paths

/-- Saddle `k` and summit `m` are recorded as bounding each other (up to `==`). -/
def BndMarked (N : FNet) (m : Nat) (s : ChaseSt) (k : Nat) : Prop :=
  (∃ z ∈ s.sumBnd, z = k ∨ N.eq (.saddle z) (.saddle k) = true) ∧
    ∃ z ∈ s.sadBnd k, z = m ∨ N.eq (.summit z) (.summit m) = true

/-- All linkers of the summit were looked at. -/
def AllSeen (N : FNet) (f : Flags) (s : ChaseSt) (b : Nat) : Prop :=
  ∀ i ∈ N.sumLinks b, f.linkDisq i = false → i ∈ s.exempt

/-- What has been done about linker `j` after linker `i`. -/
structure Handled (N : FNet) (f : Flags) (m : Nat) (s : ChaseSt) (a i j : Nat) : Prop where
  falls : Falls N f a i j → N.edge (.summit (N.link j).1) = false → j ∈ s.exempt ∨ AllSeen N f s (N.link j).1
  edge : EdgeSummit N f a i j → j ∈ s.exempt ∨ (Reported N s i ∧ s.edge = true)
  rises : Rises N f a i j → j ∈ s.exempt ∨ (Reported N s i ∧ BndMarked N m s (N.link i).2)

/-- What has been done about linker `i`. -/
structure Looked (N : FNet) (f : Flags) (m : Nat) (s : ChaseSt) (i : Nat) : Prop where
  edge : EdgeSaddle N f (N.link i).1 i → Reported N s i ∧ s.edge = true
  inner : ∀ j, Handled N f m s (N.link i).1 i j

theorem Reported.mono {N : FNet} {s t : ChaseSt} (h : ChaseMono s t) {i} : Reported N s i → Reported N t i :=
  fun ⟨q, hq⟩ => ⟨q, h.paths _ hq⟩

theorem BndMarked.mono {N : FNet} {m} {s t : ChaseSt} (h : ChaseMono s t) {k} : BndMarked N m s k → BndMarked N m t k :=
  fun ⟨⟨z, hz, e⟩, ⟨y, hy, e'⟩⟩ => ⟨⟨z, h.sumBnd _ hz, e⟩, ⟨y, h.sadBnd _ _ hy, e'⟩⟩

theorem AllSeen.mono {N : FNet} {f : Flags} {s t : ChaseSt} (h : ChaseMono s t) {b} : AllSeen N f s b → AllSeen N f t b :=
  fun x i hi hd => h.exempt _ (x i hi hd)

theorem Handled.mono {N : FNet} {f : Flags} {m} {s t : ChaseSt} (h : ChaseMono s t) {a i j} (x : Handled N f m s a i j) :
    Handled N f m t a i j :=
  ⟨fun y z => (x.falls y z).imp (h.exempt _) (AllSeen.mono h),
    fun y => (x.edge y).imp (h.exempt _) fun z => ⟨z.1.mono h, h.edge z.2⟩,
    fun y => (x.rises y).imp (h.exempt _) fun z => ⟨z.1.mono h, z.2.mono h⟩⟩

theorem Looked.mono {N : FNet} {f : Flags} {m} {s t : ChaseSt} (h : ChaseMono s t) {i} (x : Looked N f m s i) :
    Looked N f m t i :=
  ⟨fun y => ⟨(x.edge y).1.mono h, h.edge (x.edge y).2⟩, fun j => (x.inner j).mono h⟩

/-- `t` follows `s`, and unless the chase gave up, every linker newly looked at was dealt with, together with all others of its summit unless
that is one in `W`. -/
def ChaseStep (N : FNet) (f : Flags) (m : Nat) (W : Nat → Prop) (s t : ChaseSt) : Prop :=
  ChaseMono s t ∧ (NoneLike N m t.busted → ∀ x ∈ t.exempt, x ∉ s.exempt → Looked N f m t x ∧
    (AllSeen N f t (N.link x).1 ∨ W (N.link x).1))

theorem NoneLike.anti {N : FNet} {m} {s t : ChaseSt} (h : ChaseMono s t) (x : NoneLike N m t.busted) : NoneLike N m s.busted :=
  fun y hy => x y (h.busted y hy)

theorem ChaseStep.refl {N : FNet} {f : Flags} {m : Nat} {W : Nat → Prop} (s : ChaseSt) : ChaseStep N f m W s s :=
  ⟨.refl s, fun _ _ h h' => absurd h h'⟩

theorem ChaseStep.trans {N : FNet} {f : Flags} {m : Nat} {W : Nat → Prop} (a b c : ChaseSt) (h : ChaseStep N f m W a b)
    (h' : ChaseStep N f m W b c) : ChaseStep N f m W a c := by
  refine ⟨ChaseMono.trans _ _ _ h.1 h'.1, fun hb x hx hn => ?_⟩
  by_cases hxb : x ∈ b.exempt
  · obtain ⟨h1, h2⟩ := h.2 (NoneLike.anti h'.1 hb) x hxb hn
    exact ⟨h1.mono h'.1, h2.imp_left (AllSeen.mono h'.1)⟩
  · exact h'.2 hb x hx hxb

theorem ChaseStep.weaken {N : FNet} {f : Flags} {m : Nat} {W W' : Nat → Prop} (hW : ∀ x, W x → W' x) {s t : ChaseSt}
    (h : ChaseStep N f m W s t) : ChaseStep N f m W' s t :=
  ⟨h.1, fun a x y z => ⟨(h.2 a x y z).1, (h.2 a x y z).2.imp_right (hW _)⟩⟩

theorem ChaseStep.same {N : FNet} {f : Flags} {m : Nat} {W : Nat → Prop} {s t : ChaseSt} (h : ChaseMono s t)
    (e : t.exempt = s.exempt) : ChaseStep N f m W s t :=
  ⟨h, fun _ _ hx hn => absurd (e ▸ hx) hn⟩

/-- What a recursive call has to do. -/
def GoOk (N : FNet) (f : Flags) (m : Nat) (go : Nat → List Nat → ChaseSt → ChaseSt) : Prop :=
  ∀ b p s, ChaseStep N f m (fun _ => False) s (go b p s) ∧ (NoneLike N m (go b p s).busted → AllSeen N f (go b p s) b)

theorem chaseNext_ok {N : FNet} {f : Flags} {m : Nat} {go} (hgo : GoOk N f m go) (a i : Nat) (p : List Nat) (hd : f.linkDisq i = false)
    (j : Nat) (s : ChaseSt) :
    ChaseStep N f m (fun _ => False) s (chaseNext N f go m a i p s j) ∧
      (NoneLike N m (chaseNext N f go m a i p s j).busted → Handled N f m (chaseNext N f go m a i p s j) a i j) := by
  unfold chaseNext
  by_cases hj : j ∈ s.exempt
  · rw [if_pos (by simp [hj])]
    exact ⟨.refl s, fun _ => ⟨fun _ _ => .inl hj, fun _ => .inl hj, fun _ => .inl hj⟩⟩
  rw [if_neg (by simp [hj, hd])]
  dsimp only
  by_cases hle : N.elev (.summit (N.link j).1) ≤ N.elev (.summit a)
  · by_cases he : N.edge (.summit (N.link j).1) = true
    · rw [if_pos ⟨hle, he⟩]
      refine ⟨.same (report_mono _ _ _ _) rfl, fun _ => ⟨fun _ h => ?_, fun _ => .inr ⟨⟨p, ?_⟩, ?_⟩, fun h => ?_⟩⟩
      · rw [he] at h; cases h
      · simp [ChaseSt.report]
      · simp [ChaseSt.report]
      · exact absurd hle (not_le.mpr h.2)
    · rw [if_neg (fun h => he h.2), if_pos hle]
      obtain ⟨h1, h2⟩ := hgo (N.link j).1 (p ++ [i, j]) s
      exact ⟨h1, fun hb => ⟨fun _ _ => .inr (h2 hb), fun h => absurd h.2 he, fun h => absurd hle (not_le.mpr h.2)⟩⟩
  · rw [if_neg (fun h => hle h.1), if_neg hle, if_pos (not_le.mp hle)]
    refine ⟨.same (ChaseMono.trans _ _ _ (report_mono _ _ _ _) (mark_mono _ _ _ _)) rfl, fun _ =>
      ⟨fun h => absurd h.2 hle, fun h => absurd h.1.2 hle, fun _ => .inr ⟨⟨p, ?_⟩, ?_, ?_⟩⟩⟩
    · simp [ChaseSt.report, ChaseSt.mark]
    · exact (mem_addNew (fun a b => N.eq (.saddle a) (.saddle b)) _ 0 _).2.2
    · simp only [ChaseSt.mark, if_true]
      exact (mem_addNew (fun a b => N.eq (.summit a) (.summit b)) _ 0 _).2.2

theorem chaseLinker_ok {N : FNet} {f : Flags} {m : Nat} {go} (hgo : GoOk N f m go) (hN : OwnLinkers N) (a : Nat) (p : List Nat)
    (i : Nat) (hi : i ∈ N.sumLinks a) (s : ChaseSt) :
    ChaseStep N f m (· = a) s (chaseLinker N f go m a p s i) ∧
      (f.linkDisq i = false → i ∈ (chaseLinker N f go m a p s i).exempt) := by
  have ha : (N.link i).1 = a := hN a i hi
  unfold chaseLinker
  by_cases hd : f.linkDisq i = true
  · rw [if_pos hd]
    exact ⟨.refl s, fun h => by rw [hd] at h; cases h⟩
  rw [if_neg hd]
  rw [Bool.not_eq_true] at hd
  by_cases hx : i ∈ s.exempt
  · rw [if_pos hx]
    exact ⟨.refl s, fun _ => hx⟩
  rw [if_neg hx]
  dsimp only
  have h0 : ChaseMono s { s with exempt := s.exempt ++ [i] } := by constructor <;> simp +contextual
  -- it suffices to deal with `i`
  have key : ∀ t, ChaseStep N f m (fun _ => False) { s with exempt := s.exempt ++ [i] } t →
      (NoneLike N m t.busted → Looked N f m t i) → ChaseStep N f m (· = a) s t ∧ (f.linkDisq i = false → i ∈ t.exempt) := by
    intro t ht hl
    refine ⟨⟨ChaseMono.trans _ _ _ h0 ht.1, fun hb x hxt hxs => ?_⟩, fun _ => ht.1.exempt _ (by simp)⟩
    by_cases e : x = i
    · subst e; exact ⟨hl hb, .inr ha⟩
    · obtain ⟨h1, h2⟩ := ht.2 hb x hxt (by simp [hxs, e])
      exact ⟨h1, .inl (h2.resolve_right id)⟩
  by_cases hs : f.saddleDisq (N.link i).2 = true
  · rw [if_pos hs]
    have hs' := (saddleDisq_iff _ _).mp hs
    exact key _ (.refl _) fun _ => ⟨fun h => absurd hs' h.2.2.1, fun j =>
      ⟨fun h => absurd hs' h.1.saddle, fun h => absurd hs' h.1.1.saddle, fun h => absurd hs' h.1.saddle⟩⟩
  rw [if_neg hs]
  by_cases he : N.edge (.saddle (N.link i).2) = true
  · rw [if_pos he]
    have hf : N.edge (.saddle (N.link i).2) ≠ false := by simp [he]
    exact key _ (.same (report_mono _ _ _ _) rfl) fun _ => ⟨fun _ => ⟨⟨p, by simp [ChaseSt.report]⟩, by simp [ChaseSt.report]⟩, fun j =>
      ⟨fun h => absurd h.1.inner hf, fun h => absurd h.1.1.inner hf, fun h => absurd h.1.inner hf⟩⟩
  rw [if_neg he]
  obtain ⟨h1, h2⟩ := foldl_rel (ChaseStep N f m (fun _ => False)) (fun j t => NoneLike N m t.busted → Handled N f m t a i j)
    (chaseNext N f go m a i p) ChaseStep.refl ChaseStep.trans
    (fun j s t h hq hb => (hq (NoneLike.anti h.1 hb)).mono h.1) (N.linkersViaSaddle f true true i)
    (fun j _ s => chaseNext_ok hgo a i p hd j s) { s with exempt := s.exempt ++ [i] }
  refine key _ h1 fun hb => ⟨fun h => absurd h.2.2.2 he, fun j => ?_⟩
  rw [ha]
  by_cases hj : j ∈ N.linkersViaSaddle f true true i
  · exact h2 j hj hb
  · have hno : ¬ Passage N f a i j := fun h => hj (mem_via.mpr ⟨h.second, h.open2, h.other⟩)
    exact ⟨fun h => absurd h.1 hno, fun h => absurd h.1.1 hno, fun h => absurd h.1 hno⟩

theorem chase_ok (N : FNet) (f : Flags) (m : Nat) (hN : OwnLinkers N) (left : Nat) : GoOk N f m (chase N f m left) := by
  induction left with
  | zero =>
    intro b p s
    have hm : ChaseMono s (chase N f m 0 b p s) := by
      constructor <;> simp +contextual [chase]
      exact fun D h => (mem_addNew _ _ _ _).1 h
    have hb : ¬ NoneLike N m (chase N f m 0 b p s).busted := by
      intro h
      obtain ⟨z, hz, e⟩ := (mem_addNew (fun a b => N.eq (.summit a) (.summit b)) m 0 s.busted).2.2
      obtain ⟨h1, h2⟩ := h z hz
      rcases e with e | e
      · exact h1 e
      · rw [h2] at e; cases e
    exact ⟨⟨hm, fun h => absurd h hb⟩, fun h => absurd h hb⟩
  | succ left ih =>
    intro b p s
    rw [chase]
    obtain ⟨h1, h2⟩ := foldl_rel (ChaseStep N f m (· = b)) (fun i t => f.linkDisq i = false → i ∈ t.exempt)
      (chaseLinker N f (chase N f m left) m b p) ChaseStep.refl ChaseStep.trans
      (fun i s t h hq hd => h.1.exempt _ (hq hd)) (N.sumLinks b) (fun i hi s => chaseLinker_ok ih hN b p i hi s) s
    refine ⟨⟨h1.1, fun hb x hx hn => ?_⟩, fun _ i hi hd => h2 i hi hd⟩
    obtain ⟨h3, h4⟩ := h1.2 hb x hx hn
    refine ⟨h3, .inl ?_⟩
    rcases h4 with h4 | h4
    · exact h4
    · rw [h4]; exact fun i hi hd => h2 i hi hd

/-- At the end everything that is reachable was dealt with. -/
theorem chase_complete {N : FNet} {f : Flags} {m : Nat} (hN : OwnLinkers N) (left : Nat) (s : ChaseSt) (hs : s.exempt = [])
    (hb : NoneLike N m (chase N f m left m [] s).busted) {p b} (h : Descent N f m p b) :
    AllSeen N f (chase N f m left m [] s) b ∧
      ∀ i ∈ N.sumLinks b, f.linkDisq i = false → Looked N f m (chase N f m left m [] s) i := by
  obtain ⟨h1, h2⟩ := chase_ok N f m hN left m [] s
  have h3 : ∀ x ∈ (chase N f m left m [] s).exempt, Looked N f m (chase N f m left m [] s) x ∧
      AllSeen N f (chase N f m left m [] s) (N.link x).1 := by
    intro x hx
    obtain ⟨h4, h5⟩ := h1.2 hb x hx (by simp [hs])
    exact ⟨h4, h5.resolve_right id⟩
  have h6 : AllSeen N f (chase N f m left m [] s) b := by
    induction h with
    | start => exact h2 hb
    | @step p a i j hp hf he ih =>
      have hx := ih i hf.1.first hf.1.open1
      have ha : (N.link i).1 = a := hN a i hf.1.first
      rcases (((h3 i hx).1.inner j).falls (by rw [ha]; exact hf) he) with h | h
      · exact (h3 j h).2
      · exact h
  exact ⟨h6, fun i hi hd => (h3 i (h6 i hi hd)).1⟩

/-! ### Nothing else is written -/

/-- Whatever `t` has and `s` has not is justified. -/
structure ChaseSound (N : FNet) (f : Flags) (m : Nat) (s t : ChaseSt) : Prop where
  kept : ∀ q ∈ s.paths, q ∈ t.paths
  exempt : ∀ x ∈ t.exempt, x ∈ s.exempt ∨ ∃ b, InRegion N f m b ∧ x ∈ N.sumLinks b
  paths : ∀ q ∈ t.paths, q ∈ s.paths ∨ EndsAtEdge N f m q ∨ EndsAtRise N f m q
  edge : t.edge = true → s.edge = true ∨ ∃ q ∈ t.paths, EndsAtEdge N f m q
  sumBnd : ∀ k ∈ t.sumBnd, k ∈ s.sumBnd ∨ ∃ q ∈ t.paths, q.saddle = k ∧ EndsAtRise N f m q
  sadBnd : ∀ k, ∀ D ∈ t.sadBnd k, D ∈ s.sadBnd k ∨ (D = m ∧ ∃ q ∈ t.paths, q.saddle = k ∧ EndsAtRise N f m q)
  busted : ∀ D ∈ t.busted, D ∈ s.busted ∨ D = m

theorem ChaseSound.refl {N : FNet} {f : Flags} {m : Nat} (s : ChaseSt) : ChaseSound N f m s s :=
  ⟨fun _ h => h, fun _ => .inl, fun _ => .inl, .inl, fun _ => .inl, fun _ _ => .inl, fun _ => .inl⟩

theorem ChaseSound.trans {N : FNet} {f : Flags} {m : Nat} (a b c : ChaseSt) (h : ChaseSound N f m a b) (h' : ChaseSound N f m b c) :
    ChaseSound N f m a c := by
  refine ⟨fun q x => h'.1 q (h.1 q x), fun x hx => ?_, fun q hq => ?_, fun he => ?_, fun k hk => ?_, fun k D hD => ?_, fun D hD => ?_⟩
  · rcases h'.exempt x hx with hx | hx
    · exact h.exempt x hx
    · exact .inr hx
  · rcases h'.paths q hq with hq | hq
    · exact h.paths q hq
    · exact .inr hq
  · rcases h'.edge he with he | he
    · exact (h.edge he).imp_right fun ⟨q, hq, e⟩ => ⟨q, h'.1 q hq, e⟩
    · exact .inr he
  · rcases h'.sumBnd k hk with hk | hk
    · exact (h.sumBnd k hk).imp_right fun ⟨q, hq, e⟩ => ⟨q, h'.1 q hq, e⟩
    · exact .inr hk
  · rcases h'.sadBnd k D hD with hD | hD
    · exact (h.sadBnd k D hD).imp_right fun ⟨x, q, hq, e⟩ => ⟨x, q, h'.1 q hq, e⟩
    · exact .inr hD
  · rcases h'.busted D hD with hD | hD
    · exact h.busted D hD
    · exact .inr hD

theorem report_sound_edge {N : FNet} {f : Flags} {m : Nat} (s : ChaseSt) (p : List Nat) (i : Nat)
    (h : EndsAtEdge N f m ⟨p ++ [i], (N.link i).2⟩) : ChaseSound N f m s (s.report (p ++ [i]) (N.link i).2 true) := by
  refine ⟨(report_mono _ _ _ _).paths, fun _ => .inl, fun q hq => ?_, fun _ => .inr ⟨_, by simp [ChaseSt.report], h⟩, fun _ => .inl,
    fun _ _ => .inl, fun _ => .inl⟩
  simp only [ChaseSt.report, List.mem_append, List.mem_singleton] at hq
  rcases hq with hq | rfl
  · exact .inl hq
  · exact .inr (.inl h)

theorem report_sound_rise {N : FNet} {f : Flags} {m : Nat} (s : ChaseSt) (p : List Nat) (i : Nat)
    (h : EndsAtRise N f m ⟨p ++ [i], (N.link i).2⟩) :
    ChaseSound N f m s ((s.report (p ++ [i]) (N.link i).2 false).mark N m (N.link i).2) := by
  have hq0 : (⟨p ++ [i], (N.link i).2⟩ : LprPath) ∈ ((s.report (p ++ [i]) (N.link i).2 false).mark N m (N.link i).2).paths := by
    simp [ChaseSt.report, ChaseSt.mark]
  refine ⟨fun q hq => by simp [ChaseSt.report, ChaseSt.mark, hq], fun _ => .inl, fun q hq => ?_, fun he => ?_, fun k hk => ?_, fun k D hD => ?_,
    fun _ => .inl⟩
  · simp only [ChaseSt.report, ChaseSt.mark, List.mem_append, List.mem_singleton] at hq
    rcases hq with hq | rfl
    · exact .inl hq
    · exact .inr (.inr h)
  · simp only [ChaseSt.report, ChaseSt.mark, Bool.or_false] at he
    exact .inl he
  · rcases (mem_addNew (fun a b => N.eq (.saddle a) (.saddle b)) _ _ _).2.1 hk with hk | rfl
    · exact .inl hk
    · exact .inr ⟨_, hq0, rfl, h⟩
  · simp only [ChaseSt.mark] at hD
    split at hD
    · rename_i e
      subst e
      rcases (mem_addNew _ _ _ _).2.1 hD with hD | rfl
      · exact .inl hD
      · exact .inr ⟨rfl, _, hq0, rfl, h⟩
    · exact .inl hD

theorem chaseNext_sound {N : FNet} {f : Flags} {m : Nat} {go} (hgo : ∀ b p s, Descent N f m p b → ChaseSound N f m s (go b p s))
    (a i : Nat) (p : List Nat) (hp : Descent N f m p a) (j : Nat) (hj : Passage N f a i j) (s : ChaseSt) :
    ChaseSound N f m s (chaseNext N f go m a i p s j) := by
  unfold chaseNext
  split
  · exact .refl s
  dsimp only
  split
  · rename_i h
    exact report_sound_edge s p i ⟨p, a, i, rfl, rfl, hp, .inr ⟨j, ⟨hj, h.1⟩, h.2⟩⟩
  split
  · rename_i h1 h2
    exact hgo _ _ _ (.step hp ⟨hj, h2⟩ (by
      cases he : N.edge (.summit (N.link j).1) with
      | true => exact absurd ⟨h2, he⟩ h1
      | false => rfl))
  split
  · rename_i h
    exact report_sound_rise s p i ⟨p, a, i, rfl, rfl, hp, j, hj, h⟩
  · exact .refl s

theorem chaseLinker_sound {N : FNet} {f : Flags} {m : Nat} {go} (hgo : ∀ b p s, Descent N f m p b → ChaseSound N f m s (go b p s))
    (a : Nat) (p : List Nat) (hp : Descent N f m p a) (i : Nat) (hi : i ∈ N.sumLinks a) (s : ChaseSt) :
    ChaseSound N f m s (chaseLinker N f go m a p s i) := by
  unfold chaseLinker
  split
  · exact .refl s
  rename_i hd
  rw [Bool.not_eq_true] at hd
  split
  · exact .refl s
  have h0 : ChaseSound N f m s { s with exempt := s.exempt ++ [i] } := by
    refine ⟨fun _ h => h, fun x hx => ?_, fun _ => .inl, .inl, fun _ => .inl, fun _ _ => .inl, fun _ => .inl⟩
    simp only [List.mem_append, List.mem_singleton] at hx
    rcases hx with hx | rfl
    · exact .inl hx
    · exact .inr ⟨a, ⟨p, hp⟩, hi⟩
  dsimp only
  split
  · exact h0
  rename_i hs
  have hs' : ¬ SaddleOut f (N.link i).2 := fun h => hs ((saddleDisq_iff _ _).mpr h)
  split
  · rename_i he
    exact ChaseSound.trans _ _ _ h0 (report_sound_edge _ p i ⟨p, a, i, rfl, rfl, hp, .inl ⟨hi, hd, hs', he⟩⟩)
  rename_i he
  rw [Bool.not_eq_true] at he
  refine ChaseSound.trans _ _ _ h0 (foldl_rel' (ChaseSound N f m) _ ChaseSound.refl ChaseSound.trans _ (fun j hj s => ?_) _)
  obtain ⟨h1, h2, h3⟩ := mem_via.mp hj
  exact chaseNext_sound hgo a i p hp j ⟨hi, hd, hs', he, h1, h2, h3⟩ s

theorem chase_sound (N : FNet) (f : Flags) (m : Nat) (left : Nat) : ∀ b p s, Descent N f m p b →
    ChaseSound N f m s (chase N f m left b p s) := by
  induction left with
  | zero =>
    intro b p s _
    refine ⟨fun _ h => h, fun _ => .inl, fun _ => .inl, .inl, fun _ => .inl, fun _ _ => .inl, fun D hD => ?_⟩
    exact (mem_addNew (fun a b => N.eq (.summit a) (.summit b)) _ _ _).2.1 hD
  | succ left ih =>
    intro b p s hp
    rw [chase]
    exact foldl_rel' (ChaseSound N f m) _ ChaseSound.refl ChaseSound.trans _ (fun i hi s => chaseLinker_sound ih b p hp i hi s) s

/-! ### Depth -/

theorem foldl_keep {α σ : Type} (J : σ → Prop) (g : σ → α → σ) (l : List α) (step : ∀ a ∈ l, ∀ s, J s → J (g s a)) (s : σ) (h : J s) :
    J (l.foldl g s) := by
  induction l generalizing s with
  | nil => exact h
  | cons b l ih =>
    exact ih (fun a h => step a (List.mem_cons_of_mem _ h)) _ (step b List.mem_cons_self s h)

/-- The chase has looked at linkers of `ls` only, each once, and not at fewer than `s` has; nothing was given up. -/
structure ChaseDepth (ls : List Nat) (s t : ChaseSt) : Prop where
  nodup : t.exempt.Nodup
  sub : ∀ x ∈ t.exempt, x ∈ ls
  more : s.exempt.length ≤ t.exempt.length
  busted : t.busted = s.busted

theorem chase_depth (N : FNet) (f : Flags) (m : Nat) (ls : List Nat) (hls : ∀ D, ∀ i ∈ N.sumLinks D, i ∈ ls) (left : Nat) :
    ∀ b p s, s.exempt.Nodup → (∀ x ∈ s.exempt, x ∈ ls) → ls.length < left + s.exempt.length →
      ChaseDepth ls s (chase N f m left b p s) := by
  induction left with
  | zero =>
    intro b p s h1 h2 h3
    have := (h1.subperm h2).length_le
    omega
  | succ left ih =>
    intro b p s h1 h2 h3
    rw [chase]
    refine foldl_keep (ChaseDepth ls s) _ _ (fun i hi t ht => ?_) s ⟨h1, h2, le_refl _, rfl⟩
    unfold chaseLinker
    split
    · exact ht
    split
    · exact ht
    rename_i _ hn
    have h0 : ChaseDepth ls s { t with exempt := t.exempt ++ [i] } ∧ s.exempt.length < (t.exempt ++ [i]).length := by
      refine ⟨⟨?_, fun x hx => ?_, ?_, ht.busted⟩, ?_⟩
      · exact List.nodup_append.mpr ⟨ht.nodup, List.nodup_singleton i, fun a ha b hb => by
          rw [List.mem_singleton] at hb
          rintro rfl
          exact hn (hb ▸ ha)⟩
      · rcases List.mem_append.mp hx with hx | hx
        · exact ht.sub x hx
        · rw [List.mem_singleton.mp hx]; exact hls b i hi
      · have := ht.more
        simp only [List.length_append, List.length_singleton]
        omega
      · have := ht.more
        simp only [List.length_append, List.length_singleton]
        omega
    dsimp only
    split
    · exact h0.1
    split
    · exact ⟨h0.1.nodup, h0.1.sub, h0.1.more, h0.1.busted⟩
    refine (foldl_keep (fun u => ChaseDepth ls s u ∧ s.exempt.length < u.exempt.length) _ _ (fun j hj u hu => ?_) _ h0).1
    unfold chaseNext
    split
    · exact hu
    dsimp only
    split
    · exact ⟨⟨hu.1.nodup, hu.1.sub, hu.1.more, hu.1.busted⟩, hu.2⟩
    split
    · obtain ⟨a1, a2, a3, a4⟩ := ih (N.link j).1 (p ++ [i, j]) u hu.1.nodup hu.1.sub (by have := hu.2; omega)
      exact ⟨⟨a1, a2, le_trans hu.1.more a3, a4.trans hu.1.busted⟩, lt_of_lt_of_le hu.2 a3⟩
    split
    · exact ⟨⟨hu.1.nodup, hu.1.sub, hu.1.more, hu.1.busted⟩, hu.2⟩
    · exact hu

/-- No reported path is longer than the depth allows. -/
theorem chase_short (N : FNet) (f : Flags) (m : Nat) (n : Nat) (left : Nat) :
    ∀ b p s, p.length + 2 * left ≤ n → (∀ q ∈ s.paths, q.path.length < n) → ∀ q ∈ (chase N f m left b p s).paths, q.path.length < n := by
  induction left with
  | zero => exact fun _ _ _ _ h => h
  | succ left ih =>
    intro b p s hn h
    have rep : ∀ (s : ChaseSt) i k e, (∀ q ∈ s.paths, q.path.length < n) → ∀ q ∈ (s.report (p ++ [i]) k e).paths, q.path.length < n := by
      intro s i k e h q hq
      simp only [ChaseSt.report, List.mem_append, List.mem_singleton] at hq
      rcases hq with hq | rfl
      · exact h q hq
      · simp only [List.length_append, List.length_singleton]; omega
    rw [chase]
    refine foldl_keep (fun s : ChaseSt => ∀ q ∈ s.paths, q.path.length < n) _ _ (fun i _ s h => ?_) s h
    unfold chaseLinker
    split
    · exact h
    split
    · exact h
    dsimp only
    split
    · exact h
    split
    · exact rep { s with exempt := s.exempt ++ [i] } _ _ _ h
    refine foldl_keep (fun s : ChaseSt => ∀ q ∈ s.paths, q.path.length < n) _ _ (fun j _ s h => ?_) _ h
    unfold chaseNext
    split
    · exact h
    dsimp only
    split
    · exact rep _ _ _ _ h
    split
    · exact ih _ _ _ (by simp only [List.length_append, List.length_cons, List.length_nil]; omega) h
    split
    · exact rep s i (N.link i).2 false h
    · exact h

/-! ### Both sides of a boundary -/

theorem chase_sym (N : FNet) (f : Flags) (m : Nat) (hs : ∀ a b, N.eq (.summit a) (.summit b) = true → a = b)
    (hk : ∀ a b, N.eq (.saddle a) (.saddle b) = true → a = b) (left : Nat) :
    ∀ b p s, (∀ k, k ∈ s.sumBnd ↔ m ∈ s.sadBnd k) →
      ∀ k, k ∈ (chase N f m left b p s).sumBnd ↔ m ∈ (chase N f m left b p s).sadBnd k := by
  have hnew : ∀ (eq : Nat → Nat → Bool), (∀ a b, eq a b = true → a = b) → ∀ x y l, y ∈ addNew eq x l ↔ y ∈ l ∨ y = x := by
    intro eq he x y l
    obtain ⟨h1, h2, z, hz, h3⟩ := mem_addNew eq x y l
    refine ⟨h2, fun h => ?_⟩
    rcases h with h | rfl
    · exact h1 h
    · rcases h3 with rfl | h3
      · exact hz
      · exact he _ _ h3 ▸ hz
  have mark : ∀ (s : ChaseSt) k0, (∀ k, k ∈ s.sumBnd ↔ m ∈ s.sadBnd k) → ∀ k, k ∈ (s.mark N m k0).sumBnd ↔ m ∈ (s.mark N m k0).sadBnd k := by
    intro s k0 h k
    simp only [ChaseSt.mark]
    rw [hnew _ (fun a b => hk a b)]
    split
    · rename_i e
      rw [hnew _ (fun a b => hs a b)]
      exact ⟨fun _ => .inr rfl, fun _ => .inr e⟩
    · rename_i e
      rw [h k]
      simp [e]
  induction left with
  | zero => exact fun _ _ _ h => h
  | succ left ih =>
    intro b p s h
    rw [chase]
    refine foldl_keep (fun s : ChaseSt => ∀ k, k ∈ s.sumBnd ↔ m ∈ s.sadBnd k) _ _ (fun i _ s h => ?_) s h
    unfold chaseLinker
    split
    · exact h
    split
    · exact h
    dsimp only
    split
    · exact h
    split
    · exact h
    refine foldl_keep (fun s : ChaseSt => ∀ k, k ∈ s.sumBnd ↔ m ∈ s.sadBnd k) _ _ (fun j _ s h => ?_) _ h
    unfold chaseNext
    split
    · exact h
    dsimp only
    split
    · exact h
    split
    · exact ih _ _ _ h
    split
    · exact mark (s.report (p ++ [i]) (N.link i).2 false) _ h
    · exact h

end PyProm
