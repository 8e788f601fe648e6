import Verif.Spec.Places
import Verif.Proof.WalkAgain
import Verif.Proof.LinkCount

/-
Places of features: a property of features that new saddles inherit holds for all objects of a map.
-/
namespace PyProm
open Spec

/-- All objects stand for features with `P`. -/
def AllF (P : Feature → Prop) (objs : List SObj) : Prop := ∀ o ∈ objs, P o.f

theorem AllF.mod {P : Feature → Prop} {a : List SObj} (h : AllF P a) (k : Nat) {g : SObj → SObj}
    (hg : ∀ o, (g o).f = o.f) : AllF P (modObj a k g) := by
  intro o ho
  obtain ⟨j, hj⟩ := List.mem_iff_getElem?.1 ho
  rw [modObj_getElem?, Option.map_eq_map, Option.map_eq_some_iff] at hj
  obtain ⟨o', h1, rfl⟩ := hj
  have := h o' (List.mem_of_getElem? h1)
  split
  · rw [hg]; exact this
  · exact this

theorem AllF.append {P : Feature → Prop} {a : List SObj} (h : AllF P a) {fs : List Feature} {g : Feature → SObj}
    (hg : ∀ f, (g f).f = f) (hf : ∀ f ∈ fs, P f) : AllF P (a ++ fs.map g) := by
  intro o ho
  rcases List.mem_append.1 ho with c | c
  · exact h o c
  · obtain ⟨f, h1, rfl⟩ := List.mem_map.1 c
    rw [hg]; exact hf f h1

/-- What one step does to the objects: they keep what they stand for, and new ones have `P`. -/
def Grows (P : Feature → Prop) (a b : List SObj) : Prop := ObjsKept a b ∧ (AllF P a → AllF P b)

theorem Grows.refl {P : Feature → Prop} (a : List SObj) : Grows P a a := ⟨fun _ o h => ⟨o, h, rfl⟩, id⟩

theorem Grows.trans {P : Feature → Prop} {a b c : List SObj} (h : Grows P a b) (g : Grows P b c) : Grows P a c :=
  ⟨h.1.trans g.1, fun k => g.2 (h.2 k)⟩

theorem Grows.mod {P : Feature → Prop} (a : List SObj) (k : Nat) {g : SObj → SObj} (hg : ∀ o, (g o).f = o.f) :
    Grows P a (modObj a k g) := ⟨ObjsKept.mod a k hg, fun h => h.mod k hg⟩

theorem Grows.append {P : Feature → Prop} (a : List SObj) {fs : List Feature} {g : Feature → SObj}
    (hg : ∀ f, (g f).f = f) (hf : ∀ f ∈ fs, P f) : Grows P a (a ++ fs.map g) :=
  ⟨ObjsKept.append _ _, fun h => h.append hg hf⟩

theorem walkSynthetic_grows {P : Feature → Prop} {E : SaddleEnv} {s s' : CSt} {k : Nat}
    (h : walkSynthetic E s k = .ok s') : Grows P s.objs s'.objs := by
  simp only [walkSynthetic] at h
  split at h
  · cases h
  · obtain ⟨w, _, h2⟩ := bind_ok h
    obtain ⟨s1, h1, h3⟩ := bind_ok h2
    cases h3
    have e : s1.objs = s.objs := linkEdges_objs _ (s := { s with w := w }) h1
    show Grows P s.objs s1.objs
    rw [e]; exact Grows.refl _

theorem walkEdgeSaddle_grows {P : Feature → Prop} {E : SaddleEnv} {base : Nat} {s s' : CSt} {k : Nat}
    (h : walkEdgeSaddle E base s k = .ok s') : Grows P s.objs s'.objs := by
  simp only [walkEdgeSaddle] at h
  split at h
  · cases h
  · obtain ⟨s1, h1, h3⟩ := bind_ok h
    cases h3
    have e : s1.objs = s.objs := linkEdges_objs _ h1
    dsimp only
    rw [e]
    exact (Grows.mod s.objs k (g := fun o => { o with parent := some base }) (fun _ => rfl)).trans
      (Grows.mod _ base (fun _ => rfl))

theorem Grows.foldlM {P : Feature → Prop} {g : CSt → Nat → Except PyErr CSt}
    (hg : ∀ s s' k, g s k = .ok s' → Grows P s.objs s'.objs) : ∀ (ks : List Nat) (s s' : CSt),
    ks.foldlM g s = .ok s' → Grows P s.objs s'.objs
  | [], s, s', h => by cases h; exact Grows.refl _
  | k :: ks, s, s', h => by
    rw [List.foldlM_cons] at h
    obtain ⟨s1, h1, h⟩ := bind_ok h
    exact (hg s s1 k h1).trans (Grows.foldlM hg ks s1 s' h)

theorem finishEdge_grows {P : Feature → Prop} {E : SaddleEnv} {s s' : CSt} {base : Nat} {ks : List Nat}
    (h : finishEdge E s base ks = .ok s') : Grows P s.objs s'.objs := by
  unfold finishEdge at h
  obtain ⟨s1, h1, h⟩ := bind_ok h
  have i1 := Grows.foldlM (P := P) (fun s s' k => walkEdgeSaddle_grows (E := E) (base := base)) ks s s1 h1
  cases h
  exact i1.trans (Grows.mod _ base (fun _ => rfl))

theorem adoptChildren_grows {P : Feature → Prop} (s : CSt) (base : Nat) (ks : List Nat) :
    Grows P s.objs (adoptChildren s base ks).objs := by
  have h1 : ∀ (ks : List Nat) (a : List SObj), Grows P a
      (ks.foldl (fun objs k => modObj objs k (fun o => { o with parent := some base })) a) := by
    intro ks
    induction ks with
    | nil => exact fun a => Grows.refl a
    | cons k ks ih =>
      exact fun a => (Grows.mod a k (g := fun o => { o with parent := some base }) (fun _ => rfl)).trans (ih _)
  exact (h1 ks s.objs).trans (Grows.mod _ base (fun _ => rfl))

/-- What the walk makes of `f` has `P`. -/
def Breeds (E : SaddleEnv) (P : Feature → Prop) (f : Feature) : Prop :=
  ∀ fs, generateSynthetic E f = .ok (some fs) → ∀ g ∈ fs, P g

theorem edgeSynthetic_grows {P : Feature → Prop} {E : SaddleEnv} {s : CSt} {base : Nat} {f : Feature}
    {r : CSt × List Nat} (hb : Breeds E P f) (h : edgeSynthetic E s base f = .ok r) : Grows P s.objs r.1.objs := by
  unfold edgeSynthetic at h
  obtain ⟨g, hg, h⟩ := bind_ok h
  cases g with
  | none => cases h; exact Grows.refl _
  | some fs =>
    have ha : Grows P s.objs (alloc s fs).1.objs := Grows.append _ (fun _ => rfl) (hb fs hg)
    dsimp only at h
    split at h
    · cases h; exact ha.trans (adoptChildren_grows _ _ _)
    · cases h; exact ha

theorem breeds_few {P : Feature → Prop} {E : SaddleEnv} {f : Feature} (h : f.hpn.length < 2) : Breeds E P f := by
  intro fs hfs
  unfold generateSynthetic at hfs
  rw [if_pos h] at hfs
  cases hfs

theorem walkFeature_grows {P : Feature → Prop} {E : SaddleEnv} {s s' : CSt} {base : Nat} {f : Feature}
    (hf : ∀ o, s.objs[base]? = some o → o.f = f) (hb : f.kind ≠ .runoff → Breeds E P f)
    (hr : f.kind = .runoff → f.edge = true) (h : walkFeature E s base = .ok s') : Grows P s.objs s'.objs := by
  simp only [walkFeature] at h
  split at h
  · cases h
  · rename_i o ho
    obtain rfl := hf o ho
    split at h
    · rename_i he
      have hk : o.f.kind ≠ .runoff := fun c => by rw [hr c] at he; cases he
      obtain ⟨g, hg, h⟩ := bind_ok h
      cases g with
      | none => exact walkSynthetic_grows h
      | some fs =>
        have ha : Grows P s.objs (alloc s fs).1.objs := Grows.append _ (fun _ => rfl) (hb hk fs hg)
        exact ha.trans (Grows.foldlM (fun s s' k => walkSynthetic_grows (E := E)) _ _ _ h)
    · obtain ⟨w, hw, h4⟩ := bind_ok h
      clear h
      split at h4
      · split at h4
        · rename_i hn
          have hn : o.f.hpn = [] := List.isEmpty_iff.1 hn
          split at h4
          · cases h4
          · split at h4
            · cases h4; exact Grows.refl _
            · obtain ⟨r, hr1, h5⟩ := bind_ok h4
              exact (edgeSynthetic_grows (s := addLinker E true { s with w := w } _ base)
                (breeds_few (by rw [hn]; simp)) hr1).trans (finishEdge_grows h5)
        · exact finishEdge_grows (s := { s with w := w }) h4
      · rename_i hk
        obtain ⟨r, hr1, h5⟩ := bind_ok h4
        exact (edgeSynthetic_grows (s := { s with w := w }) (hb hk) hr1).trans (finishEdge_grows h5)

theorem walkFeatures_grows {P : Feature → Prop} {E : SaddleEnv} : ∀ (bases : List Nat) (s s' : CSt),
    (∀ k ∈ bases, ∃ o, s.objs[k]? = some o ∧ (o.f.kind ≠ .runoff → Breeds E P o.f) ∧
      (o.f.kind = .runoff → o.f.edge = true)) →
    bases.foldlM (walkFeature E) s = .ok s' → Grows P s.objs s'.objs
  | [], s, s', _, h => by cases h; exact Grows.refl _
  | k :: ks, s, s', hb, h => by
    rw [List.foldlM_cons] at h
    obtain ⟨s1, h1, h⟩ := bind_ok h
    obtain ⟨o, ho, b1, b2⟩ := hb k (by simp)
    have g1 : Grows P s.objs s1.objs :=
      walkFeature_grows (f := o.f) (fun o' ho' => by rw [ho] at ho'; cases ho'; rfl) b1 b2 h1
    refine g1.trans (walkFeatures_grows ks s1 s' (fun j hj => ?_) h)
    obtain ⟨oj, hoj, c1, c2⟩ := hb j (List.mem_cons_of_mem _ hj)
    obtain ⟨oj', hoj', e⟩ := g1.1 j oj hoj
    exact ⟨oj', hoj', by rw [e]; exact c1, by rw [e]; exact c2⟩

theorem walk_grows {P : Feature → Prop} {E : SaddleEnv} {m m' : DMap} {r : Option (List Nat × List Nat)}
    (h : m.walk E [] = .ok (m', r)) (hb : ∀ k ∈ m.saddles ++ m.runoffs, ∃ o, m.st.objs[k]? = some o ∧
      (o.f.kind ≠ .runoff → Breeds E P o.f) ∧ (o.f.kind = .runoff → o.f.edge = true)) :
    Grows P m.st.objs m'.st.objs := by
  unfold DMap.walk at h
  obtain ⟨w, hw, h⟩ := bind_ok h
  obtain ⟨⟨r', s⟩, h1, h⟩ := bind_ok h
  unfold climbFromSaddles at h1
  obtain ⟨s1, h2, h1⟩ := bind_ok h1
  cases h1
  have g := walkFeatures_grows (P := P) (E := { E with summits := m.summits }) (m.saddles ++ m.runoffs)
    { m.st with w := w, walked := [], linkers := [], doms := [] } _ hb h2
  cases h
  exact g

theorem rebuildSaddles_grows {P : Feature → Prop} {d : DataMap} {fc : PairSearch} : ∀ (ks : List Nat)
    (objs objs' : List SObj) (new : List Nat), rebuildSaddles d fc ks objs = .ok (objs', new) →
    (∀ k ∈ ks, ∃ o, objs[k]? = some o ∧ (∀ fs, generateChildSaddles d fc o.f = .ok fs → ∀ g ∈ fs, P g) ∧
      ∀ g, rebuildTwo d fc o.f = .ok g → P g) → Grows P objs objs'
  | [], objs, objs', new, h, _ => by unfold rebuildSaddles at h; cases h; exact Grows.refl _
  | k :: ks, objs, objs', new, h, hb => by
    unfold rebuildSaddles at h
    obtain ⟨⟨o1, n1⟩, h1, h⟩ := bind_ok h
    obtain ⟨⟨o2, n2⟩, h2, h⟩ := bind_ok h
    cases h
    obtain ⟨o, ho, b1, b2⟩ := hb k (by simp)
    have g1 : Grows P objs o1 := by
      unfold rebuildOne at h1
      rw [ho] at h1
      dsimp only at h1
      split at h1
      · cases h1; exact Grows.refl _
      · obtain ⟨fs, hfs, h3⟩ := bind_ok h1
        have hP : ∀ g ∈ fs, P g := by
          split at hfs
          · exact b1 fs hfs
          · obtain ⟨g, hg, h4⟩ := bind_ok hfs
            cases h4
            intro g' hg'
            rw [List.mem_singleton.1 hg']
            exact b2 g hg
        split at h3
        · cases h3
          exact (Grows.append objs (g := fun f => { f := f, parent := some k }) (fun _ => rfl) hP).trans
            (Grows.mod _ k (fun _ => rfl))
        · cases h3
          exact Grows.append objs (fun _ => rfl) hP
    refine g1.trans (rebuildSaddles_grows ks o1 _ _ h2 (fun j hj => ?_))
    obtain ⟨oj, hoj, c1, c2⟩ := hb j (List.mem_cons_of_mem _ hj)
    obtain ⟨oj', hoj', e⟩ := g1.1 j oj hoj
    exact ⟨oj', hoj', by rw [e]; exact c1, by rw [e]; exact c2⟩

/-! ### Places of new saddles -/

/-- `f` is at a cell with `R`, and so are all cells of its area. -/
def Placed (R : Rat → Pt → Prop) (d : DataMap) (f : Feature) : Prop :=
  (∃ q, R f.elevation q ∧ AtCell d q f) ∧ ∀ pts, f.multipoint = some pts → ∀ m ∈ pts, R f.elevation (m.x, m.y)

theorem multiClosest_mem {x y : Rat} {l : List MPt} {m : MPt} (h : multiClosest x y l = .ok m) : m ∈ l := by
  cases l with
  | nil => cases h
  | cons p ps =>
    by_cases hp : p.e.isSome
    · simp [multiClosest, hp] at h
    · obtain ⟨m', h1, h2, _⟩ := multiClosest_ok x y p ps (by simpa using hp)
      rw [h1] at h
      cases h
      exact h2

theorem mapM_mem {α β : Type} {f : α → Except PyErr β} : ∀ {l : List α} {bs : List β}, l.mapM f = .ok bs →
    ∀ b ∈ bs, ∃ a ∈ l, f a = .ok b
  | [], bs, h, b, hb => by
    rw [List.mapM_nil] at h; cases h; cases hb
  | a :: l, bs, h, b, hb => by
    rw [List.mapM_cons] at h
    obtain ⟨c, h1, h⟩ := bind_ok h
    obtain ⟨cs, h2, h⟩ := bind_ok h
    cases h
    rcases List.mem_cons.1 hb with rfl | hb
    · exact ⟨a, by simp, h1⟩
    · obtain ⟨a', ha, e⟩ := mapM_mem h2 b hb
      exact ⟨a', List.mem_cons_of_mem _ ha, e⟩

theorem placed_new {R : Rat → Pt → Prop} {d : DataMap} {x y : Int} {e : Rat} (h : R e (x, y)) (hs : List (List P3)) :
    Placed R d (mkSaddle (d.xyToLatLon x y) e none false [] hs) :=
  ⟨⟨(x, y), h, rfl, rfl⟩, fun _ h => nomatch h⟩

theorem placed_same {R : Rat → Pt → Prop} {d : DataMap} {f : Feature} (h : Placed R d f) (hs : List (List P3)) :
    Placed R d (mkSaddle (f.lat, f.lon) f.elevation none false [] hs) := by
  obtain ⟨⟨q, h1, h2⟩, _⟩ := h
  exact ⟨⟨q, h1, h2⟩, fun _ h => nomatch h⟩

theorem children_placed {R : Rat → Pt → Prop} {d : DataMap} {fc : PairSearch} {f : Feature} (h : Placed R d f)
    {fs : List Feature} (hf : generateChildSaddles d fc f = .ok fs) : ∀ g ∈ fs, Placed R d g := by
  unfold generateChildSaddles at hf
  obtain ⟨links, _, hf⟩ := bind_ok hf
  intro g hg
  obtain ⟨l, _, hl⟩ := mapM_mem hf g hg
  unfold childSaddle at hl
  split at hl
  · cases hl
  · split at hl
    · rename_i p ps hp
      obtain ⟨m, hm, hl⟩ := bind_ok hl
      cases hl
      exact placed_new (h.2 _ hp m (multiClosest_mem hm)) _
    · cases hl; exact placed_same h _

theorem two_placed {R : Rat → Pt → Prop} {d : DataMap} {fc : PairSearch} {f : Feature} (h : Placed R d f)
    {g : Feature} (hg : rebuildTwo d fc f = .ok g) : Placed R d g := by
  unfold rebuildTwo at hg
  obtain ⟨hs, _, hg⟩ := bind_ok hg
  obtain ⟨loc, hl, hg⟩ := bind_ok hg
  cases hg
  split at hl
  · rename_i p ps hp
    split at hl
    · cases hl
    · obtain ⟨m, hm, hl⟩ := bind_ok hl
      cases hl
      exact placed_new (h.2 _ hp m (multiClosest_mem hm)) _
  · cases hl; exact placed_same h _

theorem breeds_placed {R : Rat → Pt → Prop} {E : SaddleEnv} {f : Feature} (h : Placed R E.d f)
    (hm : f.hpn.length = 2 → (∃ m ms, f.multipoint = some (m :: ms)) →
      ∀ a b m, saddleHighPath (E.find f) f.hpn = .ok (a, b, m) → R f.elevation (m.x, m.y)) :
    Breeds E (Placed R E.d) f := by
  intro fs hfs
  unfold generateSynthetic at hfs
  split at hfs
  · cases hfs
  · split at hfs
    · obtain ⟨cs, hc, hfs⟩ := bind_ok hfs
      cases hfs
      exact children_placed h hc
    · split at hfs
      · rename_i p ps hp
        obtain ⟨⟨a, b, m⟩, h1, hfs⟩ := bind_ok hfs
        obtain ⟨a', _, hfs⟩ := bind_ok hfs
        obtain ⟨b', _, hfs⟩ := bind_ok hfs
        cases hfs
        intro g hg
        rw [List.mem_singleton.1 hg]
        exact placed_new (hm (by omega) ⟨p, ps, hp⟩ a b m h1) _
      · obtain ⟨hs, _, hfs⟩ := bind_ok hfs
        cases hfs
        intro g hg
        rw [List.mem_singleton.1 hg]
        exact placed_same h _

/-- A node of the path chosen between the high neighbourhoods is a node of one of the paths searched. -/
theorem saddleHighPath_mem {find : P3 → P3 → PathInfo} {hpn : List (List P3)} {a b m : MPt}
    (h : saddleHighPath find hpn = .ok (a, b, m)) :
    ∃ u ∈ hpn.flatten, ∃ t ∈ hpn.flatten, m ∈ (find u t).nodes := by
  unfold saddleHighPath at h
  split at h
  · rename_i us them rest
    dsimp only at h
    split at h
    · rename_i u t hu ht
      have hu' : u ∈ us := List.mem_of_getLast? hu
      have ht' : t ∈ them := List.mem_of_getLast? ht
      let Good : PathInfo → Prop := fun p => ∃ u ∈ us, ∃ t ∈ them, p = find u t
      have hin : ∀ u ∈ us, ∀ (l : List P3) (acc : Option PathInfo), (∀ t ∈ l, t ∈ them) →
          (∀ p, acc = some p → Good p) → ∀ p, l.foldl (fun b t => cheapest b (find u t)) acc = some p → Good p := by
        intro u hu l
        induction l with
        | nil => intro acc _ hacc p hp; exact hacc p hp
        | cons t l ih =>
          intro acc hl hacc p hp
          refine ih _ (fun t ht => hl t (List.mem_cons_of_mem _ ht)) (fun q hq => ?_) p hp
          simp only [cheapest] at hq
          split at hq
          · cases hq; exact ⟨u, hu, t, hl t (by simp), rfl⟩
          · split at hq
            · cases hq; exact ⟨u, hu, t, hl t (by simp), rfl⟩
            · cases hq; exact hacc _ rfl
      have hout : ∀ (l : List (Option PathInfo)) (acc : Option PathInfo),
          (∀ o ∈ l, ∀ p, o = some p → Good p) → (∀ p, acc = some p → Good p) →
          ∀ p, l.foldl (overallStep (find u t)) acc = some p → Good p := by
        intro l
        induction l with
        | nil => intro acc _ hacc p hp; exact hacc p hp
        | cons o l ih =>
          intro acc hl hacc p hp
          refine ih _ (fun o ho => hl o (List.mem_cons_of_mem _ ho)) (fun q hq => ?_) p hp
          unfold overallStep at hq
          split at hq
          · split at hq
            · cases hq; exact hl _ (by simp) _ rfl
            · cases hq; exact hacc _ rfl
          · cases hq; exact hacc _ rfl
          · cases hq; exact ⟨u, hu', t, ht', rfl⟩
      split at h
      · rename_i o ho
        obtain ⟨u1, hu1, t1, ht1, rfl⟩ := hout _ none (by
          intro o ho p hp
          obtain ⟨u1, hu1, rfl⟩ := List.mem_map.1 ho
          exact hin u1 hu1 them none (fun _ h => h) (fun _ h => nomatch h) p hp) (fun _ h => nomatch h) o ho
        split at h
        · rename_i a' b' m' _ _ hm
          cases h
          exact ⟨u1, by simp [hu1], t1, by simp [ht1], List.mem_of_getElem? hm⟩
        · cases h
      · cases h
    · cases h
  · cases h

/-! ### Places after discovery -/

theorem analyze_places {d : DataMap} {o : Pt → Oracle} {order : List Pt} (ho : IsScan d order) {D : Discovered}
    (h : analyze d o order = .ok D) : ∀ f ∈ D.summits ++ D.saddles ++ D.runoffs, OnLevel d f ∧
      (∀ p ∈ f.hpn.flatten, InB d p.xy) ∧ ∀ pts, f.multipoint = some pts → ∀ m ∈ pts, InB d (m.x, m.y) := by
  obtain ⟨regs, _, h2, h3⟩ := analyze_spec d o order ho
  rw [h3] at h
  cases h
  have hr : ∀ f ∈ regs.flatMap Region.features, OnLevel d f ∧
      (∀ p ∈ f.hpn.flatten, InB d p.xy) ∧ ∀ pts, f.multipoint = some pts → ∀ m ∈ pts, InB d (m.x, m.y) := by
    intro f hf
    obtain ⟨r, hr, hfr⟩ := List.mem_flatMap.1 hf
    obtain ⟨hd, _, _, _, _, _, hm, t⟩ := h2 r hr
    obtain ⟨⟨q, b1, b2, b3⟩, a2, a3, _, a5⟩ := table_all hm t f hfr
    refine ⟨⟨q, (flat_data hd b1).1.1, ⟨b2, b3⟩, ?_⟩, fun p hp => (a3 p hp).1.1.1.1, fun pts hpts m hmm => ?_⟩
    · rw [a2]; exact (flat_data hd b1).2
    · rcases a5 pts hpts m hmm with c | ⟨_, _, c⟩
      · exact (flat_data hd c).1.1
      · exact c.1.1.1
  intro f hf
  simp only [List.mem_append, List.mem_filter] at hf
  rcases hf with (⟨hf, _⟩ | ⟨hf, _⟩) | ⟨hf, _⟩ <;> exact hr f hf

theorem corner_places {d : DataMap} {cs : List Feature} (h : makeCornerRunoffs d = .ok cs) :
    ∀ f ∈ cs, OnLevel d f ∧ f.multipoint = none := by
  obtain ⟨ll, lr, ul, ur, h1, h2, _⟩ := C14_corners_partial d
  obtain ⟨cs', c1, _, c3⟩ := corner_featOk d
  have hmp : ∀ f ∈ cs, f.multipoint = none := by
    have key : ∀ {loc : Rat × Rat} {x y : Int} {f : Feature}, cornerRunoff d loc x y = .ok f →
        f.multipoint = none := by
      intro loc x y f hf
      unfold cornerRunoff at hf
      cases hg : d.get x y with
      | none => rw [hg] at hf; cases hf
      | some e => rw [hg] at hf; cases hf; rfl
    unfold makeCornerRunoffs at h
    obtain ⟨_, a1, h⟩ := bind_ok h
    obtain ⟨_, a2, h⟩ := bind_ok h
    obtain ⟨_, a3, h⟩ := bind_ok h
    obtain ⟨_, a4, h⟩ := bind_ok h
    cases h
    intro f hf
    simp only [List.mem_cons, List.not_mem_nil, or_false] at hf
    rcases hf with rfl | rfl | rfl | rfl
    · exact key a1
    · exact key a2
    · exact key a3
    · exact key a4
  intro f hf
  refine ⟨?_, hmp f hf⟩
  rw [h1] at h
  cases h
  have hb : ∀ q ∈ [((d.maxX, 0) : Pt), (d.maxX, d.maxY), (0, 0), (0, d.maxY)], InB d q := by
    intro q hq
    simp only [List.mem_cons, List.not_mem_nil, or_false] at hq
    unfold InB
    rcases hq with rfl | rfl | rfl | rfl <;> (refine ⟨?_, ?_, ?_, ?_⟩ <;> dsimp only <;> omega)
  simp only [List.mem_cons, List.not_mem_nil, or_false] at hf
  have fin : ∀ q : Pt, InB d q → LocatedAt d q f → OnLevel d f := fun q hq hl => ⟨q, hq, ⟨hl.1, hl.2.1⟩, hl.2.2.symm⟩
  rcases hf with rfl | rfl | rfl | rfl
  · exact fin (d.maxX, 0) (hb _ (by simp)) (h2 (f, _) (by simp)).2.1
  · exact fin (d.maxX, d.maxY) (hb _ (by simp)) (h2 (f, (d.maxX, d.maxY)) (by simp)).2.1
  · exact fin (0, 0) (hb _ (by simp)) (h2 (f, (0, 0)) (by simp)).2.1
  · exact fin (0, d.maxY) (hb _ (by simp)) (h2 (f, (0, d.maxY)) (by simp)).2.1

/-- All objects of a map fresh from discovery are placed if the discovered features are. -/
theorem discover_placed {R : Rat → Pt → Prop} {d : DataMap} {fc : PairSearch} {o : Pt → Oracle} {order : List Pt}
    {rebuild : Bool} {D : Discovered} {cs : List Feature} {m : DMap} (hD : analyze d o order = .ok D)
    (hc : makeCornerRunoffs d = .ok cs) (hm : DMap.discover d fc o order rebuild = .ok m)
    (hp : ∀ f ∈ D.saddles ++ (D.runoffs ++ cs), Placed R d f) : AllF (Placed R d) m.st.objs := by
  unfold DMap.discover at hm
  obtain ⟨D', hD', hm⟩ := bind_ok hm
  cases (hD.symm.trans hD' : Except.ok _ = Except.ok _)
  obtain ⟨cs', hc', hm⟩ := bind_ok hm
  cases (hc.symm.trans hc' : Except.ok _ = Except.ok _)
  obtain ⟨⟨objs, saddles⟩, h1, hm⟩ := bind_ok hm
  cases hm
  have h0 : AllF (Placed R d) ((D.saddles ++ (D.runoffs ++ cs)).map fun f => ({ f := f } : SObj)) := by
    intro o ho
    obtain ⟨f, hf, rfl⟩ := List.mem_map.1 ho
    exact hp f hf
  cases rebuild with
  | false => cases h1; exact h0
  | true =>
    refine (rebuildSaddles_grows (P := Placed R d) _ _ _ _ h1 (fun k hk => ?_)).2 h0
    have hk : k < D.saddles.length := List.mem_range.1 hk
    have hlt : k < ((D.saddles ++ (D.runoffs ++ cs)).map fun f => ({ f := f } : SObj)).length := by
      rw [List.length_map, List.length_append]; omega
    refine ⟨_, List.getElem?_eq_getElem hlt, ?_, ?_⟩
    · exact fun fs hfs => children_placed (h0 _ (List.getElem_mem hlt)) hfs
    · exact fun g hg => two_placed (h0 _ (List.getElem_mem hlt)) hg

end PyProm
