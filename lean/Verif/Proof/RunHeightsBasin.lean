import Verif.Proof.RunHeightsWalk
import Verif.Proof.LinkCount
import Verif.Proof.Basin

/-!
Detection of basin saddles reads heights only by comparing them, and only those of features off the edge
-/
namespace PyProm
open Spec

/-- Two tables of heights that order the features with the property `P` alike. -/
def OrderedAs (P : Node → Prop) (e e' : Node → Rat) : Prop :=
  ∀ n m, P n → P m → (e' n < e' m ↔ e n < e m)

theorem OrderedAs.eq {P : Node → Prop} {e e' : Node → Rat} (h : OrderedAs P e e') {n m : Node} (hn : P n) (hm : P m) :
    e' n = e' m ↔ e n = e m := by
  have h1 := h n m hn hm
  have h2 := h m n hm hn
  constructor
  · intro he
    rcases lt_trichotomy (e n) (e m) with hl | hl | hl
    · exact absurd (h1.2 hl) (he ▸ lt_irrefl _)
    · exact hl
    · exact absurd (h2.2 hl) (he ▸ lt_irrefl _)
  · intro he
    rcases lt_trichotomy (e' n) (e' m) with hl | hl | hl
    · exact absurd (h1.1 hl) (he ▸ lt_irrefl _)
    · exact hl
    · exact absurd (h2.1 hl) (he ▸ lt_irrefl _)

theorem findLowest_ordered {P : Node → Prop} {e e' : Node → Rat} (h : OrderedAs P e e') {cycle : List Node}
    (hP : ∀ n ∈ cycle, P n) : findLowest e' cycle = findLowest e cycle := by
  unfold findLowest
  have key : ∀ (l acc : List Node), (∀ n ∈ l, P n) → (∀ n ∈ acc, P n) →
      l.foldl (lowestStep e') acc = l.foldl (lowestStep e) acc := by
    intro l
    induction l with
    | nil => exact fun _ _ _ => rfl
    | cons n l ih =>
      intro acc hl ha
      rw [List.foldl_cons, List.foldl_cons]
      have hn := hl n List.mem_cons_self
      have e1 : lowestStep e' acc n = lowestStep e acc n := by
        unfold lowestStep
        cases acc with
        | nil => rfl
        | cons b acc =>
          have hb := ha b List.mem_cons_self
          simp only [h.eq hn hb, h n b hn hb]
      rw [e1]
      refine ih _ (fun m hm => hl m (List.mem_cons_of_mem _ hm)) fun m hm => ?_
      unfold lowestStep at hm
      cases acc with
      | nil => exact (nomatch hm)
      | cons b acc =>
        dsimp only at hm
        split at hm
        · rcases List.mem_append.1 hm with hm | hm
          · exact ha m hm
          · rw [List.mem_singleton.1 hm]
            exact hn
        split at hm
        · rw [List.mem_singleton.1 hm]
          exact hn
        · exact ha m hm
  exact key cycle _ hP fun n hn => hP n (List.mem_of_mem_take hn)

/-- Everything reached by the search lies off the edge. -/
structure OffEdge (N : FNet) (s : DSt) : Prop where
  used : ∀ n, s.used n ≠ none → N.edge n = false
  look : ∀ n q, s.look n = some q → N.edge q = false

theorem climbBack_offEdge {N : FNet} {look : Node → Option Node} {root : Node} {pn : List Node}
    (hl : ∀ n q, look n = some q → N.edge q = false) : ∀ (k : Nat) (cycle : List Node) (p : Node) (c : List Node),
    (∀ n ∈ cycle, N.edge n = false) → N.edge p = false → climbBack look root pn k cycle p = .ok c →
    ∀ n ∈ c, N.edge n = false
  | 0, _, _, _, _, _, h => (nomatch h)
  | k + 1, cycle, p, c, hcy, hp, h => by
    unfold climbBack at h
    have hcp : ∀ n ∈ cycle ++ [p], N.edge n = false := fun n hn => by
      rcases List.mem_append.1 hn with hn | hn
      · exact hcy n hn
      · rw [List.mem_singleton.1 hn]
        exact hp
    split at h
    · cases h
      exact hcp
    · split at h
      · cases h
      · rename_i q hq
        have hq' := hl p q hq
        split at h
        · cases h
          intro n hn
          rcases List.mem_append.1 hn with hn | hn
          · exact hcp n hn
          · rw [List.mem_singleton.1 hn]
            exact hq'
        · exact climbBack_offEdge hl k (cycle ++ [p]) q c hcp hq' h

theorem edge_of_alive {N : FNet} {f : Flags} {n : Node} (h : ¬ N.dead f n = true) : N.edge n = false := by
  unfold FNet.dead at h
  cases he : N.edge n with
  | false => rfl
  | true =>
    rw [he, Bool.or_true] at h
    exact absurd rfl h

section
variable {N : FNet} {e' : Node → Rat} (h : OrderedAs (fun n => N.edge n = false) N.elev e')
include h

theorem exploreNbr_ordered {root z : Node} (hz : N.edge z = false) {s : DSt} (hs : OffEdge N s) (nbr : Node) :
    exploreNbr { N with elev := e' } root z s nbr = exploreNbr N root z s nbr ∧
      ∀ t, exploreNbr N root z s nbr = .ok t → OffEdge N t := by
  unfold exploreNbr
  show (if N.dead s.flags nbr = true then _ else _) = _ ∧ _
  split
  · exact ⟨rfl, fun t ht => by cases ht; exact ⟨hs.used, hs.look⟩⟩
  rename_i hd
  have hn := edge_of_alive hd
  cases hu : s.used nbr with
  | none =>
    refine ⟨rfl, fun t ht => ?_⟩
    cases ht
    refine ⟨fun n hn' => ?_, fun n q hq => ?_⟩
    · dsimp only at hn'
      split at hn'
      · rename_i he
        rw [he]
        exact hn
      · exact hs.used n hn'
    · dsimp only at hq
      split at hq
      · cases hq
        exact hz
      · exact hs.look n q hq
  | some pn =>
    dsimp only
    split
    · exact ⟨rfl, fun t ht => by cases ht; exact hs⟩
    split
    · exact ⟨rfl, fun t ht => by cases ht; exact hs⟩
    cases hl : s.look z with
    | none => exact ⟨rfl, fun t ht => (nomatch ht)⟩
    | some p =>
      have hp := hs.look z p hl
      dsimp only [bind, Except.bind]
      cases hb : climbBack s.look root pn (s.keys.length + 1) [nbr, z] p with
      | error x => exact ⟨rfl, fun t ht => (nomatch ht)⟩
      | ok cycle =>
        have hcy := climbBack_offEdge hs.look _ _ _ _ (fun n hn' => by
          rcases List.mem_cons.1 hn' with rfl | hn'
          · exact hn
          · rw [List.mem_singleton.1 hn']
            exact hz) hp hb
        dsimp only
        rw [findLowest_ordered h hcy]
        refine ⟨rfl, fun t ht => ?_⟩
        cases hd2 : disqualifyAndLabel N s.flags (findLowest N.elev cycle) with
        | error x =>
          rw [hd2] at ht
          exact (nomatch ht)
        | ok fl =>
          rw [hd2] at ht
          cases ht
          refine ⟨fun n hn' => ?_, hs.look⟩
          dsimp only at hn'
          split at hn'
          · rename_i he
            rw [he]
            exact hn
          · exact hs.used n hn'

theorem exploreNbrs_ordered {root z : Node} (hz : N.edge z = false) : ∀ (l : List Node) {s : DSt}, OffEdge N s →
    l.foldlM (exploreNbr { N with elev := e' } root z) s = l.foldlM (exploreNbr N root z) s ∧
      ∀ t, l.foldlM (exploreNbr N root z) s = .ok t → OffEdge N t
  | [], s, hs => ⟨rfl, fun t ht => by cases ht; exact hs⟩
  | n :: l, s, hs => by
    rw [List.foldlM_cons, List.foldlM_cons]
    obtain ⟨h1, h2⟩ := exploreNbr_ordered h (root := root) hz hs n
    rw [h1]
    dsimp only [bind, Except.bind]
    cases hx : exploreNbr N root z s n with
    | error x => exact ⟨rfl, fun t ht => (nomatch ht)⟩
    | ok t => exact exploreNbrs_ordered hz l (h2 t hx)

theorem exploreLoop_ordered (root : Node) : ∀ (k : Nat) {s : DSt}, OffEdge N s →
    exploreLoop { N with elev := e' } root k s = exploreLoop N root k s
  | 0, _, _ => rfl
  | k + 1, s, hs => by
    unfold exploreLoop
    cases hk : s.stack with
    | nil => rfl
    | cons z rest =>
      dsimp only
      show (if N.dead s.flags z = true then _ else _) = _
      split
      · exact exploreLoop_ordered root k ⟨hs.used, hs.look⟩
      rename_i hd
      have hz := edge_of_alive hd
      have hs' : OffEdge N { s with stack := rest } := ⟨hs.used, hs.look⟩
      obtain ⟨h1, h2⟩ := exploreNbrs_ordered h (root := root) hz (N.nbrs z) hs'
      rw [show ({ N with elev := e' } : FNet).nbrs z = N.nbrs z from by cases z <;> rfl, h1]
      cases hx : (N.nbrs z).foldlM (exploreNbr N root z) { s with stack := rest } with
      | error x => rfl
      | ok t => exact exploreLoop_ordered root k (h2 t hx)

theorem basinLoop_ordered : ∀ (k : Nat) (f : Flags) (feats : List Nat),
    basinLoop { N with elev := e' } k f feats = basinLoop N k f feats
  | 0, _, _ => rfl
  | k + 1, f, feats => by
    unfold basinLoop
    cases feats.getLast? with
    | none => rfl
    | some r =>
      dsimp only
      show (if N.dead f (.saddle r) = true then _ else _) = _
      split
      · exact basinLoop_ordered k f _
      rename_i hd
      have hr := edge_of_alive hd
      have hs : OffEdge N (.start (.saddle r) f feats.dropLast) := by
        refine ⟨fun n hn => ?_, fun n q hq => ?_⟩
        · unfold DSt.start at hn
          dsimp only at hn
          split at hn
          · rename_i he
            rw [he]
            exact hr
          · exact absurd rfl hn
        · unfold DSt.start at hq
          dsimp only at hq
          split at hq
          · cases hq
            exact hr
          · cases hq
      rw [exploreLoop_ordered h _ _ hs]
      cases exploreLoop N (.saddle r) (N.nSummits + N.nSaddles + 2) (.start (.saddle r) f feats.dropLast) with
      | error x => rfl
      | ok s => exact basinLoop_ordered k _ _

end

theorem sortElev_ordered {e e' : Nat → Rat} : ∀ (l : List Nat), (∀ j ∈ l, ∀ k ∈ l, e' j ≤ e' k ↔ e j ≤ e k) →
    sortElev e' l = sortElev e l := by
  have ins : ∀ (k : Nat) (l : List Nat), (∀ j ∈ l, e' k ≤ e' j ↔ e k ≤ e j) →
      insertElev e' k l = insertElev e k l := by
    intro k l
    induction l with
    | nil => exact fun _ => rfl
    | cons j l ih =>
      intro hl
      unfold insertElev
      simp only [hl j List.mem_cons_self, ih fun i hi => hl i (List.mem_cons_of_mem _ hi)]
  intro l
  induction l with
  | nil => exact fun _ => rfl
  | cons k l ih =>
    intro hl
    unfold sortElev
    rw [ih fun i hi j hj => hl i (List.mem_cons_of_mem _ hi) j (List.mem_cons_of_mem _ hj)]
    exact ins k _ fun j hj => hl k List.mem_cons_self j
      (List.mem_cons_of_mem _ ((sortElev_perm e l).mem_iff.1 hj))

theorem detect_ordered {N : FNet} {e' : Node → Rat} (h : OrderedAs (fun n => N.edge n = false) N.elev e')
    {saddles : List Nat} (hs : OrderedAs (fun n => ∃ k ∈ saddles, n = .saddle k) N.elev e') (fuel : Nat) (f : Flags) :
    disqualifyBasinSaddles { N with elev := e' } fuel saddles f = disqualifyBasinSaddles N fuel saddles f := by
  unfold disqualifyBasinSaddles
  have e : basinFeatures { N with elev := e' } saddles = basinFeatures N saddles := by
    unfold basinFeatures
    refine sortElev_ordered _ fun j hj k hk => ?_
    have := hs (.saddle k) (.saddle j) ⟨k, (mem_toSet _ _).1 hk, rfl⟩ ⟨j, (mem_toSet _ _).1 hj, rfl⟩
    rw [← not_lt, ← not_lt]
    exact not_congr this
  dsimp only
  rw [e]
  exact basinLoop_ordered h fuel _ _

/-! ### The saddles of a map are objects of it -/

/-- The walked features are objects, and objects are only added. -/
def InRange (s s' : CSt) : Prop :=
  s.objs.length ≤ s'.objs.length ∧ ((∀ k ∈ s.walked, k < s.objs.length) → ∀ k ∈ s'.walked, k < s'.objs.length)

theorem InRange.rfl' (s : CSt) : InRange s s := ⟨le_refl _, fun h => h⟩

theorem InRange.trans {s t u : CSt} (h1 : InRange s t) (h2 : InRange t u) : InRange s u :=
  ⟨h1.1.trans h2.1, fun h => h2.2 (h1.2 h)⟩

theorem InRange.same {s t : CSt} (h1 : t.walked = s.walked) (h2 : t.objs.length = s.objs.length) : InRange s t :=
  ⟨h2.ge, fun h => by rw [h1, h2]; exact h⟩

theorem InRange.push {s t : CSt} {b : Nat} (h1 : t.walked = s.walked ++ [b]) (h2 : t.objs.length = s.objs.length)
    (hb : b < s.objs.length) : InRange s t := by
  refine ⟨h2.ge, fun h k hk => ?_⟩
  rw [h1] at hk
  rw [h2]
  rcases List.mem_append.1 hk with hk | hk
  · exact h k hk
  · rw [List.mem_singleton.1 hk]
    exact hb

theorem InRange.fold {f : CSt → Nat → Except PyErr CSt} (hf : ∀ s k t, f s k = .ok t → InRange s t) :
    ∀ (l : List Nat) (s t : CSt), l.foldlM f s = .ok t → InRange s t
  | [], s, t, h => by
    cases h
    exact .rfl' s
  | k :: l, s, t, h => by
    rw [List.foldlM_cons] at h
    obtain ⟨u, h1, h2⟩ := bind_ok h
    exact (hf s k u h1).trans (InRange.fold hf l u t h2)

theorem length_modObj (objs : List SObj) (k : Nat) (g : SObj → SObj) : (modObj objs k g).length = objs.length :=
  List.length_modify ..

theorem walkSynthetic_inRange {E : SaddleEnv} {s t : CSt} {k : Nat} (h : walkSynthetic E s k = .ok t) :
    InRange s t := by
  unfold walkSynthetic at h
  split at h
  · cases h
  · rename_i o ho
    obtain ⟨w, _, h2⟩ := bind_ok h
    obtain ⟨s', h3, h4⟩ := bind_ok h2
    cases h4
    obtain ⟨e1, e2, _⟩ := linkEdges_count h3
    exact .push (congrArg (· ++ [k]) e2) (congrArg List.length e1) (lt_of_getElem? ho)

theorem walkEdgeSaddle_inRange {E : SaddleEnv} {base : Nat} {s t : CSt} {k : Nat}
    (h : walkEdgeSaddle E base s k = .ok t) : InRange s t := by
  unfold walkEdgeSaddle at h
  split at h
  · cases h
  · rename_i o ho
    obtain ⟨s', h3, h4⟩ := bind_ok h
    cases h4
    obtain ⟨e1, e2, _⟩ := linkEdges_count h3
    refine .push (congrArg (· ++ [k]) e2) ?_ (lt_of_getElem? ho)
    show (modObj (modObj s'.objs k _) base _).length = _
    rw [length_modObj, length_modObj, e1]

theorem finishEdge_inRange {E : SaddleEnv} {s t : CSt} {base : Nat} {ids : List Nat} (hb : base < s.objs.length)
    (h : finishEdge E s base ids = .ok t) : InRange s t := by
  unfold finishEdge at h
  obtain ⟨s', h1, h2⟩ := bind_ok h
  cases h2
  have h3 := InRange.fold (fun s k t => walkEdgeSaddle_inRange (E := E) (base := base)) ids s s' h1
  exact h3.trans (.push rfl (length_modObj ..) (hb.trans_le h3.1))

theorem edgeSynthetic_inRange {E : SaddleEnv} {s t : CSt} {base : Nat} {f : Feature} {ids : List Nat}
    (h : edgeSynthetic E s base f = .ok (t, ids)) : InRange s t := by
  have ha : ∀ fs, InRange s (alloc s fs).1 := fun fs => by
    have hl : (alloc s fs).1.objs.length = s.objs.length + (fs.map fun f => ({ f := f } : SObj)).length :=
      List.length_append
    exact ⟨by rw [hl]; exact Nat.le_add_right _ _, fun h k hk => by
      rw [hl]
      exact (h k hk).trans_le (Nat.le_add_right _ _)⟩
  unfold edgeSynthetic at h
  obtain ⟨r, _, h2⟩ := bind_ok h
  cases r with
  | none =>
    cases h2
    exact .rfl' s
  | some fs =>
    dsimp only at h2
    split at h2
    · cases h2
      refine (ha fs).trans (.same rfl ?_)
      unfold adoptChildren
      dsimp only
      rw [length_modObj]
      have : ∀ (l : List Nat) (objs : List SObj), (l.foldl (fun objs k => modObj objs k
          (fun o => { o with parent := some base })) objs).length = objs.length := by
        intro l
        induction l with
        | nil => exact fun _ => rfl
        | cons k l ih =>
          intro objs
          rw [List.foldl_cons, ih, length_modObj]
      exact this _ _
    · cases h2
      exact ha fs

theorem walkFeature_inRange {E : SaddleEnv} {s t : CSt} {base : Nat} (h : walkFeature E s base = .ok t) :
    InRange s t := by
  unfold walkFeature at h
  split at h
  · cases h
  · rename_i o ho
    have hb := lt_of_getElem? ho
    split at h
    · obtain ⟨r, _, h2⟩ := bind_ok h
      cases r with
      | none => exact walkSynthetic_inRange h2
      | some fs =>
        have hl : (alloc s fs).1.objs.length = s.objs.length + (fs.map fun f => ({ f := f } : SObj)).length :=
          List.length_append
        have ha : InRange s (alloc s fs).1 :=
          ⟨by rw [hl]; exact Nat.le_add_right _ _, fun h k hk => by
            rw [hl]
            exact (h k hk).trans_le (Nat.le_add_right _ _)⟩
        exact ha.trans (InRange.fold (fun s k t => walkSynthetic_inRange (E := E)) _ _ _ h2)
    · obtain ⟨w, _, h2⟩ := bind_ok h
      have hw : InRange s { s with w := w } := .same rfl rfl
      dsimp only at h2
      refine hw.trans ?_
      split at h2
      · split at h2
        · split at h2
          · cases h2
          · split at h2
            · cases h2
              exact .push rfl rfl hb
            · obtain ⟨⟨s2, ids⟩, h3, h4⟩ := bind_ok h2
              have h5 := edgeSynthetic_inRange h3
              exact (InRange.same rfl rfl).trans (h5.trans (finishEdge_inRange (hb.trans_le h5.1) h4))
        · exact finishEdge_inRange hb h2
      · obtain ⟨⟨s2, ids⟩, h3, h4⟩ := bind_ok h2
        have h5 := edgeSynthetic_inRange h3
        exact h5.trans (finishEdge_inRange (hb.trans_le h5.1) h4)

theorem saddles_inRange {E : SaddleEnv} {o : Pt → Oracle} {order : List Pt} {rebuild : Bool} {m : DMap}
    (h : DMap.runSparse E o order rebuild = .ok m) : ∀ k ∈ m.saddles, k < m.st.objs.length := by
  unfold DMap.runSparse at h
  obtain ⟨m0, _, h2⟩ := bind_ok h
  obtain ⟨⟨m1, r1⟩, h3, h4⟩ := bind_ok h2
  cases h4
  unfold DMap.walk at h3
  obtain ⟨w, _, h5⟩ := bind_ok h3
  obtain ⟨⟨r, s⟩, h6, h7⟩ := bind_ok h5
  simp only [List.isEmpty_nil, if_true] at h6 h7
  cases h7
  unfold climbFromSaddles at h6
  obtain ⟨s', h8, h9⟩ := bind_ok h6
  cases h9
  have := InRange.fold (fun s k t => walkFeature_inRange) _ _ _ h8
  intro k hk
  exact this.2 (fun k hk => (nomatch hk)) k (List.mem_filter.1 hk).1

/-! ### Networks of converted maps -/

theorem feature_scaled (φ : Rat → Rat) (m : DMap) (n : Node) :
    (scaleMap φ m).feature n = (m.feature n).map (scaleF φ) := by
  cases n with
  | summit D => exact List.getElem?_map
  | saddle k =>
    show ((m.st.objs.map fun o => { o with f := scaleF φ o.f })[k]?).map (·.f) = (m.st.objs[k]?.map (·.f)).map _
    rw [List.getElem?_map]
    cases m.st.objs[k]? <;> rfl

theorem net_scaled {φ : Rat → Rat} (hφ : Increasing φ) (m : DMap) :
    (scaleMap φ m).net = { m.net with elev := (scaleMap φ m).net.elev } := by
  have h1 : (scaleMap φ m).net.edge = m.net.edge := funext fun n => by
    show ((((scaleMap φ m).feature n).map (·.edge)).getD true) = ((m.feature n).map (·.edge)).getD true
    rw [feature_scaled]
    cases m.feature n <;> rfl
  have h2 : (scaleMap φ m).net.eq = m.net.eq := funext fun n => funext fun n' => by
    show featEq ((scaleMap φ m).feature n) ((scaleMap φ m).feature n') = featEq (m.feature n) (m.feature n')
    rw [feature_scaled, feature_scaled]
    cases m.feature n with
    | none => rfl
    | some s =>
      cases m.feature n' with
      | none => rfl
      | some t => exact seEq_scaled hφ ..
  have h3 : (scaleMap φ m).net.setEq = m.net.setEq := funext fun n => funext fun n' => by
    show sumSetEq (m.summits.map (scaleF φ))[n]? (m.summits.map (scaleF φ))[n']? = sumSetEq m.summits[n]? m.summits[n']?
    rw [List.getElem?_map, List.getElem?_map]
    cases m.summits[n]? with
    | none => rfl
    | some s =>
      cases m.summits[n']? with
      | none => rfl
      | some t =>
        show (!seNe s.lat s.lon (φ s.elevation) t.lat t.lon (φ t.elevation) &&
          seEq s.lat s.lon (φ s.elevation) t.lat t.lon (φ t.elevation)) = _
        rw [seEq_scaled hφ, seNe_scaled hφ]
        rfl
  have h4 : (scaleMap φ m).net.nSummits = m.net.nSummits := List.length_map _
  have h5 : (scaleMap φ m).net.nSaddles = m.net.nSaddles := List.length_map _
  have e : ∀ N : FNet, N = ⟨N.nSummits, N.nSaddles, N.elev, N.edge, N.eq, N.setEq, N.link, N.sumLinks, N.sadLinks,
    N.sumDisq⟩ := fun _ => rfl
  rw [e (scaleMap φ m).net, h1, h2, h3, h4, h5]
  rfl

theorem elev_scaled {φ : Rat → Rat} {m : DMap} {n : Node} (h : m.feature n ≠ none) :
    (scaleMap φ m).net.elev n = φ (m.net.elev n) := by
  show (((scaleMap φ m).feature n).map (·.elevation)).getD 0 = φ (((m.feature n).map (·.elevation)).getD 0)
  rw [feature_scaled]
  cases hf : m.feature n with
  | none => exact absurd hf h
  | some f => rfl

theorem orderedAs_scaled {φ : Rat → Rat} (hφ : Increasing φ) {m : DMap} {P : Node → Prop}
    (h : ∀ n, P n → m.feature n ≠ none) : OrderedAs P m.net.elev (scaleMap φ m).net.elev := by
  intro n n' hn hn'
  rw [elev_scaled (h n hn), elev_scaled (h n' hn')]
  exact inc_lt hφ

theorem detectBasins_scaled {φ : Rat → Rat} (hφ : Increasing φ) {m : DMap}
    (hm : ∀ k ∈ m.saddles, k < m.st.objs.length) (fuel : Nat) (f : Flags) :
    (scaleMap φ m).detectBasins fuel f = m.detectBasins fuel f := by
  unfold DMap.detectBasins
  rw [net_scaled hφ]
  refine detect_ordered (orderedAs_scaled hφ fun n hn => ?_) (orderedAs_scaled hφ ?_) fuel f
  · intro h0
    have : m.net.edge n = true := by
      show ((m.feature n).map (·.edge)).getD true = true
      rw [h0]
      rfl
    rw [hn] at this
    exact Bool.noConfusion this
  · rintro n ⟨k, hk, rfl⟩
    show m.st.objs[k]?.map (·.f) ≠ none
    rw [List.getElem?_eq_getElem (hm k hk)]
    exact Option.some_ne_none _

theorem flags_scaled (φ : Rat → Rat) (m : DMap) : (scaleMap φ m).flags = m.flags := by
  unfold DMap.flags
  have : (fun k : Nat => ((scaleMap φ m).st.objs[k]?.map SObj.disq).getD none) =
      fun k : Nat => (m.st.objs[k]?.map SObj.disq).getD none := funext fun k => by
    show ((m.st.objs.map fun o => { o with f := scaleF φ o.f })[k]?.map SObj.disq).getD none = _
    rw [List.getElem?_map]
    cases m.st.objs[k]? <;> rfl
  rw [this]

theorem run_scaled {φ : Rat → Rat} (hφ : Increasing φ) {E E' : SaddleEnv} (hE : SameChoices φ E E')
    (hw : SameSlopes φ (Occurs E.d) E.w E'.w)
    {o o' : Pt → Oracle} (ho : ∀ p, SameOrders φ (o p) (o' p)) (order : List Pt) (rebuild : Bool) (fuel : Nat) :
    DMap.run E' o' order rebuild fuel =
      (DMap.run E o order rebuild fuel).map fun r => (scaleMap φ r.1, r.2) := by
  unfold DMap.run
  rw [runSparse_scaled hφ hE hw ho]
  simp only [bind, Except.bind]
  cases hm : DMap.runSparse E o order rebuild with
  | error e => rfl
  | ok m =>
    simp only [Except.map]
    rw [flags_scaled, detectBasins_scaled hφ (saddles_inRange hm)]
    cases m.detectBasins fuel m.flags <;> rfl

end PyProm
