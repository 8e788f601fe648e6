import Verif.Model.RunSerial
import Verif.Proof.DomainMap
import Verif.Proof.Basin

/-
Basin saddle detection step by step on two networks that differ in the names of the saddles only.
-/
namespace PyProm
open Spec

/-- The name of a feature in the other network. -/
def renameNode (φ : Nat → Nat) : Node → Node
  | .summit D => .summit D
  | .saddle k => .saddle (φ k)

/-- Summits, and the saddles in question. -/
def GoodNode (good : Nat → Prop) : Node → Prop
  | .summit _ => True
  | .saddle k => good k

/-- `N'` is the network `N`, where saddle `P` of `N'` is called `φ P`. Saddles that are not `good` are on the edge. -/
structure Spec.Renames (N N' : FNet) (good : Nat → Prop) (φ : Nat → Nat) : Prop where
  inj : ∀ P Q, good P → good Q → φ P = φ Q → P = Q
  elev : ∀ n, GoodNode good n → N'.elev n = N.elev (renameNode φ n)
  edge : ∀ n, GoodNode good n → N'.edge n = N.edge (renameNode φ n)
  eq : ∀ a b, GoodNode good a → GoodNode good b → N'.eq a b = N.eq (renameNode φ a) (renameNode φ b)
  setEq : ∀ a b, N'.setEq a b = N.setEq a b
  sumDisq : ∀ D, N'.sumDisq D = N.sumDisq D
  sumLinks : ∀ D, N'.sumLinks D = N.sumLinks D
  sadLinks : ∀ P, good P → N'.sadLinks P = N.sadLinks (φ P)
  toSummit : ∀ P, good P → ∀ i ∈ N'.sadLinks P, (N'.link i).1 = (N.link i).1
  toSaddle : ∀ D, ∀ i ∈ N'.sumLinks D, (good (N'.link i).2 ∧ φ (N'.link i).2 = (N.link i).2) ∨
    (¬ good (N'.link i).2 ∧ N'.edge (.saddle (N'.link i).2) = true ∧ N.edge (.saddle (N.link i).2) = true ∧
      ∀ P, good P → φ P ≠ (N.link i).2)

/-- The flags `f'` are the flags `f` for the other names. -/
structure Spec.FlagsAs (good : Nat → Prop) (φ : Nat → Nat) (made : Nat → Prop) (f f' : Flags) : Prop where
  basin : ∀ P, good P → f'.basin P = f.basin (φ P)
  single : ∀ P, good P → f'.single P = f.single (φ P)
  over : ∀ P, good P → f'.over P = f.over (φ P)
  linkDisq : ∀ i, made i → f'.linkDisq i = f.linkDisq i
  alts : ∀ P, good P → (saddleNos (f'.alts (.saddle P))).map φ = saddleNos (f.alts (.saddle (φ P)))
  altsGood : ∀ P, good P → ∀ x ∈ saddleNos (f'.alts (.saddle P)), good x

section
variable {N N' : FNet} {good : Nat → Prop} {φ : Nat → Nat} {made : Nat → Prop}

theorem rename_inj (h : Renames N N' good φ) {a b : Node} (ha : GoodNode good a) (hb : GoodNode good b)
    (e : renameNode φ a = renameNode φ b) : a = b := by
  cases a with
  | summit D => cases b with
    | summit D' => exact e
    | saddle k => cases e
  | saddle P => cases b with
    | summit D' => cases e
    | saddle Q =>
      simp only [renameNode, Node.saddle.injEq] at e
      rw [h.inj P Q ha hb e]

theorem rename_mem (h : Renames N N' good φ) {a : Node} {l : List Node} (ha : GoodNode good a)
    (hl : ∀ n ∈ l, GoodNode good n) : renameNode φ a ∈ l.map (renameNode φ) ↔ a ∈ l := by
  constructor
  · intro hm
    obtain ⟨b, hb, e⟩ := List.mem_map.1 hm
    rwa [← rename_inj h (hl b hb) ha e]
  · exact fun hm => List.mem_map.2 ⟨a, hm, rfl⟩

theorem Spec.FlagsAs.saddleDisq {f f' : Flags} (hf : FlagsAs good φ made f f') {P : Nat} (hP : good P) :
    f'.saddleDisq P = f.saddleDisq (φ P) := by
  unfold Flags.saddleDisq
  rw [hf.over P hP, hf.single P hP, hf.basin P hP]

theorem rename_dead (h : Renames N N' good φ) {f f' : Flags} (hf : FlagsAs good φ made f f') {n : Node}
    (hn : GoodNode good n) : N.dead f (renameNode φ n) = N'.dead f' n := by
  unfold FNet.dead
  rw [h.edge n hn]
  congr 1
  cases n with
  | summit D => exact (h.sumDisq D).symm
  | saddle P => exact (hf.saddleDisq hn).symm

/-- Disqualification of a saddle. -/
theorem rename_disqualify (h : Renames N N' good φ) {f f' : Flags} (hf : FlagsAs good φ made f f') {P : Nat}
    (hP : good P) (basin single : Bool) :
    FlagsAs good φ made (disqualifySelf N f (φ P) basin single) (disqualifySelf N' f' P basin single) := by
  have hd : ∀ Q, good Q → decide (φ Q = φ P) = decide (Q = P) := by
    intro Q hQ
    exact decide_eq_decide.2 ⟨fun e => h.inj Q P hQ hP e, fun e => by rw [e]⟩
  refine ⟨fun Q hQ => ?_, fun Q hQ => ?_, fun Q hQ => ?_, fun i hi => ?_, hf.alts, hf.altsGood⟩ <;> simp only [disqualifySelf]
  · rw [hd Q hQ, hf.basin Q hQ]
  · rw [hd Q hQ, hf.single Q hQ]
  · rw [hd Q hQ, hf.over Q hQ]
  · rw [h.sadLinks P hP, hf.linkDisq i hi]

theorem rename_single (h : Renames N N' good φ) {f f' : Flags} (hf : FlagsAs good φ made f f') {P : Nat} (hP : good P) :
    FlagsAs good φ made (singleSource N f (φ P)) (singleSource N' f' P) := by
  have hu : ∀ l, uniqueSummits N' l = uniqueSummits N l := by
    intro l
    unfold uniqueSummits
    simp only [h.setEq]
  have hs : (N'.sadLinks P).map (fun i => (N'.link i).1) = (N.sadLinks (φ P)).map fun i => (N.link i).1 := by
    rw [← h.sadLinks P hP]
    exact List.map_congr_left fun i hi => h.toSummit P hP i hi
  unfold singleSource
  rw [hu, hs]
  split
  · exact rename_disqualify h hf hP false true
  · exact hf

theorem rename_stubs (h : Renames N N' good φ) : ∀ (feats : List Nat) (f f' : Flags), (∀ P ∈ feats, good P) →
    FlagsAs good φ made f f' → FlagsAs good φ made (stubPass N (feats.map φ) f) (stubPass N' feats f') := by
  intro feats
  induction feats with
  | nil => exact fun _ _ _ hf => hf
  | cons P feats ih =>
    intro f f' hg hf
    have hP := hg P (by simp)
    simp only [stubPass, List.map_cons, List.foldl_cons]
    refine ih _ _ (fun Q hQ => hg Q (by simp [hQ])) ?_
    rw [hf.saddleDisq hP]
    split
    · exact hf
    · exact rename_single h hf hP

theorem rename_toSet (h : Renames N N' good φ) (l : List Nat) (hg : ∀ P ∈ l, good P) :
    toSet (l.map φ) = (toSet l).map φ := by
  have key : ∀ (l acc : List Nat), (∀ P ∈ l, good P) → (∀ P ∈ acc, good P) →
      (l.map φ).foldl setAdd (acc.map φ) = (l.foldl setAdd acc).map φ := by
    intro l
    induction l with
    | nil => exact fun _ _ _ => rfl
    | cons P l ih =>
      intro acc hg ha
      have hP := hg P (by simp)
      simp only [List.map_cons, List.foldl_cons]
      have e : setAdd (acc.map φ) (φ P) = (setAdd acc P).map φ := by
        unfold setAdd
        have hm : φ P ∈ acc.map φ ↔ P ∈ acc := by
          constructor
          · intro hm
            obtain ⟨Q, hQ, e⟩ := List.mem_map.1 hm
            rwa [← h.inj Q P (ha Q hQ) hP e]
          · exact fun hm => List.mem_map.2 ⟨P, hm, rfl⟩
        by_cases hp : P ∈ acc
        · rw [if_pos hp, if_pos (hm.2 hp)]
        · rw [if_neg hp, if_neg (fun hc => hp (hm.1 hc))]
          simp
      rw [e]
      refine ih _ (fun Q hQ => hg Q (by simp [hQ])) fun Q hQ => ?_
      unfold setAdd at hQ
      split at hQ
      · exact ha Q hQ
      · rcases List.mem_append.1 hQ with hQ | hQ
        · exact ha Q hQ
        · rw [List.mem_singleton] at hQ
          exact hQ ▸ hP
  exact key l [] hg (by simp)

theorem rename_insert (h : Renames N N' good φ) {P : Nat} (hP : good P) : ∀ (l : List Nat), (∀ Q ∈ l, good Q) →
    insertElev (fun k => N.elev (.saddle k)) (φ P) (l.map φ) = (insertElev (fun k => N'.elev (.saddle k)) P l).map φ := by
  intro l
  induction l with
  | nil => exact fun _ => rfl
  | cons Q l ih =>
    intro hg
    have hQ := hg Q (by simp)
    simp only [List.map_cons, insertElev]
    have e1 : N'.elev (.saddle P) = N.elev (.saddle (φ P)) := h.elev _ hP
    have e2 : N'.elev (.saddle Q) = N.elev (.saddle (φ Q)) := h.elev _ hQ
    by_cases hle : N.elev (.saddle (φ P)) ≤ N.elev (.saddle (φ Q))
    · rw [if_pos hle, if_pos (by rw [e1, e2]; exact hle)]
      rfl
    · rw [if_neg hle, if_neg (by rw [e1, e2]; exact hle), ih fun R hR => hg R (by simp [hR])]
      rfl

theorem mem_insertElev (elev : Nat → Rat) (k : Nat) (l : List Nat) (j : Nat) :
    j ∈ insertElev elev k l ↔ j = k ∨ j ∈ l := by
  induction l with
  | nil => simp [insertElev]
  | cons a l ih =>
    simp only [insertElev]
    split
    · simp
    · simp only [List.mem_cons, ih]
      constructor
      · rintro (h | h | h)
        · exact .inr (.inl h)
        · exact .inl h
        · exact .inr (.inr h)
      · rintro (h | h | h)
        · exact .inr (.inl h)
        · exact .inl h
        · exact .inr (.inr h)

theorem rename_sort (h : Renames N N' good φ) : ∀ (l : List Nat), (∀ Q ∈ l, good Q) →
    sortElev (fun k => N.elev (.saddle k)) (l.map φ) = (sortElev (fun k => N'.elev (.saddle k)) l).map φ ∧
      ∀ Q ∈ sortElev (fun k => N'.elev (.saddle k)) l, good Q := by
  intro l
  induction l with
  | nil => exact fun _ => ⟨rfl, by simp [sortElev]⟩
  | cons P l ih =>
    intro hg
    obtain ⟨i1, i2⟩ := ih fun Q hQ => hg Q (by simp [hQ])
    have hP := hg P (by simp)
    simp only [List.map_cons, sortElev]
    refine ⟨by rw [i1]; exact rename_insert h hP _ i2, fun Q hQ => ?_⟩
    rcases (mem_insertElev _ _ _ _).1 hQ with rfl | hQ
    · exact hP
    · exact i2 Q hQ

theorem rename_features (h : Renames N N' good φ) (l : List Nat) (hg : ∀ P ∈ l, good P) :
    basinFeatures N (l.map φ) = (basinFeatures N' l).map φ ∧ ∀ P ∈ basinFeatures N' l, good P := by
  unfold basinFeatures
  rw [rename_toSet h l hg]
  exact rename_sort h _ fun P hP => hg P ((mem_toSet _ _).1 hP)

/-! ### One cycle -/

theorem lowestStep_mem {elev : Node → Rat} {lo : List Node} {n x : Node} (h : x ∈ lowestStep elev lo n) :
    x ∈ lo ∨ x = n := by
  cases lo with
  | nil => exact absurd h (by simp [lowestStep])
  | cons l lo =>
    simp only [lowestStep] at h
    split at h
    · rcases List.mem_append.1 h with h | h
      · exact .inl h
      · exact .inr (List.mem_singleton.1 h)
    · split at h
      · exact .inr (List.mem_singleton.1 h)
      · exact .inl h

theorem rename_lowest (h : Renames N N' good φ) (c : List Node) (hc : ∀ n ∈ c, GoodNode good n) :
    findLowest N.elev (c.map (renameNode φ)) = (findLowest N'.elev c).map (renameNode φ) ∧
      ∀ n ∈ findLowest N'.elev c, GoodNode good n := by
  have key : ∀ (c lo : List Node), (∀ n ∈ c, GoodNode good n) → (∀ n ∈ lo, GoodNode good n) →
      (c.map (renameNode φ)).foldl (lowestStep N.elev) (lo.map (renameNode φ)) =
        (c.foldl (lowestStep N'.elev) lo).map (renameNode φ) ∧ ∀ n ∈ c.foldl (lowestStep N'.elev) lo, GoodNode good n := by
    intro c
    induction c with
    | nil => exact fun lo _ hl => ⟨rfl, hl⟩
    | cons a c ih =>
      intro lo hg hl
      have ha := hg a (by simp)
      simp only [List.map_cons, List.foldl_cons]
      have e : lowestStep N.elev (lo.map (renameNode φ)) (renameNode φ a) = (lowestStep N'.elev lo a).map (renameNode φ) := by
        cases lo with
        | nil => rfl
        | cons l lo =>
          have hb := hl l (by simp)
          simp only [List.map_cons, lowestStep]
          have hne : (renameNode φ a ≠ renameNode φ l) ↔ a ≠ l :=
            not_congr ⟨fun e => rename_inj h ha hb e, fun e => by rw [e]⟩
          rw [← h.elev a ha, ← h.elev l hb]
          simp only [hne]
          split
          · simp
          · split
            · rfl
            · rfl
      rw [e]
      refine ih _ (fun n hn => hg n (by simp [hn])) fun n hn => ?_
      rcases lowestStep_mem hn with hn | rfl
      · exact hl n hn
      · exact ha
  unfold findLowest
  rw [← List.map_take]
  exact key c (c.take 1) hc fun n hn => hc n (List.mem_of_mem_take hn)

theorem rename_removeFirst {p p' : Node → Bool} : ∀ (l : List Node), (∀ x ∈ l, p (renameNode φ x) = p' x) →
    removeFirst p (l.map (renameNode φ)) = (removeFirst p' l).map (renameNode φ) := by
  intro l
  induction l with
  | nil => exact fun _ => rfl
  | cons x l ih =>
    intro hx
    simp only [List.map_cons, removeFirst, hx x (by simp)]
    split
    · rfl
    · rw [ih fun y hy => hx y (by simp [hy])]
      rfl

theorem mem_removeFirst {p : Node → Bool} {l : List Node} {x : Node} (h : x ∈ removeFirst p l) : x ∈ l := by
  induction l with
  | nil => exact h
  | cons a l ih =>
    simp only [removeFirst] at h
    split at h
    · exact List.mem_cons_of_mem _ h
    · rcases List.mem_cons.1 h with h | h
      · rw [h]; simp
      · exact List.mem_cons_of_mem _ (ih h)

theorem mem_nos {l : List Node} {x : Nat} : x ∈ saddleNos l ↔ Node.saddle x ∈ l := by
  unfold saddleNos
  rw [List.mem_filterMap]
  constructor
  · rintro ⟨n, hn, e⟩
    cases n with
    | summit D => cases e
    | saddle k => cases e; exact hn
  · exact fun h => ⟨_, h, rfl⟩

theorem saddleNos_rename (l : List Node) : saddleNos (l.map (renameNode φ)) = (saddleNos l).map φ := by
  induction l with
  | nil => rfl
  | cons n l ih =>
    cases n with
    | summit D => exact ih
    | saddle P => exact congrArg (φ P :: ·) ih

theorem rename_label (h : Renames N N' good φ) {f f' : Flags} (hf : FlagsAs good φ made f f') (lo : List Node)
    (hg : ∀ n ∈ lo, GoodNode good n) {r r' : Flags} (h1 : disqualifyAndLabel N f (lo.map (renameNode φ)) = .ok r)
    (h2 : disqualifyAndLabel N' f' lo = .ok r') : FlagsAs good φ made r r' := by
  cases lo with
  | nil => cases h2
  | cons n lo =>
    cases n with
    | summit D => cases h2
    | saddle P =>
      have hP : good P := hg (.saddle P) (by simp)
      have hd := rename_disqualify h hf hP true false
      simp only [List.map_cons, renameNode, disqualifyAndLabel, List.length_cons, List.length_map] at h1 h2
      split at h2
      · rename_i hlen
        rw [if_pos hlen] at h1
        split at h2
        · cases h2
        · split at h1
          · cases h1
          · cases h1
            cases h2
            refine ⟨hd.basin, hd.single, hd.over, hd.linkDisq, fun Q hQ => ?_, ?_⟩
            rotate_left
            · have key : ∀ (l : List Node) (a' : Node → List Node), (∀ Q, good Q → ∀ x ∈ saddleNos (a' (.saddle Q)), good x) →
                  ∀ Q, good Q → ∀ x ∈ saddleNos (l.foldl (fun (a : Node → List Node) n m =>
                    if m = n then removeFirst (fun x => decide (x = n) || N'.eq x n) (Node.saddle P :: lo) else a m) a' (.saddle Q)),
                  good x := by
                intro l
                induction l with
                | nil => exact fun _ ha => ha
                | cons n l ih =>
                  intro a' ha
                  simp only [List.foldl_cons]
                  refine ih _ fun R hR x hx => ?_
                  by_cases e : Node.saddle R = n
                  · rw [if_pos e] at hx
                    have := mem_removeFirst (mem_nos.1 hx)
                    exact hg _ this
                  · rw [if_neg e] at hx
                    exact ha R hR x hx
              exact key _ _ fun R hR => hd.altsGood R hR
            dsimp only
            have e0 : Node.saddle (φ P) :: lo.map (renameNode φ) = (Node.saddle P :: lo).map (renameNode φ) := rfl
            rw [e0]
            have key : ∀ (l : List Node) (a a' : Node → List Node), (∀ n ∈ l, GoodNode good n) →
                (∀ Q, good Q → (saddleNos (a' (.saddle Q))).map φ = saddleNos (a (.saddle (φ Q)))) → ∀ Q, good Q →
                (saddleNos (l.foldl (fun (a : Node → List Node) n m =>
                  if m = n then removeFirst (fun x => decide (x = n) || N'.eq x n) (Node.saddle P :: lo) else a m) a' (.saddle Q))).map φ =
                saddleNos ((l.map (renameNode φ)).foldl (fun (a : Node → List Node) n m =>
                  if m = n then removeFirst (fun x => decide (x = n) || N.eq x n) ((Node.saddle P :: lo).map (renameNode φ)) else a m) a (.saddle (φ Q))) := by
              intro l
              induction l with
              | nil => exact fun a a' _ ha Q hQ => ha Q hQ
              | cons n l ih =>
                intro a a' hl ha Q hQ
                have hn := hl n (by simp)
                simp only [List.map_cons, List.foldl_cons]
                refine ih _ _ (fun x hx => hl x (by simp [hx])) (fun R hR => ?_) Q hQ
                have hR' : GoodNode good (.saddle R) := hR
                have hiff : (Node.saddle (φ R) = renameNode φ n) ↔ (Node.saddle R = n) :=
                  ⟨fun e => rename_inj h hR' hn e, fun e => by rw [← e]; rfl⟩
                by_cases e : Node.saddle R = n
                · rw [if_pos e, if_pos (hiff.2 e), ← saddleNos_rename]
                  refine congrArg saddleNos (rename_removeFirst (Node.saddle P :: lo) ?_).symm
                  intro x hx
                  have hx := hg x hx
                  rw [h.eq x n hx hn]
                  congr 1
                  exact decide_eq_decide.2 ⟨fun e => rename_inj h hx hn e, fun e => by rw [e]⟩
                · rw [if_neg e, if_neg (fun hc => e (hiff.1 hc))]
                  exact ha R hR
            exact key _ _ _ hg (fun R hR => hd.alts R hR) Q hQ
      · rename_i hlen
        rw [if_neg hlen] at h1
        cases h1
        cases h2
        exact hd

theorem rename_climb (h : Renames N N' good φ) {look look' : Node → Option Node} {root : Node} {pn : List Node}
    (hl : ∀ n, GoodNode good n → look (renameNode φ n) = (look' n).map (renameNode φ) ∧ ∀ x ∈ look' n, GoodNode good x)
    (hr : GoodNode good root) (hpn : ∀ n ∈ pn, GoodNode good n) : ∀ (k : Nat) (c : List Node) (p : Node),
    GoodNode good p → (∀ n ∈ c, GoodNode good n) →
    climbBack look (renameNode φ root) (pn.map (renameNode φ)) k (c.map (renameNode φ)) (renameNode φ p) =
      (climbBack look' root pn k c p).map (List.map (renameNode φ)) ∧
    ∀ r, climbBack look' root pn k c p = .ok r → ∀ n ∈ r, GoodNode good n := by
  intro k
  induction k with
  | zero => exact fun c p _ _ => ⟨rfl, fun r hr => by cases hr⟩
  | succ k ih =>
    intro c p hp hc
    simp only [climbBack]
    by_cases hm : p ∈ pn
    · rw [if_pos hm, if_pos ((rename_mem h hp hpn).2 hm)]
      refine ⟨by simp [Except.map], fun r hr n hn => ?_⟩
      cases hr
      rcases List.mem_append.1 hn with hn | hn
      · exact hc n hn
      · rw [List.mem_singleton] at hn
        exact hn ▸ hp
    · rw [if_neg hm, if_neg (fun hx => hm ((rename_mem h hp hpn).1 hx))]
      obtain ⟨l1, l2⟩ := hl p hp
      rw [l1]
      cases hq : look' p with
      | none => exact ⟨rfl, fun r hr => by cases hr⟩
      | some q =>
        have hqg : GoodNode good q := l2 q hq
        simp only [Option.map_some]
        by_cases e : q = root
        · rw [if_pos e, if_pos (by rw [e])]
          refine ⟨by simp [Except.map], fun r hr n hn => ?_⟩
          cases hr
          simp only [List.mem_append, List.mem_singleton] at hn
          rcases hn with (hn | rfl) | rfl
          · exact hc n hn
          · exact hp
          · exact hqg
        · rw [if_neg e, if_neg (fun hx => e (rename_inj h hqg hr hx))]
          have := ih (c ++ [p]) q hqg (by
            intro n hn
            rcases List.mem_append.1 hn with hn | hn
            · exact hc n hn
            · rw [List.mem_singleton] at hn
              exact hn ▸ hp)
          rw [List.map_append, List.map_singleton] at this
          exact this

/-! ### The search -/

/-- Corresponding states of the search. -/
structure SearchAs (good : Nat → Prop) (φ : Nat → Nat) (made : Nat → Prop) (s s' : DSt) : Prop where
  stack : s.stack = s'.stack.map (renameNode φ)
  stackGood : ∀ n ∈ s'.stack, GoodNode good n
  look : ∀ n, GoodNode good n → s.look (renameNode φ n) = (s'.look n).map (renameNode φ) ∧ ∀ x ∈ s'.look n, GoodNode good x
  keys : s.keys = s'.keys.map (renameNode φ)
  keysGood : ∀ n ∈ s'.keys, GoodNode good n
  used : ∀ n, GoodNode good n → s.used (renameNode φ n) = (s'.used n).map (List.map (renameNode φ)) ∧
    ∀ l ∈ s'.used n, ∀ x ∈ l, GoodNode good x
  cyc : s.cyc = s'.cyc.map (renameNode φ)
  cycGood : ∀ n ∈ s'.cyc, GoodNode good n
  flags : FlagsAs good φ made s.flags s'.flags
  feats : s.feats = s'.feats.map φ
  featsGood : ∀ P ∈ s'.feats, good P

theorem rename_pop (h : Renames N N' good φ) {feats : List Nat} (hg : ∀ P ∈ feats, good P) {n : Node}
    (hn : GoodNode good n) : popFeature (feats.map φ) (renameNode φ n) = (popFeature feats n).map φ := by
  unfold popFeature
  rw [List.filter_map]
  congr 1
  refine List.filter_congr fun P hP => ?_
  refine decide_eq_decide.2 (not_congr ⟨fun e => rename_inj h (a := .saddle P) (hg P hP) hn e, fun e => ?_⟩)
  rw [← e]
  rfl

theorem rename_pop_other {feats : List Nat} (hg : ∀ P ∈ feats, good P) {Q k : Nat} (hQ : ¬ good Q)
    (hk : ∀ P, good P → φ P ≠ k) : popFeature (feats.map φ) (.saddle k) = (popFeature feats (.saddle Q)).map φ := by
  have e1 : popFeature feats (.saddle Q) = feats := by
    refine List.filter_eq_self.2 fun P hP => decide_eq_true fun e => hQ ?_
    cases e
    exact hg _ hP
  have e2 : popFeature (feats.map φ) (.saddle k) = feats.map φ := by
    refine List.filter_eq_self.2 fun j hj => decide_eq_true fun e => ?_
    obtain ⟨P, hP, rfl⟩ := List.mem_map.1 hj
    cases e
    exact hk P (hg P hP) rfl
  rw [e1, e2]

theorem pop_good {feats : List Nat} (hg : ∀ P ∈ feats, good P) (n : Node) : ∀ P ∈ popFeature feats n, good P :=
  fun P hP => hg P (List.mem_filter.1 hP).1

/-- One neighbour. -/
theorem rename_nbr (h : Renames N N' good φ) {root z nbr nbr' : Node} (hroot : GoodNode good root) (hz : GoodNode good z)
    {s s' : DSt} (hs : SearchAs good φ made s s')
    (hn : (GoodNode good nbr' ∧ nbr = renameNode φ nbr') ∨ ∃ Q k, nbr' = .saddle Q ∧ nbr = .saddle k ∧ ¬ good Q ∧
      N'.edge (.saddle Q) = true ∧ N.edge (.saddle k) = true ∧ ∀ P, good P → φ P ≠ k)
    {r r' : DSt} (h1 : exploreNbr N (renameNode φ root) (renameNode φ z) s nbr = .ok r)
    (h2 : exploreNbr N' root z s' nbr' = .ok r') : SearchAs good φ made r r' := by
  rcases hn with ⟨hg, rfl⟩ | ⟨Q, k, rfl, rfl, hQ, hQe, hke, hk⟩
  · unfold exploreNbr at h1 h2
    rw [rename_dead h hs.flags hg] at h1
    by_cases hd : N'.dead s'.flags nbr' = true
    · rw [if_pos hd] at h1 h2
      cases h1
      cases h2
      exact { hs with
        feats := by
          dsimp only
          rw [hs.feats]
          exact rename_pop h hs.featsGood hg
        featsGood := pop_good hs.featsGood _ }
    · rw [if_neg hd] at h1 h2
      obtain ⟨u1, u2⟩ := hs.used nbr' hg
      rw [u1] at h1
      cases hu : s'.used nbr' with
      | none =>
        rw [hu] at h1 h2
        simp only [Option.map_none] at h1
        cases h1
        cases h2
        have hiff : ∀ n, GoodNode good n → (renameNode φ n = renameNode φ nbr' ↔ n = nbr') := fun n hn =>
          ⟨fun e => rename_inj h hn hg e, fun e => by rw [e]⟩
        refine ⟨by simp [hs.stack], ?_, fun n hn => ?_, by simp [hs.keys], ?_, fun n hn => ?_, hs.cyc, hs.cycGood, hs.flags,
          hs.feats, hs.featsGood⟩
        · intro n hn
          rcases List.mem_cons.1 hn with rfl | hn
          · exact hg
          · exact hs.stackGood n hn
        · dsimp only
          by_cases e : n = nbr'
          · rw [if_pos e, if_pos ((hiff n hn).2 e)]
            exact ⟨rfl, fun x hx => by cases hx; exact hz⟩
          · rw [if_neg e, if_neg (fun hc => e ((hiff n hn).1 hc))]
            exact hs.look n hn
        · intro n hn
          rcases List.mem_append.1 hn with hn | hn
          · exact hs.keysGood n hn
          · rw [List.mem_singleton] at hn
            exact hn ▸ hg
        · dsimp only
          by_cases e : n = nbr'
          · rw [if_pos e, if_pos ((hiff n hn).2 e)]
            exact ⟨rfl, fun l hl x hx => by cases hl; rw [List.mem_singleton] at hx; exact hx ▸ hz⟩
          · rw [if_neg e, if_neg (fun hc => e ((hiff n hn).1 hc))]
            exact hs.used n hn
      | some pn =>
        rw [hu] at h1 h2
        simp only [Option.map_some] at h1 h2
        have hpn := u2 pn hu
        rw [← h.eq nbr' z hg hz] at h1
        by_cases he : N'.eq nbr' z = true
        · rw [if_pos he] at h1 h2
          cases h1
          cases h2
          exact hs
        · rw [if_neg he] at h1 h2
          obtain ⟨w1, w2⟩ := hs.used z hz
          have hmem : renameNode φ nbr' ∈ (s.used (renameNode φ z)).getD [] ↔ nbr' ∈ (s'.used z).getD [] := by
            rw [w1]
            cases hw : s'.used z with
            | none => simp
            | some l => exact rename_mem h hg (w2 l hw)
          by_cases hm : nbr' ∈ (s'.used z).getD []
          · rw [if_pos (hmem.2 hm)] at h1
            rw [if_pos hm] at h2
            cases h1
            cases h2
            exact hs
          · rw [if_neg (fun hc => hm (hmem.1 hc))] at h1
            rw [if_neg hm] at h2
            obtain ⟨l1, l2⟩ := hs.look z hz
            rw [l1] at h1
            cases hp : s'.look z with
            | none => rw [hp] at h2; cases h2
            | some p =>
              rw [hp] at h1 h2
              simp only [Option.map_some] at h1 h2
              have hpg : GoodNode good p := l2 p hp
              have hc0 : ∀ n ∈ [nbr', z], GoodNode good n := by
                intro n hn
                simp only [List.mem_cons, List.not_mem_nil, or_false] at hn
                rcases hn with rfl | rfl
                · exact hg
                · exact hz
              obtain ⟨c1, c2⟩ := rename_climb h hs.look hroot hpn (s'.keys.length + 1) [nbr', z] p hpg hc0
              have hkl : s.keys.length = s'.keys.length := by rw [hs.keys, List.length_map]
              rw [hkl] at h1
              rw [List.map_cons, List.map_cons, List.map_nil] at c1
              rw [c1] at h1
              cases hcy : climbBack s'.look root pn (s'.keys.length + 1) [nbr', z] p with
              | error e => rw [hcy] at h2; cases h2
              | ok cyc =>
                rw [hcy] at h1 h2
                dsimp only [Except.map, bind, Except.bind] at h1 h2
                have hcg := c2 cyc hcy
                obtain ⟨f1, f2⟩ := rename_lowest h cyc hcg
                rw [f1] at h1
                cases hd1 : disqualifyAndLabel N s.flags ((findLowest N'.elev cyc).map (renameNode φ)) with
                | error e => rw [hd1] at h1; cases h1
                | ok g =>
                  cases hd2 : disqualifyAndLabel N' s'.flags (findLowest N'.elev cyc) with
                  | error e => rw [hd2] at h2; cases h2
                  | ok g' =>
                    rw [hd1] at h1
                    rw [hd2] at h2
                    cases h1
                    cases h2
                    have hfl := rename_label h hs.flags _ f2 hd1 hd2
                    refine ⟨hs.stack, hs.stackGood, hs.look, hs.keys, hs.keysGood, fun n hn => ?_, ?_, ?_, hfl, hs.feats,
                      hs.featsGood⟩
                    · dsimp only
                      by_cases e : n = nbr'
                      · rw [if_pos e, if_pos (by rw [e])]
                        refine ⟨by simp, fun l hl x hx => ?_⟩
                        cases hl
                        rcases List.mem_append.1 hx with hx | hx
                        · exact hpn x hx
                        · rw [List.mem_singleton] at hx
                          exact hx ▸ hz
                      · rw [if_neg e, if_neg (fun hc => e (rename_inj h hn hg hc))]
                        exact hs.used n hn
                    · dsimp only
                      rw [List.map_dropLast]
                    · exact fun n hn => hcg n (List.mem_of_mem_dropLast hn)
  · unfold exploreNbr at h1 h2
    have d1 : N.dead s.flags (.saddle k) = true := by simp [FNet.dead, hke]
    have d2 : N'.dead s'.flags (.saddle Q) = true := by simp [FNet.dead, hQe]
    rw [if_pos d1] at h1
    rw [if_pos d2] at h2
    cases h1
    cases h2
    exact { hs with
      feats := by
        dsimp only
        rw [hs.feats]
        exact rename_pop_other hs.featsGood hQ hk
      featsGood := pop_good hs.featsGood _ }

/-- All neighbours of a feature. -/
theorem rename_nbrs (h : Renames N N' good φ) {root z : Node} (hroot : GoodNode good root) (hz : GoodNode good z)
    {s s' : DSt} (hs : SearchAs good φ made s s') {r r' : DSt}
    (h1 : (N.nbrs (renameNode φ z)).foldlM (exploreNbr N (renameNode φ root) (renameNode φ z)) s = .ok r)
    (h2 : (N'.nbrs z).foldlM (exploreNbr N' root z) s' = .ok r') : SearchAs good φ made r r' := by
  have key : ∀ (l : List Nat) (g g' : Nat → Node), (∀ i ∈ l, (GoodNode good (g' i) ∧ g i = renameNode φ (g' i)) ∨
      ∃ Q k, g' i = .saddle Q ∧ g i = .saddle k ∧ ¬ good Q ∧
      N'.edge (.saddle Q) = true ∧ N.edge (.saddle k) = true ∧ ∀ P, good P → φ P ≠ k) → ∀ s s', SearchAs good φ made s s' →
      ∀ r r', (l.map g).foldlM (exploreNbr N (renameNode φ root) (renameNode φ z)) s = .ok r →
      (l.map g').foldlM (exploreNbr N' root z) s' = .ok r' → SearchAs good φ made r r' := by
    intro l g g'
    induction l with
    | nil =>
      intro _ s s' hs r r' h1 h2
      cases h1
      cases h2
      exact hs
    | cons i l ih =>
      intro hi s s' hs r r' h1 h2
      rw [List.map_cons, List.foldlM_cons] at h1 h2
      obtain ⟨t, t1, t2⟩ := bind_ok h1
      obtain ⟨t', t1', t2'⟩ := bind_ok h2
      exact ih (fun j hj => hi j (by simp [hj])) t t' (rename_nbr h hroot hz hs (hi i (by simp)) t1 t1') r r' t2 t2'
  cases z with
  | summit D =>
    simp only [renameNode, FNet.nbrs] at h1 h2
    rw [← h.sumLinks D] at h1
    refine key _ _ _ (fun i hi => ?_) s s' hs r r' h1 h2
    rcases h.toSaddle D i hi with ⟨a, b⟩ | ⟨a, b, c, d⟩
    · exact .inl ⟨a, by rw [renameNode, b]⟩
    · exact .inr ⟨_, _, rfl, rfl, a, b, c, d⟩
  | saddle P =>
    simp only [renameNode, FNet.nbrs] at h1 h2
    rw [← h.sadLinks P hz] at h1
    refine key _ _ _ (fun i hi => ?_) s s' hs r r' h1 h2
    exact .inl ⟨trivial, by rw [renameNode, h.toSummit P hz i hi]⟩

theorem rename_explore (h : Renames N N' good φ) {root : Node} (hroot : GoodNode good root) : ∀ (n n' : Nat) (s s' : DSt),
    SearchAs good φ made s s' → ∀ r r', exploreLoop N (renameNode φ root) n s = .ok r → exploreLoop N' root n' s' = .ok r' →
    SearchAs good φ made r r' := by
  intro n
  induction n with
  | zero => intro _ _ _ _ r _ h1; cases h1
  | succ n ih =>
    intro n' s s' hs r r' h1 h2
    cases n' with
    | zero => cases h2
    | succ n' =>
      unfold exploreLoop at h1 h2
      rw [hs.stack] at h1
      cases hst : s'.stack with
      | nil =>
        rw [hst] at h1 h2
        cases h1
        cases h2
        exact hs
      | cons z rest =>
        rw [hst] at h1 h2
        have hz : GoodNode good z := hs.stackGood z (by simp [hst])
        have hrest : ∀ x ∈ rest, GoodNode good x := fun x hx => hs.stackGood x (by simp [hst, hx])
        simp only [List.map_cons] at h1 h2
        rw [rename_dead h hs.flags hz] at h1
        by_cases hd : N'.dead s'.flags z = true
        · rw [if_pos hd] at h1 h2
          refine ih n' _ _ ?_ r r' h1 h2
          exact { hs with
            stack := rfl
            stackGood := hrest
            feats := by
              dsimp only
              rw [hs.feats]
              exact rename_pop h hs.featsGood hz
            featsGood := pop_good hs.featsGood _ }
        · rw [if_neg hd] at h1 h2
          have hs1 : SearchAs good φ made { s with stack := rest.map (renameNode φ) } { s' with stack := rest } :=
            { hs with stack := rfl, stackGood := hrest }
          cases e1 : (N.nbrs (renameNode φ z)).foldlM (exploreNbr N (renameNode φ root) (renameNode φ z))
              { s with stack := rest.map (renameNode φ) } with
          | error e => rw [e1] at h1; cases h1
          | ok t =>
            cases e2 : (N'.nbrs z).foldlM (exploreNbr N' root z) { s' with stack := rest } with
            | error e => rw [e2] at h2; cases h2
            | ok t' =>
              rw [e1] at h1
              rw [e2] at h2
              exact ih n' t t' (rename_nbrs h hroot hz hs1 e1 e2) r r' h1 h2

theorem rename_start (h : Renames N N' good φ) {P : Nat} (hP : good P) {f f' : Flags} (hf : FlagsAs good φ made f f')
    {feats : List Nat} (hg : ∀ Q ∈ feats, good Q) :
    SearchAs good φ made (.start (.saddle (φ P)) f (feats.map φ)) (.start (.saddle P) f' feats) := by
  have hP' : GoodNode good (.saddle P) := hP
  have hiff : ∀ n, GoodNode good n → (renameNode φ n = .saddle (φ P) ↔ n = .saddle P) := fun n hn =>
    ⟨fun e => rename_inj h hn hP' e, fun e => by rw [e]; rfl⟩
  refine ⟨rfl, ?_, fun n hn => ?_, rfl, ?_, fun n hn => ?_, rfl, by simp [DSt.start], hf, rfl, hg⟩
  · intro n hn
    simp only [DSt.start, List.mem_singleton] at hn
    exact hn ▸ hP'
  · simp only [DSt.start]
    by_cases e : n = .saddle P
    · rw [if_pos e, if_pos ((hiff n hn).2 e)]
      exact ⟨rfl, fun x hx => by cases hx; exact hP'⟩
    · rw [if_neg e, if_neg (fun hc => e ((hiff n hn).1 hc))]
      exact ⟨rfl, by simp⟩
  · intro n hn
    simp only [DSt.start, List.mem_singleton] at hn
    exact hn ▸ hP'
  · simp only [DSt.start]
    by_cases e : n = .saddle P
    · rw [if_pos e, if_pos ((hiff n hn).2 e)]
      exact ⟨rfl, fun l hl x hx => by cases hl; cases hx⟩
    · rw [if_neg e, if_neg (fun hc => e ((hiff n hn).1 hc))]
      exact ⟨rfl, by simp⟩

theorem rename_loop (h : Renames N N' good φ) : ∀ (n n' : Nat) (f f' : Flags) (feats : List Nat),
    FlagsAs good φ made f f' → (∀ P ∈ feats, good P) → ∀ r r', basinLoop N n f (feats.map φ) = .ok r →
    basinLoop N' n' f' feats = .ok r' → FlagsAs good φ made r r' := by
  intro n
  induction n with
  | zero => intro _ _ _ _ _ _ r _ h1; cases h1
  | succ n ih =>
    intro n' f f' feats hf hg r r' h1 h2
    cases n' with
    | zero => cases h2
    | succ n' =>
      unfold basinLoop at h1 h2
      rw [List.getLast?_map] at h1
      cases hl : feats.getLast? with
      | none =>
        rw [hl] at h1 h2
        cases h1
        cases h2
        exact hf
      | some P =>
        rw [hl] at h1 h2
        have hP : good P := hg P (List.mem_of_getLast? hl)
        have hdg : ∀ Q ∈ feats.dropLast, good Q := fun Q hQ => hg Q (List.mem_of_mem_dropLast hQ)
        simp only [Option.map_some] at h1 h2
        have hdd : N.dead f (.saddle (φ P)) = N'.dead f' (.saddle P) := rename_dead (n := .saddle P) h hf hP
        rw [hdd, ← List.map_dropLast] at h1
        by_cases hd : N'.dead f' (.saddle P) = true
        · rw [if_pos hd] at h1 h2
          exact ih n' _ _ _ hf hdg r r' h1 h2
        · rw [if_neg hd] at h1 h2
          cases e1 : exploreLoop N (.saddle (φ P)) (N.nSummits + N.nSaddles + 2) (.start (.saddle (φ P)) f (feats.dropLast.map φ)) with
          | error e => rw [e1] at h1; cases h1
          | ok t =>
            cases e2 : exploreLoop N' (.saddle P) (N'.nSummits + N'.nSaddles + 2) (.start (.saddle P) f' feats.dropLast) with
            | error e => rw [e2] at h2; cases h2
            | ok t' =>
              rw [e1] at h1
              rw [e2] at h2
              dsimp only at h1 h2
              have hs := rename_explore (made := made) (root := .saddle P) h hP _ _ _ _ (rename_start h hP hf hdg) _ _ e1 e2
              have hfil : t.feats.filter (fun k => !(decide (Node.saddle k ∈ t.keys) && !decide (Node.saddle k ∈ t.cyc))) =
                  (t'.feats.filter (fun k => !(decide (Node.saddle k ∈ t'.keys) && !decide (Node.saddle k ∈ t'.cyc)))).map φ := by
                rw [hs.feats, List.filter_map, hs.keys, hs.cyc]
                congr 1
                refine List.filter_congr fun Q hQ => ?_
                have hQ' : GoodNode good (.saddle Q) := hs.featsGood Q hQ
                have a1 := rename_mem h hQ' hs.keysGood
                have a2 := rename_mem h hQ' hs.cycGood
                simp only [renameNode] at a1 a2
                simp only [Function.comp, a1, a2]
              have hfg : ∀ Q ∈ t'.feats.filter (fun k => !(decide (Node.saddle k ∈ t'.keys) && !decide (Node.saddle k ∈ t'.cyc))), good Q :=
                fun Q hQ => hs.featsGood Q (List.mem_filter.1 hQ).1
              rw [hfil] at h1
              have hcy : t.cyc = [] ↔ t'.cyc = [] := by rw [hs.cyc, List.map_eq_nil_iff]
              have hrm : φ P ∈ (t'.feats.filter (fun k => !(decide (Node.saddle k ∈ t'.keys) && !decide (Node.saddle k ∈ t'.cyc)))).map φ ↔
                  P ∈ t'.feats.filter (fun k => !(decide (Node.saddle k ∈ t'.keys) && !decide (Node.saddle k ∈ t'.cyc))) := by
                constructor
                · intro hm
                  obtain ⟨Q, hQ, e⟩ := List.mem_map.1 hm
                  rwa [← h.inj Q P (hfg Q hQ) hP e]
                · exact fun hm => List.mem_map.2 ⟨P, hm, rfl⟩
              generalize t'.feats.filter (fun k => !(decide (Node.saddle k ∈ t'.keys) && !decide (Node.saddle k ∈ t'.cyc))) = L at *
              by_cases hc : t'.cyc = []
              · rw [if_pos (hcy.2 hc)] at h1
                rw [if_pos hc] at h2
                exact ih n' _ _ _ hs.flags hfg r r' h1 h2
              · rw [if_neg (fun hx => hc (hcy.1 hx))] at h1
                rw [if_neg hc] at h2
                by_cases hm : P ∈ L
                · rw [if_pos (hrm.2 hm)] at h1
                  rw [if_pos hm] at h2
                  exact ih n' _ _ _ hs.flags hfg r r' h1 h2
                · rw [if_neg (fun hx => hm (hrm.1 hx))] at h1
                  rw [if_neg hm] at h2
                  have e3 : L.map φ ++ [φ P] = (L ++ [P]).map φ := by simp
                  rw [e3] at h1
                  refine ih n' _ _ _ hs.flags (fun Q hQ => ?_) r r' h1 h2
                  rcases List.mem_append.1 hQ with hQ | hQ
                  · exact hfg Q hQ
                  · rw [List.mem_singleton] at hQ
                    exact hQ ▸ hP

/-- Detection gives corresponding results on both networks. -/
theorem Spec.Renames.detect (h : Renames N N' good φ) {f f' : Flags} (hf : FlagsAs good φ made f f') {saddles : List Nat}
    (hg : ∀ P ∈ saddles, good P) {n n' : Nat} {r r' : Flags}
    (h1 : disqualifyBasinSaddles N n (saddles.map φ) f = .ok r) (h2 : disqualifyBasinSaddles N' n' saddles f' = .ok r') :
    FlagsAs good φ made r r' := by
  unfold disqualifyBasinSaddles at h1 h2
  obtain ⟨e1, e2⟩ := rename_features h saddles hg
  rw [e1] at h1
  exact rename_loop h n n' _ _ _ (rename_stubs h _ f f' e2 hf) e2 r r' h1 h2

end

end PyProm
