import Verif.Proof.RunHeights
import Verif.Proof.LinkCount
import Mathlib.Tactic.Linarith
import Mathlib.Algebra.Order.Ring.Rat
import Mathlib.Algebra.Order.Field.Basic

/-!
The walk on a raster with converted heights
-/
namespace PyProm
open Spec

theorem Spec.Converts.increasing {φ : Rat → Rat} {a b : Rat} (hc : Converts φ a b) : Increasing φ := by
  intro h k hk
  rw [hc.2, hc.2]
  have := mul_lt_mul_of_pos_left hk hc.1
  linarith

/-- Climbs that start at heights with the property `A` stay there. -/
structure Climbable (d : DataMap) (φ : Rat → Rat) (A : Rat → Prop) : Prop where
  inc : Increasing φ
  up : ∀ h k, A h → h ≤ k → Occurs d k → A k
  off : (∀ h, Occurs d h → A h) ∨ ∀ v, d.nodata = some v → ¬ A v

theorem climbable_all {φ : Rat → Rat} (hφ : Increasing φ) (d : DataMap) : Climbable d φ (Occurs d) :=
  ⟨hφ, fun _ _ _ _ h => h, .inl fun _ h => h⟩

theorem occurs_get {d : DataMap} {x y : Int} {h : Rat} (hg : d.get x y = some h) : Occurs d h := by
  have key : ∀ (m : Nat) (a i : Int), npIndex m a = some i → 0 ≤ i ∧ i ≤ m := by
    intro m a i hi
    unfold npIndex at hi
    split at hi
    · cases hi
      assumption
    · split at hi
      · cases hi
        omega
      · cases hi
  unfold DataMap.get at hg
  split at hg
  · rename_i i j hi hj
    cases hg
    exact .inl ⟨(i, j), ⟨(key _ _ _ hi).1, (key _ _ _ hi).2, (key _ _ _ hj).1, (key _ _ _ hj).2⟩, rfl⟩
  · cases hg

theorem occurs_iterate {d : DataMap} {x y : Int} {n : Nbr} (hn : n ∈ d.iterateFull x y) {e : Rat}
    (he : n.2.2 = some e) : Occurs d e := by
  obtain ⟨x', y', oe⟩ := n
  dsimp only at he
  have h := ((mem_iterateFull d x y x' y' oe).1 hn).2
  rw [he] at h
  rcases h with ⟨h1, h2⟩ | ⟨_, h2⟩
  · exact .inl ⟨(x', y'), h1, (Option.some.inj h2).symm⟩
  · exact .inr h2.symm

/-- The raster has a height with the property `A` at `p`. -/
def Footing (d : DataMap) (A : Rat → Prop) (p : P3) : Prop := ∀ h, d.get p.x p.y = some h → A h

theorem get_of_iterate {d : DataMap} {x y : Int} {n : Nbr} (hn : n ∈ d.iterateFull x y) {e : Rat}
    (he : n.2.2 = some e) (hv : some e ≠ d.nodata) : d.get n.1 n.2.1 = some e := by
  obtain ⟨x', y', oe⟩ := n
  dsimp only at he ⊢
  have h := ((mem_iterateFull d x y x' y' oe).1 hn).2
  rw [he] at h
  rcases h with ⟨h1, h2⟩ | ⟨_, h2⟩
  · rw [h2]
    exact get_data (p := (x', y')) h1
  · exact absurd h2 hv

theorem perim_get {d : DataMap} {x y : Int} {h : Rat} {b : Blob} (hb : equalHeightBlob d x y h = some b) :
    ∀ p ∈ b.perim, d.get p.x p.y = some p.e := by
  have visit : ∀ (s : BlobSt) (n : Nbr), (∀ e, n.2.2 = some e → some e ≠ d.nodata → d.get n.1 n.2.1 = some e) →
      (∀ p ∈ s.perim, d.get p.x p.y = some p.e) → ∀ p ∈ (blobVisit d h s n).perim, d.get p.x p.y = some p.e := by
    rintro s ⟨x, y, oe⟩ hn hs
    cases oe with
    | none => exact hs
    | some e =>
      unfold blobVisit
      dsimp only
      by_cases h1 : some e = d.nodata
      · simp only [if_pos h1]
        exact hs
      simp only [if_neg h1]
      split
      · exact hs
      split
      · split
        · exact hs
        · have key : ∀ p ∈ s.perim ++ [(⟨x, y, e⟩ : P3)], d.get p.x p.y = some p.e := by
            intro p hp
            rcases List.mem_append.1 hp with hp | hp
            · exact hs p hp
            · rw [List.mem_singleton.1 hp]
              exact hn e rfl h1
          by_cases h2 : e > h
          · simp only [if_pos h2]
            split <;> exact key
          · simp only [if_neg h2]
            split <;> exact hs
      · exact hs
  have visits : ∀ (ns : List Nbr) (s : BlobSt), (∀ n ∈ ns, ∀ e, n.2.2 = some e → some e ≠ d.nodata →
      d.get n.1 n.2.1 = some e) → (∀ p ∈ s.perim, d.get p.x p.y = some p.e) →
      ∀ p ∈ (ns.foldl (blobVisit d h) s).perim, d.get p.x p.y = some p.e := by
    intro ns
    induction ns with
    | nil => exact fun s _ hs => hs
    | cons n ns ih =>
      intro s hn hs
      exact ih _ (fun m hm => hn m (List.mem_cons_of_mem _ hm)) (visit s n (hn n List.mem_cons_self) hs)
  have loop : ∀ (n : Nat) (s t : BlobSt), blobLoop d h n s = some t → (∀ p ∈ s.perim, d.get p.x p.y = some p.e) →
      ∀ p ∈ t.perim, d.get p.x p.y = some p.e := by
    intro n
    induction n with
    | zero => exact fun s t ht => (nomatch ht)
    | succ n ih =>
      intro s t ht hs
      unfold blobLoop at ht
      split at ht
      · cases ht
        exact hs
      · refine ih _ _ ht ?_
        exact visits _ _ (fun m hm e he hv => get_of_iterate hm he hv) hs
  unfold equalHeightBlob at hb
  obtain ⟨t, h1, h2⟩ := Option.map_eq_some_iff.1 hb
  cases h2
  refine loop _ _ _ h1 ?_
  intro p hp
  cases hp

section
variable {d : DataMap} {φ : Rat → Rat} {A : Rat → Prop} (hc : Climbable d φ A)
include hc

/-! ### Climbing -/

omit hc in
/-- States of the two searches for the steepest neighbour. -/
def SteepAs (φ : Rat → Rat) (A : Rat → Prop) (w w' : Int → Int → Rat → Rat) (x y : Int) (pe : Rat)
    (s s' : Option P3 × Rat) : Prop :=
  (s = (none, -1) ∧ s' = (none, -1)) ∨
    ∃ p : P3, Adj (0, 0) (x - p.x, y - p.y) ∧ A p.e ∧ pe ≤ p.e ∧ s = (some p, w (x - p.x) (y - p.y) (p.e - pe)) ∧
      s' = (some (scale3 φ p), w' (x - p.x) (y - p.y) (φ p.e - φ pe))

theorem steepStep_scaled {w w' : Int → Int → Rat → Rat} (hw : SameSlopes φ A w w') (x y : Int) {pe : Rat} (hpe : A pe)
    {s s' : Option P3 × Rat} (h : SteepAs φ A w w' x y pe s s') (n : Nbr) (hn : n ∈ d.iterateFull x y) :
    SteepAs φ A w w' x y pe (steepStep w x y pe s n) (steepStep w' x y (φ pe) s' (scaleN φ n)) := by
  have hφ := hc.inc
  have hadj : Adj (0, 0) (x - n.1, y - n.2.1) := adj_shift ((mem_iterateFull d x y n.1 n.2.1 n.2.2).1 hn).1
  unfold steepStep scaleN
  cases he : n.2.2 with
  | none => exact h
  | some e =>
    simp only [Option.map_some]
    simp only [inc_lt hφ]
    split
    · exact h
    rename_i hle
    have hle := not_lt.1 hle
    have hA := hc.up pe e hpe hle (occurs_iterate hn he)
    have hneg := hw.neg _ _ _ hadj hpe hA hle
    dsimp only at hneg
    simp only [hneg]
    by_cases hv : w (x - n.1) (y - n.2.1) (e - pe) < 0
    · simp only [if_pos hv, ite_self]
      exact h
    simp only [if_neg hv]
    have hv' := hneg.not.2 hv
    have hnew : SteepAs φ A w w' x y pe (some ⟨n.1, n.2.1, e⟩, w (x - n.1) (y - n.2.1) (e - pe))
        (some ⟨n.1, n.2.1, φ e⟩, w' (x - n.1) (y - n.2.1) (φ e - φ pe)) := .inr ⟨⟨n.1, n.2.1, e⟩, hadj, hA, hle, rfl, rfl⟩
    rcases h with ⟨rfl, rfl⟩ | ⟨p, hpj, hpA, hp, rfl, rfl⟩
    · have h1 : (-1 : Rat) < w (x - n.1) (y - n.2.1) (e - pe) := by linarith
      have h2 : (-1 : Rat) < w' (x - n.1) (y - n.2.1) (φ e - φ pe) := by linarith
      simp only [if_pos h1, if_pos h2]
      exact hnew
    · have hlt := hw.lt _ _ _ _ _ hpj hadj hpe hpA hA hp hle
      dsimp only at hlt
      simp only [hlt]
      split
      · exact hnew
      · exact .inr ⟨p, hpj, hpA, hp, rfl, rfl⟩

theorem steepest_scaled {w w' : Int → Int → Rat → Rat} (hw : SameSlopes φ A w w') {x y : Int}
    (hxy : ∀ h, d.get x y = some h → A h) :
    steepestNeighbor (rescaled φ d) w' x y = (steepestNeighbor d w x y).map (Option.map (scale3 φ)) := by
  unfold steepestNeighbor
  rw [get_scaled, iterateFull_scaled]
  cases hg : d.get x y with
  | none => rfl
  | some pe =>
    have hpe := hxy pe hg
    simp only [Option.map_some]
    refine congrArg Except.ok ?_
    have : ∀ (ns : List Nbr) (s s' : Option P3 × Rat), (∀ n ∈ ns, n ∈ d.iterateFull x y) → SteepAs φ A w w' x y pe s s' →
        SteepAs φ A w w' x y pe (ns.foldl (steepStep w x y pe) s)
          ((ns.map (scaleN φ)).foldl (steepStep w' x y (φ pe)) s') := by
      intro ns
      induction ns with
      | nil => exact fun s s' _ h => h
      | cons n ns ih =>
        intro s s' hn h
        exact ih _ _ (fun m hm => hn m (List.mem_cons_of_mem _ hm))
          (steepStep_scaled hc hw x y hpe h n (hn n List.mem_cons_self))
    rcases this (d.iterateFull x y) (none, -1) (none, -1) (fun _ hn => hn) (Or.inl ⟨rfl, rfl⟩) with
      ⟨h, h'⟩ | ⟨p, _, _, _, h, h'⟩
    · rw [h, h']
      rfl
    · rw [h, h']
      rfl

theorem steepest_footing {w : Int → Int → Rat → Rat} {x y : Int} (hxy : ∀ h, d.get x y = some h → A h) {sn : P3}
    (h : steepestNeighbor d w x y = .ok (some sn)) : Footing d A sn ∧ A sn.e := by
  unfold steepestNeighbor at h
  cases hg : d.get x y with
  | none =>
    rw [hg] at h
    exact (nomatch h)
  | some pe =>
    have hpe := hxy pe hg
    rw [hg] at h
    have h := Except.ok.inj h
    have key : ∀ (ns : List Nbr) (s : Option P3 × Rat), (∀ n ∈ ns, n ∈ d.iterateFull x y) →
        (∀ p, s.1 = some p → Footing d A p ∧ A p.e) →
        ∀ p, (ns.foldl (steepStep w x y pe) s).1 = some p → Footing d A p ∧ A p.e := by
      intro ns
      induction ns with
      | nil => exact fun s _ hs => hs
      | cons n ns ih =>
        intro s hn hs
        refine ih _ (fun m hm => hn m (List.mem_cons_of_mem _ hm)) ?_
        unfold steepStep
        cases he : n.2.2 with
        | none => exact hs
        | some e =>
          dsimp only
          split
          · exact hs
          rename_i hle
          have hA := hc.up pe e hpe (not_lt.1 hle) (occurs_iterate (hn n List.mem_cons_self) he)
          split
          · split
            · exact hs
            · intro p hp
              cases hp
              refine ⟨fun h' hh' => ?_, hA⟩
              rcases hc.off with hall | hoff
              · exact hall h' (occurs_get hh')
              · have hne : some e ≠ d.nodata := fun hv => hoff e hv.symm hA
                have := get_of_iterate (hn n List.mem_cons_self) he hne
                dsimp only at hh'
                rw [this] at hh'
                cases hh'
                exact hA
          · exact hs
    exact key _ _ (fun n hn => hn) (fun p hp => by cases hp) sn h

omit hc in
theorem summitCells_scaled (d : DataMap) (f : Feature) : summitCells (rescaled φ d) (scaleF φ f) = summitCells d f := by
  unfold summitCells
  rw [show (scaleF φ f).multipoint = f.multipoint.map (List.map (scaleM φ)) from rfl]
  cases f.multipoint with
  | none => rfl
  | some ms =>
    cases ms with
    | nil => rfl
    | cons m ms =>
      simp only [Option.map_some, List.map_cons, List.map_map]
      rfl

omit hc in
theorem prepopulate_scaled (d : DataMap) (old : Nat → Option (List Pt)) : ∀ (k : Nat) (fs : List Feature) (s : WSt),
    prepopulate (rescaled φ d) old k (fs.map (scaleF φ)) s = prepopulate d old k fs s
  | _, [], _ => rfl
  | k, f :: fs, s => by
    rw [List.map_cons]
    unfold prepopulate
    rw [summitCells_scaled]
    cases old k with
    | some l => exact prepopulate_scaled d old (k + 1) fs s
    | none =>
      cases summitCells d f with
      | error e => rfl
      | ok cells => exact prepopulate_scaled d old (k + 1) fs (s.extend k cells)

omit hc in
theorem walkInit_scaled (d : DataMap) (old : Nat → Option (List Pt)) (fs : List Feature) :
    walkInit (rescaled φ d) old (fs.map (scaleF φ)) = walkInit d old fs :=
  prepopulate_scaled d old 0 fs _

omit hc in
theorem assignFlat_scaled {m m' : P3 → Option P3} (h : ∀ p, m' (scale3 φ p) = (m p).map (scale3 φ)) :
    ∀ (ps : List P3) (s : WSt), assignFlat m' (ps.map (scale3 φ)) s = assignFlat m ps s
  | [], _ => rfl
  | p :: ps, s => by
    rw [List.map_cons]
    unfold assignFlat
    rw [h]
    cases m p with
    | none => exact assignFlat_scaled h ps s
    | some hp =>
      simp only [Option.map_some]
      rw [show (scale3 φ hp).xy = hp.xy from rfl]
      cases s.lookup hp.xy with
      | none => rfl
      | some D => exact assignFlat_scaled h ps _

omit hc in
theorem climbAll_scaled {loop loop' : WSt → List Pt → P3 → Except PyErr (Option Nat × WSt)} {P : P3 → Prop}
    (h : ∀ s l p, P p → loop' s l (scale3 φ p) = loop s l p) : ∀ (ps : List P3) (s : WSt), (∀ p ∈ ps, P p) →
    climbAll loop' (ps.map (scale3 φ)) s = climbAll loop ps s
  | [], _, _ => rfl
  | p :: ps, s, hp => by
    have hps := fun q hq => hp q (List.mem_cons_of_mem _ hq)
    rw [List.map_cons]
    unfold climbAll
    rw [show (scale3 φ p).xy = p.xy from rfl, h _ _ _ (hp p List.mem_cons_self)]
    cases s.lookup p.xy with
    | some D => exact climbAll_scaled h ps s hps
    | none =>
      dsimp only
      cases loop s [p.xy] p with
      | error e => rfl
      | ok r => exact climbAll_scaled h ps r.2 hps

omit hc in
/-- Climbing on the converted raster with the same choices. -/
structure ClimbAs (φ : Rat → Rat) (A : Rat → Prop) (E E' : WalkEnv) : Prop where
  raster : E'.d = rescaled φ E.d
  slopes : SameSlopes φ A E.w E'.w
  near : SameNear φ E.near E'.near

theorem climbLoop_scaled {E E' : WalkEnv} (hE : ClimbAs φ A E E') (hd : E.d = d) : ∀ (n : Nat) (s : WSt) (l : List Pt)
    (cur : P3), Footing d A cur → climbLoop E' n s l (scale3 φ cur) = climbLoop E n s l cur
  | 0, _, _, _, _ => rfl
  | n + 1, s, l, cur, hcur => by
    have hφ := hc.inc
    unfold climbLoop
    rw [hE.raster, show (scale3 φ cur).x = cur.x from rfl, show (scale3 φ cur).y = cur.y from rfl,
      hd, steepest_scaled hc hE.slopes hcur]
    cases hst : steepestNeighbor d E.w cur.x cur.y with
    | error e => rfl
    | ok r =>
      cases r with
      | none => rfl
      | some sn =>
        obtain ⟨hf, hA⟩ := steepest_footing hc hcur hst
        simp only [Except.map, Option.map_some]
        rw [show (scale3 φ sn).xy = sn.xy from rfl]
        cases s.lookup sn.xy with
        | some D => rfl
        | none =>
          dsimp only
          rw [show (scale3 φ sn).e = φ sn.e from rfl, show (scale3 φ cur).e = φ cur.e from rfl,
            show (scale3 φ sn).x = sn.x from rfl, show (scale3 φ sn).y = sn.y from rfl]
          simp only [inc_inj hφ]
          split
          · rw [equalHeightBlob_scaled hφ]
            cases hbl : equalHeightBlob d sn.x sn.y sn.e with
            | none => rfl
            | some b =>
              simp only [Option.map_some]
              have hhigh : ∀ p ∈ b.perim.filter (fun p => decide (p.e > sn.e)), Footing d A p := by
                intro p hp h hh
                obtain ⟨h1, h2⟩ := List.mem_filter.1 hp
                have ho := occurs_get hh
                rw [perim_get hbl p h1] at hh
                cases hh
                exact hc.up _ _ hA (le_of_lt (of_decide_eq_true h2)) ho
              have e1 : (scaleBlob φ b).perim.filter (fun p => decide (p.e > φ sn.e)) =
                  (b.perim.filter fun p => decide (p.e > sn.e)).map (scale3 φ) := by
                show (b.perim.map (scale3 φ)).filter _ = _
                rw [List.filter_map]
                refine congrArg _ (List.filter_congr fun p _ => ?_)
                show decide (φ p.e > φ sn.e) = decide (p.e > sn.e)
                exact decide_eq_decide.2 (inc_lt hφ)
              have e2 : (scaleBlob φ b).points.map (fun p => (⟨p.1, p.2, (scaleBlob φ b).elevation⟩ : P3)) =
                  (b.points.map fun p => (⟨p.1, p.2, b.elevation⟩ : P3)).map (scale3 φ) := by
                rw [List.map_map]
                rfl
              rw [e1, e2, climbAll_scaled (fun s l p => climbLoop_scaled hE hd n s l p) _ _ hhigh]
              generalize b.perim.filter (fun p => decide (p.e > sn.e)) = high
              generalize (b.points.map fun p => (⟨p.1, p.2, b.elevation⟩ : P3)) = members
              cases climbAll (climbLoop E n) high s with
              | error e => rfl
              | ok s1 =>
                dsimp only
                rcases hE.near members high with ⟨e, h1, h2⟩ | ⟨m, m', h1, h2, h3⟩
                · rw [h1, h2]
                · rw [h1, h2]
                  dsimp only
                  rw [assignFlat_scaled h3]
          · exact climbLoop_scaled hE hd n s _ sn hf

end

/-! ### Climbing from saddles -/

/-- Everything the walk depends on, on the converted raster. -/
structure EnvAs (φ : Rat → Rat) (A : Rat → Prop) (E E' : SaddleEnv) : Prop where
  climb : ClimbAs φ A E.toWalkEnv E'.toWalkEnv
  pairs : SamePairs φ E.fc E'.fc
  paths : ∀ f a b, E'.find (scaleF φ f) (scale3 φ a) (scale3 φ b) = scalePath φ (E.find f a b)
  fuel : E'.fuel = E.fuel
  summits : E'.summits = E.summits.map (scaleF φ)

/-- The state of the walk with heights converted. -/
def scaleC (φ : Rat → Rat) (s : CSt) : CSt := { s with objs := s.objs.map (scaleO φ) }

section
variable {φ : Rat → Rat} (hφ : Increasing φ)
include hφ

theorem seEq_scaled (lat lon e lat' lon' e' : Rat) :
    seEq lat lon (φ e) lat' lon' (φ e') = seEq lat lon e lat' lon' e' := by
  unfold seEq
  simp only [inc_inj hφ]

theorem seNe_scaled (lat lon e lat' lon' e' : Rat) :
    seNe lat lon (φ e) lat' lon' (φ e') = seNe lat lon e lat' lon' e' := by
  unfold seNe
  simp only [inc_inj hφ]

theorem linkEq_scaled {E E' : SaddleEnv} (hE : EnvAs φ A E E') (objs : List SObj) (k l : LinkRec) :
    linkEq E' (objs.map (scaleO φ)) k l = linkEq E objs k l := by
  unfold linkEq
  rw [hE.summits]
  simp only [List.getElem?_map]
  cases E.summits[k.summit]? with
  | none => rfl
  | some s =>
    cases E.summits[l.summit]? with
    | none => rfl
    | some s' =>
      cases objs[k.saddle]? with
      | none => rfl
      | some t =>
        cases objs[l.saddle]? with
        | none => rfl
        | some t' =>
          show (seEq s.lat s.lon (φ s.elevation) s'.lat s'.lon (φ s'.elevation) &&
            seEq t.f.lat t.f.lon (φ t.f.elevation) t'.f.lat t'.f.lon (φ t'.f.elevation)) = _
          rw [seEq_scaled hφ, seEq_scaled hφ]

theorem linkIn_scaled {E E' : SaddleEnv} (hE : EnvAs φ A E E') (s : CSt) (l : LinkRec) (ids : List Nat) :
    linkIn E' (scaleC φ s) l ids = linkIn E s l ids := by
  unfold linkIn
  rw [show (scaleC φ s).store = s.store from rfl]
  refine congrArg (List.any ids) (funext fun i => ?_)
  cases s.store[i]? with
  | none => rfl
  | some l' => exact linkEq_scaled hφ hE s.objs l' l

theorem addLinker_scaled {E E' : SaddleEnv} (hE : EnvAs φ A E E') (b : Bool) (s : CSt) (D sid : Nat) :
    addLinker E' b (scaleC φ s) D sid = scaleC φ (addLinker E b s D sid) := by
  unfold addLinker
  simp only [linkIn_scaled hφ hE]
  rfl

theorem linkEdges_scaled {E E' : SaddleEnv} (hE : EnvAs φ A E E') (b : Bool) (sid : Nat) :
    ∀ (es : List (List P3)) (s : CSt), linkEdges E' b sid (es.map (List.map (scale3 φ))) (scaleC φ s) =
      (linkEdges E b sid es s).map (scaleC φ)
  | [], _ => rfl
  | [] :: _, _ => rfl
  | (h0 :: t) :: es, s => by
    rw [List.map_cons, List.map_cons]
    unfold linkEdges
    rw [show (scaleC φ s).w = s.w from rfl, show (scale3 φ h0).xy = h0.xy from rfl]
    cases s.w.lookup h0.xy with
    | none => exact linkEdges_scaled hE b sid es s
    | some D =>
      dsimp only
      rw [addLinker_scaled hφ hE]
      exact linkEdges_scaled hE b sid es _

omit hφ in
theorem toP3_scaled (m : MPt) : (scaleM φ m).toP3 = m.toP3.map (scale3 φ) := by
  unfold MPt.toP3 scaleM
  cases m.e <;> rfl

theorem generateSynthetic_scaled {E E' : SaddleEnv} (hE : EnvAs φ A E E') (f : Feature) :
    generateSynthetic E' (scaleF φ f) = (generateSynthetic E f).map (Option.map (List.map (scaleF φ))) := by
  unfold generateSynthetic
  rw [hE.climb.raster, show (scaleF φ f).hpn = f.hpn.map (List.map (scale3 φ)) from rfl, List.length_map]
  split
  · rfl
  split
  · rw [children_scaled E.d hE.pairs f]
    cases generateChildSaddles E.d E.fc f <;> rfl
  · have h1 := saddleHighPath_scaled (hE.paths f) f.hpn
    have h2 : (scaleF φ f).multipoint = f.multipoint.map (List.map (scaleM φ)) := rfl
    have hplain : (do
          let hs ← (f.hpn.map (List.map (scale3 φ))).mapM highestP3
          pure (some [mkSaddle ((scaleF φ f).lat, (scaleF φ f).lon) (scaleF φ f).elevation none false [] hs]) :
          Except PyErr (Option (List Feature))) = (do
          let hs ← f.hpn.mapM highestP3
          pure (some [mkSaddle (f.lat, f.lon) f.elevation none false [] hs]) :
          Except PyErr (Option (List Feature))).map (Option.map (List.map (scaleF φ))) := by
      rw [mapM_comm (List.map (scale3 φ)) (List.map (scale3 φ)) (highest_scaled hφ)]
      cases f.hpn.mapM highestP3 <;> rfl
    cases hm : f.multipoint with
    | none =>
      rw [hm, Option.map_none] at h2
      rw [h2]
      exact hplain
    | some ms =>
      cases ms with
      | nil =>
        rw [hm] at h2
        rw [h2]
        exact hplain
      | cons m ms =>
        rw [hm] at h2
        rw [h2]
        simp only [Option.map_some, List.map_cons]
        rw [h1]
        simp only [bind, Except.bind]
        cases saddleHighPath (E.find f) f.hpn with
        | error e => rfl
        | ok r =>
          obtain ⟨p, q, r⟩ := r
          simp only [Except.map, toP3_scaled]
          cases p.toP3 with
          | error e => rfl
          | ok p =>
            cases q.toP3 <;> rfl

omit hφ in
theorem alloc_scaled (s : CSt) (fs : List Feature) :
    alloc (scaleC φ s) (fs.map (scaleF φ)) = (scaleC φ (alloc s fs).1, (alloc s fs).2) := by
  unfold alloc scaleC
  simp only [List.map_append, List.map_map, List.length_map]
  rfl

omit hφ in
theorem adopt_scaled (s : CSt) (base : Nat) (sids : List Nat) :
    adoptChildren (scaleC φ s) base sids = scaleC φ (adoptChildren s base sids) := by
  unfold adoptChildren scaleC
  dsimp only
  have e := foldl_comm (List.map (scaleO φ)) id
    (f := fun objs k => modObj objs k (fun o => { o with parent := some base }))
    (f' := fun objs k => modObj objs k (fun o => { o with parent := some base }))
    (fun objs k => modObj_scaled objs k fun o => rfl) sids s.objs
  rw [List.map_id] at e
  rw [e, modObj_scaled (g := fun o => { o with children := o.children ++ sids }) _ _ fun o => rfl]

theorem edgeSynthetic_scaled {E E' : SaddleEnv} (hE : EnvAs φ A E E') (s : CSt) (base : Nat) (f : Feature) :
    edgeSynthetic E' (scaleC φ s) base (scaleF φ f) =
      (edgeSynthetic E s base f).map fun r => (scaleC φ r.1, r.2) := by
  unfold edgeSynthetic
  rw [generateSynthetic_scaled hφ hE]
  simp only [bind, Except.bind]
  cases generateSynthetic E f with
  | error e => rfl
  | ok r =>
    cases r with
    | none => rfl
    | some fs =>
      simp only [Except.map, Option.map_some, alloc_scaled]
      rw [show (scaleF φ f).hpn.length = f.hpn.length from List.length_map _,
        show (scaleF φ f).edge = f.edge from rfl]
      split
      · rw [adopt_scaled]
        rfl
      · rfl

theorem walkEdgeSaddle_scaled {E E' : SaddleEnv} (hE : EnvAs φ A E E') (base : Nat) (s : CSt) (sid : Nat) :
    walkEdgeSaddle E' base (scaleC φ s) sid = (walkEdgeSaddle E base s sid).map (scaleC φ) := by
  unfold walkEdgeSaddle
  rw [show (scaleC φ s).objs[sid]? = s.objs[sid]?.map (scaleO φ) from List.getElem?_map]
  cases s.objs[sid]? with
  | none => rfl
  | some o =>
    simp only [Option.map_some]
    rw [show (scaleO φ o).f.hpn = o.f.hpn.map (List.map (scale3 φ)) from rfl, linkEdges_scaled hφ hE]
    simp only [bind, Except.bind]
    cases linkEdges E true sid o.f.hpn s with
    | error e => rfl
    | ok s' =>
      refine congrArg Except.ok ?_
      unfold scaleC
      dsimp only
      rw [← modObj_scaled (g' := fun o => { o with children := o.children ++ [sid], disq := some true }) _ _
        fun o => rfl, ← modObj_scaled (g' := fun o => { o with parent := some base }) _ _ fun o => rfl]

theorem finishEdge_scaled {E E' : SaddleEnv} (hE : EnvAs φ A E E') (s : CSt) (base : Nat) (sids : List Nat) :
    finishEdge E' (scaleC φ s) base sids = (finishEdge E s base sids).map (scaleC φ) := by
  unfold finishEdge
  have e := foldlM_comm (scaleC φ) id (f := walkEdgeSaddle E base) (f' := walkEdgeSaddle E' base)
    (walkEdgeSaddle_scaled hφ hE base) sids s
  rw [List.map_id] at e
  rw [e]
  simp only [bind, Except.bind]
  cases sids.foldlM (walkEdgeSaddle E base) s with
  | error e => rfl
  | ok s' =>
    refine congrArg Except.ok ?_
    unfold scaleC
    dsimp only
    rw [← modObj_scaled (g' := fun o => { o with disq := some true }) _ _ fun o => rfl]

end

/-! ### What stays true of all saddles while walking -/

/-- Saddles with the property `K` have their high points where the raster has heights with the property `A`, and
splitting them gives saddles of the same sort. -/
structure Firm (E : SaddleEnv) (A : Rat → Prop) (K : Feature → Prop) : Prop where
  foot : ∀ f, K f → ∀ c ∈ f.hpn, ∀ p ∈ c, Footing E.d A p
  split : ∀ f fs, K f → generateSynthetic E f = .ok (some fs) → ∀ g ∈ fs, K g

/-- All saddles have the property `K`. -/
def AllK (K : Feature → Prop) (s : CSt) : Prop := ∀ o ∈ s.objs, K o.f

theorem modObj_allK {K : Feature → Prop} {objs : List SObj} (h : ∀ o ∈ objs, K o.f) (k : Nat) {g : SObj → SObj}
    (hg : ∀ o, (g o).f = o.f) : ∀ o ∈ modObj objs k g, K o.f := by
  intro o ho
  obtain ⟨i, hi⟩ := List.mem_iff_getElem?.1 ho
  unfold modObj at hi
  rw [List.getElem?_modify] at hi
  obtain ⟨o', h1, h2⟩ := Option.map_eq_some_iff.1 hi
  have h3 := h o' (List.mem_of_getElem? h1)
  split at h2
  · rw [← h2, hg]
    exact h3
  · rw [← h2]
    exact h3

theorem foldlM_allK {K : Feature → Prop} {f : CSt → Nat → Except PyErr CSt}
    (hf : ∀ s k s', AllK K s → f s k = .ok s' → AllK K s') : ∀ (l : List Nat) (s s' : CSt), AllK K s →
    l.foldlM f s = .ok s' → AllK K s'
  | [], s, s', hs, h => by
    cases h
    exact hs
  | k :: l, s, s', hs, h => by
    rw [List.foldlM_cons] at h
    obtain ⟨s1, h1, h2⟩ := bind_ok h
    exact foldlM_allK hf l s1 s' (hf s k s1 hs h1) h2

theorem foldlM_comm_allK {K : Feature → Prop} {f f' : CSt → Nat → Except PyErr CSt} (g : CSt → CSt)
    (hf : ∀ s k s', AllK K s → f s k = .ok s' → AllK K s')
    (h : ∀ s k, AllK K s → f' (g s) k = (f s k).map g) : ∀ (l : List Nat) (s : CSt), AllK K s →
    l.foldlM f' (g s) = (l.foldlM f s).map g
  | [], _, _ => rfl
  | k :: l, s, hs => by
    rw [List.foldlM_cons, List.foldlM_cons, h s k hs]
    cases e : f s k with
    | error e => rfl
    | ok s' => exact foldlM_comm_allK g hf h l s' (hf s k s' hs e)

theorem alloc_allK {K : Feature → Prop} {s : CSt} (hs : AllK K s) {fs : List Feature} (hfs : ∀ g ∈ fs, K g) :
    AllK K (alloc s fs).1 := by
  intro o ho
  rcases List.mem_append.1 ho with ho | ho
  · exact hs o ho
  · obtain ⟨g, hg, rfl⟩ := List.mem_map.1 ho
    exact hfs g hg

theorem walkSynthetic_allK {K : Feature → Prop} {E : SaddleEnv} {s s' : CSt} {sid : Nat} (hs : AllK K s)
    (h : walkSynthetic E s sid = .ok s') : AllK K s' := by
  unfold walkSynthetic at h
  split at h
  · cases h
  · obtain ⟨w, _, h⟩ := bind_ok h
    obtain ⟨s1, h1, h⟩ := bind_ok h
    cases h
    intro o ho
    rw [show ({ s1 with walked := s1.walked ++ [sid] } : CSt).objs = s1.objs from rfl, (linkEdges_count h1).1] at ho
    exact hs o ho

theorem walkEdgeSaddle_allK {K : Feature → Prop} {E : SaddleEnv} {base : Nat} {s s' : CSt} {sid : Nat} (hs : AllK K s)
    (h : walkEdgeSaddle E base s sid = .ok s') : AllK K s' := by
  unfold walkEdgeSaddle at h
  split at h
  · cases h
  · obtain ⟨s1, h1, h⟩ := bind_ok h
    cases h
    refine modObj_allK (g := fun o => { o with children := o.children ++ [sid], disq := some true })
      (modObj_allK (g := fun o => { o with parent := some base }) ?_ _ fun _ => rfl) _ fun _ => rfl
    rw [(linkEdges_count h1).1]
    exact hs

theorem finishEdge_allK {K : Feature → Prop} {E : SaddleEnv} {s s' : CSt} {base : Nat} {sids : List Nat}
    (hs : AllK K s) (h : finishEdge E s base sids = .ok s') : AllK K s' := by
  unfold finishEdge at h
  obtain ⟨s1, h1, h⟩ := bind_ok h
  cases h
  exact modObj_allK (g := fun o => { o with disq := some true })
    (foldlM_allK (fun s k s' hs h => walkEdgeSaddle_allK hs h) sids s s1 hs h1) _ fun _ => rfl

theorem edgeSynthetic_allK {A : Rat → Prop} {K : Feature → Prop} {E : SaddleEnv} (hK : Firm E A K) {s : CSt}
    {r : CSt × List Nat} {base : Nat} {f : Feature} (hs : AllK K s) (hf : K f)
    (h : edgeSynthetic E s base f = .ok r) : AllK K r.1 := by
  unfold edgeSynthetic at h
  obtain ⟨r1, h1, h⟩ := bind_ok h
  cases r1 with
  | none =>
    cases h
    exact hs
  | some fs =>
    have ha := alloc_allK hs (hK.split f fs hf h1)
    dsimp only at h
    split at h
    · cases h
      unfold adoptChildren
      refine modObj_allK (g := fun o => { o with children := o.children ++ (alloc s fs).2 }) ?_ _ fun _ => rfl
      generalize (alloc s fs).2 = ids
      generalize (alloc s fs).1 = s1 at ha
      have : ∀ (l : List Nat) (objs : List SObj), (∀ o ∈ objs, K o.f) →
          ∀ o ∈ l.foldl (fun objs k => modObj objs k (fun o => { o with parent := some base })) objs, K o.f := by
        intro l
        induction l with
        | nil => exact fun _ h => h
        | cons k l ih =>
          exact fun objs h => ih _ (modObj_allK (g := fun o => { o with parent := some base }) h k fun _ => rfl)
      exact this ids s1.objs ha
    · cases h
      exact ha

theorem walkFeature_allK {A : Rat → Prop} {K : Feature → Prop} {E : SaddleEnv} (hK : Firm E A K) {s s' : CSt}
    {base : Nat} (hs : AllK K s) (h : walkFeature E s base = .ok s') : AllK K s' := by
  unfold walkFeature at h
  split at h
  · cases h
  rename_i o ho
  have hf := hs o (List.mem_of_getElem? ho)
  split at h
  · obtain ⟨r, h1, h⟩ := bind_ok h
    cases r with
    | none => exact walkSynthetic_allK hs h
    | some fs =>
      exact foldlM_allK (fun s k s' hs h => walkSynthetic_allK hs h) _ _ _ (alloc_allK hs (hK.split _ fs hf h1)) h
  · obtain ⟨w, _, h⟩ := bind_ok h
    dsimp only at h
    split at h
    · split at h
      · split at h
        · cases h
        · split at h
          · cases h
            exact hs
          · obtain ⟨r, h1, h⟩ := bind_ok h
            refine finishEdge_allK (edgeSynthetic_allK hK ?_ hf h1) h
            exact hs
      · exact finishEdge_allK (s := { s with w := w }) hs h
    · obtain ⟨r, h1, h⟩ := bind_ok h
      refine finishEdge_allK (edgeSynthetic_allK hK ?_ hf h1) h
      exact hs

section
variable {φ : Rat → Rat} {a b : Rat}

section
variable {E E' : SaddleEnv} {A : Rat → Prop} {K : Feature → Prop} (hc : Climbable E.d φ A) (hK : Firm E A K)
include hc

theorem climbEdges_scaled (hE : EnvAs φ A E E') : ∀ (es : List (List P3)) (s : WSt),
    (∀ c ∈ es, ∀ p ∈ c, Footing E.d A p) → climbEdges E' (es.map (List.map (scale3 φ))) s = climbEdges E es s
  | [], _, _ => rfl
  | e :: es, s, hes => by
    rw [List.map_cons]
    unfold climbEdges climbPoints
    have hl : ∀ s l p, Footing E.d A p → climbLoop E'.toWalkEnv E'.fuel s l (scale3 φ p) =
        climbLoop E.toWalkEnv E.fuel s l p := by
      intro s l p hp
      rw [hE.fuel]
      exact climbLoop_scaled hc hE.climb rfl E.fuel s l p hp
    rw [climbAll_scaled hl e s (hes e List.mem_cons_self)]
    cases climbAll (climbLoop E.toWalkEnv E.fuel) e s with
    | error e => rfl
    | ok s' => exact climbEdges_scaled hE es s' fun c hc' => hes c (List.mem_cons_of_mem _ hc')

include hK

theorem walkSynthetic_scaled (hE : EnvAs φ A E E') (s : CSt) (sid : Nat) (hs : AllK K s) :
    walkSynthetic E' (scaleC φ s) sid = (walkSynthetic E s sid).map (scaleC φ) := by
  unfold walkSynthetic
  rw [show (scaleC φ s).objs[sid]? = s.objs[sid]?.map (scaleO φ) from List.getElem?_map]
  cases ho : s.objs[sid]? with
  | none => rfl
  | some o =>
    have hf := hs o (List.mem_of_getElem? ho)
    simp only [Option.map_some]
    rw [show (scaleO φ o).f.hpn = o.f.hpn.map (List.map (scale3 φ)) from rfl, climbEdges_scaled hc hE _ _ (hK.foot _ hf),
      show (scaleC φ s).w = s.w from rfl]
    simp only [bind, Except.bind]
    cases climbEdges E o.f.hpn s.w with
    | error e => rfl
    | ok w =>
      dsimp only
      rw [show ({ scaleC φ s with w := w } : CSt) = scaleC φ { s with w := w } from rfl,
        linkEdges_scaled hc.inc hE]
      cases linkEdges E false sid o.f.hpn { s with w := w } <;> rfl

theorem walkFeature_scaled (hE : EnvAs φ A E E') (s : CSt) (base : Nat) (hs : AllK K s) :
    walkFeature E' (scaleC φ s) base = (walkFeature E s base).map (scaleC φ) := by
  have hφ := hc.inc
  unfold walkFeature
  rw [show (scaleC φ s).objs[base]? = s.objs[base]?.map (scaleO φ) from List.getElem?_map]
  cases ho : s.objs[base]? with
  | none => rfl
  | some o =>
    have hf := hs o (List.mem_of_getElem? ho)
    simp only [Option.map_some]
    rw [show (scaleO φ o).f = scaleF φ o.f from rfl, show (scaleF φ o.f).edge = o.f.edge from rfl,
      show (scaleF φ o.f).kind = o.f.kind from rfl, show (scaleF φ o.f).lat = o.f.lat from rfl,
      show (scaleF φ o.f).lon = o.f.lon from rfl, show (scaleC φ s).w = s.w from rfl,
      show (scaleF φ o.f).hpn = o.f.hpn.map (List.map (scale3 φ)) from rfl, isEmpty_scaled,
      climbEdges_scaled hc hE _ _ (hK.foot _ hf), generateSynthetic_scaled hφ hE]
    split
    · simp only [bind, Except.bind]
      cases hg : generateSynthetic E o.f with
      | error e => rfl
      | ok r =>
        cases r with
        | none => exact walkSynthetic_scaled hc hK hE s base hs
        | some fs =>
          simp only [Except.map, Option.map_some, alloc_scaled]
          exact foldlM_comm_allK (scaleC φ) (fun s k s' hs h => walkSynthetic_allK hs h)
            (walkSynthetic_scaled hc hK hE) (alloc s fs).2 (alloc s fs).1 (alloc_allK hs (hK.split _ fs hf hg))
    · simp only [bind, Except.bind]
      cases climbEdges E o.f.hpn s.w with
      | error e => rfl
      | ok w =>
        dsimp only
        rw [show ({ scaleC φ s with w := w } : CSt) = scaleC φ { s with w := w } from rfl]
        split
        · split
          · rw [hE.climb.raster, show (rescaled φ E.d).latLongToXY o.f.lat o.f.lon =
              E.d.latLongToXY o.f.lat o.f.lon from rfl]
            cases E.d.latLongToXY o.f.lat o.f.lon with
            | none => rfl
            | some p =>
              dsimp only
              cases w.lookup p with
              | none => rfl
              | some D =>
                dsimp only
                rw [addLinker_scaled hφ hE, edgeSynthetic_scaled hφ hE]
                cases edgeSynthetic E (addLinker E true { s with w := w } D base) base o.f with
                | error e => rfl
                | ok r => exact finishEdge_scaled hφ hE r.1 base r.2
          · exact finishEdge_scaled hφ hE _ base [base]
        · rw [edgeSynthetic_scaled hφ hE]
          cases edgeSynthetic E { s with w := w } base o.f with
          | error e => rfl
          | ok r => exact finishEdge_scaled hφ hE r.1 base r.2

omit hc hK in
theorem sortWalked_scaled (s : CSt) : sortWalked (scaleC φ s) = sortWalked s := by
  unfold sortWalked
  dsimp only
  rw [show (scaleC φ s).walked = s.walked from rfl]
  have e : ∀ i, (scaleC φ s).objs[i]? = s.objs[i]?.map (scaleO φ) := fun i => List.getElem?_map
  have f1 : ∀ (p q : Nat → Bool) (l : List Nat), (∀ i, p i = q i) → l.filter p = l.filter q := fun p q l h => by
    rw [funext h]
  refine Walked.mk.injEq .. |>.mpr ⟨f1 _ _ _ fun i => ?_, f1 _ _ _ fun i => ?_, rfl, rfl⟩ <;>
    rw [e] <;> cases s.objs[i]? <;> rfl

theorem climbFromSaddles_scaled (hE : EnvAs φ A E E') (bases : List Nat) (s : CSt) (hs : AllK K s) :
    climbFromSaddles E' bases (scaleC φ s) =
      (climbFromSaddles E bases s).map fun r => (r.1, scaleC φ r.2) := by
  unfold climbFromSaddles
  have e := foldlM_comm_allK (scaleC φ) (f' := walkFeature E') (fun s k s' hs h => walkFeature_allK hK hs h)
    (walkFeature_scaled hc hK hE) bases s hs
  rw [e]
  simp only [bind, Except.bind]
  cases bases.foldlM (walkFeature E) s with
  | error e => rfl
  | ok s' =>
    simp only [Except.map, sortWalked_scaled]
    rfl

end

theorem walk_firm {E E' : SaddleEnv} (hE : SameChoices φ E E') (m : DMap) (sel : List Nat) {A : Rat → Prop}
    {K : Feature → Prop} (hc : Climbable E.d φ A) (hw : SameSlopes φ A E.w E'.w) (hK : Firm { E with summits := m.summits } A K)
    (hm : AllK K m.st) :
    DMap.walk E' (scaleMap φ m) sel = (DMap.walk E m sel).map fun r => (scaleMap φ r.1, r.2) := by
  unfold DMap.walk
  dsimp only
  have hA : EnvAs φ A { E with summits := m.summits } { E' with summits := (scaleMap φ m).summits } :=
    ⟨⟨hE.raster, hw, hE.near⟩, hE.pairs, hE.paths, hE.fuel, rfl⟩
  rw [hE.raster, show (scaleMap φ m).summits = m.summits.map (scaleF φ) from rfl, walkInit_scaled,
    show (scaleMap φ m).domPoints = m.domPoints from rfl]
  simp only [bind, Except.bind]
  cases walkInit E.d m.domPoints m.summits with
  | error e => rfl
  | ok w =>
    dsimp only
    have e : climbFromSaddles { E' with summits := m.summits.map (scaleF φ) }
        (if sel.isEmpty = true then (scaleMap φ m).saddles ++ (scaleMap φ m).runoffs else sel)
        { (scaleMap φ m).st with w := w, walked := [], linkers := [], doms := [] } = _ :=
      climbFromSaddles_scaled (E := { E with summits := m.summits }) hc hK hA
        (if sel.isEmpty = true then m.saddles ++ m.runoffs else sel)
        { m.st with w := w, walked := [], linkers := [], doms := [] } hm
    rw [e]
    cases climbFromSaddles { E with summits := m.summits }
      (if sel.isEmpty = true then m.saddles ++ m.runoffs else sel)
      { m.st with w := w, walked := [], linkers := [], doms := [] } with
    | error e => rfl
    | ok r =>
      simp only [Except.map, List.length_map]
      split <;> rfl

theorem walk_scaled (hφ : Increasing φ) {E E' : SaddleEnv} (hE : SameChoices φ E E')
    (hw : SameSlopes φ (Occurs E.d) E.w E'.w) (m : DMap) (sel : List Nat) :
    DMap.walk E' (scaleMap φ m) sel = (DMap.walk E m sel).map fun r => (scaleMap φ r.1, r.2) :=
  walk_firm (A := Occurs E.d) (K := fun _ => True) hE m sel (climbable_all hφ E.d) hw
    ⟨fun _ _ _ _ _ _ _ h => occurs_get h, fun _ _ _ _ _ _ => trivial⟩ fun _ _ => trivial

theorem runSparse_scaled (hφ : Increasing φ) {E E' : SaddleEnv} (hE : SameChoices φ E E')
    (hw : SameSlopes φ (Occurs E.d) E.w E'.w) {o o' : Pt → Oracle}
    (ho : ∀ p, SameOrders φ (o p) (o' p)) (order : List Pt) (rebuild : Bool) :
    DMap.runSparse E' o' order rebuild = (DMap.runSparse E o order rebuild).map (scaleMap φ) := by
  unfold DMap.runSparse
  rw [hE.raster, discover_scaled hφ E.d hE.pairs ho]
  simp only [bind, Except.bind]
  cases DMap.discover E.d E.fc o order rebuild with
  | error e => rfl
  | ok m =>
    simp only [Except.map]
    rw [walk_scaled hφ hE hw]
    cases m.walk E [] <;> rfl

end

end PyProm
