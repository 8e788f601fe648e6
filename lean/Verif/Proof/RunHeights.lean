import Verif.Spec.RunHeights
import Verif.Proof.Heights
import Mathlib.Data.List.Basic

/-!
A run on a raster with converted heights, step by step: every function of the model gives the converted
result on converted arguments.
-/
namespace PyProm
open Spec

/-! ### Loops -/

theorem foldl_comm {σ σ' α α' : Type} {f : σ → α → σ} {f' : σ' → α' → σ'} (g : σ → σ') (k : α → α')
    (h : ∀ s a, f' (g s) (k a) = g (f s a)) : ∀ (l : List α) (s : σ),
    (l.map k).foldl f' (g s) = g (l.foldl f s)
  | [], _ => rfl
  | a :: l, s => by
    rw [List.map_cons, List.foldl_cons, List.foldl_cons, h, foldl_comm g k h l]

theorem foldlM_comm {σ σ' α α' : Type} {f : σ → α → Except PyErr σ} {f' : σ' → α' → Except PyErr σ'}
    (g : σ → σ') (k : α → α') (h : ∀ s a, f' (g s) (k a) = (f s a).map g) : ∀ (l : List α) (s : σ),
    (l.map k).foldlM f' (g s) = (l.foldlM f s).map g
  | [], _ => rfl
  | a :: l, s => by
    rw [List.map_cons, List.foldlM_cons, List.foldlM_cons, h]
    cases f s a with
    | error e => rfl
    | ok s' => exact foldlM_comm g k h l s'

theorem mapM_comm {α β α' β' : Type} {f : α → Except PyErr β} {f' : α' → Except PyErr β'}
    (k : α → α') (g : β → β') (h : ∀ a, f' (k a) = (f a).map g) : ∀ (l : List α),
    (l.map k).mapM f' = (l.mapM f).map (List.map g)
  | [] => rfl
  | a :: l => by
    rw [List.map_cons, List.mapM_cons, List.mapM_cons, h, mapM_comm k g h l]
    cases f a with
    | error e => rfl
    | ok b =>
      cases l.mapM f with
      | error e => rfl
      | ok bs => rfl

theorem mem_map_inj {α β : Type} {g : α → β} (hg : ∀ a b, g a = g b → a = b) {s : List α} {a : α} :
    g a ∈ s.map g ↔ a ∈ s :=
  ⟨fun h => by
    obtain ⟨b, hb, e⟩ := List.mem_map.1 h
    exact hg _ _ e ▸ hb, List.mem_map_of_mem⟩

theorem toSet_map {α β : Type} [DecidableEq α] [DecidableEq β] {g : α → β} (hg : ∀ a b, g a = g b → a = b)
    (l : List α) : toSet (l.map g) = (toSet l).map g := by
  unfold toSet
  refine foldl_comm (List.map g) g ?_ l []
  intro s a
  unfold setAdd
  simp only [mem_map_inj hg]
  split <;> simp

theorem setAdd_map {α β : Type} [DecidableEq α] [DecidableEq β] {g : α → β} (hg : ∀ a b, g a = g b → a = b)
    (s : List α) (a : α) : setAdd (s.map g) (g a) = (setAdd s a).map g := by
  unfold setAdd
  simp only [mem_map_inj hg]
  split <;> simp

/-! ### Raster and flat areas -/

section
variable {φ : Rat → Rat} (hφ : Increasing φ)

/-- A neighbour with its height converted. -/
def scaleN (φ : Rat → Rat) (n : Nbr) : Nbr := (n.1, n.2.1, n.2.2.map φ)

theorem iterateFull_scaled (d : DataMap) (x y : Int) :
    (rescaled φ d).iterateFull x y = (d.iterateFull x y).map (scaleN φ) := by
  unfold DataMap.iterateFull DataMap.iterate
  rw [List.map_map]
  refine List.map_congr_left fun s _ => ?_
  have e : (rescaled φ d).inbounds (x + s.1) (y + s.2) = d.inbounds (x + s.1) (y + s.2) := rfl
  simp only [Function.comp, e]
  split <;> rfl

theorem get_scaled (d : DataMap) (x y : Int) : (rescaled φ d).get x y = (d.get x y).map φ := by
  unfold DataMap.get
  show (match npIndex d.maxX x, npIndex d.maxY y with
    | some i, some j => some ((rescaled φ d).cell i j)
    | _, _ => none) = _
  cases npIndex d.maxX x <;> cases npIndex d.maxY y <;> rfl

/-- The locals of the flat area search with heights converted. -/
def scaleBlobSt (φ : Rat → Rat) (s : BlobSt) : BlobSt :=
  { s with
    perim := s.perim.map (scale3 φ)
    perimEdge := s.perimEdge.map (scale3 φ)
    mpEdges := s.mpEdges.map (scale3 φ) }

/-- A flat area with heights converted. -/
def scaleBlob (φ : Rat → Rat) (b : Blob) : Blob :=
  { b with
    elevation := φ b.elevation
    perim := b.perim.map (scale3 φ)
    mapEdgePoints := b.mapEdgePoints.map (scale3 φ)
    edgePoints := b.edgePoints.map (scale3 φ) }

include hφ

theorem nodata_scaled (d : DataMap) (o : Option Rat) : (o.map φ = (rescaled φ d).nodata) = (o = d.nodata) := by
  refine propext ?_
  show o.map φ = d.nodata.map φ ↔ _
  cases o <;> cases d.nodata <;> simp [inc_inj hφ]

theorem blobVisit_scaled (d : DataMap) (h : Rat) (s : BlobSt) (n : Nbr) :
    blobVisit (rescaled φ d) (φ h) (scaleBlobSt φ s) (scaleN φ n) = scaleBlobSt φ (blobVisit d h s n) := by
  obtain ⟨x, y, oe⟩ := n
  cases oe with
  | none => rfl
  | some e =>
    show blobVisit (rescaled φ d) (φ h) (scaleBlobSt φ s) (x, y, some (φ e)) = _
    have e1 : (some (φ e) = (rescaled φ d).nodata) = (some e = d.nodata) := nodata_scaled hφ d (some e)
    have e2 : (φ e = φ h) = (e = h) := propext (inc_inj hφ)
    have e3 : (φ e > φ h) = (e > h) := propext (inc_lt hφ)
    have e4 : (rescaled φ d).isMapEdge x y = d.isMapEdge x y := rfl
    have e5 : (scaleBlobSt φ s).explored = s.explored := rfl
    have e6 : (scaleBlobSt φ s).perimHash = s.perimHash := rfl
    unfold blobVisit
    dsimp only
    simp only [e1, e2, e3, e4, e5, e6, ne_eq]
    by_cases c1 : some e = d.nodata
    · simp only [c1, if_true]
    · simp only [c1, if_false]
      by_cases c2 : e = h ∧ (x, y) ∉ s.explored
      · simp only [c2, if_true, not_false_eq_true, and_self]
        unfold scaleBlobSt
        dsimp only
        split <;> simp [scale3]
      · simp only [c2, if_false]
        by_cases c3 : e = h
        · simp only [c3, not_true_eq_false, if_false]
        · simp only [c3, not_false_eq_true, if_true]
          by_cases c4 : (x, y) ∈ s.perimHash
          · simp only [c4, if_true]
          · simp only [c4, if_false]
            by_cases c5 : e > h <;> by_cases c6 : d.isMapEdge x y = true <;>
              simp only [c5, c6, if_true, if_false, Bool.false_eq_true] <;>
              simp only [scaleBlobSt, List.map_append, List.map_cons, List.map_nil, scale3, BlobSt.mk.injEq,
                true_and, and_true] <;>
              first
              | rfl
              | exact setAdd_map (g := scale3 φ) (fun a b => scale3_inj hφ) s.perimEdge ⟨x, y, e⟩

theorem blobStep_scaled (d : DataMap) (h : Rat) (p : Pt) (rest : List Pt) (s : BlobSt) :
    blobStep (rescaled φ d) (φ h) p rest (scaleBlobSt φ s) = scaleBlobSt φ (blobStep d h p rest s) := by
  unfold blobStep
  rw [iterateFull_scaled]
  exact foldl_comm (scaleBlobSt φ) (scaleN φ) (blobVisit_scaled hφ d h) (d.iterateFull p.1 p.2)
    { s with stack := rest, edge := s.edge || d.isMapEdge p.1 p.2 }

theorem blobLoop_scaled (d : DataMap) (h : Rat) : ∀ (n : Nat) (s : BlobSt),
    blobLoop (rescaled φ d) (φ h) n (scaleBlobSt φ s) = (blobLoop d h n s).map (scaleBlobSt φ)
  | 0, _ => rfl
  | n + 1, s => by
    unfold blobLoop
    show (match s.stack with
      | [] => some (scaleBlobSt φ s)
      | p :: rest => blobLoop (rescaled φ d) (φ h) n (blobStep (rescaled φ d) (φ h) p rest (scaleBlobSt φ s))) = _
    cases s.stack with
    | nil => rfl
    | cons p rest =>
      dsimp only
      rw [blobStep_scaled hφ, blobLoop_scaled d h n]

theorem equalHeightBlob_scaled (d : DataMap) (x y : Int) (h : Rat) :
    equalHeightBlob (rescaled φ d) x y (φ h) = (equalHeightBlob d x y h).map (scaleBlob φ) := by
  unfold equalHeightBlob
  have e : blobInit (rescaled φ d) x y (φ h) = scaleBlobSt φ (blobInit d x y h) := by
    unfold blobInit scaleBlobSt
    show _ = _
    have : (rescaled φ d).isMapEdge x y = d.isMapEdge x y := rfl
    simp only [this]
    split <;> rfl
  rw [e, show (rescaled φ d).size = d.size from rfl, blobLoop_scaled hφ]
  cases blobLoop d h (d.size + 1) (blobInit d x y h) <;> rfl

/-! ### Neighbourhoods -/

/-- The locals of the neighbourhood search with heights converted. -/
def scaleCn (φ : Rat → Rat) (s : CnSt) : CnSt where
  points := s.points.map (scale3 φ)
  lookup := fun q => (s.lookup q).map φ
  stack := s.stack.map (scale3 φ)
  neighbors := s.neighbors.map (scale3 φ)

omit hφ in
theorem lookupSet_scaled (f : Pt → Option Rat) (p : Pt) (v : Option Rat) :
    lookupSet (fun q => (f q).map φ) p (v.map φ) = fun q => (lookupSet f p v q).map φ := by
  funext q
  unfold lookupSet
  split <;> rfl

theorem erase_scaled (l : List P3) (p : P3) :
    (l.map (scale3 φ)).erase (scale3 φ p) = (l.erase p).map (scale3 φ) := by
  induction l with
  | nil => rfl
  | cons a l ih =>
    rw [List.map_cons, List.erase_cons, List.erase_cons]
    by_cases h : a = p
    · subst h
      simp
    · have : ¬ scale3 φ a = scale3 φ p := fun e => h (scale3_inj hφ e)
      simp [h, this, ih]

theorem cnVisit_scaled (s : CnSt) (q : Pt) : cnVisit (scaleCn φ s) q = (cnVisit s q).map (scaleCn φ) := by
  unfold cnVisit
  split
  · rfl
  split
  · rfl
  show (match (s.lookup q).map φ with
    | none => Except.ok (scaleCn φ s)
    | some e => _) = _
  cases hl : s.lookup q with
  | none => rfl
  | some e =>
    show (if scale3 φ ⟨q.1, q.2, e⟩ ∈ s.points.map (scale3 φ) then _ else _) = _
    simp only [mem_map_inj (g := scale3 φ) fun a b => scale3_inj hφ]
    split
    · refine congrArg Except.ok ?_
      unfold scaleCn
      dsimp only
      rw [CnSt.mk.injEq]
      refine ⟨erase_scaled hφ s.points ⟨q.1, q.2, e⟩, lookupSet_scaled s.lookup q none, rfl, ?_⟩
      rw [List.map_append]
      rfl
    · rfl

theorem cnInner_scaled : ∀ (n : Nat) (s : CnSt), cnInner n (scaleCn φ s) = (cnInner n s).map (scaleCn φ)
  | 0, _ => rfl
  | n + 1, s => by
    unfold cnInner
    show (match s.stack.map (scale3 φ) with
      | [] => Except.ok (scaleCn φ s)
      | p :: rest => _) = _
    cases hs : s.stack with
    | nil => rfl
    | cons p rest =>
      show (do
        let s' ← (cnAround p).foldlM cnVisit (scaleCn φ { s with stack := rest })
        cnInner n s') = _
      have := foldlM_comm (scaleCn φ) id (fun s a => cnVisit_scaled hφ s a) (cnAround p) { s with stack := rest }
      rw [List.map_id] at this
      rw [this]
      dsimp only
      cases (cnAround p).foldlM cnVisit { s with stack := rest } with
      | error e => rfl
      | ok s' => exact cnInner_scaled n s'

theorem cnOuter_scaled {pop pop' : List P3 → Nat} (hp : ∀ l, pop' (l.map (scale3 φ)) = pop l) :
    ∀ (n : Nat) (ps : List P3) (f : Pt → Option Rat),
    cnOuter pop' n (ps.map (scale3 φ)) (fun q => (f q).map φ) =
      (cnOuter pop n ps f).map (List.map (List.map (scale3 φ)))
  | 0, _, _ => rfl
  | n + 1, ps, f => by
    unfold cnOuter
    rw [hp, List.length_map, List.getElem?_map]
    cases ps[pop ps % ps.length]? with
    | none => rfl
    | some seed =>
      simp only [Option.map_some]
      have e : ({ points := (ps.map (scale3 φ)).erase (scale3 φ seed)
                  lookup := lookupSet (fun q => (f q).map φ) (scale3 φ seed).xy none
                  stack := [scale3 φ seed]
                  neighbors := [scale3 φ seed] } : CnSt) =
          scaleCn φ { points := ps.erase seed
                      lookup := lookupSet f seed.xy none
                      stack := [seed]
                      neighbors := [seed] } := by
        unfold scaleCn
        rw [CnSt.mk.injEq]
        exact ⟨erase_scaled hφ ps seed, lookupSet_scaled f seed.xy none, rfl, rfl⟩
      rw [e, cnInner_scaled hφ]
      cases cnInner (ps.length + 1) { points := ps.erase seed
                                      lookup := lookupSet f seed.xy none
                                      stack := [seed]
                                      neighbors := [seed] } with
      | error e => rfl
      | ok s =>
        show (do
          let rest ← cnOuter pop' n (s.points.map (scale3 φ)) (fun q => (s.lookup q).map φ)
          pure (s.neighbors.map (scale3 φ) :: rest)) = _
        rw [cnOuter_scaled hp n]
        show _ = Except.map _ (do
          let rest ← cnOuter pop n s.points s.lookup
          pure (s.neighbors :: rest))
        cases cnOuter pop n s.points s.lookup <;> rfl

theorem contiguous_scaled {pop pop' : List P3 → Nat} (hp : ∀ l, pop' (l.map (scale3 φ)) = pop l)
    (ps : List P3) : contiguousNeighbors pop' (ps.map (scale3 φ)) =
      (contiguousNeighbors pop ps).map (List.map (List.map (scale3 φ))) := by
  unfold contiguousNeighbors
  dsimp only
  rw [toSet_map (fun a b => scale3_inj hφ), List.length_map, ← cnOuter_scaled hφ hp]
  congr 1
  exact foldl_comm (f := fun f p => lookupSet f p.xy (some p.e)) (f' := fun f p => lookupSet f p.xy (some p.e))
    (fun (f : Pt → Option Rat) => fun q => (f q).map φ) (scale3 φ)
    (fun s a => lookupSet_scaled s a.xy (some a.e)) (toSet ps) (fun _ => none)

omit hφ in
theorem tnLookup_scaled (ls : List (List P3)) : tnLookup (ls.map (List.map (scale3 φ))) = tnLookup ls := by
  unfold tnLookup
  rw [List.zipIdx_map]
  refine (foldl_comm id (Prod.map (List.map (scale3 φ)) id) ?_ ls.zipIdx _).trans rfl
  intro s a
  exact foldl_comm id (scale3 φ) (fun _ _ => rfl) a.1 s

omit hφ in
theorem touching_scaled (d : DataMap) (ls : List (List P3)) :
    touchingNeighborhoods (rescaled φ d) (ls.map (List.map (scale3 φ))) = touchingNeighborhoods d ls := by
  unfold touchingNeighborhoods
  rw [tnLookup_scaled, List.zipIdx_map]
  refine congrArg TnSt.result ?_
  refine (foldl_comm id (Prod.map (List.map (scale3 φ)) id) ?_ ls.zipIdx _).trans rfl
  intro s a
  refine foldl_comm id (scale3 φ) ?_ a.1 s
  intro s p
  show ((rescaled φ d).iterateFull p.x p.y).foldl (tnVisit (tnLookup ls) a.2) s = _
  rw [iterateFull_scaled]
  exact foldl_comm id (scaleN φ) (fun _ _ => rfl) (d.iterateFull p.x p.y) s

theorem highestLoop_scaled : ∀ (ps : List P3) (a : Rat × List P3),
    highestLoop (ps.map (scale3 φ)) (φ a.1, a.2.map (scale3 φ)) =
      (φ (highestLoop ps a).1, (highestLoop ps a).2.map (scale3 φ))
  | [], _ => rfl
  | p :: ps, (h, acc) => by
    rw [List.map_cons]
    unfold highestLoop
    have e1 : ((scale3 φ p).e > φ h) = (p.e > h) := propext (inc_lt hφ)
    have e2 : ((scale3 φ p).e = φ h) = (p.e = h) := propext (inc_inj hφ)
    dsimp only
    simp only [e1, e2]
    split
    · exact highestLoop_scaled ps (p.e, [p])
    split
    · have := highestLoop_scaled ps (h, acc ++ [p])
      rwa [List.map_append] at this
    · exact highestLoop_scaled ps (h, acc)

theorem highest_scaled (ps : List P3) :
    highestP3 (ps.map (scale3 φ)) = (highestP3 ps).map (List.map (scale3 φ)) := by
  cases ps with
  | nil => rfl
  | cons p ps =>
    show Except.ok (highestLoop ((p :: ps).map (scale3 φ)) (φ p.e, [])).2 = _
    have := highestLoop_scaled hφ (p :: ps) (p.e, [])
    rw [List.map_nil] at this
    rw [this]
    rfl

/-! ### Discovery -/

theorem lowerNbhds_scaled (h : Rat) : ∀ nbs : List (List P3),
    lowerNbhds (φ h) (nbs.map (List.map (scale3 φ))) = (lowerNbhds h nbs).map (List.map (List.map (scale3 φ)))
  | [] => rfl
  | nb :: nbs => by
    rw [List.map_cons]
    unfold lowerNbhds
    rw [highest_scaled hφ, lowerNbhds_scaled h nbs]
    cases highestP3 nb with
    | error e => rfl
    | ok hi =>
      cases lowerNbhds h nbs with
      | error e => rfl
      | ok rest =>
        cases hi with
        | nil => rfl
        | cons t ts =>
          show (if φ t.e < φ h then _ else _) = Except.map _ (if t.e < h then _ else _)
          simp only [inc_lt hφ]
          split <;> rfl

theorem removeAll_scaled : ∀ ps l : List P3,
    removeAll (ps.map (scale3 φ)) (l.map (scale3 φ)) = (removeAll ps l).map (List.map (scale3 φ))
  | [], _ => rfl
  | p :: ps, l => by
    rw [List.map_cons]
    unfold removeAll
    simp only [mem_map_inj (g := scale3 φ) fun a b => scale3_inj hφ]
    split
    · rw [erase_scaled hφ]
      exact removeAll_scaled ps (l.erase p)
    · rfl

omit hφ in
theorem hpnSelect_scaled {c c' : MPt → MPt → Rat} (hc : ∀ a b, c' (scaleM φ a) (scaleM φ b) = c a b) (a : MPt) :
    ∀ (ts : List P3) (best : Option (P3 × Rat)),
    hpnSelect c' (scaleM φ a) (ts.map (scale3 φ)) (best.map fun b => (scale3 φ b.1, b.2)) =
      (hpnSelect c a ts best).map fun b => (scale3 φ b.1, b.2)
  | [], _ => rfl
  | t :: ts, best => by
    rw [List.map_cons]
    unfold hpnSelect
    have e : c' (scaleM φ a) (MPt.ofP3 (scale3 φ t)) = c a (MPt.ofP3 t) := hc a (MPt.ofP3 t)
    simp only [e]
    cases best with
    | none => exact hpnSelect_scaled hc a ts (some (t, _))
    | some b =>
      obtain ⟨b, bc⟩ := b
      simp only [Option.map_some]
      split
      · exact hpnSelect_scaled hc a ts (some (t, _))
      · exact hpnSelect_scaled hc a ts (some (b, bc))

omit hφ in
theorem flatten_map3 (L : List (List P3)) :
    (L.map (List.map (scale3 φ))).flatten = L.flatten.map (scale3 φ) := by
  rw [List.map_flatten]

omit hφ in
theorem hpnShortestPath_scaled {c c' : List MPt → MPt → MPt → Rat}
    (hc : ∀ pts a b, c' (pts.map (scaleM φ)) (scaleM φ a) (scaleM φ b) = c pts a b) (p : P3) (flat : List MPt)
    (hpn : List (List P3)) :
    hpnShortestPath c' (scale3 φ p) (flat.map (scaleM φ)) (hpn.map (List.map (scale3 φ))) =
      (hpnShortestPath c p flat hpn).map fun r => (scale3 φ r.1, r.2.map (scaleM φ)) := by
  unfold hpnShortestPath
  have e : flat.map (scaleM φ) ++ ((hpn.map (List.map (scale3 φ))).flatten.map MPt.ofP3) =
      (flat ++ hpn.flatten.map MPt.ofP3).map (scaleM φ) := by
    rw [flatten_map3, List.map_append, List.map_map, List.map_map]
    rfl
  rw [e]
  have e2 : ((flat ++ hpn.flatten.map MPt.ofP3).map (scaleM φ)).getLastD (MPt.ofP3 (scale3 φ p)) =
      scaleM φ ((flat ++ hpn.flatten.map MPt.ofP3).getLastD (MPt.ofP3 p)) := by
    rw [List.getLastD_eq_getLast?, List.getLastD_eq_getLast?, List.getLast?_map]
    cases (flat ++ hpn.flatten.map MPt.ofP3).getLast? <;> rfl
  dsimp only
  rw [e2, flatten_map3]
  have := hpnSelect_scaled (hc (flat ++ hpn.flatten.map MPt.ofP3))
    ((flat ++ hpn.flatten.map MPt.ofP3).getLastD (MPt.ofP3 p)) hpn.flatten none
  rw [Option.map_none] at this
  rw [this]
  cases hpnSelect (c (flat ++ hpn.flatten.map MPt.ofP3)) _ hpn.flatten none <;> rfl

/-- The state of the runoff loop with heights converted. -/
def scaleRunoffSt (φ : Rat → Rat) (s : RunoffSt) : RunoffSt where
  runoffs := s.runoffs.map (scaleF φ)
  converted := s.converted.map (List.map (scale3 φ))
  remaining := s.remaining.map (scale3 φ)
  mp := s.mp.map (List.map (scaleM φ))

theorem runoffBody_scaled (d : DataMap) {o o' : Oracle} (ho : SameOrders φ o o') (h : Rat)
    (nbs high : List (List P3)) (s : RunoffSt) (it : Nat × List Nat) :
    runoffBody (rescaled φ d) o' (φ h) (nbs.map (List.map (scale3 φ))) (high.map (List.map (scale3 φ)))
      (scaleRunoffSt φ s) it = (runoffBody d o h nbs high s it).map (scaleRunoffSt φ) := by
  unfold runoffBody
  rw [List.length_map, List.getElem?_map]
  split
  · rfl
  split
  · cases nbs[it.1]? with
    | none => rfl
    | some nb =>
      simp only [Option.map_some]
      rw [List.length_map, List.getElem?_map]
      cases nb[nb.length / 2]? with
      | none => rfl
      | some mid =>
        simp only [Option.map_some]
        have hr := removeAll_scaled hφ nb s.remaining
        have hrem : (scaleRunoffSt φ s).remaining = s.remaining.map (scale3 φ) := rfl
        cases hm : s.mp with
        | none =>
          have hm' : (scaleRunoffSt φ s).mp = none := by
            unfold scaleRunoffSt
            rw [hm]
            rfl
          simp only [hm', hrem, hr]
          simp only [pure, Except.pure, bind, Except.bind]
          cases removeAll nb s.remaining with
          | error e => rfl
          | ok rem =>
            refine congrArg Except.ok ?_
            simp only [scaleRunoffSt, List.map_append, List.map_cons, List.map_nil, Option.map_none]
            rfl
        | some pts =>
          have hm' : (scaleRunoffSt φ s).mp = some (pts.map (scaleM φ)) := by
            unfold scaleRunoffSt
            rw [hm]
            rfl
          simp only [hm', hrem, hr, hpnShortestPath_scaled ho.cost]
          simp only [pure, Except.pure, bind, Except.bind]
          cases hpnShortestPath o.cost mid pts high with
          | error e => rfl
          | ok r =>
            cases removeAll nb s.remaining with
            | error e => rfl
            | ok rem =>
              refine congrArg Except.ok ?_
              simp only [scaleRunoffSt, List.map_append, List.map_cons, List.map_nil]
              rfl
  · rfl

omit hφ in
theorem isEmpty_scaled (L : List (List P3)) : (L.map (List.map (scale3 φ))).isEmpty = L.isEmpty := by
  cases L <;> rfl

theorem edgeFeature_scaled (d : DataMap) {o o' : Oracle} (ho : SameOrders φ o o') (x y : Int) (h : Rat)
    (mep : List P3) (mp : Option (List MPt)) (edge : Bool) (eps : List P3) (high : List (List P3)) :
    edgeFeatureAnalysis (rescaled φ d) o' x y (φ h) (mep.map (scale3 φ)) (mp.map (List.map (scaleM φ))) edge
      (eps.map (scale3 φ)) (high.map (List.map (scale3 φ))) =
      (edgeFeatureAnalysis d o x y h mep mp edge eps high).map (List.map (scaleF φ)) := by
  unfold edgeFeatureAnalysis
  split
  · rfl
  dsimp only
  rw [isEmpty_scaled]
  split
  · rfl
  rw [contiguous_scaled hφ (ho.pop 1), contiguous_scaled hφ (ho.pop 2)]
  simp only [bind, Except.bind]
  cases contiguousNeighbors (o.pop 1) mep with
  | error e => rfl
  | ok nbs =>
    simp only [Except.map]
    rw [lowerNbhds_scaled hφ]
    cases lowerNbhds h nbs with
    | error e => rfl
    | ok lower =>
      simp only [Except.map, List.length_map]
      split
      · split <;> rfl
      · cases contiguousNeighbors (o.pop 2) eps with
        | error e => rfl
        | ok enb =>
          simp only [List.length_map]
          rw [← List.map_append, touching_scaled]
          have := foldlM_comm (scaleRunoffSt φ) id
            (f := runoffBody d o h enb high)
            (fun s a => runoffBody_scaled hφ d ho h enb high s a)
            (touchingNeighborhoods d (enb ++ lower))
            { runoffs := [], converted := [], remaining := eps, mp := mp }
          rw [List.map_id] at this
          rw [show (⟨[], [], eps.map (scale3 φ), mp.map (List.map (scaleM φ))⟩ : RunoffSt) =
            scaleRunoffSt φ ⟨[], [], eps, mp⟩ from rfl, this]
          cases (touchingNeighborhoods d (enb ++ lower)).foldlM (runoffBody d o h enb high)
            { runoffs := [], converted := [], remaining := eps, mp := mp } with
          | error e => rfl
          | ok s =>
            simp only [Except.map]
            rw [show (scaleRunoffSt φ s).converted.length = s.converted.length from List.length_map _]
            split
            · split
              · refine congrArg Except.ok ?_
                rw [List.map_append]
                rfl
              · refine congrArg Except.ok ?_
                rw [List.map_append]
                rfl
            · rfl

theorem consolidated_scaled (d : DataMap) {o o' : Oracle} (ho : SameOrders φ o o') (x y : Int) (h : Rat)
    (perim mep : List P3) (mp : Option (List MPt)) (edge : Bool) (eps : List P3) :
    consolidatedFeatureLogic (rescaled φ d) o' x y (φ h) (perim.map (scale3 φ)) (mep.map (scale3 φ))
      (mp.map (List.map (scaleM φ))) edge (eps.map (scale3 φ)) =
      (consolidatedFeatureLogic d o x y h perim mep mp edge eps).map (List.map (scaleF φ)) := by
  unfold consolidatedFeatureLogic
  have e : (perim.map (scale3 φ)).filter (fun p => decide (p.e > φ h)) =
      (perim.filter fun p => decide (p.e > h)).map (scale3 φ) := by
    rw [List.filter_map]
    refine congrArg _ (List.filter_congr fun p _ => ?_)
    show decide (φ p.e > φ h) = decide (p.e > h)
    exact decide_eq_decide.2 (inc_lt hφ)
  rw [e, contiguous_scaled hφ (ho.pop 0)]
  simp only [bind, Except.bind]
  cases contiguousNeighbors (o.pop 0) (perim.filter fun p => decide (p.e > h)) with
  | error e => rfl
  | ok high =>
    simp only [Except.map, isEmpty_scaled, List.length_map]
    have hfirst : (if high.isEmpty = true then
          [mkSummit ((rescaled φ d).xyToLatLon x y) (φ h) (mp.map (List.map (scaleM φ))) edge (eps.map (scale3 φ))]
        else if high.length > 1 ∧ edge = false then
          [mkSaddle ((rescaled φ d).xyToLatLon x y) (φ h) (mp.map (List.map (scaleM φ))) edge (eps.map (scale3 φ))
            (high.map (List.map (scale3 φ)))]
        else []) = (if high.isEmpty = true then [mkSummit (d.xyToLatLon x y) h mp edge eps]
        else if high.length > 1 ∧ edge = false then [mkSaddle (d.xyToLatLon x y) h mp edge eps high]
        else []).map (scaleF φ) := by
      split
      · rfl
      split <;> rfl
    rw [hfirst]
    split
    · rw [edgeFeature_scaled hφ d ho]
      cases edgeFeatureAnalysis d o x y h mep mp edge eps high with
      | error e => rfl
      | ok more =>
        refine congrArg Except.ok ?_
        simp only [List.map_append]
    · rfl

omit hφ in
theorem ofPt_scaled (l : List Pt) : (l.map MPt.ofPt).map (scaleM φ) = l.map MPt.ofPt := by
  rw [List.map_map]
  rfl

theorem analyzeMultipoint_scaled (d : DataMap) {o o' : Oracle} (ho : SameOrders φ o o') (x y : Int) (h : Rat) :
    analyzeMultipoint (rescaled φ d) o' x y (φ h) =
      (analyzeMultipoint d o x y h).map fun r => (r.1.map (scaleF φ), r.2) := by
  unfold analyzeMultipoint
  rw [equalHeightBlob_scaled hφ]
  cases equalHeightBlob d x y h with
  | none => rfl
  | some b =>
    have := consolidated_scaled hφ d ho x y h b.perim b.mapEdgePoints (some (b.points.map MPt.ofPt)) b.mapEdge
      b.edgePoints
    rw [Option.map_some, ofPt_scaled] at this
    simp only [Option.map_some, scaleBlob, this, bind, Except.bind]
    cases consolidatedFeatureLogic d o x y h b.perim b.mapEdgePoints (some (b.points.map MPt.ofPt)) b.mapEdge
      b.edgePoints <;> rfl

/-- What the neighbour loop of a single point ends with, heights converted. -/
def scaleSs (φ : Rat → Rat) : P3 ⊕ SsAcc → P3 ⊕ SsAcc
  | .inl p => .inl (scale3 φ p)
  | .inr a => .inr ⟨a.perim.map (scale3 φ), a.mapEdge.map (scale3 φ)⟩

theorem ssLoop_scaled (d : DataMap) (h : Rat) : ∀ (ns : List Nbr) (acc : SsAcc),
    ssLoop (rescaled φ d) (φ h) (ns.map (scaleN φ)) ⟨acc.perim.map (scale3 φ), acc.mapEdge.map (scale3 φ)⟩ =
      (ssLoop d h ns acc).map (scaleSs φ)
  | [], _ => rfl
  | (x, y, oe) :: ns, acc => by
    rw [List.map_cons]
    unfold scaleN ssLoop
    dsimp only
    simp only [nodata_scaled hφ]
    split
    · exact ssLoop_scaled d h ns acc
    cases oe with
    | none => rfl
    | some e =>
      simp only [Option.map_some, inc_inj hφ, gt_iff_lt, inc_lt hφ]
      split
      · rfl
      have e4 : (rescaled φ d).isMapEdge x y = d.isMapEdge x y := rfl
      rw [e4]
      rw [← ssLoop_scaled d h ns]
      have es := setAdd_map (g := scale3 φ) (fun a b => scale3_inj hφ) acc.mapEdge ⟨x, y, e⟩
      by_cases c1 : h < e <;> by_cases c2 : d.isMapEdge x y = true <;>
        simp only [c1, c2, if_true, if_false, Bool.false_eq_true, List.map_append, List.map_cons, List.map_nil]
      · rw [← es]
        rfl
      · rfl
      · rw [← es]
        rfl
      · rfl

theorem summitAndSaddle_scaled (d : DataMap) {o o' : Oracle} (ho : SameOrders φ o o') (visited : List Pt) (p : Pt)
    (h : Rat) : summitAndSaddle (rescaled φ d) o' visited p (φ h) =
      (summitAndSaddle d o visited p h).map fun r => (r.1.map (scaleF φ), r.2) := by
  unfold summitAndSaddle
  split
  · rfl
  dsimp only
  have e4 : (rescaled φ d).isMapEdge p.1 p.2 = d.isMapEdge p.1 p.2 := rfl
  rw [iterateFull_scaled, e4]
  have := ssLoop_scaled hφ d h (d.iterateFull p.1 p.2) ⟨[], []⟩
  rw [List.map_nil] at this
  rw [this]
  simp only [bind, Except.bind]
  cases ssLoop d h (d.iterateFull p.1 p.2) ⟨[], []⟩ with
  | error e => rfl
  | ok r =>
    cases r with
    | inl q =>
      simp only [Except.map, scaleSs]
      rw [show (scale3 φ q).e = φ q.e from rfl, show (scale3 φ q).x = q.x from rfl,
        show (scale3 φ q).y = q.y from rfl, analyzeMultipoint_scaled hφ d ho]
      cases analyzeMultipoint d o q.x q.y q.e <;> rfl
    | inr acc =>
      simp only [Except.map, scaleSs]
      have e5 : (if d.isMapEdge p.1 p.2 = true then [(⟨p.1, p.2, φ h⟩ : P3)] else []) =
          (if d.isMapEdge p.1 p.2 = true then [(⟨p.1, p.2, h⟩ : P3)] else []).map (scale3 φ) := by
        split <;> rfl
      have := consolidated_scaled hφ d ho p.1 p.2 h acc.perim acc.mapEdge none (d.isMapEdge p.1 p.2)
        (if d.isMapEdge p.1 p.2 = true then [⟨p.1, p.2, h⟩] else [])
      rw [Option.map_none] at this
      rw [e5, this]
      cases consolidatedFeatureLogic d o p.1 p.2 h acc.perim acc.mapEdge none (d.isMapEdge p.1 p.2)
        (if d.isMapEdge p.1 p.2 = true then [⟨p.1, p.2, h⟩] else []) <;> rfl

theorem analyzeLoop_scaled (d : DataMap) {o o' : Pt → Oracle} (ho : ∀ p, SameOrders φ (o p) (o' p)) :
    ∀ (ps visited : List Pt), analyzeLoop (rescaled φ d) o' ps visited =
      (analyzeLoop d o ps visited).map (List.map (scaleF φ))
  | [], _ => rfl
  | p :: ps, visited => by
    unfold analyzeLoop
    have e : (some ((rescaled φ d).cell p.1 p.2) = (rescaled φ d).nodata) = (some (d.cell p.1 p.2) = d.nodata) :=
      nodata_scaled hφ d (some (d.cell p.1 p.2))
    simp only [e]
    split
    · exact analyzeLoop_scaled d ho ps visited
    rw [show (rescaled φ d).cell p.1 p.2 = φ (d.cell p.1 p.2) from rfl, summitAndSaddle_scaled hφ d (ho p)]
    simp only [bind, Except.bind]
    cases summitAndSaddle d (o p) visited p (d.cell p.1 p.2) with
    | error e => rfl
    | ok r =>
      simp only [Except.map]
      rw [analyzeLoop_scaled d ho ps r.2]
      cases analyzeLoop d o ps r.2 with
      | error e => rfl
      | ok rest =>
        refine congrArg Except.ok ?_
        simp only [List.map_append]

theorem analyze_scaled (d : DataMap) {o o' : Pt → Oracle} (ho : ∀ p, SameOrders φ (o p) (o' p)) (order : List Pt) :
    analyze (rescaled φ d) o' order = (analyze d o order).map fun D =>
      { summits := D.summits.map (scaleF φ), saddles := D.saddles.map (scaleF φ),
        runoffs := D.runoffs.map (scaleF φ) } := by
  unfold analyze
  rw [analyzeLoop_scaled hφ d ho]
  simp only [bind, Except.bind]
  cases analyzeLoop d o order [] with
  | error e => rfl
  | ok fs =>
    refine congrArg Except.ok ?_
    simp only [List.filter_map]
    rfl

omit hφ in
theorem corner_scaled (d : DataMap) (loc : Rat × Rat) (x y : Int) :
    cornerRunoff (rescaled φ d) loc x y = (cornerRunoff d loc x y).map (scaleF φ) := by
  unfold cornerRunoff
  rw [get_scaled]
  cases d.get x y <;> rfl

omit hφ in
theorem corners_scaled (d : DataMap) :
    makeCornerRunoffs (rescaled φ d) = (makeCornerRunoffs d).map (List.map (scaleF φ)) := by
  unfold makeCornerRunoffs
  simp only [corner_scaled]
  simp only [bind, Except.bind]
  rw [show (rescaled φ d).lowerLeft = d.lowerLeft from rfl, show (rescaled φ d).lowerRight = d.lowerRight from rfl,
    show (rescaled φ d).upperLeft = d.upperLeft from rfl, show (rescaled φ d).upperRight = d.upperRight from rfl,
    show (rescaled φ d).maxX = d.maxX from rfl, show (rescaled φ d).maxY = d.maxY from rfl]
  cases cornerRunoff d d.lowerLeft d.maxX 0 with
  | error e => rfl
  | ok a =>
    cases cornerRunoff d d.lowerRight d.maxX d.maxY with
    | error e => rfl
    | ok b =>
      cases cornerRunoff d d.upperLeft 0 0 with
      | error e => rfl
      | ok c =>
        cases cornerRunoff d d.upperRight 0 d.maxY <;> rfl

end

/-! ### Networks of saddles -/

section
variable {φ : Rat → Rat} (hφ : Increasing φ)

/-- A link between two neighbourhoods with heights converted. -/
def scaleV (φ : Rat → Rat) (l : VLink) : VLink :=
  { l with ends := l.ends.map (Prod.map (scale3 φ) (scale3 φ)) }

theorem vertexLinkers_scaled {fc fc' : PairSearch} (h : SamePairs φ fc fc') (hpn : List (List P3)) (k : Nat) :
    vertexLinkers fc' (hpn.map (List.map (scale3 φ))) k = (vertexLinkers fc hpn k).map (scaleV φ) := by
  unfold vertexLinkers
  rw [List.length_map, List.map_map]
  refine List.map_congr_left fun r _ => ?_
  have e : ∀ i, (hpn.map (List.map (scale3 φ))).getD i [] = (hpn.getD i []).map (scale3 φ) := fun i => by
    rw [List.getD_eq_getElem?_getD, List.getD_eq_getElem?_getD, List.getElem?_map]
    cases hpn[i]? <;> rfl
  simp only [e, h (hpn.getD r []) (hpn.getD k []), h (hpn.getD k []) (hpn.getD r []), Function.comp_apply]
  split
  · rfl
  · unfold scaleV
    simp only
    cases (fc (hpn.getD k []) (hpn.getD r [])).1 <;> rfl

theorem shortestLink_scaled (links : List VLink) (ig : Nat → Bool) :
    shortestLink (links.map (scaleV φ)) ig = (shortestLink links ig).map (scaleV φ) := by
  unfold shortestLink
  have := foldl_comm (fun b : Option VLink × Rat => (b.1.map (scaleV φ), b.2)) (scaleV φ)
    (f := fun best l => if ig l.remote then best else minStep VLink.dist best l)
    (f' := fun best l => if ig l.remote then best else minStep VLink.dist best l)
    (fun s a => by
      show (if ig a.remote = true then _ else minStep VLink.dist (s.1.map (scaleV φ), s.2) (scaleV φ a)) = _
      split
      · rfl
      · unfold minStep
        show (if a.dist < s.2 then _ else _) = _
        split <;> rfl) links (none, maxsize)
  rw [Option.map_none] at this
  rw [this]

/-- The state of the network search with heights converted. -/
def scaleNet (φ : Rat → Rat) (s : NetSt) : NetSt := { s with links := s.links.map (scaleV φ) }

theorem exploreLink_scaled (tab : Nat → List VLink) (node : Nat) (s : NetSt × Bool) (link : VLink) :
    exploreLink (fun k => (tab k).map (scaleV φ)) node (scaleNet φ s.1, s.2) (scaleV φ link) =
      (scaleNet φ (exploreLink tab node s link).1, (exploreLink tab node s link).2) := by
  unfold exploreLink
  show (if (s.1.explored.contains link.remote || s.1.tbe link.remote) = true then _ else _) = _
  split
  · rfl
  · dsimp only
    rw [show (scaleV φ link).remote = link.remote from rfl, shortestLink_scaled]
    rw [show (scaleNet φ s.1).explored = s.1.explored from rfl]
    cases shortestLink (tab link.remote) (fun i => s.1.explored.contains i) with
    | none => rfl
    | some rev =>
      simp only [Option.map_some]
      show (if rev.remote = node then _ else _) = _
      split
      · simp only [scaleNet, List.map_append, List.map_cons, List.map_nil]
      · rfl

theorem treeExploration_scaled (tab : Nat → List VLink) : ∀ (n : Nat) (s : NetSt),
    treeExploration (fun k => (tab k).map (scaleV φ)) n (scaleNet φ s) =
      (treeExploration tab n s).map (scaleNet φ)
  | 0, _ => rfl
  | n + 1, s => by
    unfold treeExploration
    rw [show (scaleNet φ s).queue = s.queue from rfl]
    cases s.queue with
    | nil => rfl
    | cons node rest =>
      dsimp only
      have e := foldl_comm (fun b : NetSt × Bool => (scaleNet φ b.1, b.2)) (scaleV φ)
        (exploreLink_scaled (φ := φ) tab node) (tab node)
        ({ s with queue := rest, tbe := setIdx s.tbe node false }, false)
      have e1 : (scaleNet φ { s with queue := rest, tbe := setIdx s.tbe node false }) =
        { scaleNet φ s with queue := rest, tbe := setIdx (scaleNet φ s).tbe node false } := rfl
      rw [← e1, e]
      generalize (tab node).foldl (exploreLink tab node)
        ({ s with queue := rest, tbe := setIdx s.tbe node false }, false) = r
      dsimp only
      rw [show (scaleNet φ s).first = s.first from rfl]
      split
      · rw [shortestLink_scaled]
        rw [show (scaleNet φ r.1).explored = r.1.explored from rfl]
        cases shortestLink (tab node) (fun i => r.1.explored.contains i) with
        | none => rfl
        | some sh =>
          simp only [Option.map_some]
          rw [← treeExploration_scaled tab n]
          refine congrArg _ ?_
          simp only [scaleNet, List.map_append, List.map_cons, List.map_nil]
          rfl
      · rw [← treeExploration_scaled tab n]
        rfl

theorem reseed_scaled (tab : Nat → List VLink) (un : List Nat) : ∀ (ns : List Nat)
    (best : Option (VLink × Nat) × Rat),
    reseed (fun k => (tab k).map (scaleV φ)) un ns (best.1.map (fun b => (scaleV φ b.1, b.2)), best.2) =
      (reseed tab un ns best).map fun b => (b.1.map (fun b => (scaleV φ b.1, b.2)), b.2)
  | [], _ => rfl
  | node :: ns, best => by
    unfold reseed
    rw [shortestLink_scaled]
    cases shortestLink (tab node) (fun i => un.contains i) with
    | none => rfl
    | some l =>
      simp only [Option.map_some]
      rw [← reseed_scaled tab un ns]
      refine congrArg _ ?_
      show (if l.dist < best.2 then _ else _) = _
      split <;> rfl

theorem buildLoop_scaled (tab : Nat → List VLink) (N fuel : Nat) : ∀ (n : Nat) (s : NetSt),
    buildLoop (fun k => (tab k).map (scaleV φ)) N fuel n (scaleNet φ s) =
      (buildLoop tab N fuel n s).map (List.map (scaleV φ))
  | 0, _ => rfl
  | n + 1, s => by
    unfold buildLoop
    rw [treeExploration_scaled]
    simp only [bind, Except.bind]
    cases treeExploration tab fuel s with
    | error e => rfl
    | ok s' =>
      simp only [Except.map]
      rw [show (scaleNet φ s').explored = s'.explored from rfl]
      split
      · have e := reseed_scaled (φ := φ) tab ((List.range N).filter fun i => !s'.explored.contains i)
          ((List.range N).filter fun i => !s'.explored.contains i) (none, maxsize)
        rw [Option.map_none] at e
        rw [e]
        cases reseed tab ((List.range N).filter fun i => !s'.explored.contains i)
          ((List.range N).filter fun i => !s'.explored.contains i) (none, maxsize) with
        | error e => rfl
        | ok best =>
          simp only [Except.map]
          cases best.1 with
          | none => rfl
          | some ls =>
            simp only [Option.map_some]
            have := buildLoop_scaled tab N fuel n
              { s' with links := s'.links ++ [ls.1], queue := s'.queue ++ [ls.2] }
            refine Eq.trans ?_ this
            refine congrArg _ ?_
            simp only [scaleNet, List.map_append, List.map_cons, List.map_nil]
      · rfl

theorem buildInternalTree_scaled (tab : Nat → List VLink) (N : Nat) :
    buildInternalTree (fun k => (tab k).map (scaleV φ)) N = (buildInternalTree tab N).map (List.map (scaleV φ)) := by
  unfold buildInternalTree
  split
  · rfl
  · exact buildLoop_scaled tab N (N + 1) (N + 1) ⟨[0], fun _ => false, [], [], true⟩

theorem multiGo_scaled {sq : MPt → Rat} (hs : ∀ m, sq (scaleM φ m) = sq m) : ∀ (l : List MPt) (b : MPt),
    multiClosest.go sq (scaleM φ b) (l.map (scaleM φ)) = scaleM φ (multiClosest.go sq b l)
  | [], _ => rfl
  | c :: l, b => by
    rw [List.map_cons]
    unfold multiClosest.go
    rw [hs, hs]
    split
    · rfl
    split
    · exact multiGo_scaled hs l c
    · exact multiGo_scaled hs l b

theorem multiClosest_scaled (x y : Rat) (l : List MPt) :
    multiClosest x y (l.map (scaleM φ)) = (multiClosest x y l).map (scaleM φ) := by
  cases l with
  | nil => rfl
  | cons a l =>
    rw [List.map_cons]
    unfold multiClosest
    have e : (scaleM φ a).e.isSome = a.e.isSome := by
      unfold scaleM
      cases a.e <;> rfl
    show (if (scaleM φ a).e.isSome = true then _ else _) = Except.map _ (if a.e.isSome = true then _ else _)
    rw [e]
    split
    · rfl
    · refine congrArg Except.ok ?_
      exact multiGo_scaled (fun m => rfl) l a

theorem childSaddle_scaled (d : DataMap) (f : Feature) (l : VLink) :
    childSaddle (rescaled φ d) (scaleF φ f) (scaleV φ l) = (childSaddle d f l).map (scaleF φ) := by
  unfold childSaddle
  rw [show (scaleV φ l).ends = l.ends.map (Prod.map (scale3 φ) (scale3 φ)) from rfl,
    show (scaleF φ f).multipoint = f.multipoint.map (List.map (scaleM φ)) from rfl]
  cases l.ends with
  | none => rfl
  | some lr =>
    obtain ⟨a, b⟩ := lr
    simp only [Option.map_some, Prod.map]
    cases f.multipoint with
    | none => rfl
    | some ps =>
      cases ps with
      | nil => rfl
      | cons p ps =>
        simp only [Option.map_some, List.map_cons]
        have := multiClosest_scaled (φ := φ) (((a.x + b.x : Int) : Rat) / 2) (((a.y + b.y : Int) : Rat) / 2) (p :: ps)
        rw [List.map_cons] at this
        show (multiClosest (((a.x + b.x : Int) : Rat) / 2) (((a.y + b.y : Int) : Rat) / 2)
          (scaleM φ p :: ps.map (scaleM φ)) >>= _) = _
        rw [this]
        simp only [bind, Except.bind]
        cases multiClosest (((a.x + b.x : Int) : Rat) / 2) (((a.y + b.y : Int) : Rat) / 2) (p :: ps) <;> rfl

theorem children_scaled (d : DataMap) {fc fc' : PairSearch} (h : SamePairs φ fc fc') (f : Feature) :
    generateChildSaddles (rescaled φ d) fc' (scaleF φ f) =
      (generateChildSaddles d fc f).map (List.map (scaleF φ)) := by
  unfold generateChildSaddles
  rw [show (scaleF φ f).hpn = f.hpn.map (List.map (scale3 φ)) from rfl, List.length_map,
    show vertexLinkers fc' (f.hpn.map (List.map (scale3 φ))) = fun k => (vertexLinkers fc f.hpn k).map (scaleV φ)
      from funext fun k => vertexLinkers_scaled h f.hpn k, buildInternalTree_scaled]
  simp only [bind, Except.bind]
  cases buildInternalTree (vertexLinkers fc f.hpn) f.hpn.length with
  | error e => rfl
  | ok links => exact mapM_comm (scaleV φ) (scaleF φ) (childSaddle_scaled d f) links

/-- A path with heights converted. -/
def scalePath (φ : Rat → Rat) (p : PathInfo) : PathInfo := ⟨p.cost, p.nodes.map (scaleM φ)⟩

theorem cheapest_scaled (b : Option PathInfo) (p : PathInfo) :
    cheapest (b.map (scalePath φ)) (scalePath φ p) = (cheapest b p).map (scalePath φ) := by
  cases b with
  | none => rfl
  | some b =>
    show (if p.cost < b.cost then _ else _) = Option.map _ (if p.cost < b.cost then _ else _)
    split <;> rfl

theorem overallStep_scaled (path : PathInfo) (o l : Option PathInfo) :
    overallStep (scalePath φ path) (o.map (scalePath φ)) (l.map (scalePath φ)) =
      (overallStep path o l).map (scalePath φ) := by
  cases o with
  | none => rfl
  | some b =>
    cases l with
    | none => rfl
    | some p =>
      show (if p.cost < b.cost then _ else _) = Option.map _ (if p.cost < b.cost then _ else _)
      split <;> rfl

theorem saddleHighPath_scaled {find find' : P3 → P3 → PathInfo}
    (h : ∀ a b, find' (scale3 φ a) (scale3 φ b) = scalePath φ (find a b)) (hpn : List (List P3)) :
    saddleHighPath find' (hpn.map (List.map (scale3 φ))) =
      (saddleHighPath find hpn).map fun r => (scaleM φ r.1, scaleM φ r.2.1, scaleM φ r.2.2) := by
  unfold saddleHighPath
  cases hpn with
  | nil => rfl
  | cons us hpn =>
    cases hpn with
    | nil => rfl
    | cons them hpn =>
      simp only [List.map_cons, List.getLast?_map]
      cases us.getLast? with
      | none => rfl
      | some u =>
        cases them.getLast? with
        | none => rfl
        | some t =>
          simp only [Option.map_some, h]
          have e1 : (us.map (scale3 φ)).map (fun u => (them.map (scale3 φ)).foldl
              (fun b t => cheapest b (find' u t)) none) =
              (us.map fun u => them.foldl (fun b t => cheapest b (find u t)) none).map (Option.map (scalePath φ)) := by
            rw [List.map_map, List.map_map]
            refine List.map_congr_left fun u _ => ?_
            exact foldl_comm (Option.map (scalePath φ)) (scale3 φ)
              (f := fun b t => cheapest b (find u t))
              (f' := fun b t => cheapest b (find' (scale3 φ u) t))
              (fun s a => by
                show cheapest (s.map (scalePath φ)) (find' (scale3 φ u) (scale3 φ a)) = _
                rw [h, cheapest_scaled]) them none
          rw [e1]
          have e2 := foldl_comm (Option.map (scalePath φ)) (Option.map (scalePath φ))
            (overallStep_scaled (φ := φ) (find u t))
            (us.map fun u => them.foldl (fun b t => cheapest b (find u t)) none) none
          rw [Option.map_none] at e2
          rw [e2]
          cases (us.map fun u => them.foldl (fun b t => cheapest b (find u t)) none).foldl
            (overallStep (find u t)) none with
          | none => rfl
          | some o =>
            simp only [Option.map_some, scalePath, List.head?_map, List.getLast?_map, List.length_map,
              List.getElem?_map]
            cases o.nodes.head? with
            | none => rfl
            | some a =>
              cases o.nodes.getLast? with
              | none => rfl
              | some b =>
                cases o.nodes[o.nodes.length / 2]? <;> rfl

include hφ in
theorem rebuildTwo_scaled (d : DataMap) {fc fc' : PairSearch} (h : SamePairs φ fc fc') (f : Feature) :
    rebuildTwo (rescaled φ d) fc' (scaleF φ f) = (rebuildTwo d fc f).map (scaleF φ) := by
  unfold rebuildTwo
  rw [show (scaleF φ f).hpn = f.hpn.map (List.map (scale3 φ)) from rfl,
    mapM_comm (List.map (scale3 φ)) (List.map (scale3 φ)) (highest_scaled hφ)]
  simp only [bind, Except.bind]
  cases f.hpn.mapM highestP3 with
  | error e => rfl
  | ok hs =>
    simp only [Except.map]
    have e : ∀ i, (f.hpn.map (List.map (scale3 φ))).getD i [] = (f.hpn.getD i []).map (scale3 φ) := fun i => by
      rw [List.getD_eq_getElem?_getD, List.getD_eq_getElem?_getD, List.getElem?_map]
      cases f.hpn[i]? <;> rfl
    rw [show (scaleF φ f).multipoint = f.multipoint.map (List.map (scaleM φ)) from rfl]
    cases f.multipoint with
    | none => rfl
    | some ms =>
      cases ms with
      | nil => rfl
      | cons m ms =>
        simp only [Option.map_some, List.map_cons, e, h (f.hpn.getD 0 []) (f.hpn.getD 1 [])]
        cases (fc (f.hpn.getD 0 []) (f.hpn.getD 1 [])).1 with
        | none => rfl
        | some ab =>
          obtain ⟨a, b⟩ := ab
          simp only [Option.map_some, Prod.map]
          have := multiClosest_scaled (φ := φ) (((a.x + b.x).tdiv 2 : Int) : Rat) (((a.y + b.y).tdiv 2 : Int) : Rat)
            (m :: ms)
          rw [List.map_cons] at this
          rw [show (scale3 φ a).x = a.x from rfl, show (scale3 φ a).y = a.y from rfl,
            show (scale3 φ b).x = b.x from rfl, show (scale3 φ b).y = b.y from rfl, this]
          cases multiClosest (((a.x + b.x).tdiv 2 : Int) : Rat) (((a.y + b.y).tdiv 2 : Int) : Rat) (m :: ms) <;> rfl

/-- An object with heights converted. -/
def scaleO (φ : Rat → Rat) (o : SObj) : SObj := { o with f := scaleF φ o.f }

theorem modObj_scaled (objs : List SObj) (k : Nat) {g g' : SObj → SObj} (h : ∀ o, g' (scaleO φ o) = scaleO φ (g o)) :
    modObj (objs.map (scaleO φ)) k g' = (modObj objs k g).map (scaleO φ) := by
  unfold modObj
  refine List.ext_getElem? fun i => ?_
  rw [List.getElem?_modify, List.getElem?_map, List.getElem?_map, List.getElem?_modify]
  by_cases hk : k = i
  · simp only [if_pos hk]
    cases objs[i]? with
    | none => rfl
    | some o => exact congrArg some (h o)
  · simp only [if_neg hk]
    cases objs[i]? <;> rfl

include hφ in
theorem rebuildOne_scaled (d : DataMap) {fc fc' : PairSearch} (h : SamePairs φ fc fc') (objs : List SObj) (k : Nat) :
    rebuildOne (rescaled φ d) fc' (objs.map (scaleO φ)) k =
      (rebuildOne d fc objs k).map fun r => (r.1.map (scaleO φ), r.2) := by
  unfold rebuildOne
  rw [List.getElem?_map]
  cases objs[k]? with
  | none => rfl
  | some o =>
    simp only [Option.map_some]
    rw [show (scaleO φ o).f = scaleF φ o.f from rfl, show (scaleF φ o.f).edge = o.f.edge from rfl,
      show (scaleF φ o.f).hpn.length = o.f.hpn.length from List.length_map _]
    split
    · rfl
    have e : (if o.f.hpn.length > 2 then generateChildSaddles (rescaled φ d) fc' (scaleF φ o.f)
        else do
          let f ← rebuildTwo (rescaled φ d) fc' (scaleF φ o.f)
          pure [f] : Except PyErr (List Feature)) =
        (if o.f.hpn.length > 2 then generateChildSaddles d fc o.f
        else do
          let f ← rebuildTwo d fc o.f
          pure [f] : Except PyErr (List Feature)).map (List.map (scaleF φ)) := by
      split
      · exact children_scaled d h o.f
      · rw [rebuildTwo_scaled hφ d h]
        cases rebuildTwo d fc o.f <;> rfl
    rw [e]
    generalize (if o.f.hpn.length > 2 then generateChildSaddles d fc o.f
        else do
          let f ← rebuildTwo d fc o.f
          pure [f] : Except PyErr (List Feature)) = R
    cases R with
    | error e => rfl
    | ok fs =>
      simp only [bind, Except.bind, Except.map, List.length_map]
      split
      · refine congrArg Except.ok (Prod.ext ?_ rfl)
        dsimp only
        rw [← modObj_scaled (g' := fun o => { o with
          children := o.children ++ (List.range fs.length).map (objs.length + ·), disq := some true }) _ _
          fun o => rfl]
        refine congrArg (fun L => modObj L k _) ?_
        rw [List.map_append, List.map_map, List.map_map]
        rfl
      · refine congrArg Except.ok (Prod.ext ?_ rfl)
        dsimp only
        rw [List.map_append, List.map_map, List.map_map]
        rfl

include hφ in
theorem rebuildSaddles_scaled (d : DataMap) {fc fc' : PairSearch} (h : SamePairs φ fc fc') :
    ∀ (ks : List Nat) (objs : List SObj), rebuildSaddles (rescaled φ d) fc' ks (objs.map (scaleO φ)) =
      (rebuildSaddles d fc ks objs).map fun r => (r.1.map (scaleO φ), r.2)
  | [], _ => rfl
  | k :: ks, objs => by
    unfold rebuildSaddles
    rw [rebuildOne_scaled hφ d h]
    simp only [bind, Except.bind]
    cases rebuildOne d fc objs k with
    | error e => rfl
    | ok r =>
      simp only [Except.map]
      rw [rebuildSaddles_scaled d h ks r.1]
      cases rebuildSaddles d fc ks r.1 <;> rfl

include hφ in
theorem discover_scaled (d : DataMap) {fc fc' : PairSearch} (h : SamePairs φ fc fc') {o o' : Pt → Oracle}
    (ho : ∀ p, SameOrders φ (o p) (o' p)) (order : List Pt) (rebuild : Bool) :
    DMap.discover (rescaled φ d) fc' o' order rebuild =
      (DMap.discover d fc o order rebuild).map (scaleMap φ) := by
  unfold DMap.discover
  rw [analyze_scaled hφ d ho, corners_scaled]
  simp only [bind, Except.bind]
  cases analyze d o order with
  | error e => rfl
  | ok D =>
    simp only [Except.map]
    cases makeCornerRunoffs d with
    | error e => rfl
    | ok corners =>
      simp only [List.length_map]
      rw [← List.map_append, ← List.map_append, List.length_map, List.map_map]
      have e : (D.saddles ++ (D.runoffs ++ corners)).map ((fun f => ({ f := f } : SObj)) ∘ scaleF φ) =
          ((D.saddles ++ (D.runoffs ++ corners)).map fun f => ({ f := f } : SObj)).map (scaleO φ) := by
        rw [List.map_map]
        rfl
      rw [e]
      cases rebuild with
      | false => rfl
      | true =>
        simp only [if_true]
        rw [rebuildSaddles_scaled hφ d h]
        cases rebuildSaddles d fc (List.range D.saddles.length)
          ((D.saddles ++ (D.runoffs ++ corners)).map fun f => ({ f := f } : SObj)) <;> rfl

end

end PyProm
