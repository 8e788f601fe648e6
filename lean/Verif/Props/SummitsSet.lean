import Verif.Model.SummitsSet
import Verif.Props.Graph
import Verif.Props.RunBasin
import Verif.Props.Apart
import Verif.Props.DivideLoaded
import Verif.Props.Elsewhere

/-
C42, C31: the set of the summits of a saddle
-/
namespace PyProm
open Spec

theorem unique_spec (N : FNet) : ∀ (l acc : List Nat), acc.Pairwise (fun a b => N.setEq b a = false) →
    (l.foldl (fun acc x => if acc.any (fun y => N.setEq x y) then acc else acc ++ [x]) acc).Pairwise (fun a b => N.setEq b a = false) ∧
    (∀ z ∈ l.foldl (fun acc x => if acc.any (fun y => N.setEq x y) then acc else acc ++ [x]) acc, z ∈ acc ∨ z ∈ l) ∧
    (∀ z ∈ acc, z ∈ l.foldl (fun acc x => if acc.any (fun y => N.setEq x y) then acc else acc ++ [x]) acc) ∧
    ∀ x ∈ l, ∃ z ∈ l.foldl (fun acc x => if acc.any (fun y => N.setEq x y) then acc else acc ++ [x]) acc, z = x ∨ N.setEq x z = true
  | [], acc, h => ⟨h, fun _ hz => .inl hz, fun _ hz => hz, fun _ hx => absurd hx List.not_mem_nil⟩
  | a :: l, acc, h => by
    rw [List.foldl_cons]
    by_cases ha : acc.any (fun y => N.setEq a y) = true
    · rw [if_pos ha]
      obtain ⟨g1, g2, g3, g4⟩ := unique_spec N l acc h
      refine ⟨g1, fun z hz => (g2 z hz).imp_right fun h => by simp [h], g3, fun x hx => ?_⟩
      rcases List.mem_cons.1 hx with rfl | hx
      · obtain ⟨y, hy, he⟩ := List.any_eq_true.1 ha
        exact ⟨y, g3 y hy, .inr he⟩
      · exact g4 x hx
    · rw [if_neg ha]
      obtain ⟨g1, g2, g3, g4⟩ := unique_spec N l (acc ++ [a]) (by
        rw [List.pairwise_append]
        refine ⟨h, List.pairwise_singleton _ _, fun y hy z hz => ?_⟩
        rw [List.mem_singleton.1 hz, ← Bool.not_eq_true]
        exact fun hc => ha (List.any_eq_true.2 ⟨y, hy, hc⟩))
      refine ⟨g1, fun z hz => ?_, fun z hz => g3 z (by simp [hz]), fun x hx => ?_⟩
      · rcases g2 z hz with h | h
        · rcases List.mem_append.1 h with h | h
          · exact .inl h
          · exact .inr (by simp [List.mem_singleton.1 h])
        · exact .inr (by simp [h])
      · rcases List.mem_cons.1 hx with rfl | hx
        · exact ⟨x, g3 x (by simp), .inl rfl⟩
        · exact g4 x hx

theorem linked_mem {N : FNet} {k D : Nat} : D ∈ (N.sadLinks k).map (fun i => (N.link i).1) ↔ Linked N k D := by
  rw [List.mem_map]
  exact ⟨fun ⟨i, h1, h2⟩ => ⟨i, h1, h2⟩, fun ⟨i, h1, h2⟩ => ⟨i, h1, h2⟩⟩

/-- C42, the set of the summits of a saddle: every member is linked with the saddle, by a linker that may be disqualified; no two
members are equal; and every summit linked with the saddle is in the set, or one equal to it. -/
theorem C42_summits_set (N : FNet) (k : Nat) :
    (∀ D ∈ N.summitsSet k, Linked N k D) ∧ (N.summitsSet k).Pairwise (fun a b => N.setEq b a = false) ∧
    ∀ D, Linked N k D → ∃ z ∈ N.summitsSet k, z = D ∨ N.setEq D z = true := by
  obtain ⟨g1, g2, _, g4⟩ := unique_spec N ((N.sadLinks k).map fun i => (N.link i).1) [] .nil
  exact ⟨fun D hD => linked_mem.1 ((g2 D hD).resolve_left List.not_mem_nil), g1, fun D hD => g4 D (linked_mem.2 hD)⟩

/-- C42, the sets of summits in the map of a run, on a raster whose cells have different coordinates: they hold every summit that is
linked with the saddle once, and nothing else. The saddle is among the saddles of each of them. -/
theorem C42_summits_set_run (E : SaddleEnv) (hE : RunOk E) (hd : Told E.d) (o : Pt → Oracle) (order : List Pt) (ho : IsScan E.d order)
    (rebuild : Bool) :
    ∃ m, DMap.runSparse E o order rebuild = .ok m ∧ ∀ k, (m.net.summitsSet k).Nodup ∧
      ∀ D, D ∈ m.net.summitsSet k ↔ ∃ i ∈ m.net.sadLinks k, (m.net.link i) = (D, k) := by
  obtain ⟨m, h1, _, _, h4⟩ := C122_summits E hE hd o order ho rebuild
  obtain ⟨_, m0, m', sites, news, _, h8, h9, _⟩ := run_links hE o order ho rebuild
  cases (h1.symm.trans h8 : Except.ok _ = Except.ok _)
  refine ⟨m, h1, fun k => ?_⟩
  have hlk : ∀ D, Linked m.net k D → D < m.summits.length ∧ ∃ i ∈ m.net.sadLinks k, m.net.link i = (D, k) := by
    rintro D ⟨i, hi, hD⟩
    obtain ⟨l, hl, hk⟩ := h9.inv.sad k i hi
    have hn := net_link hl
    rw [hn] at hD
    obtain ⟨sf, _, h1, _⟩ := h9.link hl
    exact ⟨hD ▸ lt_of_getElem? h1, i, hi, by rw [hn]; exact Prod.ext hD hk⟩
  obtain ⟨a1, a2, a3⟩ := C42_summits_set m.net k
  refine ⟨a2.imp_of_mem fun {a b} ha hb hab hc => ?_, fun D => ⟨fun h => (hlk D (a1 D h)).2, fun ⟨i, hi, he⟩ => ?_⟩⟩
  · have := ((h4 b a (hlk b (a1 b hb)).1 (hlk a (a1 a ha)).1).2).2 hc.symm
    rw [hab] at this
    cases this
  · have hl : Linked m.net k D := ⟨i, hi, by rw [he]⟩
    obtain ⟨z, hz, rfl | hs⟩ := a3 D hl
    · exact hz
    · rw [((h4 D z (hlk D hl).1 (hlk z (a1 z hz)).1).2).1 hs]
      exact hz

/-- Instance of `C42_summits_set_run`. -/
example : RunOk (exRun (DataMap.ofRows exRows)) ∧ Told (DataMap.ofRows exRows) :=
  ⟨exRun_plain _ (by unfold maxsize; decide +kernel), exRows_coarse.told⟩

/-- C31, read off the set of summits: the saddles that a complete run marks as single-source saddles are the saddles, other than those
replaced by children, whose set of summits has at most one member. -/
theorem C31_set (E : SaddleEnv) (hE : RunOk E) (o : Pt → Oracle) (order : List Pt) (ho : IsScan E.d order) (rebuild : Bool) :
    ∃ m, DMap.runSparse E o order rebuild = .ok m ∧ ∀ fuel, m.saddles.length + m.st.objs.length < fuel →
      ∃ f, DMap.run E o order rebuild fuel = .ok (m, f) ∧ ∀ k, f.single k = true ↔
        k ∈ m.saddles ∧ m.flags.over k ≠ some true ∧ (m.net.summitsSet k).length ≤ 1 := by
  obtain ⟨m, h1, h2⟩ := C31_run E hE o order ho rebuild
  refine ⟨m, h1, fun fuel hf => ?_⟩
  obtain ⟨f, h3, _⟩ := h2 fuel hf
  refine ⟨f, h3, fun k => ?_⟩
  obtain ⟨m', r1, h4⟩ := bind_ok h3
  obtain ⟨f', r2, h4⟩ := bind_ok h4
  cases h4
  rw [(basins_marked (show disqualifyBasinSaddles m.net fuel m.saddles m.flags = .ok f from r2)).single,
    (stubPass_spec m.net (basinFeatures m.net m.saddles) m.flags).2.2.2.1 k, (features_spec m.net m.saddles).2.1 k]
  have e1 : m.flags.single k ≠ true := by simp [DMap.flags]
  have e2 : SaddleOut m.flags k ↔ m.flags.over k = some true := by
    unfold SaddleOut
    exact ⟨fun h => h.elim id fun h => by simp [DMap.flags] at h, .inl⟩
  rw [or_iff_right e1, e2]
  rfl

set_option synthInstance.maxSize 1000 in
/-- Instance: on the ring with a notch, the notch has two linkers to the summit of the ring, one member in its set, and is marked. -/
example : (exFull exLoopRidge false 99).toOption.map (fun r => (r.1.saddles, r.1.net.nbrs (.saddle 6), r.1.net.summitsSet 6,
    r.1.net.summitsSet 7, r.2.single 6, r.2.single 7)) =
    some ([6, 7], [.summit 0, .summit 0], [0], [1, 0], true, false) := by decide +kernel

end PyProm
