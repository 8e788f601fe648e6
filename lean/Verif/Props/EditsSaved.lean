import Verif.Proof.EditsSaved
import Verif.Props.Purged
import Verif.Props.Edits

/-
C126: saving a map that was edited by hand.
-/
namespace PyProm
open Spec

/-- The parents and alternatives of the saddles of the map are saddles of the map. -/
def Spec.RefersInside (m : DMap) (f : Flags) : Prop := ∀ k ∈ m.saddles,
  (∀ c, parentOf m k = some c → c ∈ m.saddles) ∧ ∀ c, Node.saddle c ∈ f.alts (.saddle k) → c ∈ m.saddles

theorem Leftover.exact {E : SaddleEnv} {m m1 : DMap} {f1 : Flags} (hs : Savable E m) (h : Leftover m m1 f1) {ids : ObjIds}
    (hi : ids.Distinct) (fp : Fingerprint) : (Spec.RefersInside m1 f1 → Spec.SavedWhole E.d m1 f1 ids fp) ∧
      (¬ Spec.RefersInside m1 f1 →
        ∃ v, (m1.toL E.d f1 ids).toDict fp = .ok v ∧ LState.fromDict v.cbor fp = .error (.py .keyError)) := by
  refine ⟨fun hr => h.whole hs (fun k hk => (hr k hk).1) (fun k hk => (hr k hk).2) hi fp, fun hr => ?_⟩
  have hfe : ∀ (k : Nat) (o : SObj), m.st.objs[k]? = some o → ∃ o1 : SObj, m1.st.objs[k]? = some o1 ∧ o1.f = o.f :=
    h.left.features
  obtain ⟨v, h1, _, h2⟩ := C45_references_exact (m1.toL E.d f1 ids) hi.sum hi.sad (hs.once.sublist h.sub)
    (fun D hD a ha => by
      have hD := List.mem_range.1 hD
      change ((m1.summits[D]?.getD .blank).area E.d) = some a at ha
      rw [List.getElem?_eq_getElem hD] at ha
      exact areaAt_sound (hs.sums _ (by rw [← h.summits]; exact List.getElem_mem hD)) a ha)
    (fun k hk a ha => by
      have hk : k ∈ m.saddles ++ m.runoffs := by
        change k ∈ m1.saddles ++ m1.runoffs at hk
        rw [h.runoffs] at hk
        rcases List.mem_append.1 hk with hk | hk
        · exact List.mem_append.2 (.inl (h.sub.subset hk))
        · exact List.mem_append.2 (.inr hk)
      obtain ⟨o, h1, h2⟩ := hs.areas k hk
      obtain ⟨o1, g1, g2⟩ := hfe k o h1
      change ((m1.st.objs[k]?.getD { f := .blank }).f.area E.d) = some a at ha
      rw [g1, Option.getD_some, g2] at ha
      exact areaAt_sound h2 a ha) fp
  refine ⟨v, h1, h2 fun hk => hr fun k hk' => ⟨fun c hc => ?_, fun c hc => ?_⟩⟩
  · refine (hk.family k hk').2.1 c ?_
    change (m1.st.objs[k]?.getD { f := .blank }).parent = some c
    unfold parentOf at hc
    cases ho : m1.st.objs[k]? with
    | none => rw [ho] at hc; cases hc
    | some o => rw [ho] at hc; exact hc
  · exact (hk.family k hk').2.2 c (mem_saddleNos.2 hc)

/-- C126, families: on any map where parents and children agree and no two children of a saddle are at the same place, they agree after
any sequence of calls. -/
theorem C126_families (m : DMap) (f : Flags) (hF : FamilyOk m) (hA : SiblingsApart m) (fuel : Nat) (cs : List EditCall)
    (m1 : DMap) (f1 : Flags) (h : DMap.edits fuel (m, f) cs = .ok (m1, f1)) : FamilyOk m1 :=
  (families_edits ⟨hF, hA⟩ cs h).agree

/-- C126. Missing: rebuilt edge saddles (`C76_rebuilt_refuted`) and summits at the same place (to six digits). For all other
runs and any sequence of detections, purges, deletions, disqualifications and separations of families, what is left can
be saved. It is loaded as a whole if the parents and alternatives of what is left are left too, otherwise loading stops
with a KeyError. Parents are left if no saddle has two children at the same place, or nothing was purged. -/
theorem C126_saved_partial (E : SaddleEnv) (hE : RunOk E) (o : Pt → Oracle) (order : List Pt)
    (ho : IsScan E.d order) (rebuild : Bool) :
    ∃ D m, analyze E.d o order = .ok D ∧ DMap.runSparse E o order rebuild = .ok m ∧
      ((rebuild = false ∨ ∀ f ∈ D.saddles, f.edge = false) → SummitsApart m.summits →
        ∀ fuel, m.saddles.length + m.st.objs.length < fuel → ∀ cs : List EditCall,
          ∃ m1 f1, DMap.edits fuel (m, m.flags) cs = .ok (m1, f1) ∧ Spec.LeftOf m m1 ∧
            (SiblingsApart m ∨ (∀ c ∈ cs, c.Leaves) →
              ∀ k ∈ m1.saddles, ∀ c, parentOf m1 k = some c → c ∈ m1.saddles) ∧
            ∀ (ids : ObjIds), ids.Distinct → ∀ fp,
              (Spec.RefersInside m1 f1 → Spec.SavedWhole E.d m1 f1 ids fp) ∧
              (¬ Spec.RefersInside m1 f1 →
                ∃ v, (m1.toL E.d f1 ids).toDict fp = .ok v ∧ LState.fromDict v.cbor fp = .error (.py .keyError))) := by
  obtain ⟨D, _, m0, m, _, _, h1, _, _, _, _, _, _, h8, _⟩ := run_spec hE o order ho rebuild
  refine ⟨D, m, h1, h8, fun he hS fuel hfuel cs => ?_⟩
  have hs := run_savable hE o order ho rebuild h1 h8 he hS
  obtain ⟨m', e1, hF, hl, _⟩ := run_editable hE o order ho rebuild
  cases (e1.symm.trans h8 : Except.ok _ = Except.ok _)
  obtain ⟨m'', e2, hfam⟩ := C67_families_agree E hE o order ho rebuild
  cases (e2.symm.trans h8 : Except.ok _ = Except.ok _)
  obtain ⟨m1, f1, c1⟩ := edits_return hF hl hfuel cs
  obtain ⟨c2, _⟩ := Leftover.edits hs.base (.start hs.base) hs.base.kids cs c1
  refine ⟨m1, f1, c1, c2.left, fun hc => ?_, fun ids hi fp => c2.exact hs hi fp⟩
  refine parentsIn_edits hs.base.parentsIn cs (fun ⟨a, b, d, hp⟩ => ?_) c1
  rcases hc with hA | hc
  · exact ⟨hfam, hA⟩
  · exact (hc _ hp).elim

/-- C126 without purges. Missing: rebuilt edge saddles and summits at the same place, as for `C126_saved_partial`. Whatever
is detected, deleted, disqualified or separated, the map with all its saddles is saved and loaded as a whole. -/
theorem C126_unpurged_partial (E : SaddleEnv) (hE : RunOk E) (o : Pt → Oracle) (order : List Pt)
    (ho : IsScan E.d order) (rebuild : Bool) :
    ∃ D m, analyze E.d o order = .ok D ∧ DMap.runSparse E o order rebuild = .ok m ∧
      ((rebuild = false ∨ ∀ f ∈ D.saddles, f.edge = false) → SummitsApart m.summits →
        ∀ fuel, m.saddles.length + m.st.objs.length < fuel → ∀ cs : List EditCall, (∀ c ∈ cs, c.Leaves) →
          ∃ m1 f1, DMap.edits fuel (m, m.flags) cs = .ok (m1, f1) ∧ Spec.LeftOf m m1 ∧ m1.saddles = m.saddles ∧
            ∀ (ids : ObjIds), ids.Distinct → ∀ fp, Spec.SavedWhole E.d m1 f1 ids fp) := by
  obtain ⟨D, m, h1, h8, h⟩ := C126_saved_partial E hE o order ho rebuild
  refine ⟨D, m, h1, h8, fun he hS fuel hfuel cs hcs => ?_⟩
  have hs := run_savable hE o order ho rebuild h1 h8 he hS
  obtain ⟨m', e1, _, hl, _⟩ := run_editable hE o order ho rebuild
  cases (e1.symm.trans h8 : Except.ok _ = Except.ok _)
  obtain ⟨m1, f1, c1, c2, c3, c4⟩ := h he hS fuel hfuel cs
  obtain ⟨u1, u2⟩ := unpurged_edits hs.base (.refl hl) rfl (fun k x hx => (nomatch hx)) cs hcs c1
  refine ⟨m1, f1, c1, c2, u1, fun ids hi fp => (c4 ids hi fp).1 fun k hk => ⟨c3 (.inr hcs) k hk, fun c hc => ?_⟩⟩
  rw [u1]
  exact u2 k _ hc

/-- Saving and loading the map after calls on the result of a run without basin detection: the saddles left, and those
that are loaded. -/
def rerunEdits (rows : List (List Rat)) (cs : List EditCall) : Except LoadErr (List Nat × LState) :=
  match exFull rows false 99 with
  | .error e => .error (.py e)
  | .ok (m, _) =>
    match DMap.edits 99 (m, m.flags) cs with
    | .error e => .error (.py e)
    | .ok (m, f) =>
      match (m.toL (DataMap.ofRows rows) f exIds).toDict ⟨7, 8⟩ with
      | .error e => .error (.py e)
      | .ok v => (LState.fromDict v.cbor ⟨7, 8⟩).map fun r => (m.saddles, r.1)

/-- Instance of C126: on the crater one saddle (8) is deleted before detection, another one (11) is marked as a basin saddle
by hand. Detection finds no basin saddle any more; the marked one is purged, the deleted one is not. -/
example : (rerunEdits exCrater [.delete 8, .map .detect, .disqualify 11 true false, .map (.purge true true false),
    .emancipate 9]).toOption.map (fun r => (r.1, r.2.saddles.length, r.2.summits.map fun t => t.links.length)) =
    some ([8, 9, 10], 7, [2, 2, 1, 1]) := by decide +kernel

/-- C126 fails: after deletion of a saddle and a purge of plain basin saddles, which alone does no harm (C92), the map cannot
be loaded: another saddle still lists the deleted one, which did not list it, as an alternative. -/
theorem C126_refuted :
    (match rerunEdits exAlts [.map .detect, .delete 14, .map (.purge true true false)] with
      | .error (.py .keyError) => true
      | _ => false) = true ∧
    (exFull exAlts false 99).toOption.map (fun r => (saddleNos (r.2.alts (.saddle 13)), saddleNos (r.2.alts (.saddle 14)),
      (r.1.softDelete r.2 14).1.saddles.map fun k => saddleNos ((r.1.softDelete r.2 14).2.alts (.saddle k)))) =
    some ([15, 14, 17], [15, 14, 17], [[], [15, 14, 17], [], [17], [], [], [15]]) := by decide +kernel

/-- Instance of C126 for families: the family meets the conditions; it is followed through four calls. -/
example : FamilyOk (exFamily 1 2) ∧ SiblingsApart (exFamily 1 2) ∧
    (DMap.edits 9 (exFamily 1 2, newFlags) [.emancipate 1, .map .detect, .disqualify 1 true false,
      .map (.purge false true true)]).toOption.map (fun r => (r.1.saddles, childrenOf r.1 0, parentOf r.1 1,
        parentOf r.1 2)) = some ([0, 2], [2], none, some 0) :=
  ⟨exFamily_ok 1 2, exFamily_apart, by decide +kernel⟩

/-- C126 fails for parents too: emancipating a saddle removes its sibling at the same place from the children of their
parent, the sibling still names the parent, and once the parent is disqualified and purged the map cannot be loaded. -/
theorem C126_parent_refuted :
    (match rerunEdits [[9, 5, 8, 5, 7], [1, 4, 1, 5, 1], [7, 5, 9, 1, 9]] [.emancipate 15, .disqualify 1 true false,
        .map (.purge true true false)] with
      | .error (.py .keyError) => true
      | _ => false) = true ∧
    (match rerunEdits [[9, 5, 8, 5, 7], [1, 4, 1, 5, 1], [7, 5, 9, 1, 9]] [.disqualify 1 true false,
        .map (.purge true true false)] with
      | .ok _ => true
      | _ => false) = true := by decide +kernel

end PyProm
