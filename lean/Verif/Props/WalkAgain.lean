import Verif.Proof.WalkAgain
import Verif.Props.Run

/-
C93: walking a map that was walked before.
-/
namespace PyProm
open Spec

namespace Spec

/-- Nothing that hangs on the summits and on the saddles known before has changed: the points of the
domains, the saddles of the domains, the Linker objects and the lists of them kept by summits and
saddles, and where each saddle is. -/
structure LinksKept (m m' : DMap) : Prop where
  summits : m'.summits = m.summits
  points : ∀ k < m.summits.length, m'.domPoints k = m.domPoints k
  made : m'.st.store = m.st.store
  ofSummit : m'.st.sumLinks = m.st.sumLinks
  ofSaddle : m'.st.sadLinks = m.st.sadLinks
  ofDomain : m'.st.domSaddles = m.st.domSaddles
  places : ∀ (i : Nat) (o : SObj), m.st.objs[i]? = some o → ∃ o', m'.st.objs[i]? = some o' ∧ o'.f = o.f

end Spec

/-- After any walk every summit has a domain. -/
theorem DMap.walk_domains {E : SaddleEnv} {m m' : DMap} {sel : List Nat} {r : Option (List Nat × List Nat)}
    (h : m.walk E sel = .ok (m', r)) :
    m'.summits = m.summits ∧ ∀ k < m'.summits.length, (m'.domPoints k).isSome := by
  unfold DMap.walk at h
  obtain ⟨w, _, h⟩ := bind_ok h
  obtain ⟨⟨rr, s⟩, _, h⟩ := bind_ok h
  by_cases he : sel.isEmpty
  all_goals
    simp only [he, if_true, if_false, Bool.false_eq_true] at h
    cases h
    refine ⟨rfl, fun k hk => ?_⟩
    change (if k < m.summits.length then some (s.w.points k) else none).isSome = true
    rw [if_pos hk]; rfl

/-- C93 fails, always: a second walk, with or without a selection and after any first walk on any map,
makes no linker. If it does not raise, the map has neither linkers nor domains afterwards, whatever it
had before. -/
theorem C93_lists_refuted (E E' : SaddleEnv) (m m1 m2 : DMap) (sel sel' : List Nat)
    (r r' : Option (List Nat × List Nat)) (h1 : m.walk E sel = .ok (m1, r)) (h2 : m1.walk E' sel' = .ok (m2, r')) :
    m2.linkers = [] ∧ m2.domains = [] ∧ (m1.linkers ≠ [] → m2.linkers ≠ m1.linkers) := by
  obtain ⟨_, hl, hd, _⟩ := DMap.walk_blank (DMap.walk_domains h1).2 h2
  exact ⟨hl, hd, fun h e => h (e ▸ hl)⟩

/-- C93 (what hangs on the features only): a second walk that does not raise keeps the summits, the
points and saddles of every domain, and the linkers of every summit and of every saddle known
before. The lists `linkers` and `domains` of the map itself are lost (`C93_lists_refuted`). -/
theorem C93_links_partial (E E' : SaddleEnv) (m m1 m2 : DMap) (sel sel' : List Nat)
    (r r' : Option (List Nat × List Nat)) (h1 : m.walk E sel = .ok (m1, r)) (h2 : m1.walk E' sel' = .ok (m2, r')) :
    LinksKept m1 m2 := by
  obtain ⟨a, _, _, b, c, d, e, f, g⟩ := DMap.walk_blank (DMap.walk_domains h1).2 h2
  exact ⟨a, b, c, d, e, f, g⟩

/-- The same for a selection on a map as it comes out of discovery: after the selected saddles were
walked, the walk of the whole map finds nothing. -/
theorem C93_selected_first_refuted (E : SaddleEnv) (m m1 m2 : DMap) (sel : List Nat)
    (r r' : Option (List Nat × List Nat)) (h1 : m.walk E sel = .ok (m1, r)) (h2 : m1.walk E [] = .ok (m2, r')) :
    m2.linkers = [] ∧ m2.domains = [] ∧ LinksKept m1 m2 :=
  ⟨(C93_lists_refuted E E m m1 m2 sel [] r r' h1 h2).1, (C93_lists_refuted E E m m1 m2 sel [] r r' h1 h2).2.1,
    C93_links_partial E E m m1 m2 sel [] r r' h1 h2⟩

/-- Two summits and a saddle without flats on the ways up. -/
def exSlopes : List (List Rat) := [[1, 1, 1, 1, 1], [1, 9, 5, 8, 1], [1, 1, 1, 1, 1]]

/-- Instance for the three: walked twice, the map loses its linkers and domains; the summits keep
theirs. -/
example : ((DMap.runSparse (exRun (DataMap.ofRows exSlopes)) (fun _ => exOracle)
      (DataMap.ofRows exSlopes).cells false).toOption.bind fun m =>
    (m.walk (exRun (DataMap.ofRows exSlopes)) []).toOption.map fun r =>
      ((m.linkers, m.domains, m.st.sumLinks 0), (r.1.linkers, r.1.domains, r.1.st.sumLinks 0))) =
    some (([0, 1], [1, 0], [1]), ([], [], [1])) := by decide +kernel

/-- The same after a selection. -/
example : ((DMap.discover (DataMap.ofRows exSlopes) (exRun (DataMap.ofRows exSlopes)).fc (fun _ => exOracle)
      (DataMap.ofRows exSlopes).cells false).toOption.bind fun m =>
    (m.walk (exRun (DataMap.ofRows exSlopes)) [0]).toOption.bind fun m =>
    (m.1.walk (exRun (DataMap.ofRows exSlopes)) []).toOption.map fun r =>
      ((m.1.linkers, m.1.domains), (r.1.linkers, r.1.domains))) =
    some (([0, 1], [1, 0]), ([], [])) := by decide +kernel

/-- C93 fails otherwise too: where a way up crosses a flat, the second walk raises KeyError. -/
theorem C93_raises_refuted :
    ((DMap.runSparse (exRun (DataMap.ofRows exRows)) (fun _ => exOracle)
      (DataMap.ofRows exRows).cells false).toOption.map fun m =>
    match m.walk (exRun (DataMap.ofRows exRows)) [] with
    | .ok _ => none
    | .error e => some e) = some (some .keyError) := by decide +kernel

end PyProm
