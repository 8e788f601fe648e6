import Verif.Proof.Grid
import Verif.Spec.Components
import Verif.Model.Neighbors

namespace PyProm
open Spec

theorem P3.ext_xy {p q : P3} (h : p.xy = q.xy) (he : p.e = q.e) : p = q := by
  cases p; cases q
  simp only [P3.xy, Prod.mk.injEq] at h
  simp_all

theorem xy_inj {S : List P3} (hS : (S.map P3.xy).Nodup) {p q : P3} (hp : p ∈ S) (hq : q ∈ S)
    (h : p.xy = q.xy) : p = q :=
  List.inj_on_of_nodup_map hS hp hq h

theorem Spec.Link.mono {S T : List P3} (h : ∀ a ∈ S, a ∈ T) {a b : P3} (l : Link S a b) : Link T a b :=
  ⟨l.1, h _ l.2⟩

theorem Spec.Conn.mono {S T : List P3} (h : ∀ a ∈ S, a ∈ T) {a b : P3} (l : Conn S a b) : Conn T a b :=
  Relation.ReflTransGen.mono (fun _ _ (l : Link S _ _) => l.mono h) _ _ l

theorem Spec.Conn.mem {S : List P3} {a b : P3} (l : Conn S a b) (ha : a ∈ S) : b ∈ S := by
  induction l with
  | refl => exact ha
  | tail _ h _ => exact h.2

theorem Spec.Conn.symm {S : List P3} {a b : P3} (l : Conn S a b) (ha : a ∈ S) : Conn S b a := by
  induction l with
  | refl => exact .refl
  | tail h1 h2 ih => exact Relation.ReflTransGen.head ⟨h2.1.symm, Conn.mem h1 ha⟩ ih

structure CnInv (R0 : List P3) (seed : P3) (s : CnSt) : Prop where
  perm : (s.neighbors ++ s.points).Perm R0
  look : ∀ q e, s.lookup q = some e ↔ (⟨q.1, q.2, e⟩ : P3) ∈ s.points
  conn : ∀ n ∈ s.neighbors, Conn R0 seed n
  stk : ∀ t ∈ s.stack, t ∈ s.neighbors
  stkNodup : s.stack.Nodup

structure CnLe (s t : CnSt) : Prop where
  nb : ∀ a ∈ s.neighbors, a ∈ t.neighbors
  pts : ∀ a ∈ t.points, a ∈ s.points
  stack : ∀ a ∈ s.stack, a ∈ t.stack
  fresh : ∀ a ∈ t.neighbors, a ∈ s.neighbors ∨ a ∈ t.stack
  old : ∀ a ∈ t.stack, a ∈ s.stack ∨ a ∉ s.neighbors
  count : t.neighbors.length + s.stack.length = s.neighbors.length + t.stack.length

theorem CnLe.refl (s : CnSt) : CnLe s s :=
  ⟨fun _ h => h, fun _ h => h, fun _ h => h, fun _ h => .inl h, fun _ h => .inl h, rfl⟩

theorem CnLe.trans {s t u : CnSt} (a : CnLe s t) (b : CnLe t u) : CnLe s u where
  nb _ h := b.nb _ (a.nb _ h)
  pts _ h := a.pts _ (b.pts _ h)
  stack _ h := b.stack _ (a.stack _ h)
  fresh m h := by
    rcases b.fresh m h with h | h
    · rcases a.fresh m h with h | h
      · exact Or.inl h
      · exact Or.inr (b.stack _ h)
    · exact Or.inr h
  old m h := by
    rcases b.old m h with h | h
    · exact a.old m h
    · exact Or.inr fun c => h (a.nb _ c)
  count := by
    have := a.count
    have := b.count
    omega

variable {R0 : List P3}

theorem cnVisit_spec (hS : (R0.map P3.xy).Nodup) (hnn : ∀ p ∈ R0, 0 ≤ p.x ∧ 0 ≤ p.y)
    (seed : P3) (s : CnSt) (p : P3) (q : Pt)
    (hp : p ∈ s.neighbors) (hq : q = p.xy ∨ Adj p.xy q) (inv : CnInv R0 seed s) :
    ∃ t, cnVisit s q = .ok t ∧ CnInv R0 seed t ∧ CnLe s t ∧ ∀ r ∈ t.points, r.xy ≠ q := by
  have hnd : R0.Nodup := hS.of_map
  have hndup := (inv.perm.nodup_iff).2 hnd
  have hR : ∀ r ∈ s.points, r ∈ R0 := fun r hr => inv.perm.mem_iff.1 (by simp [hr])
  unfold cnVisit
  by_cases h1 : q.1 < 0
  · rw [if_pos h1]
    refine ⟨s, rfl, inv, CnLe.refl s, ?_⟩
    rintro r hr rfl
    have := (hnn r (hR r hr)).1
    simp only [P3.xy] at h1
    omega
  rw [if_neg h1]
  by_cases h2 : q.2 < 0
  · rw [if_pos h2]
    refine ⟨s, rfl, inv, CnLe.refl s, ?_⟩
    rintro r hr rfl
    have := (hnn r (hR r hr)).2
    simp only [P3.xy] at h2
    omega
  rw [if_neg h2]
  cases hl : s.lookup q with
  | none =>
    refine ⟨s, rfl, inv, CnLe.refl s, ?_⟩
    rintro r hr rfl
    have := (inv.look r.xy r.e).2 hr
    simp [hl] at this
  | some e =>
    have hmem := (inv.look q e).1 hl
    dsimp only
    rw [if_pos hmem]
    have hnotN : (⟨q.1, q.2, e⟩ : P3) ∉ s.neighbors := fun c =>
      (List.disjoint_of_nodup_append hndup) c hmem
    have hqp : Adj p.xy q := by
      rcases hq with rfl | h
      · exfalso
        have : p = ⟨p.xy.1, p.xy.2, e⟩ := by
          apply xy_inj hS (inv.perm.mem_iff.1 (by simp [hp])) (hR _ hmem)
          rfl
        exact hnotN (this ▸ hp)
      · exact h
    have hpn : s.points.Nodup := (List.nodup_append.1 hndup).2.1
    refine ⟨_, rfl, ⟨?_, ?_, ?_, ?_, ?_⟩, ⟨?_, ?_, ?_, ?_, ?_, ?_⟩, ?_⟩ <;> try dsimp only
    · refine List.Perm.trans ?_ inv.perm
      rw [List.append_assoc]
      refine List.Perm.append_left _ ?_
      exact (List.perm_cons_erase hmem).symm
    · intro r e'
      unfold lookupSet
      by_cases hr : r = q
      · subst hr
        simp only [if_true, reduceCtorEq, false_iff]
        intro c
        have c' := List.mem_of_mem_erase c
        have : (⟨r.1, r.2, e'⟩ : P3) = ⟨r.1, r.2, e⟩ := xy_inj hS (hR _ c') (hR _ hmem) rfl
        rw [this] at c
        exact (hpn.not_mem_erase) c
      · rw [if_neg hr, inv.look]
        rw [List.mem_erase_of_ne]
        intro c
        apply hr
        have := congrArg P3.xy c
        simp only [P3.xy] at this
        exact this
    · intro n hn
      rw [List.mem_append, List.mem_singleton] at hn
      rcases hn with hn | rfl
      · exact inv.conn n hn
      · exact (inv.conn p hp).tail ⟨hqp, hR _ hmem⟩
    · intro t ht
      rw [List.mem_append, List.mem_singleton]
      rcases List.mem_cons.1 ht with ht | ht
      · exact Or.inr ht
      · exact Or.inl (inv.stk t ht)
    · rw [List.nodup_cons]
      exact ⟨fun c => hnotN (inv.stk _ c), inv.stkNodup⟩
    · intro a ha; simp [ha]
    · exact fun a ha => List.mem_of_mem_erase ha
    · intro a ha; simp [ha]
    · intro a ha
      rw [List.mem_append, List.mem_singleton] at ha
      rcases ha with ha | rfl
      · exact Or.inl ha
      · exact Or.inr (by simp)
    · intro a ha
      rcases List.mem_cons.1 ha with rfl | ha
      · exact Or.inr hnotN
      · exact Or.inl ha
    · simp only [List.length_append, List.length_cons, List.length_nil]
      omega
    · rintro r hr hrq
      have hr' := List.mem_of_mem_erase hr
      have : r = ⟨q.1, q.2, e⟩ := xy_inj hS (hR _ hr') (hR _ hmem) hrq
      rw [this] at hr
      exact hpn.not_mem_erase hr

theorem cnFold_spec (hS : (R0.map P3.xy).Nodup) (hnn : ∀ p ∈ R0, 0 ≤ p.x ∧ 0 ≤ p.y)
    (seed p : P3) (qs : List Pt) (hqs : ∀ q ∈ qs, q = p.xy ∨ Adj p.xy q) (s : CnSt)
    (hp : p ∈ s.neighbors) (inv : CnInv R0 seed s) :
    ∃ t, qs.foldlM cnVisit s = .ok t ∧ CnInv R0 seed t ∧ CnLe s t ∧
      ∀ q ∈ qs, ∀ r ∈ t.points, r.xy ≠ q := by
  induction qs generalizing s with
  | nil => exact ⟨s, rfl, inv, CnLe.refl s, by simp⟩
  | cons q qs ih =>
    obtain ⟨t, h1, i1, l1, d1⟩ := cnVisit_spec hS hnn seed s p q hp (hqs q (by simp)) inv
    obtain ⟨u, h2, i2, l2, d2⟩ := ih (fun q hq => hqs q (by simp [hq])) t (l1.nb _ hp) i1
    refine ⟨u, ?_, i2, l1.trans l2, ?_⟩
    · rw [List.foldlM_cons, h1]
      exact h2
    · intro q' hq' r hr
      rcases List.mem_cons.1 hq' with rfl | hq'
      · exact d1 r (l2.pts _ hr)
      · exact d2 q' hq' r hr

theorem mem_cnAround (p : P3) (q : Pt) : q ∈ cnAround p ↔ q = p.xy ∨ Adj p.xy q := by
  obtain ⟨x, y⟩ := q
  simp only [cnAround, Adj, P3.xy, List.flatMap_cons, List.flatMap_nil, List.map_cons,
    List.map_nil, List.mem_append, List.mem_cons, List.not_mem_nil, or_false, Prod.mk.injEq,
    ne_eq]
  omega

theorem cnInner_spec (hS : (R0.map P3.xy).Nodup) (hnn : ∀ p ∈ R0, 0 ≤ p.x ∧ 0 ≤ p.y)
    (seed : P3) (n : Nat) (s : CnSt) (inv : CnInv R0 seed s)
    (closed : ∀ a ∈ s.neighbors, a ∉ s.stack → ∀ r ∈ s.points, ¬ Adj a.xy r.xy)
    (hf : R0.length + s.stack.length + 1 ≤ n + s.neighbors.length) :
    ∃ t, cnInner n s = .ok t ∧ CnInv R0 seed t ∧ (∀ a ∈ s.neighbors, a ∈ t.neighbors) ∧
      (∀ a ∈ t.neighbors, ∀ r ∈ t.points, ¬ Adj a.xy r.xy) := by
  induction n generalizing s with
  | zero =>
    have := inv.perm.length_eq
    rw [List.length_append] at this
    omega
  | succ n ih =>
    unfold cnInner
    cases hst : s.stack with
    | nil => exact ⟨s, rfl, inv, fun _ h => h, fun a ha => closed a ha (by simp [hst])⟩
    | cons p rest =>
      have hp : p ∈ s.neighbors := inv.stk p (by simp [hst])
      have hnd : (p :: rest).Nodup := hst ▸ inv.stkNodup
      have inv1 : CnInv R0 seed { s with stack := rest } :=
        { inv with
          stk := fun m hm => inv.stk m (by rw [hst]; exact List.mem_cons_of_mem _ hm)
          stkNodup := (List.nodup_cons.1 hnd).2 }
      obtain ⟨t, h1, i1, l1, d1⟩ := cnFold_spec hS hnn seed p (cnAround p)
        (fun q hq => (mem_cnAround p q).1 hq) _ (by exact hp) inv1
      have hcl : ∀ a ∈ t.neighbors, a ∉ t.stack → ∀ r ∈ t.points, ¬ Adj a.xy r.xy := by
        intro a ha hast r hr hadj
        rcases l1.fresh a ha with h | h
        · by_cases hap : a = p
          · subst hap
            exact d1 r.xy ((mem_cnAround _ _).2 (Or.inr hadj)) r hr rfl
          · refine closed a h ?_ r (l1.pts _ hr) hadj
            rw [hst, List.mem_cons]
            rintro (c | c)
            · exact hap c
            · exact hast (l1.stack a c)
        · exact hast h
      obtain ⟨u, h2, i2, nb2, c2⟩ := ih t i1 hcl (by
        have := l1.count
        dsimp only at this
        rw [hst] at hf
        simp only [List.length_cons] at hf
        omega)
      refine ⟨u, ?_, i2, fun a ha => nb2 _ (l1.nb _ ha), c2⟩
      dsimp only
      rw [h1]
      exact h2

/-- What the outer loop returns. -/
structure CnOut (R : List P3) (L : List (List P3)) : Prop where
  perm : L.flatten.Perm R
  nonempty : ∀ c ∈ L, c ≠ []
  conn : ∀ c ∈ L, ∀ a ∈ c, ∀ b ∈ c, Conn R a b
  sep : L.Pairwise fun c c' => ∀ a ∈ c, ∀ b ∈ c', ¬ Adj a.xy b.xy

theorem cnOuter_spec (pop : List P3 → Nat) (n : Nat) (R : List P3) (look : Pt → Option Rat)
    (hS : (R.map P3.xy).Nodup) (hnn : ∀ p ∈ R, 0 ≤ p.x ∧ 0 ≤ p.y)
    (hl : ∀ q e, look q = some e ↔ (⟨q.1, q.2, e⟩ : P3) ∈ R)
    (hn : R.length + 1 ≤ n) :
    ∃ L, cnOuter pop n R look = .ok L ∧ CnOut R L := by
  induction n generalizing R look with
  | zero => omega
  | succ n ih =>
    unfold cnOuter
    cases hg : R[pop R % R.length]? with
    | none =>
      have : R = [] := by
        rw [List.getElem?_eq_none_iff] at hg
        cases R with
        | nil => rfl
        | cons a R =>
          have := Nat.mod_lt (pop (a :: R)) (y := (a :: R).length) (by simp)
          omega
      subst this
      exact ⟨[], rfl, ⟨.refl _, by simp, by simp, .nil⟩⟩
    | some seed =>
      have hmem : seed ∈ R := List.mem_of_getElem? hg
      have hRn : R.Nodup := hS.of_map
      have inv0 : CnInv R seed
          { points := R.erase seed, lookup := lookupSet look seed.xy none, stack := [seed],
            neighbors := [seed] } := by
        refine ⟨(List.perm_cons_erase hmem).symm, ?_, ?_, by simp, by simp⟩
        · intro q e
          dsimp only
          unfold lookupSet
          by_cases hq : q = seed.xy
          · subst hq
            simp only [if_true, reduceCtorEq, false_iff]
            intro c
            have c' := List.mem_of_mem_erase c
            have : (⟨seed.xy.1, seed.xy.2, e⟩ : P3) = seed := xy_inj hS c' hmem rfl
            rw [this] at c
            exact hRn.not_mem_erase c
          · rw [if_neg hq, hl, List.mem_erase_of_ne]
            rintro rfl
            exact hq rfl
        · intro a ha
          simp only [List.mem_singleton] at ha
          subst ha
          exact .refl
      obtain ⟨t, h1, i1, nb1, c1⟩ := cnInner_spec hS hnn seed (R.length + 1) _ inv0
        (by intro a ha hst; simp only [List.mem_singleton] at ha hst; exact absurd ha hst)
        (by simp)
      have hsub : ∀ r ∈ t.points, r ∈ R := fun r hr => i1.perm.mem_iff.1 (by simp [hr])
      have hnbR : ∀ r ∈ t.neighbors, r ∈ R := fun r hr => i1.perm.mem_iff.1 (by simp [hr])
      have hseed : seed ∈ t.neighbors := nb1 seed (by simp)
      have hlen := i1.perm.length_eq
      rw [List.length_append] at hlen
      have hpos : 0 < t.neighbors.length := List.length_pos_of_mem hseed
      have hS' : (t.points.map P3.xy).Nodup := by
        have := ((i1.perm.map P3.xy).nodup_iff).2 hS
        rw [List.map_append] at this
        exact (List.nodup_append.1 this).2.1
      obtain ⟨L, h2, o⟩ := ih t.points t.lookup hS' (fun p hp => hnn p (hsub p hp)) i1.look
        (by omega)
      refine ⟨t.neighbors :: L, ?_, ⟨?_, ?_, ?_, ?_⟩⟩
      · dsimp only
        rw [h1]
        change (do let rest ← cnOuter pop n t.points t.lookup; pure (t.neighbors :: rest)) = _
        rw [h2]
        rfl
      · rw [List.flatten_cons]
        exact (o.perm.append_left _).trans i1.perm
      · intro c hc
        rcases List.mem_cons.1 hc with rfl | hc
        · exact List.ne_nil_of_mem hseed
        · exact o.nonempty c hc
      · intro c hc a ha b hb
        rcases List.mem_cons.1 hc with rfl | hc
        · exact (Conn.symm (i1.conn a ha) hmem).trans (i1.conn b hb)
        · exact (o.conn c hc a ha b hb).mono hsub
      · refine List.Pairwise.cons ?_ o.sep
        intro c' hc' a ha b hb
        exact c1 a ha b (o.perm.mem_iff.1 (List.mem_flatten.2 ⟨c', hc', hb⟩))

theorem CnOut.isComponents {R : List P3} {L : List (List P3)} (o : CnOut R L) (hR : R.Nodup) :
    IsComponents R L := by
  refine ⟨(o.perm.nodup_iff).2 hR, fun p => o.perm.mem_iff, o.nonempty, ?_⟩
  intro a ha b _
  constructor
  · rintro ⟨c, hc, h1, h2⟩
    exact o.conn c hc a h1 b h2
  · intro h
    induction h with
    | refl =>
      obtain ⟨c, hc, h⟩ := List.mem_flatten.1 (o.perm.mem_iff.2 ha)
      exact ⟨c, hc, h, h⟩
    | @tail x y h1 h2 ih =>
      obtain ⟨c, hc, hac, hxc⟩ := ih (Conn.mem h1 ha)
      obtain ⟨c', hc', hyc⟩ := List.mem_flatten.1 (o.perm.mem_iff.2 h2.2)
      by_cases he : c = c'
      · subst he
        exact ⟨c, hc, hac, hyc⟩
      · exfalso
        have hp : ∀ c ∈ L, ∀ c' ∈ L, c ≠ c' → ∀ a ∈ c, ∀ b ∈ c', ¬ Adj a.xy b.xy := by
          intro c hc c' hc' hne a ha b hb hab
          obtain ⟨i, hi, rfl⟩ := List.mem_iff_getElem.1 hc
          obtain ⟨j, hj, rfl⟩ := List.mem_iff_getElem.1 hc'
          have hs := List.pairwise_iff_getElem.1 o.sep
          rcases Nat.lt_trichotomy i j with h | h | h
          · exact hs i j hi hj h a ha b hb hab
          · subst h
            exact hne rfl
          · exact hs j i hj hi h b hb a ha hab.symm
        exact hp c hc c' hc' he x hxc y hyc h2.1

end PyProm

namespace PyProm
open Spec

theorem cnLookup_fold (l : List P3) (f : Pt → Option Rat) (q : Pt) (e : Rat)
    (hS : (l.map P3.xy).Nodup) :
    (l.foldl (fun f p => lookupSet f p.xy (some p.e)) f) q = some e ↔
      (⟨q.1, q.2, e⟩ : P3) ∈ l ∨ (q ∉ l.map P3.xy ∧ f q = some e) := by
  induction l generalizing f with
  | nil => simp
  | cons a l ih =>
    rw [List.map_cons, List.nodup_cons] at hS
    rw [List.foldl_cons, ih _ hS.2, List.mem_cons, List.map_cons, List.mem_cons]
    unfold lookupSet
    by_cases hq : q = a.xy
    · subst hq
      have h1 : (⟨a.xy.1, a.xy.2, e⟩ : P3) ∉ l := fun c =>
        hS.1 (List.mem_map.2 ⟨_, c, rfl⟩)
      have h2 : (⟨a.xy.1, a.xy.2, e⟩ : P3) = a ↔ a.e = e := by
        constructor
        · intro h; rw [← h]
        · rintro rfl; rfl
      simp [h1, hS.1, h2]
    · have h2 : ¬ (⟨q.1, q.2, e⟩ : P3) = a := by
        rintro rfl
        exact hq rfl
      simp [hq, h2]

/-- The point list holds one elevation per coordinate, all coordinates nonnegative. -/
theorem contiguousNeighbors_spec (pop : List P3 → Nat) (points : List P3)
    (hu : ∀ p ∈ points, ∀ q ∈ points, p.xy = q.xy → p = q)
    (hnn : ∀ p ∈ points, 0 ≤ p.x ∧ 0 ≤ p.y) :
    ∃ L, contiguousNeighbors pop points = .ok L ∧ IsComponents points L := by
  have hS : ((toSet points).map P3.xy).Nodup := by
    refine List.Nodup.map_on ?_ (nodup_toSet points)
    intro x hx y hy
    rw [mem_toSet] at hx hy
    exact hu x hx y hy
  obtain ⟨L, h, o⟩ := cnOuter_spec pop ((toSet points).length + 1) (toSet points)
    ((toSet points).foldl (fun f p => lookupSet f p.xy (some p.e)) (fun _ => none)) hS
    (fun p hp => hnn p ((mem_toSet _ _).1 hp))
    (fun q e => by rw [cnLookup_fold _ _ _ _ hS]; simp) (Nat.le_refl _)
  have hc := o.isComponents (nodup_toSet _)
  refine ⟨L, h, hc.nodup, ?_, o.nonempty, ?_⟩
  · intro p
    rw [o.perm.mem_iff, mem_toSet]
  · intro a ha b hb
    rw [hc.sameIff a ((mem_toSet _ _).2 ha) b ((mem_toSet _ _).2 hb)]
    exact ⟨fun h => h.mono fun x => (mem_toSet _ _).1, fun h => h.mono fun x => (mem_toSet _ _).2⟩

/-! ### touching_neighborhoods -/

theorem Spec.Touch.symm {ls : List (List P3)} {a b : Nat} (h : Touch ls a b) : Touch ls b a := by
  obtain ⟨p, hp, q, hq, h⟩ := h
  exact ⟨q, hq, p, hp, h.symm⟩

/-- Recorded pair. -/
def tnRec (m : List (Nat × List Nat)) (a b : Nat) : Prop := ∃ ts, (a, ts) ∈ m ∧ b ∈ ts

theorem ddAppend_spec (m : List (Nat × List Nat)) (k v : Nat) (hk : (m.map Prod.fst).Nodup)
    (hv : ∀ kv ∈ m, kv.2.Nodup ∧ kv.2 ≠ []) (hnew : ¬ tnRec m k v) :
    ((ddAppend m k v).map Prod.fst).Nodup ∧
    (∀ kv ∈ ddAppend m k v, kv.2.Nodup ∧ kv.2 ≠ []) ∧
    (∀ a b, tnRec (ddAppend m k v) a b ↔ tnRec m a b ∨ (a = k ∧ b = v)) := by
  unfold ddAppend
  by_cases h : m.any (fun kv => kv.1 == k) = true
  · rw [if_pos h]
    have hfst : (m.map fun kv => if kv.1 == k then (kv.1, kv.2 ++ [v]) else kv).map Prod.fst =
        m.map Prod.fst := by
      rw [List.map_map]
      apply List.map_congr_left
      intro kv _
      simp only [Function.comp]
      split <;> rfl
    refine ⟨by rw [hfst]; exact hk, ?_, ?_⟩
    · intro kv hkv
      obtain ⟨kv', h1, rfl⟩ := List.mem_map.1 hkv
      split
      · rename_i he
        have he : kv'.1 = k := by simpa using he
        refine ⟨?_, by simp⟩
        dsimp only
        rw [List.nodup_append]
        refine ⟨(hv _ h1).1, by simp, ?_⟩
        intro x hx y hy
        simp only [List.mem_singleton] at hy
        subst hy
        rintro rfl
        exact hnew ⟨kv'.2, by rw [← he]; exact h1, hx⟩
      · exact hv _ h1
    · intro a b
      obtain ⟨kv0, hm0, hk0⟩ := List.any_eq_true.1 h
      have hk0 : kv0.1 = k := by simpa using hk0
      constructor
      · rintro ⟨ts, h1, h2⟩
        obtain ⟨kv', h3, h4⟩ := List.mem_map.1 h1
        by_cases he : kv'.1 = k
        · simp only [he, beq_self_eq_true, if_true, Prod.mk.injEq] at h4
          obtain ⟨rfl, rfl⟩ := h4
          rw [List.mem_append, List.mem_singleton] at h2
          rcases h2 with h2 | h2
          · exact Or.inl ⟨kv'.2, by rw [← he]; exact h3, h2⟩
          · exact Or.inr ⟨rfl, h2⟩
        · rw [if_neg (by simpa using he)] at h4
          exact Or.inl ⟨ts, h4 ▸ h3, h2⟩
      · rintro (⟨ts, h1, h2⟩ | ⟨rfl, rfl⟩)
        · by_cases he : a = k
          · subst he
            exact ⟨ts ++ [v], List.mem_map.2 ⟨_, h1, by simp⟩, by simp [h2]⟩
          · exact ⟨ts, List.mem_map.2 ⟨_, h1, by simp [he]⟩, h2⟩
        · exact ⟨kv0.2 ++ [b], List.mem_map.2 ⟨_, hm0, by simp [hk0]⟩, by simp⟩
  · rw [if_neg h]
    have hno : ∀ kv ∈ m, kv.1 ≠ k := by
      intro kv hkv hc
      exact h (List.any_eq_true.2 ⟨kv, hkv, by simpa using hc⟩)
    refine ⟨?_, ?_, ?_⟩
    · rw [List.map_append, List.nodup_append]
      refine ⟨hk, by simp, ?_⟩
      intro x hx y hy
      obtain ⟨kv, h1, rfl⟩ := List.mem_map.1 hx
      simp only [List.map_cons, List.map_nil, List.mem_singleton] at hy
      subst hy
      exact hno kv h1
    · intro kv hkv
      rw [List.mem_append, List.mem_singleton] at hkv
      rcases hkv with hkv | rfl
      · exact hv kv hkv
      · simp
    · intro a b
      simp only [tnRec, List.mem_append, List.mem_singleton, Prod.mk.injEq]
      constructor
      · rintro ⟨ts, h1 | ⟨rfl, rfl⟩, h2⟩
        · exact Or.inl ⟨ts, h1, h2⟩
        · exact Or.inr ⟨rfl, by simpa using h2⟩
      · rintro (⟨ts, h1, h2⟩ | ⟨rfl, rfl⟩)
        · exact ⟨ts, Or.inl h1, h2⟩
        · exact ⟨[b], Or.inr ⟨rfl, rfl⟩, by simp⟩

structure TnInv (ls : List (List P3)) (us : Nat) (s : TnSt) : Prop where
  keys : (s.result.map Prod.fst).Nodup
  vals : ∀ kv ∈ s.result, kv.2.Nodup ∧ kv.2 ≠ []
  track : ∀ a b, (a, b) ∈ s.tracker ↔ tnRec s.result a b ∨ tnRec s.result b a
  sound : ∀ a b, tnRec s.result a b → a < b ∧ a ≤ us ∧ Touch ls a b
  complete : ∀ a b, a < us → a < b → Touch ls a b → tnRec s.result a b

theorem tnVisit_spec (ls : List (List P3)) (lookup : Pt → Option Nat)
    (hl : ∀ q i, lookup q = some i ↔ ∃ p ∈ ls.getD i [], p.xy = q)
    (us : Nat) (s : TnSt) (p : P3) (hp : p ∈ ls.getD us []) (d : DataMap) (n : Nbr)
    (hn : n ∈ d.iterateFull p.x p.y) (inv : TnInv ls us s) :
    TnInv ls us (tnVisit lookup us s n) ∧
      (∀ a b, tnRec s.result a b → tnRec (tnVisit lookup us s n).result a b) ∧
      ∀ b q, us < b → q ∈ ls.getD b [] → q.xy = (n.1, n.2.1) →
        tnRec (tnVisit lookup us s n).result us b := by
  obtain ⟨x, y, oe⟩ := n
  have hadj := ((mem_iterateFull _ _ _ _ _ _).1 hn).1
  have key : ∀ b q, us < b → q ∈ ls.getD b [] → q.xy = (x, y) → lookup (x, y) = some b := by
    intro b q _ hq hqx
    exact (hl _ _).2 ⟨q, hq, hqx⟩
  unfold tnVisit
  dsimp only
  cases hlk : lookup (x, y) with
  | none =>
    refine ⟨inv, fun _ _ h => h, ?_⟩
    intro b q h1 h2 h3
    have := key b q h1 h2 h3
    simp [hlk] at this
  | some them =>
    have keyt : ∀ b q, us < b → q ∈ ls.getD b [] → q.xy = (x, y) → b = them := by
      intro b q h1 h2 h3
      have := key b q h1 h2 h3
      rw [hlk] at this
      simpa using this.symm
    obtain ⟨q0, hq0, hq0x⟩ := (hl _ _).1 hlk
    have htouch : Touch ls us them := ⟨p, hp, q0, hq0, by rw [hq0x]; exact hadj⟩
    dsimp only
    by_cases h0 : them = 0
    · rw [if_pos h0]
      refine ⟨inv, fun _ _ h => h, ?_⟩
      intro b q h1 h2 h3
      have := keyt b q h1 h2 h3
      omega
    rw [if_neg h0]
    by_cases hus : us = them
    · rw [if_pos hus]
      refine ⟨inv, fun _ _ h => h, ?_⟩
      intro b q h1 h2 h3
      have := keyt b q h1 h2 h3
      omega
    rw [if_neg hus]
    by_cases htr : (us, them) ∈ s.tracker
    · rw [if_pos htr]
      refine ⟨inv, fun _ _ h => h, ?_⟩
      intro b q h1 h2 h3
      have := keyt b q h1 h2 h3
      subst this
      rcases (inv.track _ _).1 htr with h | h
      · exact h
      · have := (inv.sound _ _ h).1
        omega
    · rw [if_neg htr]
      have hlt : us < them := by
        by_contra hc
        have := inv.complete them us (by omega) (by omega) htouch.symm
        exact htr ((inv.track _ _).2 (Or.inr this))
      have hnew : ¬ tnRec s.result us them := fun c => htr ((inv.track _ _).2 (Or.inl c))
      obtain ⟨k1, k2, k3⟩ := ddAppend_spec s.result us them inv.keys inv.vals hnew
      refine ⟨⟨k1, k2, ?_, ?_, ?_⟩, ?_, ?_⟩ <;> dsimp only
      · intro a b
        rw [k3, k3, List.mem_append, inv.track]
        simp only [List.mem_cons, Prod.mk.injEq, List.not_mem_nil, or_false]
        tauto
      · intro a b h
        rw [k3] at h
        rcases h with h | ⟨rfl, rfl⟩
        · exact inv.sound a b h
        · exact ⟨hlt, Nat.le_refl _, htouch⟩
      · intro a b h1 h2 h3
        rw [k3]
        exact Or.inl (inv.complete a b h1 h2 h3)
      · intro a b h
        rw [k3]
        exact Or.inl h
      · intro b q h1 h2 h3
        rw [k3]
        exact Or.inr ⟨rfl, keyt b q h1 h2 h3⟩

theorem tnFoldN_spec (ls : List (List P3)) (lookup : Pt → Option Nat)
    (hl : ∀ q i, lookup q = some i ↔ ∃ p ∈ ls.getD i [], p.xy = q)
    (us : Nat) (p : P3) (hp : p ∈ ls.getD us []) (d : DataMap) (ns : List Nbr)
    (hns : ∀ n ∈ ns, n ∈ d.iterateFull p.x p.y) (s : TnSt) (inv : TnInv ls us s) :
    TnInv ls us (ns.foldl (tnVisit lookup us) s) ∧
      (∀ a b, tnRec s.result a b → tnRec (ns.foldl (tnVisit lookup us) s).result a b) ∧
      ∀ n ∈ ns, ∀ b q, us < b → q ∈ ls.getD b [] → q.xy = (n.1, n.2.1) →
        tnRec (ns.foldl (tnVisit lookup us) s).result us b := by
  induction ns generalizing s with
  | nil => exact ⟨inv, fun _ _ h => h, by simp⟩
  | cons n ns ih =>
    obtain ⟨i1, m1, c1⟩ := tnVisit_spec ls lookup hl us s p hp d n (hns n (by simp)) inv
    obtain ⟨i2, m2, c2⟩ := ih (fun n hn => hns n (by simp [hn])) _ i1
    refine ⟨i2, fun a b h => m2 a b (m1 a b h), ?_⟩
    intro n' hn' b q h1 h2 h3
    rcases List.mem_cons.1 hn' with rfl | hn'
    · exact m2 _ _ (c1 b q h1 h2 h3)
    · exact c2 n' hn' b q h1 h2 h3

theorem tnFoldP_spec (ls : List (List P3)) (lookup : Pt → Option Nat)
    (hl : ∀ q i, lookup q = some i ↔ ∃ p ∈ ls.getD i [], p.xy = q)
    (us : Nat) (d : DataMap) (ps : List P3) (hps : ∀ p ∈ ps, p ∈ ls.getD us []) (s : TnSt)
    (inv : TnInv ls us s) :
    TnInv ls us (ps.foldl (fun s p => (d.iterateFull p.x p.y).foldl (tnVisit lookup us) s) s) ∧
      (∀ a b, tnRec s.result a b → tnRec (ps.foldl
        (fun s p => (d.iterateFull p.x p.y).foldl (tnVisit lookup us) s) s).result a b) ∧
      ∀ p ∈ ps, ∀ b q, us < b → q ∈ ls.getD b [] → Adj p.xy q.xy →
        tnRec (ps.foldl
          (fun s p => (d.iterateFull p.x p.y).foldl (tnVisit lookup us) s) s).result us b := by
  induction ps generalizing s with
  | nil => exact ⟨inv, fun _ _ h => h, by simp⟩
  | cons p ps ih =>
    obtain ⟨i1, m1, c1⟩ := tnFoldN_spec ls lookup hl us p (hps p (by simp)) d
      (d.iterateFull p.x p.y) (fun _ h => h) s inv
    obtain ⟨i2, m2, c2⟩ := ih (fun n hn => hps n (by simp [hn])) _ i1
    refine ⟨i2, fun a b h => m2 a b (m1 a b h), ?_⟩
    intro p' hp' b q h1 h2 h3
    rcases List.mem_cons.1 hp' with rfl | hp'
    · apply m2
      by_cases hb : InB d q.xy
      · exact c1 (q.x, q.y, some (d.cell q.x q.y))
          ((mem_iterateFull _ _ _ _ _ _).2 ⟨h3, Or.inl ⟨hb, rfl⟩⟩) b q h1 h2 rfl
      · exact c1 (q.x, q.y, d.nodata)
          ((mem_iterateFull _ _ _ _ _ _).2 ⟨h3, Or.inr ⟨hb, rfl⟩⟩) b q h1 h2 rfl
    · exact c2 p' hp' b q h1 h2 h3

theorem tnLoop_spec (ls : List (List P3)) (lookup : Pt → Option Nat)
    (hl : ∀ q i, lookup q = some i ↔ ∃ p ∈ ls.getD i [], p.xy = q) (d : DataMap)
    (l2 : List (List P3)) (l1 : List (List P3)) (hls : ls = l1 ++ l2) (s : TnSt)
    (inv : TnInv ls l1.length s) :
    TnInv ls ls.length ((l2.zipIdx l1.length).foldl (fun (s : TnSt) li =>
      li.1.foldl (fun s p => (d.iterateFull p.x p.y).foldl (tnVisit lookup li.2) s) s) s) := by
  induction l2 generalizing l1 s with
  | nil =>
    simp only [List.append_nil] at hls
    subst hls
    exact inv
  | cons l l2 ih =>
    have hg : ls.getD l1.length [] = l := by simp [hls]
    obtain ⟨i1, m1, c1⟩ := tnFoldP_spec ls lookup hl l1.length d l (fun p hp => by rw [hg]; exact hp) s inv
    rw [List.zipIdx_cons, List.foldl_cons]
    have := ih (l1 ++ [l]) (by simp [hls])
      (l.foldl (fun s p => (d.iterateFull p.x p.y).foldl (tnVisit lookup l1.length) s) s) ?_
    · simpa using this
    · rw [List.length_append, List.length_singleton]
      refine { i1 with sound := ?_, complete := ?_ }
      · intro a b h
        obtain ⟨x, y, z⟩ := i1.sound a b h
        exact ⟨x, by omega, z⟩
      · intro a b h1 h2 h3
        by_cases ha : a < l1.length
        · exact i1.complete a b ha h2 h3
        · have : a = l1.length := by omega
          subst this
          obtain ⟨p, hp, q, hq, hpq⟩ := h3
          exact c1 p (by rw [hg] at hp; exact hp) b q h2 hq hpq

theorem tnLookup_inner (l : List P3) (i : Nat) (f : Pt → Option Nat) (q : Pt) :
    (l.foldl (fun f p => fun q => if q = p.xy then some i else f q) f) q =
      if q ∈ l.map P3.xy then some i else f q := by
  induction l generalizing f with
  | nil => simp
  | cons a l ih =>
    rw [List.foldl_cons, ih, List.map_cons]
    by_cases h1 : q ∈ l.map P3.xy
    · simp [h1]
    · by_cases h2 : q = a.xy <;> simp [h1, h2]

theorem tnLookup_spec (ls : List (List P3)) (hd : DisjointLists ls) (q : Pt) (i : Nat) :
    tnLookup ls q = some i ↔ ∃ p ∈ ls.getD i [], p.xy = q := by
  have gen : ∀ (l2 l1 : List (List P3)), ls = l1 ++ l2 → ∀ f : Pt → Option Nat,
      (∀ q i, f q = some i ↔ i < l1.length ∧ ∃ p ∈ ls.getD i [], p.xy = q) →
      ∀ q i, ((l2.zipIdx l1.length).foldl (fun f li =>
        li.1.foldl (fun f p => fun q => if q = p.xy then some li.2 else f q) f) f) q = some i ↔
          i < ls.length ∧ ∃ p ∈ ls.getD i [], p.xy = q := by
    intro l2
    induction l2 with
    | nil =>
      intro l1 h f hf q i
      simp only [List.append_nil] at h
      subst h
      exact hf q i
    | cons l l2 ih =>
      intro l1 h f hf
      rw [List.zipIdx_cons, List.foldl_cons]
      have hg : ls.getD l1.length [] = l := by simp [h]
      have := ih (l1 ++ [l]) (by simp [h])
        (l.foldl (fun f p => fun q => if q = p.xy then some l1.length else f q) f) ?_
      · simpa using this
      · intro q i
        rw [tnLookup_inner, List.length_append, List.length_singleton]
        by_cases hq : q ∈ l.map P3.xy
        · rw [if_pos hq]
          obtain ⟨p, hp, hpq⟩ := List.mem_map.1 hq
          constructor
          · intro h
            simp only [Option.some.injEq] at h
            subst h
            exact ⟨by omega, p, by rw [hg]; exact hp, hpq⟩
          · rintro ⟨_, p', hp', hpq'⟩
            rw [hd l1.length i p (by rw [hg]; exact hp) p' hp' (by rw [hpq, hpq'])]
        · rw [if_neg hq, hf]
          constructor
          · rintro ⟨a, b⟩
            exact ⟨by omega, b⟩
          · rintro ⟨a, p, hp, hpq⟩
            refine ⟨?_, p, hp, hpq⟩
            by_contra hc
            have : i = l1.length := by omega
            subst this
            rw [hg] at hp
            exact hq (List.mem_map.2 ⟨p, hp, hpq⟩)
  have := gen ls [] rfl (fun _ => none) (by simp) q i
  unfold tnLookup
  simp only [List.length_nil] at this
  rw [this]
  constructor
  · exact fun h => h.2
  · rintro ⟨p, hp, hpq⟩
    refine ⟨?_, p, hp, hpq⟩
    by_contra hc
    rw [List.getD_eq_getElem?_getD, List.getElem?_eq_none (by omega)] at hp
    simp at hp

theorem touchingNeighborhoods_spec (d : DataMap) (ls : List (List P3)) (hd : DisjointLists ls) :
    TnInv ls ls.length ⟨touchingNeighborhoods d ls, (ls.zipIdx.foldl (fun (s : TnSt) li =>
    li.1.foldl (fun s p => (d.iterateFull p.x p.y).foldl (tnVisit (tnLookup ls) li.2) s) s)
    (⟨[], []⟩ : TnSt)).tracker⟩ := by
  have := tnLoop_spec ls (tnLookup ls) (fun q i => tnLookup_spec ls hd q i) d ls [] rfl ⟨[], []⟩
    ⟨by simp, by simp, by simp [tnRec], by simp [tnRec], by simp⟩
  exact this

end PyProm

namespace PyProm
open Spec

theorem highestLoop_spec (ps : List P3) (h : Rat) (acc : List P3) :
    (highestLoop ps (h, acc)).2 =
      (if ∃ p ∈ ps, h < p.e then [] else acc) ++
        ps.filter (fun p => decide ((∀ q ∈ ps, q.e ≤ p.e) ∧ h ≤ p.e)) := by
  induction ps generalizing h acc with
  | nil => simp [highestLoop]
  | cons p ps ih =>
    unfold highestLoop
    by_cases h1 : p.e > h
    · have hex : ∃ q ∈ p :: ps, h < q.e := ⟨p, by simp, h1⟩
      rw [if_pos h1, ih, if_pos hex, List.nil_append]
      by_cases h2 : ∃ q ∈ ps, p.e < q.e
      · rw [if_pos h2, List.filter_cons_of_neg, List.nil_append]
        · apply List.filter_congr
          intro q hq
          obtain ⟨r, hr, hpr⟩ := h2
          simp only [List.mem_cons, forall_eq_or_imp, decide_eq_decide]
          constructor
          · rintro ⟨a, b⟩
            exact ⟨⟨b, a⟩, by grind⟩
          · rintro ⟨⟨a, b⟩, c⟩
            exact ⟨b, a⟩
        · obtain ⟨r, hr, hpr⟩ := h2
          simp only [decide_eq_true_eq, not_and]
          intro c
          have := c r (by simp [hr])
          grind
      · rw [if_neg h2, List.filter_cons_of_pos]
        · rw [List.singleton_append]
          congr 1
          apply List.filter_congr
          intro q hq
          simp only [List.mem_cons, forall_eq_or_imp, decide_eq_decide]
          constructor
          · rintro ⟨a, b⟩
            exact ⟨⟨b, a⟩, by grind⟩
          · rintro ⟨⟨a, b⟩, c⟩
            exact ⟨b, a⟩
        · simp only [decide_eq_true_eq, List.mem_cons, forall_eq_or_imp]
          refine ⟨⟨by grind, fun q hq => ?_⟩, by grind⟩
          by_contra c
          exact h2 ⟨q, hq, by grind⟩
    · rw [if_neg h1]
      by_cases h3 : p.e = h
      · rw [if_pos h3, ih]
        by_cases h2 : ∃ q ∈ ps, h < q.e
        · rw [if_pos h2, if_pos (by obtain ⟨q, a, b⟩ := h2; exact ⟨q, by simp [a], b⟩),
            List.filter_cons_of_neg, List.nil_append, List.nil_append]
          · apply List.filter_congr
            intro q hq
            simp only [List.mem_cons, forall_eq_or_imp, decide_eq_decide]
            grind
          · obtain ⟨r, hr, hpr⟩ := h2
            simp only [decide_eq_true_eq, not_and]
            intro c
            have := c r (by simp [hr])
            grind
        · rw [if_neg h2, if_neg (by rintro ⟨q, a, b⟩; rcases List.mem_cons.1 a with rfl | a <;> grind),
            List.filter_cons_of_pos, List.append_assoc, List.singleton_append]
          · congr 2
            apply List.filter_congr
            intro q hq
            simp only [List.mem_cons, forall_eq_or_imp, decide_eq_decide]
            grind
          · simp only [decide_eq_true_eq, List.mem_cons, forall_eq_or_imp]
            grind
      · rw [if_neg h3, ih]
        have h4 : p.e < h := by grind
        by_cases h2 : ∃ q ∈ ps, h < q.e
        · rw [if_pos h2, if_pos (by obtain ⟨q, a, b⟩ := h2; exact ⟨q, by simp [a], b⟩),
            List.filter_cons_of_neg, List.nil_append, List.nil_append]
          · apply List.filter_congr
            intro q hq
            simp only [List.mem_cons, forall_eq_or_imp, decide_eq_decide]
            grind
          · simp only [decide_eq_true_eq, not_and]
            grind
        · rw [if_neg h2, if_neg (by rintro ⟨q, a, b⟩; rcases List.mem_cons.1 a with rfl | a <;> grind),
            List.filter_cons_of_neg]
          · congr 1
            apply List.filter_congr
            intro q hq
            simp only [List.mem_cons, forall_eq_or_imp, decide_eq_decide]
            grind
          · simp only [decide_eq_true_eq, not_and]
            grind

/-- `highest` returns the members of maximal elevation, in order. -/
theorem highestP3_spec (ps : List P3) (hne : ps ≠ []) :
    highestP3 ps = .ok (ps.filter fun p => decide (∀ q ∈ ps, q.e ≤ p.e)) := by
  cases ps with
  | nil => exact absurd rfl hne
  | cons p ps =>
    unfold highestP3
    dsimp only
    rw [highestLoop_spec]
    simp only [ite_self, List.nil_append, Except.ok.injEq]
    apply List.filter_congr
    intro q hq
    simp only [decide_eq_decide, and_iff_left_iff_imp]
    intro h
    exact h p (by simp)

theorem exists_max (ps : List P3) (hne : ps ≠ []) : ∃ p ∈ ps, ∀ q ∈ ps, q.e ≤ p.e := by
  induction ps with
  | nil => exact absurd rfl hne
  | cons p ps ih =>
    by_cases h : ps = []
    · subst h
      exact ⟨p, by simp, by simp⟩
    · obtain ⟨m, hm, hmax⟩ := ih h
      by_cases hc : p.e ≤ m.e
      · exact ⟨m, by simp [hm], by intro q hq; rcases List.mem_cons.1 hq with rfl | hq; exacts [hc, hmax q hq]⟩
      · refine ⟨p, by simp, ?_⟩
        intro q hq
        rcases List.mem_cons.1 hq with rfl | hq
        · grind
        · have := hmax q hq
          grind

end PyProm
