import Verif.Proof.WalkSaddles
import Verif.Model.DomainMap

/-
Discovery, rebuilding and walking put together.
-/
namespace PyProm
open Spec

theorem grown_head {mp : Option (List MPt)} {high : List (List P3)} (h0 : ∀ pts, mp = some pts → pts ≠ []) :
    ∀ (n : Nat) (m : MPt) (ms : List MPt), grown mp high n = some (m :: ms) → ∃ ms', mp = some (m :: ms') := by
  intro n
  induction n with
  | zero => intro m ms h; exact ⟨ms, h⟩
  | succ n ih =>
    intro m ms h
    rw [grown, Option.map_eq_some_iff] at h
    obtain ⟨pts, h1, h2⟩ := h
    cases pts with
    | nil =>
      exfalso
      have : ∀ n, grown mp high n ≠ some [] := by
        intro n
        induction n with
        | zero => intro h; exact h0 [] h rfl
        | succ n ih =>
          intro h
          rw [grown, Option.map_eq_some_iff] at h
          obtain ⟨pts, h1, h2⟩ := h
          rw [List.append_eq_nil_iff] at h2
          rw [h2.1] at h1
          exact ih h1
      exact this n h1
    | cons a as =>
      simp only [List.cons_append, List.cons.injEq] at h2
      obtain ⟨rfl, _⟩ := h2
      exact ih a as h1

theorem region_featOk {d : DataMap} {q : Pt} {mp : Option (List MPt)} {fs : List Feature}
    {high lower str : List (List P3)} {bps : List P3} (hq : Data d q) (hm : RecordsArea d q mp)
    (t : RegionTable d q mp fs high lower str bps) : ∀ f ∈ fs, f.kind ≠ .summit → FeatOk d f := by
  have harea : ∀ c ∈ high, ∀ p ∈ c, HighRim d q p.xy := by
    obtain ⟨S, hS, hc⟩ := t.isHigh
    intro c hcm p hp
    exact ((hS p).1 ((hc.mem p).1 (List.mem_flatten.2 ⟨c, hcm, hp⟩))).1
  have hhigh : ∀ c ∈ high, c ≠ [] ∧ ∀ p ∈ c, Data d p.xy ∧ p.e = el d p.xy ∧ el d q < p.e := by
    obtain ⟨S, hS, hc⟩ := t.isHigh
    intro c hcm
    refine ⟨hc.nonempty c hcm, fun p hp => ?_⟩
    obtain ⟨h1, h2⟩ := (hS p).1 ((hc.mem p).1 (List.mem_flatten.2 ⟨c, hcm, hp⟩))
    exact ⟨h1.1.1, h2, by rw [h2]; exact h1.2⟩
  have hne : ∀ pts, mp = some pts → pts ≠ [] := by
    rintro pts rfl rfl
    rcases hm with ⟨h, _⟩ | ⟨l, h, _, h2, _⟩
    · simp at h
    · simp only [Option.some.injEq] at h
      have := List.map_eq_nil_iff.1 h.symm
      subst this
      exact absurd ((h2 q).2 .refl) (by simp)
  have hmp : ∀ m ms, mp = some (m :: ms) → m.e = none := by
    rintro m ms rfl
    rcases hm with ⟨h, _⟩ | ⟨l, h, _⟩
    · simp at h
    · simp only [Option.some.injEq] at h
      cases l with
      | nil => simp at h
      | cons a l => simp only [List.map_cons, List.cons.injEq] at h; rw [h.1]
  have hgr : ∀ n m ms, grown mp high n = some (m :: ms) → m.e = none := by
    intro n m ms h
    obtain ⟨ms', h'⟩ := grown_head hne n m ms h
    exact hmp m ms' h'
  have sad : ∀ mp' e eps, (∀ m ms, mp' = some (m :: ms) → m.e = none) → 2 ≤ high.length →
      FeatOk d (mkSaddle (d.xyToLatLon q.1 q.2) (el d q) mp' e eps high) := by
    intro mp' e eps h1 h2
    refine ⟨hhigh, h1, fun h => ?_, fun _ => h2, fun _ => rfl, by simp [mkSaddle],
      fun _ => ⟨q, hq, rfl, harea⟩⟩
    have : high = [] := h
    rw [this] at h2
    simp at h2
  intro f hf hk
  by_cases hb : OnBorder d q
  · by_cases hh : high = []
    · rw [t.borderSummit hb hh] at hf
      simp only [List.mem_cons, List.not_mem_nil, or_false] at hf
      rcases hf with rfl | rfl
      · exact absurd rfl hk
      · exact ⟨by simp [mkRunoff], hmp, fun _ => ⟨q, hq.1, rfl, rfl, rfl⟩, by simp [mkRunoff],
          by simp [mkRunoff], by simp [mkRunoff], by simp [mkRunoff]⟩
    · by_cases hl : lower.length ≤ 1
      · rw [t.borderFew hb hh hl] at hf
        split at hf
        · rename_i h2
          rw [List.mem_singleton.1 hf]
          exact sad _ _ _ hmp h2
        · simp at hf
      · obtain ⟨cs, rs, rem, h1, h3, h4, h5, h6⟩ := t.borderMany hb hh (by omega)
        rw [h6, List.mem_append] at hf
        rcases hf with hf | hf
        · have : ∃ c ∈ cs, RunoffFor d q c f ∧ ((mp = none ∧ f.hpn = high) ∨
              (mp ≠ none ∧ ∃ t ∈ high.flatten, f.hpn = [[t]])) := by
            clear h1 h4 h5 h6
            induction h3 with
            | nil => simp at hf
            | @cons c g cs' rs' hcg _ ih =>
              rcases List.mem_cons.1 hf with rfl | hf
              · exact ⟨c, by simp, hcg⟩
              · obtain ⟨c', hc', h⟩ := ih hf
                exact ⟨c', by simp [hc'], h⟩
          obtain ⟨c, _, ⟨r1, r2, r3, r4, r5, _⟩, hcase⟩ := this
          refine ⟨?_, by simp [r5], ?_, by simp [r1], by simp [r3], by simp [r1], fun _ => ⟨q, hq, r2, ?_⟩⟩
          · rw [r2]
            rcases hcase with ⟨_, e⟩ | ⟨_, x, hx, e⟩
            · rw [e]; exact hhigh
            · rw [e]
              intro c' hc'
              rw [List.mem_singleton.1 hc']
              obtain ⟨c2, hc2, hx2⟩ := List.mem_flatten.1 hx
              refine ⟨by simp, fun p hp => ?_⟩
              rw [List.mem_singleton.1 hp]
              exact (hhigh c2 hc2).2 x hx2
          · intro hnil
            rcases hcase with ⟨_, e⟩ | ⟨_, x, hx, e⟩
            · exact absurd (e.symm.trans hnil) hh
            · rw [e] at hnil; simp at hnil
          · rcases hcase with ⟨_, e⟩ | ⟨_, x, hx, e⟩
            · rw [e]; exact harea
            · rw [e]
              intro c' hc' p hp
              rw [List.mem_singleton.1 hc'] at hp
              rw [List.mem_singleton.1 hp]
              obtain ⟨c2, hc2, hx2⟩ := List.mem_flatten.1 hx
              exact harea c2 hc2 x hx2
        · split at hf
          · rename_i h2
            rw [List.mem_singleton] at hf
            rw [hf]
            split
            · exact sad _ _ _ (hgr _) h2
            · exact sad _ _ _ (hgr _) h2
          · simp at hf
  · rw [t.interior hb] at hf
    split at hf
    · rw [List.mem_singleton.1 hf] at hk
      exact absurd rfl hk
    · split at hf
      · rename_i h2
        rw [List.mem_singleton.1 hf]
        exact sad _ _ _ hmp h2
      · simp at hf

/-- Everything discovery reports, for the walk. -/
theorem analyze_walkable (d : DataMap) (o : Pt → Oracle) (order : List Pt) (ho : IsScan d order) :
    ∃ D sites, analyze d o order = .ok D ∧ SummitsAt d sites D.summits ∧
      (∀ f ∈ D.saddles, FeatOk d f ∧ f.kind = .saddle) ∧
      ∀ f ∈ D.runoffs, FeatOk d f ∧ f.kind = .runoff ∧ f.edge = true := by
  obtain ⟨D, sites, h1, h2, h3, h4, h5⟩ := C09_summit_complete d o order ho
  obtain ⟨regs, _, r2, r3⟩ := analyze_spec d o order ho
  rw [h1] at r3
  simp only [Except.ok.injEq] at r3
  have key : ∀ f ∈ regs.flatMap Region.features, f.kind ≠ .summit → FeatOk d f := by
    intro f hf hk
    obtain ⟨r, hr, hf⟩ := List.mem_flatMap.1 hf
    obtain ⟨hd, mp, high, lower, str, bps, hm, t⟩ := r2 r hr
    exact region_featOk hd hm t f hf hk
  refine ⟨D, sites, h1, ⟨h2, h3, h4, h5⟩, ?_, ?_⟩
  · intro f hf
    rw [r3] at hf
    obtain ⟨a, b⟩ := List.mem_filter.1 hf
    rw [decide_eq_true_eq] at b
    exact ⟨key f a (by rw [b]; simp), b⟩
  · intro f hf
    rw [r3] at hf
    obtain ⟨a, b⟩ := List.mem_filter.1 hf
    rw [decide_eq_true_eq] at b
    have hok := key f a (by rw [b]; simp)
    refine ⟨hok, b, ?_⟩
    by_contra he
    have := hok.inner (by simpa using he)
    rw [b] at this
    simp at this

theorem corner_featOk (d : DataMap) : ∃ cs, makeCornerRunoffs d = .ok cs ∧ cs.length = 4 ∧
    ∀ f ∈ cs, FeatOk d f ∧ f.kind = .runoff ∧ f.edge = true ∧ f.hpn = [] := by
  obtain ⟨ll, lr, ul, ur, h1, h2, _⟩ := C14_corners_partial d
  refine ⟨_, h1, rfl, ?_⟩
  have hh : ∀ f ∈ [ll, lr, ul, ur], f.hpn = [] ∧ f.multipoint = none := by
    unfold makeCornerRunoffs cornerRunoff at h1
    cases a1 : d.get d.maxX 0 <;> cases a2 : d.get d.maxX d.maxY <;> cases a3 : d.get 0 0 <;>
      cases a4 : d.get 0 d.maxY <;> rw [a1, a2, a3, a4] at h1 <;>
      dsimp only [bind, Except.bind, pure, Except.pure] at h1 <;>
      first | (simp at h1; done) | skip
    simp only [Except.ok.injEq, List.cons.injEq, and_true] at h1
    obtain ⟨rfl, rfl, rfl, rfl⟩ := h1
    simp [mkRunoff]
  have mk : ∀ f q, InB d q → f ∈ [ll, lr, ul, ur] → f.kind = .runoff → LocatedAt d q f → f.edge = true →
      FeatOk d f ∧ f.kind = .runoff ∧ f.edge = true ∧ f.hpn = [] := by
    intro f q hq hf hk hl he
    obtain ⟨a, b⟩ := hh f hf
    refine ⟨⟨by simp [a], by simp [b], fun _ => ⟨q, hq, hl⟩, by simp [hk], by simp [he], by simp [hk], by simp [a]⟩, hk, he, a⟩
  intro f hf
  simp only [List.mem_cons, List.not_mem_nil, or_false] at hf
  rcases hf with rfl | rfl | rfl | rfl
  · obtain ⟨a, b, c, _⟩ := h2 (f, ((d.maxX, 0) : Pt)) (by simp)
    exact mk f _ (by unfold InB; simp) (by simp) a b c
  · obtain ⟨a, b, c, _⟩ := h2 (f, ((d.maxX, d.maxY) : Pt)) (by simp)
    exact mk f _ (by unfold InB; simp) (by simp) a b c
  · obtain ⟨a, b, c, _⟩ := h2 (f, ((0, 0) : Pt)) (by simp)
    exact mk f _ (by unfold InB; simp) (by simp) a b c
  · obtain ⟨a, b, c, _⟩ := h2 (f, ((0, d.maxY) : Pt)) (by simp)
    exact mk f _ (by unfold InB; simp) (by simp) a b c

/-! ### Rebuilding -/

theorem rebuildTwo_spec {d : DataMap} {fc : PairSearch} (hfc : PairOk d fc) {f : Feature}
    (hf : FeatOk d f) (h2 : f.hpn.length = 2) :
    ∃ g, rebuildTwo d fc f = .ok g ∧ SynthOf f g ∧ RebuiltPlace d f g := by
  obtain ⟨a, b, hab⟩ : ∃ a b, f.hpn = [a, b] := by
    match h : f.hpn, h2 with
    | [a, b], _ => exact ⟨a, b, rfl⟩
  have hane := (hf.high a (by rw [hab]; simp)).1
  have hbne := (hf.high b (by rw [hab]; simp)).1
  obtain ⟨ma, ha⟩ := exists_highest a hane
  obtain ⟨mb, hb⟩ := exists_highest b hbne
  have hmap : f.hpn.mapM highestP3 = .ok [a.filter fun p => decide (∀ q ∈ a, q.e ≤ p.e),
      b.filter fun p => decide (∀ q ∈ b, q.e ≤ p.e)] := by
    rw [hab, List.mapM_cons, List.mapM_cons, List.mapM_nil, highestP3_spec a hane, highestP3_spec b hbne]
    rfl
  have syn : ∀ loc, SynthOf f (mkSaddle loc f.elevation none false []
      [a.filter fun p => decide (∀ q ∈ a, q.e ≤ p.e), b.filter fun p => decide (∀ q ∈ b, q.e ≤ p.e)]) := by
    intro loc
    refine ⟨rfl, rfl, rfl, rfl, ?_, ?_, rfl⟩
    · intro c hc hnil
      simp only [mkSaddle, List.mem_cons, List.not_mem_nil, or_false] at hc
      rcases hc with rfl | rfl
      · rw [hnil] at ha; simp at ha
      · rw [hnil] at hb; simp at hb
    · intro c hc p hp
      simp only [mkSaddle, List.mem_cons, List.not_mem_nil, or_false] at hc
      rw [hab]
      rcases hc with rfl | rfl
      · exact ⟨a, by simp, (List.mem_filter.1 hp).1⟩
      · exact ⟨b, by simp, (List.mem_filter.1 hp).1⟩
  unfold rebuildTwo
  rw [hmap]
  dsimp only [bind, Except.bind]
  have plain : f.multipoint.getD [] = [] →
      RebuiltPlace d f (mkSaddle (f.lat, f.lon) f.elevation none false []
      [a.filter fun p => decide (∀ q ∈ a, q.e ≤ p.e), b.filter fun p => decide (∀ q ∈ b, q.e ≤ p.e)]) :=
    fun h => .inl ⟨h, rfl, rfl⟩
  cases hm : f.multipoint with
  | none => exact ⟨_, rfl, syn _, plain (by rw [hm]; rfl)⟩
  | some ms =>
    cases ms with
    | nil => exact ⟨_, rfl, syn _, plain (by rw [hm]; rfl)⟩
    | cons m ms =>
      obtain ⟨query, hyp, dist, hk, rfl, hM⟩ := hfc
      obtain ⟨u, v, e1, e2, e3⟩ := realSearch_spec query hyp hk dist a b (by
        intro x hx y hy
        exact hM x y ((hf.high a (by rw [hab]; simp)).2 x hx).1.1
          ((hf.high b (by rw [hab]; simp)).2 y hy).1.1) hane hbne
      dsimp only
      rw [show f.hpn.getD 0 [] = a by rw [hab]; rfl, show f.hpn.getD 1 [] = b by rw [hab]; rfl, e1]
      dsimp only
      obtain ⟨m', hm', hmm, hmin⟩ := multiClosest_ok (((u.x + v.x).tdiv 2 : Int) : Rat)
        (((u.y + v.y).tdiv 2 : Int) : Rat) m ms (hf.mp m ms hm)
      rw [hm']
      refine ⟨_, rfl, syn _, .inr ⟨u, by rw [hab]; exact e2, v, by rw [hab]; exact e3, m',
        by rw [hm]; exact hmm, rfl, rfl, ?_⟩⟩
      intro m'' hm''
      rw [hm] at hm''
      have := hmin m'' hm''
      simpa only [pow_two] using this

/-- The new saddles for `f`. -/
theorem rebuildNew_spec {d : DataMap} {fc : PairSearch} (hfc : PairOk d fc) {f : Feature}
    (hf : FeatOk d f) (h2 : 2 ≤ f.hpn.length) :
    ∃ fs, (if f.hpn.length > 2 then generateChildSaddles d fc f
        else do
          let f ← rebuildTwo d fc f
          pure [f] : Except PyErr (List Feature)) = .ok fs ∧ fs.length + 1 = f.hpn.length ∧
      ∀ g ∈ fs, SynthOf f g ∧ ((∃ l r, IsChild d f l r g) ∨ RebuiltPlace d f g) := by
  by_cases h3 : f.hpn.length > 2
  · rw [if_pos h3]
    obtain ⟨query, hyp, dist, hk, rfl, hM⟩ := hfc
    obtain ⟨cs, c1, c2, c3⟩ := C61_child_location d query hyp hk dist f (by
      intro a ha b hb
      obtain ⟨ca, hca, ha⟩ := List.mem_flatten.1 ha
      obtain ⟨cb, hcb, hb⟩ := List.mem_flatten.1 hb
      exact hM a b ((hf.high ca hca).2 a ha).1.1 ((hf.high cb hcb).2 b hb).1.1) (by omega)
      (fun l hl => (hf.high l hl).1) hf.mp
    refine ⟨cs, c1, c2, ?_⟩
    intro g hg
    obtain ⟨l, r, hch, hl, hr⟩ := c3 g hg
    exact ⟨hch.synth hl hr, .inl ⟨l, r, hch⟩⟩
  · rw [if_neg h3]
    obtain ⟨g, g1, g2, g3⟩ := rebuildTwo_spec hfc hf (by omega)
    refine ⟨[g], by rw [g1]; rfl, by simp; omega, ?_⟩
    intro g' hg'
    rw [List.mem_singleton.1 hg']
    exact ⟨g2, .inr g3⟩

/-- Objects are only added, and of the old ones only those in `T` change, keeping their feature. -/
def ObjStep (T : Nat → Prop) (objs objs' : List SObj) : Prop :=
  objs.length ≤ objs'.length ∧ ∀ k o, objs[k]? = some o →
    ∃ o', objs'[k]? = some o' ∧ o'.f = o.f ∧ (¬ T k → o' = o)

theorem rebuildOne_spec {d : DataMap} {fc : PairSearch} (hfc : PairOk d fc) {objs : List SObj}
    (hobj : ∀ o ∈ objs, FeatOk d o.f) {k : Nat} {o : SObj} (ho : objs[k]? = some o)
    (h2 : 2 ≤ o.f.hpn.length) :
    ∃ objs' new, rebuildOne d fc objs k = .ok (objs', new) ∧ (∀ o ∈ objs', FeatOk d o.f) ∧
      ObjStep (· = k) objs objs' ∧ Rebuilt d o k objs' new ∧ new.Nodup ∧
      ∀ i ∈ new, i = k ∨ (objs.length ≤ i ∧ i < objs'.length) := by
  have hf := hobj o (List.mem_of_getElem? ho)
  have hk := lt_of_getElem? ho
  obtain ⟨fs, f1, f2, f3⟩ := rebuildNew_spec hfc hf h2
  unfold rebuildOne
  rw [ho]
  dsimp only
  rw [if_neg (by omega), f1]
  dsimp only [bind, Except.bind]
  obtain ⟨n1, n2, n3⟩ := alloc_ids (CSt.start objs) fs
  simp only [alloc, CSt.start] at n1 n2 n3
  by_cases he : o.f.edge = true
  · rw [if_pos he]
    have hnew : ∀ i ∈ (List.range fs.length).map (objs.length + ·), ∃ g ∈ fs,
        (objs ++ fs.map fun f => ({ f := f, parent := some k } : SObj))[i]? =
          some { f := g, parent := some k } := by
      intro i hi
      obtain ⟨a1, a2⟩ := (n3 i).1 hi
      have hlt : i - objs.length < fs.length := by omega
      refine ⟨fs[i - objs.length], List.getElem_mem hlt, ?_⟩
      rw [List.getElem?_append_right a1, List.getElem?_map, List.getElem?_eq_getElem hlt]
      rfl
    have hkn : k ∉ (List.range fs.length).map (objs.length + ·) := fun h => by
      have := ((n3 k).1 h).1; omega
    refine ⟨_, _, rfl, ?_, ⟨?_, ?_⟩, ⟨(List.range fs.length).map (objs.length + ·), ?_, n1, ?_, ?_⟩, ?_, ?_⟩
    · intro o' ho'
      obtain ⟨j, hj⟩ := List.mem_iff_getElem?.1 ho'
      rw [modObj_getElem?, Option.map_eq_map, Option.map_eq_some_iff] at hj
      obtain ⟨o2, e1, e2⟩ := hj
      have : o'.f = o2.f := by rw [← e2]; split <;> rfl
      rw [this]
      rcases List.mem_append.1 (List.mem_of_getElem? e1) with h | h
      · exact hobj _ h
      · obtain ⟨g, hg, rfl⟩ := List.mem_map.1 h
        exact (f3 g hg).1.ok hf
    · simp [modObj]
    · intro j oj hj
      obtain ⟨o', a, b, c, _⟩ := modObj_feat (objs ++ fs.map fun f => ({ f := f, parent := some k } : SObj))
        k (fun o => { o with children := o.children ++ (List.range fs.length).map (objs.length + ·), disq := some true })
        (fun _ => rfl) (prefix_getElem? (List.prefix_append _ _) hj)
      exact ⟨o', a, b, c⟩
    · rw [n2]; exact f2
    · intro i hi
      obtain ⟨g, hg, hgi⟩ := hnew i hi
      obtain ⟨o', a, b, c, _⟩ := modObj_feat _ k
        (fun o => { o with children := o.children ++ (List.range fs.length).map (objs.length + ·), disq := some true })
        (fun _ => rfl) hgi
      have := c (by rintro rfl; exact hkn hi)
      subst this
      exact ⟨_, a, (f3 g hg).1, by rw [if_pos he], rfl, rfl, (f3 g hg).2⟩
    · rw [if_pos he]
      refine ⟨rfl, ?_⟩
      rw [modObj_getElem?, prefix_getElem? (List.prefix_append _ _) ho]
      simp
    · rw [List.nodup_append]
      refine ⟨n1, by simp, ?_⟩
      intro a ha b hb
      rw [List.mem_singleton.1 hb]
      rintro rfl
      exact hkn ha
    · intro i hi
      rcases List.mem_append.1 hi with h | h
      · right
        obtain ⟨a1, a2⟩ := (n3 i).1 h
        exact ⟨a1, by simpa [modObj] using a2⟩
      · exact .inl (List.mem_singleton.1 h)
  · rw [if_neg he]
    have he' : o.f.edge = false := by simpa using he
    refine ⟨_, _, rfl, ?_, ⟨?_, ?_⟩, ⟨(List.range fs.length).map (objs.length + ·), ?_, n1, ?_, ?_⟩, n1, ?_⟩
    · intro o' ho'
      rcases List.mem_append.1 ho' with h | h
      · exact hobj _ h
      · obtain ⟨g, hg, rfl⟩ := List.mem_map.1 h
        exact (f3 g hg).1.ok hf
    · simp
    · intro j oj hj
      exact ⟨oj, prefix_getElem? (List.prefix_append _ _) hj, rfl, fun _ => rfl⟩
    · rw [n2]; exact f2
    · intro i hi
      obtain ⟨a1, a2⟩ := (n3 i).1 hi
      have hlt : i - objs.length < fs.length := by omega
      refine ⟨{ f := fs[i - objs.length] }, ?_, (f3 _ (List.getElem_mem hlt)).1, by rw [he']; rfl, rfl, rfl,
        (f3 _ (List.getElem_mem hlt)).2⟩
      rw [List.getElem?_append_right a1, List.getElem?_map, List.getElem?_eq_getElem hlt]
      rfl
    · rw [if_neg he]
      exact ⟨rfl, prefix_getElem? (List.prefix_append _ _) ho⟩
    · intro i hi
      obtain ⟨a1, a2⟩ := (n3 i).1 hi
      exact .inr ⟨a1, by simpa using a2⟩

theorem Rebuilt.step {d : DataMap} {o : SObj} {k : Nat} {objs objs' : List SObj} {new : List Nat}
    {T : Nat → Prop} (h : ObjStep T objs objs') (hk : ¬ T k) (hn : ∀ i ∈ new, ¬ T i)
    (hr : Rebuilt d o k objs new) : Rebuilt d o k objs' new := by
  obtain ⟨ids, h1, h2, h3, h4⟩ := hr
  have hsub : ∀ i ∈ ids, ¬ T i := by
    intro i hi
    apply hn
    split at h4
    · rw [h4.1]; simp [hi]
    · rw [h4.1]; exact hi
  refine ⟨ids, h1, h2, fun i hi => ?_, ?_⟩
  · obtain ⟨o', a, b⟩ := h3 i hi
    obtain ⟨o'', c, _, e⟩ := h.2 i o' a
    rw [e (hsub i hi)] at c
    exact ⟨o', c, b⟩
  · split
    · rename_i he
      rw [if_pos he] at h4
      obtain ⟨o'', c, _, e⟩ := h.2 k _ h4.2
      rw [e hk] at c
      exact ⟨h4.1, c⟩
    · rename_i he
      rw [if_neg he] at h4
      obtain ⟨o'', c, _, e⟩ := h.2 k _ h4.2
      rw [e hk] at c
      exact ⟨h4.1, c⟩

theorem rebuildSaddles_spec {d : DataMap} {fc : PairSearch} (hfc : PairOk d fc) :
    ∀ (ks : List Nat) (objs : List SObj), (∀ o ∈ objs, FeatOk d o.f) → ks.Nodup →
    (∀ k ∈ ks, ∃ o, objs[k]? = some o ∧ 2 ≤ o.f.hpn.length) →
    ∃ (objs' : List SObj) (news : List (List Nat)), rebuildSaddles d fc ks objs = .ok (objs', news.flatten) ∧
      (∀ o ∈ objs', FeatOk d o.f) ∧ ObjStep (· ∈ ks) objs objs' ∧
      List.Forall₂ (fun k new => ∃ o, objs[k]? = some o ∧ Rebuilt d o k objs' new) ks news ∧
      news.flatten.Nodup ∧
      ∀ i ∈ news.flatten, i ∈ ks ∨ (objs.length ≤ i ∧ i < objs'.length) := by
  intro ks
  induction ks with
  | nil =>
    intro objs hobj _ _
    exact ⟨objs, [], rfl, hobj, ⟨le_refl _, fun k o h => ⟨o, h, rfl, fun _ => rfl⟩⟩, .nil, by simp, by simp⟩
  | cons k ks ih =>
    intro objs hobj hn hks
    obtain ⟨hnk, hn'⟩ := List.nodup_cons.1 hn
    obtain ⟨o, ho, h2⟩ := hks k (by simp)
    obtain ⟨objs1, new, a1, a2, a3, a4, a5, a6⟩ := rebuildOne_spec hfc hobj ho h2
    have hkl : ∀ j ∈ k :: ks, j < objs.length := by
      intro j hj
      obtain ⟨_, h, _⟩ := hks j hj
      exact lt_of_getElem? h
    obtain ⟨objs', news, b1, b2, b3, b4, b5, b6⟩ := ih objs1 a2 hn' (by
      intro j hj
      obtain ⟨oj, c1, c2⟩ := hks j (by simp [hj])
      obtain ⟨o', d1, d2, _⟩ := a3.2 j oj c1
      exact ⟨o', d1, by rw [d2]; exact c2⟩)
    have hnt : ∀ i ∈ new, i ∉ ks := by
      intro i hi hc
      rcases a6 i hi with rfl | h
      · exact hnk hc
      · have := hkl i (by simp [hc]); omega
    have hlen := a3.1
    refine ⟨objs', new :: news, ?_, b2, ⟨le_trans a3.1 b3.1, ?_⟩, .cons ⟨o, ho, a4.step b3 hnk hnt⟩ ?_, ?_, ?_⟩
    · unfold rebuildSaddles
      rw [a1]
      dsimp only [bind, Except.bind]
      rw [b1]
      rfl
    · intro j oj hj
      obtain ⟨o1, c1, c2, c3⟩ := a3.2 j oj hj
      obtain ⟨o2, d1, d2, d3⟩ := b3.2 j o1 c1
      refine ⟨o2, d1, d2.trans c2, fun hT => ?_⟩
      simp only [List.mem_cons, not_or] at hT
      rw [d3 hT.2, c3 hT.1]
    · refine forall₂_imp_mem b4 ?_
      rintro j new' hj ⟨oj, e1, e2⟩
      obtain ⟨o0, c1, _⟩ := hks j (by simp [hj])
      obtain ⟨o', d1, _, d3⟩ := a3.2 j o0 c1
      have hjk : j ≠ k := by rintro rfl; exact hnk hj
      rw [d3 hjk] at d1
      have : oj = o0 := by simpa using e1.symm.trans d1
      rw [this] at e2
      exact ⟨o0, c1, e2⟩
    · rw [List.flatten_cons, List.nodup_append]
      refine ⟨a5, b5, ?_⟩
      rintro a ha b hb rfl
      rcases b6 a hb with h | h
      · exact hnt a ha h
      · rcases a6 a ha with rfl | h'
        · have := hkl a (by simp); omega
        · omega
    · intro i hi
      rw [List.flatten_cons, List.mem_append] at hi
      rcases hi with hi | hi
      · rcases a6 i hi with rfl | h
        · left; simp
        · exact .inr ⟨h.1, lt_of_lt_of_le h.2 b3.1⟩
      · rcases b6 i hi with h | h
        · left; simp [h]
        · right; omega

/-- A successful sequence of two steps succeeded in both. -/
theorem bind_ok {α β : Type} {x : Except PyErr α} {g : α → Except PyErr β} {b : β}
    (h : x >>= g = .ok b) : ∃ a, x = .ok a ∧ g a = .ok b := by
  cases x with
  | error e => cases h
  | ok a => exact ⟨a, rfl, h⟩

theorem rebuildOne_disq {d : DataMap} {fc : PairSearch} {objs objs' : List SObj} {k : Nat} {new : List Nat}
    (h : rebuildOne d fc objs k = .ok (objs', new)) (hd : ∀ o ∈ objs, o.disq ≠ some false) :
    ∀ o ∈ objs', o.disq ≠ some false := by
  unfold rebuildOne at h
  split at h
  · cases h
  · split at h
    · cases h; exact hd
    · obtain ⟨fs, _, h⟩ := bind_ok h
      dsimp only at h
      split at h
      · cases h
        intro o ho
        obtain ⟨j, hj⟩ := List.mem_iff_getElem?.1 ho
        rw [modObj_getElem?, Option.map_eq_map, Option.map_eq_some_iff] at hj
        obtain ⟨o', h1, h2⟩ := hj
        rw [← h2]
        split
        · simp
        · rcases List.mem_append.1 (List.mem_of_getElem? h1) with h | h
          · exact hd _ h
          · obtain ⟨f, _, rfl⟩ := List.mem_map.1 h
            simp
      · cases h
        intro o ho
        rcases List.mem_append.1 ho with h | h
        · exact hd _ h
        · obtain ⟨f, _, rfl⟩ := List.mem_map.1 h
          simp

theorem rebuildSaddles_disq {d : DataMap} {fc : PairSearch} : ∀ (ks : List Nat) (objs objs' : List SObj)
    (new : List Nat), rebuildSaddles d fc ks objs = .ok (objs', new) →
    (∀ o ∈ objs, o.disq ≠ some false) → ∀ o ∈ objs', o.disq ≠ some false
  | [], objs, objs', new, h, hd => by
    unfold rebuildSaddles at h; cases h; exact hd
  | k :: ks, objs, objs', new, h, hd => by
    unfold rebuildSaddles at h
    obtain ⟨⟨o1, n1⟩, h1, h⟩ := bind_ok h
    obtain ⟨⟨o2, n2⟩, h2, h⟩ := bind_ok h
    cases h
    exact rebuildSaddles_disq ks o1 _ _ h2 (rebuildOne_disq h1 hd)

/-! ### Discovery -/

/-- A domain map as discovery leaves it: nothing is linked yet. -/
structure Fresh (d : DataMap) (sites : List Pt) (m : DMap) : Prop where
  tops : SummitsAt d sites m.summits
  start : m.st = .start m.st.objs
  none : m.domPoints = fun _ => none
  ok : ∀ o ∈ m.st.objs, FeatOk d o.f
  nodup : (m.saddles ++ m.runoffs).Nodup
  sad : ∀ k ∈ m.saddles, ∃ o, m.st.objs[k]? = some o ∧ o.f.kind = .saddle
  run : ∀ k ∈ m.runoffs, ∃ o, m.st.objs[k]? = some o ∧ o.f.kind = .runoff ∧ o.f.edge = true
  disq : ∀ o ∈ m.st.objs, o.disq ≠ some false

theorem Rebuilt.kind {d : DataMap} {o : SObj} {k : Nat} {objs : List SObj} {new : List Nat}
    (h : Rebuilt d o k objs new) (hk : o.f.kind = .saddle) :
    ∀ i ∈ new, ∃ o', objs[i]? = some o' ∧ o'.f.kind = .saddle := by
  obtain ⟨ids, _, _, h3, h4⟩ := h
  intro i hi
  have hid : i ∈ ids → ∃ o', objs[i]? = some o' ∧ o'.f.kind = .saddle := by
    intro h
    obtain ⟨o', a, b, _⟩ := h3 i h
    exact ⟨o', a, b.kind⟩
  split at h4
  · rw [h4.1, List.mem_append] at hi
    rcases hi with h | h
    · exact hid h
    · rw [List.mem_singleton.1 h]
      exact ⟨_, h4.2, hk⟩
  · rw [h4.1] at hi
    exact hid hi

theorem forall₂_zipIdx {α : Type} (l : List α) :
    ∀ (n : Nat) (R : α → Nat → Prop), (∀ i a, l[i]? = some a → R a (n + i)) →
    List.Forall₂ R l ((List.range l.length).map (n + ·)) := by
  induction l with
  | nil => intro n R _; exact .nil
  | cons a l ih =>
    intro n R h
    rw [List.length_cons, List.range_succ_eq_map, List.map_cons, List.map_map]
    refine .cons (by simpa using h 0 a (by simp)) ?_
    have := ih (n + 1) R (fun i b hb => by
      have := h (i + 1) b (by simpa using hb)
      rwa [show n + 1 + i = n + (i + 1) by omega])
    convert this using 2
    funext i
    simp only [Function.comp, Nat.succ_eq_add_one]
    omega

theorem discover_spec {d : DataMap} {fc : PairSearch} (hfc : PairOk d fc) (o : Pt → Oracle)
    (order : List Pt) (ho : IsScan d order) (rebuild : Bool) :
    ∃ D corners m sites, analyze d o order = .ok D ∧ makeCornerRunoffs d = .ok corners ∧
      DMap.discover d fc o order rebuild = .ok m ∧ Fresh d sites m ∧ m.summits = D.summits ∧
      FromSaddles d rebuild D.saddles m ∧
      List.Forall₂ (fun f k => m.st.objs[k]? = some { f := f }) (D.runoffs ++ corners) m.runoffs := by
  obtain ⟨D, sites, h1, h2, h3, h4⟩ := analyze_walkable d o order ho
  obtain ⟨corners, c1, _, c3⟩ := corner_featOk d
  have hall : ∀ f ∈ D.saddles ++ (D.runoffs ++ corners), FeatOk d f := by
    intro f hf
    rcases List.mem_append.1 hf with h | h
    · exact (h3 f h).1
    · rcases List.mem_append.1 h with h | h
      · exact (h4 f h).1
      · exact (c3 f h).1
  have hrun : ∀ f ∈ D.runoffs ++ corners, f.kind = .runoff ∧ f.edge = true := by
    intro f hf
    rcases List.mem_append.1 hf with h | h
    · exact (h4 f h).2
    · exact ⟨(c3 f h).2.1, (c3 f h).2.2.1⟩
  generalize hobjs : ((D.saddles ++ (D.runoffs ++ corners)).map fun f => ({ f := f } : SObj)) = objs
  have hobj : ∀ o ∈ objs, FeatOk d o.f := by
    rw [← hobjs]
    intro o' ho'
    obtain ⟨f, hf, rfl⟩ := List.mem_map.1 ho'
    exact hall f hf
  have hdisq : ∀ o ∈ objs, o.disq ≠ some false := by
    rw [← hobjs]
    intro o' ho'
    obtain ⟨f, hf, rfl⟩ := List.mem_map.1 ho'
    simp
  have hS : ∀ (i : Nat) (f : Feature), D.saddles[i]? = some f → objs[i]? = some ({ f := f } : SObj) := by
    intro i f hf
    rw [← hobjs, List.getElem?_map, prefix_getElem? (List.prefix_append _ _) hf]
    rfl
  have hR : ∀ (i : Nat) (f : Feature), (D.runoffs ++ corners)[i]? = some f → objs[D.saddles.length + i]? = some ({ f := f } : SObj) := by
    intro i f hf
    rw [← hobjs, List.getElem?_map, List.getElem?_append_right (by omega), Nat.add_sub_cancel_left, hf]
    rfl
  have hlen : objs.length = D.saddles.length + (D.runoffs ++ corners).length := by
    rw [← hobjs]; simp only [List.length_map, List.length_append]
  have hrn : ((List.range (D.runoffs ++ corners).length).map (D.saddles.length + ·)).Nodup :=
    List.Nodup.map (fun a b h => by simpa using h) List.nodup_range
  have hrr : ∀ k ∈ (List.range (D.runoffs ++ corners).length).map (D.saddles.length + ·),
      D.saddles.length ≤ k ∧ k < objs.length ∧
        ∃ o, objs[k]? = some o ∧ o.f.kind = .runoff ∧ o.f.edge = true := by
    intro k hk
    obtain ⟨i, hi, rfl⟩ := List.mem_map.1 hk
    rw [List.mem_range] at hi
    refine ⟨by omega, by omega, _, hR i _ (List.getElem?_eq_getElem hi), ?_⟩
    exact hrun _ (List.getElem_mem hi)
  cases rebuild with
  | false =>
    refine ⟨D, corners, DMap.mk D.summits (.start objs) (fun _ => none) (List.range D.saddles.length)
      ((List.range (D.runoffs ++ corners).length).map (D.saddles.length + ·)) [] [], sites, h1, c1, ?_, ?_, ?_, ?_, ?_⟩
    · unfold DMap.discover
      rw [h1, c1]
      dsimp only [bind, Except.bind]
      rw [hobjs]
      rfl
    · refine ⟨h2, rfl, rfl, hobj, ?_, ?_, ?_, hdisq⟩
      · rw [List.nodup_append]
        refine ⟨List.nodup_range, hrn, ?_⟩
        intro a ha b hb
        have := (hrr b hb).1
        have := List.mem_range.1 ha
        omega
      · intro k hk
        have hk' := List.mem_range.1 hk
        exact ⟨_, hS k _ (List.getElem?_eq_getElem hk'), (h3 _ (List.getElem_mem hk')).2⟩
      · intro k hk
        exact (hrr k hk).2.2
    · rfl
    · unfold FromSaddles
      rw [if_neg (by simp)]
      have := forall₂_zipIdx D.saddles 0 (fun f k => objs[k]? = some { f := f })
        (fun i f hf => by simpa using hS i f hf)
      simpa [CSt.start] using this
    · exact forall₂_zipIdx (D.runoffs ++ corners) D.saddles.length (fun f k => objs[k]? = some { f := f }) hR
  | true =>
    obtain ⟨objs', news, b1, b2, b3, b4, b5, b6⟩ := rebuildSaddles_spec hfc (List.range D.saddles.length) objs hobj
      List.nodup_range (by
        intro k hk
        have hk' := List.mem_range.1 hk
        exact ⟨_, hS k _ (List.getElem?_eq_getElem hk'),
          (h3 _ (List.getElem_mem hk')).1.saddle (h3 _ (List.getElem_mem hk')).2⟩)
    refine ⟨D, corners, DMap.mk D.summits (.start objs') (fun _ => none) (news.flatten)
      ((List.range (D.runoffs ++ corners).length).map (D.saddles.length + ·)) [] [], sites, h1, c1, ?_, ?_, ?_, ?_, ?_⟩
    · unfold DMap.discover
      rw [h1, c1]
      dsimp only [bind, Except.bind]
      rw [hobjs, if_pos rfl, b1]
      rfl
    · refine ⟨h2, rfl, rfl, b2, ?_, ?_, ?_, rebuildSaddles_disq _ _ _ _ b1 hdisq⟩
      · rw [List.nodup_append]
        refine ⟨b5, hrn, ?_⟩
        intro a ha b hb
        obtain ⟨e1, e2, _⟩ := hrr b hb
        rcases b6 a ha with h | h
        · have := List.mem_range.1 h
          omega
        · omega
      · intro k hk
        obtain ⟨new, hn, hk⟩ := List.mem_flatten.1 hk
        obtain ⟨i, hi⟩ := List.mem_iff_getElem?.1 hn
        have hil : i < (List.range D.saddles.length).length := by
          rw [b4.length_eq]; exact lt_of_getElem? hi
        obtain ⟨new', e1, o, e2, e3⟩ := forall₂_getElem? b4 (List.getElem?_eq_getElem hil)
        have : new' = new := by simpa using e1.symm.trans hi
        subst this
        rw [List.getElem_range] at e2 e3
        rw [List.length_range] at hil
        rw [hS i _ (List.getElem?_eq_getElem hil)] at e2
        simp only [Option.some.injEq] at e2
        exact e3.kind (by rw [← e2]; exact (h3 _ (List.getElem_mem hil)).2) k hk
      · intro k hk
        obtain ⟨e1, _, o, e2, e3, e4⟩ := hrr k hk
        obtain ⟨o', f1, f2, _⟩ := b3.2 k o e2
        exact ⟨o', f1, by rw [f2]; exact ⟨e3, e4⟩⟩
    · rfl
    · unfold FromSaddles
      rw [if_pos rfl]
      refine ⟨news, rfl, ?_⟩
      rw [List.forall₂_iff_get] at b4 ⊢
      refine ⟨by simpa using b4.1, ?_⟩
      intro i hi1 hi2
      obtain ⟨o, e2, e3⟩ := b4.2 i (by simpa using hi1) hi2
      have hil : i < D.saddles.length := by simpa using hi1
      simp only [List.get_eq_getElem, List.getElem_range] at e2 e3
      rw [hS i _ (List.getElem?_eq_getElem hil)] at e2
      simp only [Option.some.injEq] at e2
      simp only [List.get_eq_getElem, List.getElem_zipIdx, Nat.zero_add]
      rw [e2]
      exact e3
    · refine forall₂_zipIdx (D.runoffs ++ corners) D.saddles.length (fun f k => objs'[k]? = some { f := f }) ?_
      intro i f hf
      obtain ⟨o', f1, _, f3⟩ := b3.2 _ _ (hR i f hf)
      rw [f1, f3 (by simp)]

/-! ### The walk -/

theorem RunOk.senv {E : SaddleEnv} (h : RunOk E) {sites : List Pt} {summits : List Feature}
    (ht : SummitsAt E.d sites summits) : SEnvOk { E with summits := summits } sites :=
  ⟨h.env, h.geo, ht, h.fuel, h.fc, h.find⟩

/-- The state of a domain map after the first walk. -/
structure WalkedMap (E : SaddleEnv) (sites : List Pt) (m0 m : DMap) (news : List (List Nat)) : Prop where
  summits : m.summits = m0.summits
  inv : CInv { E with summits := m0.summits } sites m.st
  step : Step (fun k => k ∈ m0.saddles ++ m0.runoffs ∨ m0.st.objs.length ≤ k) m0.st m.st
  outcomes : List.Forall₂ (fun b new => ∃ o, m0.st.objs[b]? = some o ∧ Outcome o b m.st new ∧
    ∀ k ∈ new, k = b ∨ m0.st.objs.length ≤ k) (m0.saddles ++ m0.runoffs) news
  good : ∀ k ∈ news.flatten, Good { E with summits := m0.summits } sites m.st k
  walked : m.st.walked = news.flatten
  saddles : m.saddles = (sortWalked m.st).saddles
  runoffs : m.runoffs = (sortWalked m.st).runoffs
  linkers : m.linkers = m.st.linkers
  domains : m.domains = m.st.doms
  points : ∀ k, m.domPoints k = if k < m0.summits.length then some (m.st.w.points k) else none
  apart : news.Pairwise (fun a b => ∀ k ∈ a, k ∉ b)

theorem walk_spec {E : SaddleEnv} (hE : RunOk E) {sites : List Pt} {m0 : DMap} (h0 : Fresh E.d sites m0) :
    ∃ m news, m0.walk E [] = .ok (m, none) ∧ WalkedMap E sites m0 m news := by
  obtain ⟨w, e1, e2, _⟩ := walkInit_spec hE.geo h0.tops
  have hst := h0.start
  have hinv : CInv { E with summits := m0.summits } sites
      { m0.st with w := w, walked := [], linkers := [], doms := [] } := by
    refine ⟨e2, h0.ok, ?_, ?_, ?_, ?_, ?_, ?_, ?_, ?_, ?_, h0.disq⟩ <;> rw [hst] <;> simp [CSt.start]
  obtain ⟨s', news, a1, a2, a3, a4, a5, a6, a7⟩ := walkFeatures_spec (hE.senv h0.tops) (m0.saddles ++ m0.runoffs) _
    hinv h0.nodup (by
      intro b hb
      rcases List.mem_append.1 hb with h | h
      · obtain ⟨o, ho, _⟩ := h0.sad b h
        exact lt_of_getElem? ho
      · obtain ⟨o, ho, _⟩ := h0.run b h
        exact lt_of_getElem? ho)
  refine ⟨DMap.mk m0.summits s' (fun k => if k < m0.summits.length then some (s'.w.points k) else none)
    (sortWalked s').saddles (sortWalked s').runoffs s'.linkers s'.doms, news, ?_, ⟨rfl, a2, ⟨a3.len, a3.feat, a3.sad, a3.sum, a3.store, ?_, ?_⟩, a6, a5, ?_, rfl, rfl, rfl, rfl, fun k => rfl, a7⟩⟩
  · unfold DMap.walk
    rw [h0.none]
    dsimp only
    rw [show walkInit E.d (fun _ => none) m0.summits = .ok w from e1]
    dsimp only [bind, Except.bind]
    unfold climbFromSaddles
    simp only [List.isEmpty_nil, if_true]
    rw [a1]
    rfl
  · intro k hk
    have := a3.walked k hk
    rw [hst]
    simpa [CSt.start] using this
  · rw [hst]; exact List.nil_prefix
  · exact a4

theorem run_spec {E : SaddleEnv} (hE : RunOk E) (o : Pt → Oracle) (order : List Pt) (ho : IsScan E.d order)
    (rebuild : Bool) :
    ∃ D corners m0 m sites news, analyze E.d o order = .ok D ∧ makeCornerRunoffs E.d = .ok corners ∧
      DMap.discover E.d E.fc o order rebuild = .ok m0 ∧ Fresh E.d sites m0 ∧ m0.summits = D.summits ∧
      FromSaddles E.d rebuild D.saddles m0 ∧
      List.Forall₂ (fun f k => m0.st.objs[k]? = some { f := f }) (D.runoffs ++ corners) m0.runoffs ∧
      DMap.runSparse E o order rebuild = .ok m ∧ WalkedMap E sites m0 m news := by
  obtain ⟨D, corners, m0, sites, h1, h2, h3, h4, h5, h6, h7⟩ := discover_spec hE.fc o order ho rebuild
  obtain ⟨m, news, w1, w2⟩ := walk_spec hE h4
  refine ⟨D, corners, m0, m, sites, news, h1, h2, h3, h4, h5, h6, h7, ?_, w2⟩
  unfold DMap.runSparse
  rw [h3]
  dsimp only [bind, Except.bind]
  rw [w1]
  rfl

end PyProm
