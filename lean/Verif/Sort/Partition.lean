/-
The partition of the quicksort (labels 4 to 15 of module_sort.f90).
-/
import Verif.Sort.Quicksort

namespace Verif.Sort
open Verif.Py

variable {K : Type} {c : Cmp K} {n : Int} {k : Int → K} {R : Int → Int → Prop}

theorem get_ok {ord : Int → Int} {i : Int} (h : 1 ≤ i ∧ i ≤ n) : get n ord i = .ok (ord i) := by simp only [get, if_pos h]

theorem Good.refl (g : Good c n k R) {i : Int} (h1 : 1 ≤ i) (h2 : i ≤ n) : R i i := (g.total i i h1 h2 h1 h2).elim id id

/-- What is known on the interval at label 6: the elements up to P_ are at most XX, found at IX; those from Q are at least ZZ, found at IZ. -/
structure I6 (n : Int) (k : Int → K) (R : Int → Int → Prop) (l u : Int) (a : Int → Int) (pop : List (Int × Int)) (s : St K) : Prop where
  hl : s.l = l
  hu : s.u = u
  pop : s.pop = pop
  perm : PermIn l u a s.ord
  lp : l ≤ s.p
  pq : s.p < s.q
  qu : s.q ≤ u
  x : s.x = k (s.ord s.p)
  z : s.z = k (s.ord s.q)
  xx : s.xx = k (s.ord s.ix)
  zz : s.zz = k (s.ord s.iz)
  ix : l ≤ s.ix ∧ s.ix ≤ s.p
  iz : s.q ≤ s.iz ∧ s.iz ≤ u
  left : ∀ i, l ≤ i → i ≤ s.p → R (s.ord i) (s.ord s.ix)
  right : ∀ i, s.q ≤ i → i ≤ u → R (s.ord s.iz) (s.ord i)
  mid : R (s.ord s.ix) (s.ord s.iz)

/-- At label 8, the element P_ is at least XX. -/
structure I8 (n : Int) (k : Int → K) (R : Int → Int → Prop) (l u : Int) (a : Int → Int) (pop : List (Int × Int)) (s : St K) : Prop where
  hl : s.l = l
  hu : s.u = u
  pop : s.pop = pop
  perm : PermIn l u a s.ord
  lp : l < s.p
  pq : s.p < s.q
  qu : s.q ≤ u
  x : s.x = k (s.ord s.p)
  xx : s.xx = k (s.ord s.ix)
  zz : s.zz = k (s.ord s.iz)
  ix : l ≤ s.ix ∧ s.ix < s.p
  iz : s.q ≤ s.iz ∧ s.iz ≤ u
  left : ∀ i, l ≤ i → i < s.p → R (s.ord i) (s.ord s.ix)
  right : ∀ i, s.q ≤ i → i ≤ u → R (s.ord s.iz) (s.ord i)
  mid : R (s.ord s.ix) (s.ord s.iz)
  ge : R (s.ord s.ix) (s.ord s.p)

/-- At label 10 after label 8, the element Q is at most ZZ. -/
structure I10 (n : Int) (k : Int → K) (R : Int → Int → Prop) (l u : Int) (a : Int → Int) (pop : List (Int × Int)) (s : St K) : Prop where
  hl : s.l = l
  hu : s.u = u
  pop : s.pop = pop
  perm : PermIn l u a s.ord
  lp : l < s.p
  pq : s.p < s.q
  qu : s.q < u
  x : s.x = k (s.ord s.p)
  z : s.z = k (s.ord s.q)
  xx : s.xx = k (s.ord s.ix)
  zz : s.zz = k (s.ord s.iz)
  ix : l ≤ s.ix ∧ s.ix < s.p
  iz : s.q < s.iz ∧ s.iz ≤ u
  left : ∀ i, l ≤ i → i < s.p → R (s.ord i) (s.ord s.ix)
  right : ∀ i, s.q < i → i ≤ u → R (s.ord s.iz) (s.ord i)
  mid : R (s.ord s.ix) (s.ord s.iz)
  ge : R (s.ord s.ix) (s.ord s.p)
  le : R (s.ord s.q) (s.ord s.iz)

/-- The loop RIGHT. -/
theorem right_loop (g : Good c n k R) {l u : Int} {a : Int → Int} {pop : List (Int × Int)} (hl : 1 ≤ l) (hu : u ≤ n) (ha : Valid n a) :
    ∀ (m : Nat) (s : St K), I8 n k R l u a pop s → (s.q - s.p).toNat ≤ m →
      (∃ s', Reach c n (.l8, s) (.l10, s') ∧ I10 n k R l u a pop s' ∧ s'.p = s.p ∧ s'.q < s.q) ∨
      (∃ s', Reach c n (.l8, s) (.l9, { s' with q := s'.p }) ∧ I8 n k R l u a pop s' ∧ s'.p = s.p ∧ s'.q = s'.p + 1 ∧ s'.q ≤ s.q) := by
  intro m
  induction m with
  | zero =>
    intro s h hm
    have := h.pq
    omega
  | succ m ih =>
    intro s h hm
    have hv := h.perm.valid ha hl hu
    have h1 := h.lp
    have h2 := h.pq
    have h3 := h.qu
    have h4 := h.ix
    have h5 := h.iz
    by_cases hq : s.q - 1 ≤ s.p
    · right
      refine ⟨s, .step (t := (.l9, { s with q := s.q - 1 })) ?_ (by simp) ?_, h, rfl, by omega, le_rfl⟩
      · simp only [step, if_pos hq]; rfl
      · rw [show s.q - 1 = s.p by omega]; exact .refl _
    · have hb : 1 ≤ s.q - 1 ∧ s.q - 1 ≤ n := by omega
      have hvq := hv (s.q - 1) hb.1 hb.2
      have hviz := hv s.iz (by omega) (by omega)
      by_cases hr : R (s.ord (s.q - 1)) (s.ord s.iz)
      · left
        refine ⟨{ s with q := s.q - 1, z := k (s.ord (s.q - 1)) }, .step ?_ (by simp) (.refl _), ?_, rfl, by simp⟩
        · simp only [step, if_neg hq, get_ok hb, bind, Except.bind, g.load _ hvq.1 hvq.2, h.zz, g.le_pos _ _ hvq.1 hvq.2 hviz.1 hviz.2 hr]; rfl
        · constructor <;> simp only
          · exact h.hl
          · exact h.hu
          · exact h.pop
          · exact h.perm
          · exact h1
          · omega
          · omega
          · exact h.x
          · exact h.xx
          · exact h.zz
          · exact h4
          · omega
          · exact h.left
          · exact fun i hi => h.right i (by omega)
          · exact h.mid
          · exact h.ge
          · exact hr
      · have hr' : R (s.ord s.iz) (s.ord (s.q - 1)) := (g.total _ _ hvq.1 hvq.2 hviz.1 hviz.2).resolve_left hr
        have hstep : step c n .l8 s = .ok (.l8, { s with q := s.q - 1, z := k (s.ord (s.q - 1)) }) := by
          simp only [step, if_neg hq, get_ok hb, bind, Except.bind, g.load _ hvq.1 hvq.2, h.zz, g.le_neg _ _ hvq.1 hvq.2 hviz.1 hviz.2 hr]; rfl
        have hI : I8 n k R l u a pop { s with q := s.q - 1, z := k (s.ord (s.q - 1)) } := by
          constructor <;> simp only
          · exact h.hl
          · exact h.hu
          · exact h.pop
          · exact h.perm
          · exact h1
          · omega
          · omega
          · exact h.x
          · exact h.xx
          · exact h.zz
          · exact h4
          · omega
          · exact h.left
          · intro i hi hi'
            by_cases e : i = s.q - 1
            · subst e; exact hr'
            · exact h.right i (by omega) hi'
          · exact h.mid
          · exact h.ge
        rcases ih _ hI (by simp only; omega) with ⟨s', r, i', e1, e2⟩ | ⟨s', r, i', e1, e2, e3⟩
        · exact Or.inl ⟨s', .step hstep (by simp) r, i', e1, by simp only at e2; omega⟩
        · exact Or.inr ⟨s', .step hstep (by simp) r, i', e1, e2, by simp only at e3; omega⟩

/-- DIST after RIGHT has found an element. -/
theorem dist (g : Good c n k R) {l u : Int} {a : Int → Int} {pop : List (Int × Int)} (hl : 1 ≤ l) (hu : u ≤ n) (ha : Valid n a) (s : St K)
    (h : I10 n k R l u a pop s) : ∃ s', Reach c n (.l10, s) (.l6, s') ∧ I6 n k R l u a pop s' ∧ s'.p = s.p ∧ s'.q = s.q := by
  have hv := h.perm.valid ha hl hu
  have h1 := h.lp
  have h2 := h.pq
  have h3 := h.qu
  have h4 := h.ix
  have h5 := h.iz
  have hvp := hv s.p (by omega) (by omega)
  have hvq := hv s.q (by omega) (by omega)
  have hvix := hv s.ix (by omega) (by omega)
  have hviz := hv s.iz (by omega) (by omega)
  -- after the exchange
  obtain ⟨s1, r1, p1, q1, l1, u1, ix1, iz1, pop1, x1, z1, xx1, zz1, hord, hle, hge, hxz⟩ : ∃ s1 : St K, Reach c n (.l10, s) (.l11, s1) ∧ s1.p = s.p ∧ s1.q = s.q ∧
      s1.l = s.l ∧ s1.u = s.u ∧ s1.ix = s.ix ∧ s1.iz = s.iz ∧ s1.pop = s.pop ∧
      s1.x = k (s1.ord s.p) ∧ s1.z = k (s1.ord s.q) ∧ s1.xx = s.xx ∧ s1.zz = s.zz ∧
      (s1.ord = s.ord ∨ s1.ord = s.ord ∘ Equiv.swap s.p s.q) ∧
      R (s1.ord s.p) (s.ord s.iz) ∧ R (s.ord s.ix) (s1.ord s.q) ∧ R (s1.ord s.p) (s1.ord s.q) := by
    by_cases hr : R (s.ord s.p) (s.ord s.q)
    · refine ⟨s, .step ?_ (by simp) (.refl _), rfl, rfl, rfl, rfl, rfl, rfl, rfl, h.x, h.z, rfl, rfl, Or.inl rfl, ?_, ?_, hr⟩
      · simp only [step, h.x, h.z, bind, Except.bind, g.le_pos _ _ hvp.1 hvp.2 hvq.1 hvq.2 hr]; rfl
      · exact g.trans _ _ _ hvp.1 hvp.2 hvq.1 hvq.2 hviz.1 hviz.2 hr h.le
      · exact g.trans _ _ _ hvix.1 hvix.2 hvp.1 hvp.2 hvq.1 hvq.2 h.ge hr
    · refine ⟨{ s with x := s.z, z := s.x, ord := s.ord ∘ Equiv.swap s.p s.q }, .step ?_ (by simp) (.refl _), rfl, rfl, rfl, rfl, rfl, rfl, rfl, ?_, ?_, rfl, rfl,
        Or.inr rfl, ?_, ?_, ?_⟩
      · simp only [step, h.x, h.z, bind, Except.bind, g.le_neg _ _ hvp.1 hvp.2 hvq.1 hvq.2 hr,
          exchange_eq (show 1 ≤ s.p ∧ s.p ≤ n by omega) (show 1 ≤ s.q ∧ s.q ≤ n by omega)]
        rfl
      · simp [h.z]
      · simp [h.x]
      · simpa using h.le
      · simpa using h.ge
      · simpa using (g.total _ _ hvp.1 hvp.2 hvq.1 hvq.2).resolve_left hr
  have hout : ∀ i, i ≠ s.p → i ≠ s.q → s1.ord i = s.ord i := by
    intro i hi1 hi2
    rcases hord with e | e
    · rw [e]
    · rw [e, Function.comp_apply, Equiv.swap_apply_of_ne_of_ne hi1 hi2]
  have hperm : PermIn l u a s1.ord := by
    rcases hord with e | e
    · rw [e]; exact h.perm
    · rw [e]; exact h.perm.trans (.swap _ (by omega) (by omega))
  have hv1 := hperm.valid ha hl hu
  have hv1p := hv1 s.p (by omega) (by omega)
  have hv1q := hv1 s.q (by omega) (by omega)
  have eix : s1.ord s.ix = s.ord s.ix := hout _ (by omega) (by omega)
  have eiz : s1.ord s.iz = s.ord s.iz := hout _ (by omega) (by omega)
  -- the new XX
  obtain ⟨s2, r2, e2, ord2, p2, q2, x2, z2, zz2, iz2, l2, u2, pop2, xx2, ix2, hleft, hmid, hxxz⟩ : ∃ s2 : St K, Reach c n (.l11, s1) (.l12, s2) ∧ (s2.ix = s.ix ∨ s2.ix = s.p) ∧
      s2.ord = s1.ord ∧ s2.p = s.p ∧ s2.q = s.q ∧ s2.x = s1.x ∧ s2.z = s1.z ∧ s2.zz = s1.zz ∧ s2.iz = s.iz ∧ s2.l = l ∧ s2.u = u ∧ s2.pop = pop ∧ s2.xx = k (s1.ord s2.ix) ∧
      (l ≤ s2.ix ∧ s2.ix ≤ s.p) ∧ (∀ i, l ≤ i → i ≤ s.p → R (s1.ord i) (s1.ord s2.ix)) ∧ R (s1.ord s2.ix) (s1.ord s.iz) ∧ R (s1.ord s2.ix) (s1.ord s.q) := by
    by_cases hr : R (s1.ord s.p) (s.ord s.ix)
    · refine ⟨s1, .step ?_ (by simp) (.refl _), Or.inl ix1, rfl, p1, q1, rfl, rfl, rfl, iz1, l1.trans h.hl, u1.trans h.hu, pop1.trans h.pop, ?_, by omega, ?_, ?_, ?_⟩
      · simp only [step, x1, xx1, h.xx, bind, Except.bind, g.le_pos _ _ hv1p.1 hv1p.2 hvix.1 hvix.2 hr]; rfl
      · rw [xx1, h.xx, ix1, eix]
      · intro i hi hi'
        rw [ix1, eix]
        by_cases e : i = s.p
        · rw [e]; exact hr
        · rw [hout i e (by omega)]; exact h.left i hi (by omega)
      · rw [ix1, eix, eiz]; exact h.mid
      · rw [ix1, eix]; exact hge
    · have hr' : R (s.ord s.ix) (s1.ord s.p) := (g.total _ _ hv1p.1 hv1p.2 hvix.1 hvix.2).resolve_left hr
      refine ⟨{ s1 with xx := s1.x, ix := s1.p }, .step ?_ (by simp) (.refl _), Or.inr p1, rfl, p1, q1, rfl, rfl, rfl, iz1, l1.trans h.hl, u1.trans h.hu, pop1.trans h.pop,
        ?_, by simp only; omega, ?_, ?_, ?_⟩
      · simp only [step, x1, xx1, h.xx, bind, Except.bind, g.le_neg _ _ hv1p.1 hv1p.2 hvix.1 hvix.2 hr]; rfl
      · simp only [x1, p1]
      · intro i hi hi'
        simp only [p1]
        by_cases e : i = s.p
        · rw [e]; exact g.refl hv1p.1 hv1p.2
        · rw [hout i e (by omega)]
          have hvi := hv i (by omega) (by omega)
          exact g.trans _ _ _ hvi.1 hvi.2 hvix.1 hvix.2 hv1p.1 hv1p.2 (h.left i hi (by omega)) hr'
      · simp only [p1]; rw [eiz]; exact hle
      · simp only [p1]; exact hxz
  have hv2 := hv1 s2.ix (by omega) (by omega)
  -- the new ZZ
  by_cases hr : R (s.ord s.iz) (s1.ord s.q)
  · refine ⟨s2, (r1.trans r2).trans (.step ?_ (by simp) (.refl _)), ?_, p2, q2⟩
    · simp only [step, z2, zz2, z1, zz1, h.zz, bind, Except.bind, g.ge_pos _ _ hv1q.1 hv1q.2 hviz.1 hviz.2 hr]; rfl
    · constructor
      · exact l2
      · exact u2
      · exact pop2
      · rw [ord2]; exact hperm
      · omega
      · omega
      · omega
      · rw [x2, x1, ord2, p2]
      · rw [z2, z1, ord2, q2]
      · rw [xx2, ord2]
      · rw [zz2, zz1, h.zz, ord2, iz2, eiz]
      · omega
      · omega
      · intro i hi hi'
        rw [ord2]
        exact hleft i hi (by omega)
      · intro i hi hi'
        rw [ord2, iz2, eiz]
        by_cases e : i = s.q
        · rw [e]; exact hr
        · rw [hout i (by omega) e]; exact h.right i (by omega) hi'
      · rw [ord2, iz2]; exact hmid
  · have hr' : R (s1.ord s.q) (s.ord s.iz) := (g.total _ _ hv1q.1 hv1q.2 hviz.1 hviz.2).resolve_right hr
    refine ⟨{ s2 with zz := s2.z, iz := s2.q }, (r1.trans r2).trans (.step ?_ (by simp) (.refl _)), ?_, p2, q2⟩
    · simp only [step, z2, zz2, z1, zz1, h.zz, bind, Except.bind, g.ge_neg _ _ hv1q.1 hv1q.2 hviz.1 hviz.2 hr]; rfl
    · constructor <;> simp only
      · exact l2
      · exact u2
      · exact pop2
      · rw [ord2]; exact hperm
      · omega
      · omega
      · omega
      · rw [x2, x1, ord2, p2]
      · rw [z2, z1, ord2, q2]
      · rw [xx2, ord2]
      · rw [z2, z1, ord2, q2]
      · omega
      · omega
      · intro i hi hi'
        rw [ord2]
        exact hleft i hi (by omega)
      · intro i hi hi'
        rw [ord2, q2]
        by_cases e : i = s.q
        · rw [e]; exact g.refl hv1q.1 hv1q.2
        · rw [hout i (by omega) e]
          have hvi := hv i (by omega) (by omega)
          exact g.trans _ _ _ hv1q.1 hv1q.2 hviz.1 hviz.2 hvi.1 hvi.2 hr' (h.right i (by omega) hi')
      · rw [ord2, q2]; exact hxxz

/-- DIST after RIGHT has met the element found by LEFT. -/
theorem meet (g : Good c n k R) {l u : Int} {a : Int → Int} {pop : List (Int × Int)} (hl : 1 ≤ l) (hu : u ≤ n) (ha : Valid n a) (s : St K)
    (h : I8 n k R l u a pop s) (hq : s.q = s.p + 1) : ∃ s', Reach c n (.l9, { s with q := s.p }) (.l6, s') ∧ I6 n k R l u a pop s' ∧ s'.p = s.p - 1 ∧ s'.q = s.p := by
  have hv := h.perm.valid ha hl hu
  have h1 := h.lp
  have h2 := h.pq
  have h3 := h.qu
  have h4 := h.ix
  have h5 := h.iz
  have hb : 1 ≤ s.p - 1 ∧ s.p - 1 ≤ n := by omega
  have hvp := hv s.p (by omega) (by omega)
  have hvp1 := hv (s.p - 1) hb.1 hb.2
  have hvix := hv s.ix (by omega) (by omega)
  have hviz := hv s.iz (by omega) (by omega)
  have hx : R (s.ord (s.p - 1)) (s.ord s.ix) := h.left _ (by omega) (by omega)
  have hxz : R (s.ord (s.p - 1)) (s.ord s.p) := g.trans _ _ _ hvp1.1 hvp1.2 hvix.1 hvix.2 hvp.1 hvp.2 hx h.ge
  have s9 : step c n .l9 { s with q := s.p } = .ok (.l10, { s with q := s.p, p := s.p - 1, z := s.x, x := k (s.ord (s.p - 1)) }) := by
    simp only [step, get_ok hb, bind, Except.bind, g.load _ hvp1.1 hvp1.2]; rfl
  have s10 : step c n .l10 { s with q := s.p, p := s.p - 1, z := s.x, x := k (s.ord (s.p - 1)) } =
      .ok (.l11, { s with q := s.p, p := s.p - 1, z := s.x, x := k (s.ord (s.p - 1)) }) := by
    simp only [step, h.x, bind, Except.bind, g.le_pos _ _ hvp1.1 hvp1.2 hvp.1 hvp.2 hxz]; rfl
  have s11 : step c n .l11 { s with q := s.p, p := s.p - 1, z := s.x, x := k (s.ord (s.p - 1)) } =
      .ok (.l12, { s with q := s.p, p := s.p - 1, z := s.x, x := k (s.ord (s.p - 1)) }) := by
    simp only [step, h.xx, bind, Except.bind, g.le_pos _ _ hvp1.1 hvp1.2 hvix.1 hvix.2 hx]; rfl
  by_cases hr : R (s.ord s.iz) (s.ord s.p)
  · refine ⟨{ s with q := s.p, p := s.p - 1, z := s.x, x := k (s.ord (s.p - 1)) },
      .step s9 (by simp) (.step s10 (by simp) (.step s11 (by simp) (.step ?_ (by simp) (.refl _)))), ?_, rfl, rfl⟩
    · simp only [step, h.x, h.zz, bind, Except.bind, g.ge_pos _ _ hvp.1 hvp.2 hviz.1 hviz.2 hr]; rfl
    · constructor <;> simp only
      · exact h.hl
      · exact h.hu
      · exact h.pop
      · exact h.perm
      · omega
      · omega
      · omega
      · exact h.x
      · exact h.xx
      · exact h.zz
      · omega
      · omega
      · intro i hi hi'; exact h.left i hi (by omega)
      · intro i hi hi'
        by_cases e : i = s.p
        · rw [e]; exact hr
        · exact h.right i (by omega) hi'
      · exact h.mid
  · have hr' : R (s.ord s.p) (s.ord s.iz) := (g.total _ _ hvp.1 hvp.2 hviz.1 hviz.2).resolve_right hr
    refine ⟨{ s with q := s.p, p := s.p - 1, z := s.x, x := k (s.ord (s.p - 1)), zz := s.x, iz := s.p },
      .step s9 (by simp) (.step s10 (by simp) (.step s11 (by simp) (.step ?_ (by simp) (.refl _)))), ?_, rfl, rfl⟩
    · simp only [step, h.x, h.zz, bind, Except.bind, g.ge_neg _ _ hvp.1 hvp.2 hviz.1 hviz.2 hr]; rfl
    · constructor <;> simp only
      · exact h.hl
      · exact h.hu
      · exact h.pop
      · exact h.perm
      · omega
      · omega
      · omega
      · exact h.x
      · exact h.xx
      · exact h.x
      · omega
      · omega
      · intro i hi hi'; exact h.left i hi (by omega)
      · intro i hi hi'
        by_cases e : i = s.p
        · rw [e]; exact g.refl hvp.1 hvp.2
        · have hvi := hv i (by omega) (by omega)
          exact g.trans _ _ _ hvp.1 hvp.2 hviz.1 hviz.2 hvi.1 hvi.2 hr' (h.right i (by omega) hi')
      · exact h.ge

/-- The loops of the partition end with adjacent P_ and Q. -/
theorem left_loop (g : Good c n k R) {l u : Int} {a : Int → Int} {pop : List (Int × Int)} (hl : 1 ≤ l) (hu : u ≤ n) (ha : Valid n a) :
    ∀ (m : Nat) (s : St K), I6 n k R l u a pop s → (s.q - s.p).toNat ≤ m →
      ∃ s', Reach c n (.l6, s) (.l13, s') ∧ I6 n k R l u a pop s' ∧ s'.p = s'.q - 1 := by
  intro m
  induction m with
  | zero =>
    intro s h hm
    have := h.pq
    omega
  | succ m ih =>
    intro s h hm
    have hv := h.perm.valid ha hl hu
    have h1 := h.lp
    have h2 := h.pq
    have h3 := h.qu
    have h4 := h.ix
    have h5 := h.iz
    by_cases hq : s.p + 1 ≥ s.q
    · refine ⟨s, .step (t := (.l7, { s with p := s.p + 1 })) ?_ (by simp) (.step (t := (.l13, s)) ?_ (by simp) (.refl _)), h, by omega⟩
      · simp only [step, if_pos hq]; rfl
      · simp only [step]
        rw [show s.q - 1 = s.p by omega]
    · have hb : 1 ≤ s.p + 1 ∧ s.p + 1 ≤ n := by omega
      have hvp := hv (s.p + 1) hb.1 hb.2
      have hvix := hv s.ix (by omega) (by omega)
      by_cases hr : R (s.ord s.ix) (s.ord (s.p + 1))
      · have hstep : step c n .l6 s = .ok (.l8, { s with p := s.p + 1, x := k (s.ord (s.p + 1)) }) := by
          simp only [step, if_neg hq, get_ok hb, bind, Except.bind, g.load _ hvp.1 hvp.2, h.xx, g.ge_pos _ _ hvp.1 hvp.2 hvix.1 hvix.2 hr]; rfl
        have hI : I8 n k R l u a pop { s with p := s.p + 1, x := k (s.ord (s.p + 1)) } := by
          constructor <;> simp only
          · exact h.hl
          · exact h.hu
          · exact h.pop
          · exact h.perm
          · omega
          · omega
          · exact h3
          · exact h.xx
          · exact h.zz
          · omega
          · exact h5
          · exact fun i hi hi' => h.left i hi (by omega)
          · exact h.right
          · exact h.mid
          · exact hr
        rcases right_loop g hl hu ha _ _ hI le_rfl with ⟨s', r, i', e1, e2⟩ | ⟨s', r, i', e1, e2, e3⟩
        · obtain ⟨s'', r', i'', e3, e4⟩ := dist g hl hu ha s' i'
          simp only at e1 e2
          obtain ⟨s3, r3, i3, e5⟩ := ih s'' i'' (by have := i''.pq; omega)
          exact ⟨s3, .step hstep (by simp) ((r.trans r').trans r3), i3, e5⟩
        · obtain ⟨s'', r', i'', e4, e5⟩ := meet g hl hu ha s' i' e2
          simp only at e1 e3
          obtain ⟨s3, r3, i3, e6⟩ := ih s'' i'' (by have := i''.pq; omega)
          exact ⟨s3, .step hstep (by simp) ((r.trans r').trans r3), i3, e6⟩
      · have hr' : R (s.ord (s.p + 1)) (s.ord s.ix) := (g.total _ _ hvp.1 hvp.2 hvix.1 hvix.2).resolve_right hr
        have hstep : step c n .l6 s = .ok (.l6, { s with p := s.p + 1, x := k (s.ord (s.p + 1)) }) := by
          simp only [step, if_neg hq, get_ok hb, bind, Except.bind, g.load _ hvp.1 hvp.2, h.xx, g.ge_neg _ _ hvp.1 hvp.2 hvix.1 hvix.2 hr]; rfl
        have hI : I6 n k R l u a pop { s with p := s.p + 1, x := k (s.ord (s.p + 1)) } := by
          constructor <;> simp only
          · exact h.hl
          · exact h.hu
          · exact h.pop
          · exact h.perm
          · omega
          · omega
          · exact h3
          · exact h.z
          · exact h.xx
          · exact h.zz
          · omega
          · exact h5
          · intro i hi hi'
            by_cases e : i = s.p + 1
            · rw [e]; exact hr'
            · exact h.left i hi (by omega)
          · exact h.right
          · exact h.mid
        obtain ⟨s3, r3, i3, e6⟩ := ih _ hI (by simp only; omega)
        exact ⟨s3, .step hstep (by simp) r3, i3, e6⟩

/-- What is known at label 15: the elements P_ and Q are at their place. -/
structure I15 (R : Int → Int → Prop) (l u : Int) (a : Int → Int) (pop : List (Int × Int)) (s : St K) : Prop where
  hl : s.l = l
  hu : s.u = u
  pop : s.pop = pop
  perm : PermIn l u a s.ord
  lp : l ≤ s.p
  pq : s.q = s.p + 1
  qu : s.q ≤ u
  left : ∀ i, l ≤ i → i ≤ s.p → R (s.ord i) (s.ord s.p)
  right : ∀ i, s.q ≤ i → i ≤ u → R (s.ord s.q) (s.ord i)
  mid : R (s.ord s.p) (s.ord s.q)

/-- The exchanges of OUT. -/
theorem out (g : Good c n k R) {l u : Int} {a : Int → Int} {pop : List (Int × Int)} (hl : 1 ≤ l) (hu : u ≤ n) (ha : Valid n a) (s : St K)
    (h : I6 n k R l u a pop s) (hpq : s.p = s.q - 1) : ∃ s', Reach c n (.l13, s) (.l15, s') ∧ I15 R l u a pop s' := by
  have hv := h.perm.valid ha hl hu
  have h1 := h.lp
  have h2 := h.pq
  have h3 := h.qu
  have h4 := h.ix
  have h5 := h.iz
  have hvp := hv s.p (by omega) (by omega)
  have hvq := hv s.q (by omega) (by omega)
  have hvix := hv s.ix (by omega) (by omega)
  have hviz := hv s.iz (by omega) (by omega)
  obtain ⟨o1, r1, hp1, ho1, he1, hl1⟩ : ∃ o1 : Int → Int, Reach c n (.l13, s) (.l14, { s with ord := o1 }) ∧ PermIn l s.p s.ord o1 ∧
      (∀ i, s.p < i → o1 i = s.ord i) ∧ R (o1 s.p) (s.ord s.ix) ∧ ∀ i, l ≤ i → i ≤ s.p → R (o1 i) (o1 s.p) := by
    by_cases hr : s.p ≠ s.ix ∧ ¬(R (s.ord s.p) (s.ord s.ix) ∧ R (s.ord s.ix) (s.ord s.p))
    · have hp : PermIn l s.p s.ord (s.ord ∘ Equiv.swap s.p s.ix) := .swap _ (by omega) (by omega)
      refine ⟨s.ord ∘ Equiv.swap s.p s.ix, .step ?_ (by simp) (.refl _), hp, fun i hi => hp.outside (by omega), ?_, ?_⟩
      · simp only [step, h.x, h.xx, bind, Except.bind, g.ne_pos _ _ hvp.1 hvp.2 hvix.1 hvix.2 hr.2,
          exchange_eq (show 1 ≤ s.p ∧ s.p ≤ n by omega) (show 1 ≤ s.ix ∧ s.ix ≤ n by omega)]
        rw [if_neg (by simp [hr.1])]
        rfl
      · simpa using g.refl hvix.1 hvix.2
      · intro i hi hi'
        obtain ⟨j, hj1, hj2, hj3⟩ := hp.inside (i := i) ⟨hi, hi'⟩
        rw [hj3]
        simpa using h.left j hj1 hj2
    · have hb : R (s.ord s.ix) (s.ord s.p) := by
        by_cases e : s.p = s.ix
        · rw [← e]; exact g.refl hvp.1 hvp.2
        · by_contra hcon
          exact hr ⟨e, fun hh => hcon hh.2⟩
      have hf := h.left s.p h1 le_rfl
      refine ⟨s.ord, .step ?_ (by simp) (.refl _), .refl _ _ _, fun _ _ => rfl, hf, ?_⟩
      · change step c n .l13 s = .ok (.l14, s)
        simp only [step, h.x, h.xx, bind, Except.bind, g.ne_neg _ _ hvp.1 hvp.2 hvix.1 hvix.2 hf hb]
        rw [if_pos (by simp)]
        rfl
      · intro i hi hi'
        have hvi := hv i (by omega) (by omega)
        exact g.trans _ _ _ hvi.1 hvi.2 hvix.1 hvix.2 hvp.1 hvp.2 (h.left i hi hi') hb
  have hz : s.z = k (o1 s.q) := by rw [ho1 _ h2, h.z]
  have hzz : s.zz = k (o1 s.iz) := by rw [ho1 _ (by omega), h.zz]
  have eq : o1 s.q = s.ord s.q := ho1 _ h2
  have eiz : o1 s.iz = s.ord s.iz := ho1 _ (by omega)
  have hright : ∀ i, s.q ≤ i → i ≤ u → R (o1 s.iz) (o1 i) := by
    intro i hi hi'
    rw [eiz, ho1 i (by omega)]
    exact h.right i hi hi'
  have hv1 := (h.perm.trans (hp1.mono le_rfl (by omega))).valid ha hl hu
  have hv1p := hv1 s.p (by omega) (by omega)
  obtain ⟨o2, r2, hp2, ho2, he2, hl2⟩ : ∃ o2 : Int → Int, Reach c n (.l14, { s with ord := o1 }) (.l15, { s with ord := o2 }) ∧ PermIn s.q u o1 o2 ∧
      (∀ i, i < s.q → o2 i = o1 i) ∧ R (s.ord s.iz) (o2 s.q) ∧ ∀ i, s.q ≤ i → i ≤ u → R (o2 s.q) (o2 i) := by
    by_cases hr : s.q ≠ s.iz ∧ ¬(R (o1 s.q) (o1 s.iz) ∧ R (o1 s.iz) (o1 s.q))
    · have hp : PermIn s.q u o1 (o1 ∘ Equiv.swap s.q s.iz) := .swap _ (by omega) (by omega)
      refine ⟨o1 ∘ Equiv.swap s.q s.iz, .step ?_ (by simp) (.refl _), hp, fun i hi => hp.outside (by omega), ?_, ?_⟩
      · simp only [step, hz, hzz, bind, Except.bind, eq, eiz,
          g.ne_pos _ _ hvq.1 hvq.2 hviz.1 hviz.2 (by rw [← eq, ← eiz]; exact hr.2),
          exchange_eq (show 1 ≤ s.q ∧ s.q ≤ n by omega) (show 1 ≤ s.iz ∧ s.iz ≤ n by omega)]
        rw [if_neg (by simp [hr.1])]
        rfl
      · simpa [eiz] using g.refl hviz.1 hviz.2
      · intro i hi hi'
        obtain ⟨j, hj1, hj2, hj3⟩ := hp.inside (i := i) ⟨hi, hi'⟩
        rw [hj3]
        simpa using hright j hj1 hj2
    · have hb : R (s.ord s.q) (s.ord s.iz) := by
        by_cases e : s.q = s.iz
        · rw [← e]; exact g.refl hvq.1 hvq.2
        · by_contra hcon
          rw [eq, eiz] at hr
          exact hr ⟨e, fun hh => hcon hh.1⟩
      have hf := h.right s.q le_rfl h3
      refine ⟨o1, .step ?_ (by simp) (.refl _), .refl _ _ _, fun _ _ => rfl, by rw [eq]; exact hf, ?_⟩
      · simp only [step, hz, hzz, bind, Except.bind, eq, eiz, g.ne_neg _ _ hvq.1 hvq.2 hviz.1 hviz.2 hb hf]
        rw [if_pos (by simp)]
        rfl
      · intro i hi hi'
        rw [eq, ho1 i (by omega)]
        have hvi := hv i (by omega) (by omega)
        exact g.trans _ _ _ hvq.1 hvq.2 hviz.1 hviz.2 hvi.1 hvi.2 hb (h.right i hi hi')
  have hperm : PermIn l u a o2 := (h.perm.trans (hp1.mono le_rfl (by omega))).trans (hp2.mono (by omega) le_rfl)
  have hv2 := hperm.valid ha hl hu
  have hv2q := hv2 s.q (by omega) (by omega)
  refine ⟨{ s with ord := o2 }, r1.trans r2, ?_⟩
  constructor <;> simp only
  · exact h.hl
  · exact h.hu
  · exact h.pop
  · exact hperm
  · exact h1
  · omega
  · exact h3
  · intro i hi hi'
    rw [ho2 i (by omega), ho2 s.p (by omega)]
    exact hl1 i hi hi'
  · exact hl2
  · rw [ho2 s.p (by omega)]
    exact g.trans _ _ _ hv1p.1 hv1p.2 hviz.1 hviz.2 hv2q.1 hv2q.2
      (g.trans _ _ _ hv1p.1 hv1p.2 hvix.1 hvix.2 hviz.1 hviz.2 he1 h.mid) he2

/-- The partition, from label 4 to label 15. -/
theorem partition (g : Good c n k R) (s : St K) (hl : 1 ≤ s.l) (hu : s.u ≤ n) (hlu : s.l < s.u) (ha : Valid n s.ord) :
    ∃ s', Reach c n (.l4, s) (.l15, s') ∧ I15 R s.l s.u s.ord s.pop s' := by
  have hbl : 1 ≤ s.l ∧ s.l ≤ n := by omega
  have hbu : 1 ≤ s.u ∧ s.u ≤ n := by omega
  have hvl := ha s.l hbl.1 hbl.2
  have hvu := ha s.u hbu.1 hbu.2
  obtain ⟨s1, r1, l1, u1, pop1, p1, q1, perm1, x1, z1, hxz⟩ : ∃ s1 : St K, Reach c n (.l4, s) (.l5, s1) ∧ s1.l = s.l ∧ s1.u = s.u ∧ s1.pop = s.pop ∧ s1.p = s.l ∧ s1.q = s.u ∧
      PermIn s.l s.u s.ord s1.ord ∧ s1.x = k (s1.ord s.l) ∧ s1.z = k (s1.ord s.u) ∧ R (s1.ord s.l) (s1.ord s.u) := by
    by_cases hr : R (s.ord s.l) (s.ord s.u)
    · refine ⟨{ s with p := s.l, q := s.u, x := k (s.ord s.l), z := k (s.ord s.u) }, .step ?_ (by simp) (.refl _), rfl, rfl, rfl, rfl, rfl, .refl _ _ _, rfl, rfl, hr⟩
      simp only [step, get_ok hbl, get_ok hbu, bind, Except.bind, g.load _ hvl.1 hvl.2, g.load _ hvu.1 hvu.2, g.le_pos _ _ hvl.1 hvl.2 hvu.1 hvu.2 hr]; rfl
    · refine ⟨{ s with p := s.l, q := s.u, x := k (s.ord s.u), z := k (s.ord s.l), ord := s.ord ∘ Equiv.swap s.l s.u }, .step ?_ (by simp) (.refl _), rfl, rfl, rfl, rfl, rfl,
        .swap _ (by omega) (by omega), ?_, ?_, ?_⟩
      · simp only [step, get_ok hbl, get_ok hbu, bind, Except.bind, g.load _ hvl.1 hvl.2, g.load _ hvu.1 hvu.2, g.le_neg _ _ hvl.1 hvl.2 hvu.1 hvu.2 hr,
          exchange_eq hbl hbu]
        rfl
      · simp
      · simp
      · simpa using (g.total _ _ hvl.1 hvl.2 hvu.1 hvu.2).resolve_left hr
  have hv1 := perm1.valid ha hl hu
  have hv1l := hv1 s.l hbl.1 hbl.2
  have hv1u := hv1 s.u hbu.1 hbu.2
  by_cases h2 : s.u - s.l ≤ 1
  · refine ⟨s1, r1.trans (.step ?_ (by simp) (.refl _)), l1, u1, pop1, perm1, by omega, by omega, by omega, ?_, ?_, by rw [p1, q1]; exact hxz⟩
    · simp only [step, l1, u1, if_pos h2]
    · intro i hi hi'
      rw [show i = s1.p by omega, p1]
      exact g.refl hv1l.1 hv1l.2
    · intro i hi hi'
      rw [show i = s1.q by omega, q1]
      exact g.refl hv1u.1 hv1u.2
  · have hstep : step c n .l5 s1 = .ok (.l6, { s1 with xx := s1.x, ix := s1.p, zz := s1.z, iz := s1.q }) := by
      simp only [step, l1, u1, if_neg h2]
    have hI : I6 n k R s.l s.u s.ord s.pop { s1 with xx := s1.x, ix := s1.p, zz := s1.z, iz := s1.q } := by
      constructor <;> simp only
      · exact l1
      · exact u1
      · exact pop1
      · exact perm1
      · omega
      · omega
      · omega
      · rw [x1, p1]
      · rw [z1, q1]
      · rw [x1, p1]
      · rw [z1, q1]
      · omega
      · omega
      · intro i hi hi'
        rw [show i = s1.p by omega, p1]
        exact g.refl hv1l.1 hv1l.2
      · intro i hi hi'
        rw [show i = s1.q by omega, q1]
        exact g.refl hv1u.1 hv1u.2
      · rw [p1, q1]; exact hxz
    obtain ⟨s2, r2, i2, e2⟩ := left_loop g hl hu ha _ _ hI le_rfl
    obtain ⟨s3, r3, i3⟩ := out g hl hu ha s2 i2 e2
    exact ⟨s3, r1.trans (.step hstep (by simp) (r2.trans r3)), i3⟩

end Verif.Sort
