/-
The quicksort sorts: the loop on the intervals (labels 2, 3 and 15 to 18 of module_sort.f90).
-/
import Verif.Sort.Partition

namespace Verif.Sort
open Verif.Py

variable {K : Type} {c : Cmp K} {n : Int} {k : Int → K} {R : Int → Int → Prop}

/-- The pairs of elements in the wrong order are in the same interval (U, L) of those that remain. -/
def Pend (R : Int → Int → Prop) (n : Int) (ord : Int → Int) (P : List (Int × Int)) : Prop :=
  ∀ i j, 1 ≤ i → i < j → j ≤ n → R (ord i) (ord j) ∨ ∃ e ∈ P, e.2 ≤ i ∧ j ≤ e.1

def Apart (e f : Int × Int) : Prop := ∀ i, ¬(e.2 ≤ i ∧ i ≤ e.1 ∧ f.2 ≤ i ∧ i ≤ f.1)

/-- The intervals are smaller and smaller: what bounds the depth of POPLST. -/
def Depth (n : Int) : List (Int × Int) → Prop
  | [] => True
  | e :: t => (e.1 - e.2 + 1) * 2 ^ t.length ≤ n ∧ Depth n t

/-- The number of elements of the intervals. -/
def weight (P : List (Int × Int)) : Nat := (P.map fun e => (e.1 - e.2 + 1).toNat).sum

structure Inv (R : Int → Int → Prop) (n : Int) (ord : Int → Int) (P : List (Int × Int)) : Prop where
  perm : PermIn 1 n (fun i => i) ord
  pend : Pend R n ord P
  apart : P.Pairwise Apart
  bounds : ∀ e ∈ P, 1 ≤ e.2 ∧ e.1 ≤ n
  depth : Depth n P

theorem valid_id : Valid n fun i => i := fun _ h1 h2 => ⟨h1, h2⟩

theorem Inv.valid {ord : Int → Int} {P : List (Int × Int)} (h : Inv R n ord P) : Valid n ord := h.perm.valid valid_id le_rfl le_rfl

theorem Inv.drop {ord : Int → Int} {e : Int × Int} {P : List (Int × Int)} (h : Inv R n ord (e :: P)) (he : e.1 ≤ e.2) : Inv R n ord P := by
  obtain ⟨h1, h2, h3, h4, h5⟩ := h
  refine ⟨h1, ?_, (List.pairwise_cons.1 h3).2, fun f hf => h4 f (List.mem_cons_of_mem _ hf), h5.2⟩
  intro i j hi hij hj
  rcases h2 i j hi hij hj with hr | ⟨f, hf, h6, h7⟩
  · exact Or.inl hr
  · rcases List.mem_cons.1 hf with rfl | hf
    · omega
    · exact Or.inr ⟨f, hf, h6, h7⟩

theorem Apart.symm {e f : Int × Int} (h : Apart e f) : Apart f e := fun i hi => h i ⟨hi.2.2.1, hi.2.2.2, hi.1, hi.2.1⟩

/-- The partition splits an interval in two. -/
theorem Inv.split (g : Good c n k R) {l u p q : Int} {a ord : Int → Int} {t : List (Int × Int)} (h : Inv R n a ((u, l) :: t))
    (hperm : PermIn l u a ord) (lp : l ≤ p) (pq : q = p + 1) (qu : q ≤ u)
    (left : ∀ i, l ≤ i → i ≤ p → R (ord i) (ord p)) (right : ∀ i, q ≤ i → i ≤ u → R (ord q) (ord i)) (mid : R (ord p) (ord q)) :
    PermIn 1 n (fun i => i) ord ∧ Pend R n ord ((p - 1, l) :: (u, q + 1) :: t) ∧ Apart (p - 1, l) (u, q + 1) ∧ (∀ f ∈ t, Apart (p - 1, l) f ∧ Apart (u, q + 1) f) ∧
      t.Pairwise Apart := by
  obtain ⟨h1, h2, h3, h4, h5⟩ := h
  obtain ⟨hlu1, hlu2⟩ := h4 _ List.mem_cons_self
  simp only at hlu1 hlu2
  have hP : PermIn 1 n (fun i => i) ord := h1.trans (hperm.mono hlu1 hlu2)
  have hv : Valid n ord := hP.valid valid_id le_rfl le_rfl
  obtain ⟨h6, h7⟩ := List.pairwise_cons.1 h3
  refine ⟨hP, ?_, ?_, ?_, h7⟩
  · intro i j hi hij hj
    have hvi := hv i hi (by omega)
    have hvj := hv j (by omega) hj
    have hvp := hv p (by omega) (by omega)
    have hvq := hv q (by omega) (by omega)
    by_cases hini : l ≤ i ∧ i ≤ u
    · by_cases hinj : l ≤ j ∧ j ≤ u
      · by_cases e1 : j ≤ p - 1
        · exact Or.inr ⟨_, List.mem_cons_self, hini.1, e1⟩
        · by_cases e2 : q + 1 ≤ i
          · exact Or.inr ⟨_, List.mem_cons_of_mem _ List.mem_cons_self, e2, hinj.2⟩
          · left
            by_cases e3 : i = q
            · rw [e3]; exact right j (by omega) hinj.2
            · by_cases e4 : j = p
              · rw [e4]; exact left i hini.1 (by omega)
              · exact g.trans _ _ _ hvi.1 hvi.2 hvp.1 hvp.2 hvj.1 hvj.2 (left i hini.1 (by omega))
                  (g.trans _ _ _ hvp.1 hvp.2 hvq.1 hvq.2 hvj.1 hvj.2 mid (right j (by omega) hinj.2))
      · obtain ⟨i', hi1, hi2, hi3⟩ := hperm.inside hini
        left
        rw [hi3, hperm.outside (show j < l ∨ u < j by omega)]
        rcases h2 i' j (by omega) (by omega) hj with hr | ⟨e, he, h8, h9⟩
        · exact hr
        · rcases List.mem_cons.1 he with rfl | he
          · simp only at h9; omega
          · exact absurd ⟨hi1, hi2, h8, by omega⟩ (h6 e he i')
    · by_cases hinj : l ≤ j ∧ j ≤ u
      · obtain ⟨j', hj1, hj2, hj3⟩ := hperm.inside hinj
        left
        rw [hj3, hperm.outside (show i < l ∨ u < i by omega)]
        rcases h2 i j' hi (by omega) (by omega) with hr | ⟨e, he, h8, h9⟩
        · exact hr
        · rcases List.mem_cons.1 he with rfl | he
          · simp only at h8; omega
          · exact absurd ⟨hj1, hj2, by omega, h9⟩ (h6 e he j')
      · rw [hperm.outside (show i < l ∨ u < i by omega), hperm.outside (show j < l ∨ u < j by omega)]
        rcases h2 i j hi hij hj with hr | ⟨e, he, h8, h9⟩
        · exact Or.inl hr
        · rcases List.mem_cons.1 he with rfl | he
          · simp only at h8 h9; omega
          · exact Or.inr ⟨e, List.mem_cons_of_mem _ (List.mem_cons_of_mem _ he), h8, h9⟩
  · intro i hi
    simp only at hi
    omega
  · intro f hf
    constructor
    · intro i hi
      simp only at hi
      exact h6 f hf i ⟨hi.1, by simp only; omega, hi.2.2⟩
    · intro i hi
      simp only at hi
      exact h6 f hf i ⟨by simp only; omega, hi.2.1, hi.2.2⟩

theorem pow_depth {d : Nat} (h : (2 : Int) * 2 ^ (d + 1) ≤ n) (hn : n < 2 ^ 1000) : d + 1 ≤ 1000 := by
  by_contra hcon
  have h1 : (2 : Int) ^ 1000 ≤ 2 ^ (d + 1) := pow_le_pow_right₀ (by norm_num) (by omega)
  have h2 : (0 : Int) < 2 ^ (d + 1) := by positivity
  generalize (2 : Int) ^ 1000 = b at *
  generalize (2 : Int) ^ (d + 1) = b' at *
  omega

/-- From label 18 (or label 4 when the interval has two elements) the program returns with everything in order. -/
theorem outer (g : Good c n k R) (hn : n < 2 ^ 1000) : ∀ (m : Nat) (s : St K), Inv R n s.ord ((s.u, s.l) :: s.pop) →
    2 * weight ((s.u, s.l) :: s.pop) + s.pop.length ≤ m →
    (s.u1 ≤ s.l1 → ∃ s', Reach c n (.l18, s) (.ret, s') ∧ Inv R n s'.ord []) ∧
    (s.l < s.u → ∃ s', Reach c n (.l4, s) (.ret, s') ∧ Inv R n s'.ord []) := by
  intro m
  induction m using Nat.strong_induction_on with
  | _ m ih =>
  intro s h hm
  have h4 : s.l < s.u → ∃ s', Reach c n (.l4, s) (.ret, s') ∧ Inv R n s'.ord [] := by
    intro hlu
    obtain ⟨hb1, hb2⟩ := h.bounds _ List.mem_cons_self
    simp only at hb1 hb2
    obtain ⟨s1, r1, i1⟩ := partition g s hb1 hb2 hlu h.valid
    obtain ⟨e1, e2, e3, e4, e5, e6, e7, e8, e9, e10⟩ := i1
    obtain ⟨j1, j2, j3, j4, j5⟩ := h.split g e4 e5 e6 e7 e8 e9 e10
    have hd := h.depth
    obtain ⟨hd1, hd2⟩ := hd
    simp only at hd1
    have hpow : (0 : Int) < 2 ^ s.pop.length := by positivity
    have hmono : ∀ x : Int, x ≤ s.u - s.l + 1 → x * 2 ^ s.pop.length ≤ n := fun x hx => le_trans (mul_le_mul_of_nonneg_right hx hpow.le) hd1
    have hmono2 : ∀ x : Int, 2 * x ≤ s.u - s.l + 1 → x * 2 ^ (s.pop.length + 1) ≤ n := by
      intro x hx
      have := hmono _ hx
      rw [pow_succ]
      linarith
    have hw : weight ((s.u, s.l) :: s.pop) = (s.u - s.l + 1).toNat + weight s.pop := by simp [weight]
    -- the two orders of the parts
    have key : ∀ (s2 : St K), Reach c n (.l15, s1) (.l17, s2) → s2.ord = s1.ord → s2.pop = s.pop →
        (((s2.u, s2.l) = (s.u, s1.q + 1) ∧ (s2.u1, s2.l1) = (s1.p - 1, s.l)) ∨ ((s2.u1, s2.l1) = (s.u, s1.q + 1) ∧ (s2.u, s2.l) = (s1.p - 1, s.l))) →
        s2.u1 - s2.l1 ≤ s2.u - s2.l → ∃ s', Reach c n (.l4, s) (.ret, s') ∧ Inv R n s'.ord [] := by
      intro s2 r2 o2 p2 hor hle
      have hsum : (s2.u1 - s2.l1 + 1) + (s2.u - s2.l + 1) = s.u - s.l - 1 := by
        rcases hor with ⟨a1, a2⟩ | ⟨a1, a2⟩ <;> simp only [Prod.mk.injEq] at a1 a2 <;> omega
      have hnn : 0 ≤ s2.u1 - s2.l1 + 1 ∧ 0 ≤ s2.u - s2.l + 1 := by
        rcases hor with ⟨a1, a2⟩ | ⟨a1, a2⟩ <;> simp only [Prod.mk.injEq] at a1 a2 <;> omega
      have hinv : Inv R n s2.ord ((s2.u1, s2.l1) :: (s2.u, s2.l) :: s2.pop) := by
        refine ⟨by rw [o2]; exact j1, ?_, ?_, ?_, ?_⟩
        · intro i j hi hij hj
          rw [o2]
          rcases j2 i j hi hij hj with hr | ⟨e, he, hh⟩
          · exact Or.inl hr
          · refine Or.inr ⟨e, ?_, hh⟩
            rw [p2]
            rcases hor with ⟨a1, a2⟩ | ⟨a1, a2⟩ <;> rw [a1, a2]
            · exact he
            · simp only [List.mem_cons] at he ⊢
              tauto
        · rw [p2]
          rcases hor with ⟨a1, a2⟩ | ⟨a1, a2⟩ <;> rw [a1, a2]
          · refine List.pairwise_cons.2 ⟨?_, List.pairwise_cons.2 ⟨fun f hf => (j4 f hf).2, j5⟩⟩
            intro f hf
            rcases List.mem_cons.1 hf with rfl | hf
            · exact j3
            · exact (j4 f hf).1
          · refine List.pairwise_cons.2 ⟨?_, List.pairwise_cons.2 ⟨fun f hf => (j4 f hf).1, j5⟩⟩
            intro f hf
            rcases List.mem_cons.1 hf with rfl | hf
            · exact j3.symm
            · exact (j4 f hf).2
        · intro e he
          rw [p2] at he
          have hrest : e ∈ s.pop → 1 ≤ e.2 ∧ e.1 ≤ n := fun hh => h.bounds e (List.mem_cons_of_mem _ hh)
          simp only [List.mem_cons] at he
          rcases hor with ⟨a1, a2⟩ | ⟨a1, a2⟩ <;> rw [a1, a2] at he <;> rcases he with rfl | rfl | he <;> first | exact hrest he | (simp only; omega)
        · rw [p2]
          refine ⟨?_, ?_, hd2⟩
          · simp only [List.length_cons]
            exact hmono2 _ (by omega)
          · exact hmono _ (by simp only; omega)
      by_cases hs : s2.u1 ≤ s2.l1
      · -- the small part needs nothing
        have hinv2 := hinv.drop hs
        obtain ⟨s', r3, f3⟩ := (ih (2 * weight ((s2.u, s2.l) :: s2.pop) + s2.pop.length) (by
          rw [p2]; simp only [weight, List.map_cons, List.sum_cons] at hm ⊢; omega) s2 hinv2 le_rfl).1 hs
        refine ⟨s', (r1.trans r2).trans (.step ?_ (by simp) r3), f3⟩
        simp only [step, if_pos hs]
      · have hlen : s2.pop.length + 1 ≤ 1000 := by
          apply pow_depth _ hn
          have := hinv.depth.1
          simp only [List.length_cons] at this
          have hpos : (0 : Int) < 2 ^ (s2.pop.length + 1) := by positivity
          have h2 : (2 : Int) ≤ s2.u1 - s2.l1 + 1 := by omega
          exact le_trans (mul_le_mul_of_nonneg_right h2 hpos.le) this
        obtain ⟨s', r3, f3⟩ := (ih (2 * weight ((s2.u1, s2.l1) :: (s2.u, s2.l) :: s2.pop) + (s2.pop.length + 1)) (by
          rw [p2]; simp only [weight, List.map_cons, List.sum_cons] at hm ⊢; omega)
          { s2 with pop := (s2.u, s2.l) :: s2.pop, l := s2.l1, u := s2.u1 } hinv le_rfl).2 (by simp only; omega)
        refine ⟨s', (r1.trans r2).trans (.step (t := (.l3, { s2 with pop := (s2.u, s2.l) :: s2.pop })) ?_ (by simp) (.step rfl (by simp) r3)), f3⟩
        simp only [step, if_neg hs, if_pos hlen]
    by_cases hc : s1.u - s1.q ≤ s1.p - s1.l
    · refine key { s1 with u1 := s1.u, l1 := s1.q + 1, u := s1.p - 1 } (.step (t := (.l16, s1)) ?_ (by simp) (.step rfl (by simp) (.refl _))) rfl e3 ?_ ?_
      · simp only [step, if_pos hc]
      · right
        simp only [e1, e2, and_self]
      · simp only; omega
    · refine key { s1 with l1 := s1.l, u1 := s1.p - 1, l := s1.q + 1 } (.step ?_ (by simp) (.refl _)) rfl e3 ?_ ?_
      · simp only [step, if_neg hc]
      · left
        simp only [e1, e2, and_self]
      · simp only; omega
  refine ⟨fun h1 => ?_, h4⟩
  by_cases hlu : s.u > s.l
  · obtain ⟨s', r, f⟩ := h4 hlu
    refine ⟨s', .step ?_ (by simp) r, f⟩
    simp only [step, if_pos hlu]
  · have hinv := h.drop (by simp only; omega)
    rcases hp : s.pop with _ | ⟨⟨u, l⟩, t⟩
    · rw [hp] at hinv
      refine ⟨s, .step (t := (.l2, s)) ?_ (by simp) (.step (t := (.ret, s)) ?_ (by simp) (.refl _)), hinv⟩
      · simp only [step, if_neg hlu, hp]
      · simp only [step, if_pos h1]
    · rw [hp] at hinv
      obtain ⟨s', r3, f3⟩ := (ih (2 * weight ((u, l) :: t) + t.length) (by
          rw [hp] at hm; simp only [weight, List.map_cons, List.sum_cons, List.length_cons] at hm ⊢; omega)
          { s with u := u, l := l, pop := t } hinv le_rfl).1 h1
      refine ⟨s', .step ?_ (by simp) r3, f3⟩
      simp only [step, if_neg hlu, hp]

/-- The whole program. -/
theorem sorts (g : Good c n k R) (hn : n < 2 ^ 1000) (s : St K) : ∃ s', Reach c n (start n s) (.ret, s') ∧ Inv R n s'.ord [] := by
  by_cases h1 : n ≤ 1
  · refine ⟨_, .step (t := (.ret, { s with pop := [], u1 := n, l1 := 1, ord := fun i => i })) ?_ (by simp) (.refl _), .refl _ _ _, ?_, .nil, by simp, trivial⟩
    · simp only [step, if_pos h1]
    · intro i j _ _ _
      omega
  · have hinv : Inv R n (fun i => i) [(n, 1)] := by
      refine ⟨.refl _ _ _, fun i j hi _ hj => Or.inr ⟨(n, 1), by simp, hi, hj⟩, List.pairwise_singleton _ _, by simp, ?_, trivial⟩
      simp
    obtain ⟨s', r, f⟩ := (outer g hn _ { s with pop := [], u1 := n, l1 := 1, ord := fun i => i, l := 1, u := n } hinv le_rfl).2 (by simp only; omega)
    refine ⟨s', .step (t := (.l3, { s with pop := [], u1 := n, l1 := 1, ord := fun i => i })) ?_ (by simp) (.step rfl (by simp) r), f⟩
    simp only [step, if_neg h1]

/-- The list returned is a permutation of the indices, in order. -/
theorem qsort_sorts {n : Nat} (g : Good c n k R) (hn : n < 2 ^ 1000) (s : St K) :
    ∃ o, o.Perm ((List.range n).map fun (i : Nat) => (i : Int) + 1) ∧ o.Pairwise R ∧ ∃ N, ∀ fuel ≥ N, qsort c n s fuel = some (.ok o) := by
  obtain ⟨s', r, f⟩ := sorts g (by exact_mod_cast hn) s
  obtain ⟨N, hN⟩ := run_reach r rfl
  refine ⟨listOf n s'.ord, ?_, ?_, N, fun fuel hf => ?_⟩
  · obtain ⟨σ, hs, he⟩ := f.perm
    have hnd : (listOf n s'.ord).Nodup := by
      refine List.Nodup.map ?_ List.nodup_range
      intro i j hij
      rw [he] at hij
      have := σ.injective hij
      omega
    refine (List.Nodup.subperm hnd ?_).perm_of_length_le (by simp [listOf])
    intro e hm
    obtain ⟨i, hi, rfl⟩ := List.mem_map.1 hm
    rw [List.mem_range] at hi
    have hv := f.valid ((i : Int) + 1) (by omega) (by omega)
    refine List.mem_map.2 ⟨(s'.ord ((i : Int) + 1) - 1).toNat, List.mem_range.2 (by omega), by omega⟩
  · refine List.pairwise_map.2 (List.Pairwise.imp_of_mem ?_ List.pairwise_lt_range)
    intro i j hi hj hij
    rw [List.mem_range] at hi hj
    rcases f.pend ((i : Int) + 1) ((j : Int) + 1) (by omega) (by omega) (by omega) with hr | ⟨e, he, -⟩
    · exact hr
    · simp at he
  · rw [qsort, hN fuel hf]; rfl

end Verif.Sort
