/-
The quicksort of the Fortran library (/repo/src/flib/module_sort.f90): QSORTID 67-213 sorts an array of reals, QSORTGI 215-368 sorts indices
with a comparison function.  The two subroutines are the same program with GO TO statements: the model has one definition by label.
-/
import Verif.Py.Basic
import Verif.Py.Lemmas
import Mathlib.Logic.Equiv.Basic
import Mathlib.Data.List.Perm.Basic
import Mathlib.Tactic

namespace Verif.Sort
open Verif.Py

/-! ### The model -/

/-- What differs in the two subroutines: what is loaded in X for an index of ORD (`A(ORD(P_))` module_sort.f90 114 or `ORD(P_)` 263), and the comparisons
`X.LE.Z`, `X.GE.XX`, `X.NE.XX` (116, 134, 175), which are `compare(X, Z) >= 0`, `compare(X, XX) <= 0`, `compare(X, XX) /= 0` (265, 283, 324).
They fail if they read an element that does not exist. -/
structure Cmp (K : Type) where
  load : Int → Res K
  le : K → K → Res Bool
  ge : K → K → Res Bool
  ne : K → K → Res Bool

/-- The labels of the program. -/
inductive Lbl
  | l2 | l3 | l4 | l5 | l6 | l7 | l8 | l9 | l10 | l11 | l12 | l13 | l14 | l15 | l16 | l17 | l18 | ret
  deriving DecidableEq, Repr

/-- The variables of the program (module_sort.f90 69-90).  The array ORD is a function of the index, the accesses are checked by `get`; POPLST and NDEEP are
the list of the saved bounds (U, L), the last one first. -/
structure St (K : Type) where
  ord : Int → Int
  p : Int
  q : Int
  l : Int
  u : Int
  l1 : Int
  u1 : Int
  ix : Int
  iz : Int
  x : K
  z : K
  xx : K
  zz : K
  pop : List (Int × Int)

/-- ORD(I), which has N elements. -/
def get (n : Int) (ord : Int → Int) (i : Int) : Res Int := if 1 ≤ i ∧ i ≤ n then .ok (ord i) else .error .outOfBounds

/-- The exchange of two elements (module_sort.f90 120-122, 159-161, 176-178, 181-183). -/
def exchange (n : Int) (ord : Int → Int) (i j : Int) : Res (Int → Int) := do
  let a ← get n ord i
  let b ← get n ord j
  return fun k => if k = j then a else if k = i then b else ord k

/-- One block of statements, from a label to the next one (module_sort.f90 102-209 and 252-364). -/
def step {K : Type} (c : Cmp K) (n : Int) : Lbl → St K → Res (Lbl × St K)
  | .l2, s => if s.u1 ≤ s.l1 then .ok (.ret, s) else .ok (.l3, s)
  | .l3, s => .ok (.l4, { s with l := s.l1, u := s.u1 })
  | .l4, s => do
    let p := s.l
    let q := s.u
    let x ← c.load (← get n s.ord p)
    let z ← c.load (← get n s.ord q)
    if ← c.le x z then return (.l5, { s with p := p, q := q, x := x, z := z })
    let ord ← exchange n s.ord p q
    return (.l5, { s with p := p, q := q, x := z, z := x, ord := ord })
  | .l5, s => if s.u - s.l ≤ 1 then .ok (.l15, s) else .ok (.l6, { s with xx := s.x, ix := s.p, zz := s.z, iz := s.q })
  | .l6, s => do
    let p := s.p + 1
    if p ≥ s.q then return (.l7, { s with p := p })
    let x ← c.load (← get n s.ord p)
    if ← c.ge x s.xx then return (.l8, { s with p := p, x := x })
    return (.l6, { s with p := p, x := x })
  | .l7, s => .ok (.l13, { s with p := s.q - 1 })
  | .l8, s => do
    let q := s.q - 1
    if q ≤ s.p then return (.l9, { s with q := q })
    let z ← c.load (← get n s.ord q)
    if ← c.le z s.zz then return (.l10, { s with q := q, z := z })
    return (.l8, { s with q := q, z := z })
  | .l9, s => do
    let q := s.p
    let p := s.p - 1
    let x ← c.load (← get n s.ord p)
    return (.l10, { s with q := q, p := p, z := s.x, x := x })
  | .l10, s => do
    if ← c.le s.x s.z then return (.l11, s)
    let ord ← exchange n s.ord s.p s.q
    return (.l11, { s with x := s.z, z := s.x, ord := ord })
  | .l11, s => do
    if ← c.le s.x s.xx then return (.l12, s)
    return (.l12, { s with xx := s.x, ix := s.p })
  | .l12, s => do
    if ← c.ge s.z s.zz then return (.l6, s)
    return (.l6, { s with zz := s.z, iz := s.q })
  | .l13, s => do
    let differ ← c.ne s.x s.xx
    if ¬(s.p ≠ s.ix ∧ differ) then return (.l14, s)
    let ord ← exchange n s.ord s.p s.ix
    return (.l14, { s with ord := ord })
  | .l14, s => do
    let differ ← c.ne s.z s.zz
    if ¬(s.q ≠ s.iz ∧ differ) then return (.l15, s)
    let ord ← exchange n s.ord s.q s.iz
    return (.l15, { s with ord := ord })
  | .l15, s => if s.u - s.q ≤ s.p - s.l then .ok (.l16, s) else .ok (.l17, { s with l1 := s.l, u1 := s.p - 1, l := s.q + 1 })
  | .l16, s => .ok (.l17, { s with u1 := s.u, l1 := s.q + 1, u := s.p - 1 })
  | .l17, s =>
    if s.u1 ≤ s.l1 then .ok (.l18, s)
    else if s.pop.length + 1 ≤ 1000 then .ok (.l3, { s with pop := (s.u, s.l) :: s.pop }) else .error .outOfBounds
  | .l18, s =>
    if s.u > s.l then .ok (.l4, s)
    else match s.pop with
      | [] => .ok (.l2, s)
      | (u, l) :: pop => .ok (.l18, { s with u := u, l := l, pop := pop })
  | .ret, s => .ok (.ret, s)

/-- The execution of a number of blocks; `none` if the program has not returned. -/
def run {K : Type} (c : Cmp K) (n : Int) : Nat → Lbl × St K → Option (Res (Int → Int))
  | _, (.ret, s) => some (.ok s.ord)
  | 0, _ => none
  | fuel + 1, (l, s) => match step c n l s with
    | .error e => some (.error e)
    | .ok t => run c n fuel t

/-- The beginning of the program (module_sort.f90 97-101, 244-250), from arbitrary values of the other variables. -/
def start {K : Type} (n : Int) (s : St K) : Lbl × St K := (.l2, { s with pop := [], u1 := n, l1 := 1, ord := fun i => i })

/-- The array ORD after the execution. -/
def listOf (n : Nat) (ord : Int → Int) : List Int := (List.range n).map fun (i : Nat) => ord ((i : Int) + 1)

/-- The program, seen as what it returns in ORD: `none` if it does not return within this number of blocks. -/
def qsort {K : Type} (c : Cmp K) (n : Nat) (s : St K) (fuel : Nat) : Option (Res (List Int)) :=
  (run c n fuel (start n s)).map fun r => r.map (listOf n)

/-! ### Executions -/

inductive Reach {K : Type} (c : Cmp K) (n : Int) : Lbl × St K → Lbl × St K → Prop
  | refl (a) : Reach c n a a
  | step {l s t b} : step c n l s = .ok t → l ≠ .ret → Reach c n t b → Reach c n (l, s) b

theorem Reach.trans {K : Type} {c : Cmp K} {n : Int} {a b d : Lbl × St K} (h1 : Reach c n a b) (h2 : Reach c n b d) : Reach c n a d := by
  induction h1 with
  | refl => exact h2
  | step h hl _ ih => exact .step h hl (ih h2)

theorem run_reach {K : Type} {c : Cmp K} {n : Int} {a : Lbl × St K} {b : Lbl × St K} (h : Reach c n a b) (hb : b.1 = .ret) :
    ∃ N, ∀ fuel ≥ N, run c n fuel a = some (.ok b.2.ord) := by
  induction h with
  | refl a =>
    obtain ⟨l, s⟩ := a
    simp only at hb
    subst hb
    exact ⟨0, fun fuel _ => by cases fuel <;> rfl⟩
  | @step l s t b h hl _ ih =>
    obtain ⟨N, hN⟩ := ih hb
    refine ⟨N + 1, fun fuel hf => ?_⟩
    obtain ⟨m, rfl⟩ : ∃ m, fuel = m + 1 := ⟨fuel - 1, by omega⟩
    cases l <;> simp only [ne_eq, not_true_eq_false, reduceCtorEq, not_false_eq_true] at hl <;> (unfold run; rw [h]; exact hN m (by omega))

/-! ### The comparisons -/

/-- The comparisons are those of a total preorder on the indices, whatever the elements are. -/
structure Good {K : Type} (c : Cmp K) (n : Int) (k : Int → K) (R : Int → Int → Prop) : Prop where
  load : ∀ i, 1 ≤ i → i ≤ n → c.load i = .ok (k i)
  le_pos : ∀ i j, 1 ≤ i → i ≤ n → 1 ≤ j → j ≤ n → R i j → c.le (k i) (k j) = .ok true
  le_neg : ∀ i j, 1 ≤ i → i ≤ n → 1 ≤ j → j ≤ n → ¬R i j → c.le (k i) (k j) = .ok false
  ge_pos : ∀ i j, 1 ≤ i → i ≤ n → 1 ≤ j → j ≤ n → R j i → c.ge (k i) (k j) = .ok true
  ge_neg : ∀ i j, 1 ≤ i → i ≤ n → 1 ≤ j → j ≤ n → ¬R j i → c.ge (k i) (k j) = .ok false
  ne_pos : ∀ i j, 1 ≤ i → i ≤ n → 1 ≤ j → j ≤ n → ¬(R i j ∧ R j i) → c.ne (k i) (k j) = .ok true
  ne_neg : ∀ i j, 1 ≤ i → i ≤ n → 1 ≤ j → j ≤ n → R i j → R j i → c.ne (k i) (k j) = .ok false
  total : ∀ i j, 1 ≤ i → i ≤ n → 1 ≤ j → j ≤ n → R i j ∨ R j i
  trans : ∀ i j m, 1 ≤ i → i ≤ n → 1 ≤ j → j ≤ n → 1 ≤ m → m ≤ n → R i j → R j m → R i m

theorem exchange_eq {n : Int} {ord : Int → Int} {i j : Int} (hi : 1 ≤ i ∧ i ≤ n) (hj : 1 ≤ j ∧ j ≤ n) :
    exchange n ord i j = .ok (ord ∘ Equiv.swap i j) := by
  simp only [exchange, get, if_pos hi, if_pos hj]
  change Except.ok (fun k => if k = j then ord i else if k = i then ord j else ord k) = _
  congr 1
  funext k
  simp only [Function.comp_apply, Equiv.swap_apply_def]
  by_cases h1 : k = j
  · subst h1
    by_cases h2 : k = i
    · subst h2; simp
    · simp [h2]
  · by_cases h2 : k = i
    · subst h2; simp [h1]
    · simp [h1, h2]

/-- The elements are permuted in an interval. -/
def PermIn (l u : Int) (a b : Int → Int) : Prop := ∃ σ : Equiv.Perm Int, (∀ i, (i < l ∨ u < i) → σ i = i) ∧ b = a ∘ σ

theorem PermIn.refl (l u : Int) (a : Int → Int) : PermIn l u a a := ⟨1, fun _ _ => rfl, rfl⟩

theorem PermIn.trans {l u : Int} {a b c : Int → Int} (h1 : PermIn l u a b) (h2 : PermIn l u b c) : PermIn l u a c := by
  obtain ⟨σ, hs, rfl⟩ := h1
  obtain ⟨τ, ht, rfl⟩ := h2
  refine ⟨σ * τ, fun i hi => ?_, rfl⟩
  rw [Equiv.Perm.mul_apply, ht i hi, hs i hi]

theorem PermIn.swap {l u : Int} (a : Int → Int) {i j : Int} (hi : l ≤ i ∧ i ≤ u) (hj : l ≤ j ∧ j ≤ u) : PermIn l u a (a ∘ Equiv.swap i j) := by
  refine ⟨Equiv.swap i j, fun k hk => ?_, rfl⟩
  rw [Equiv.swap_apply_def]
  split_ifs <;> omega

theorem PermIn.mono {l u l' u' : Int} {a b : Int → Int} (h : PermIn l u a b) (h1 : l' ≤ l) (h2 : u ≤ u') : PermIn l' u' a b := by
  obtain ⟨σ, hs, rfl⟩ := h
  exact ⟨σ, fun i hi => hs i (by omega), rfl⟩

theorem PermIn.outside {l u : Int} {a b : Int → Int} (h : PermIn l u a b) {i : Int} (hi : i < l ∨ u < i) : b i = a i := by
  obtain ⟨σ, hs, rfl⟩ := h
  rw [Function.comp_apply, hs i hi]

theorem PermIn.inside {l u : Int} {a b : Int → Int} (h : PermIn l u a b) {i : Int} (hi : l ≤ i ∧ i ≤ u) : ∃ j, l ≤ j ∧ j ≤ u ∧ b i = a j := by
  obtain ⟨σ, hs, rfl⟩ := h
  refine ⟨σ i, ?_, ?_, rfl⟩ <;> by_contra hcon
  · have : σ (σ i) = σ i := hs _ (by omega)
    have := σ.injective this
    omega
  · have : σ (σ i) = σ i := hs _ (by omega)
    have := σ.injective this
    omega

/-- The elements of ORD are indices of the array. -/
def Valid (n : Int) (ord : Int → Int) : Prop := ∀ i, 1 ≤ i → i ≤ n → 1 ≤ ord i ∧ ord i ≤ n

theorem PermIn.valid {n l u : Int} {a b : Int → Int} (h : PermIn l u a b) (ha : Valid n a) (hl : 1 ≤ l) (hu : u ≤ n) : Valid n b := by
  intro i h1 h2
  by_cases hi : l ≤ i ∧ i ≤ u
  · obtain ⟨j, h3, h4, h5⟩ := h.inside hi
    rw [h5]
    exact ha j (by omega) (by omega)
  · rw [h.outside (by omega)]
    exact ha i h1 h2

end Verif.Sort
