import Verif.Sparse.Props
import Mathlib.Logic.Relation
import Mathlib.Algebra.BigOperators.Group.List.Lemmas

/-!
Model of the execution of the kernels by OpenMP threads (`!$omp parallel do`, src/flib/sparse.f90.j2 and
src/flib/module_operators.f90.j2).

A thread executes the iterations that the schedule gives to it.  The memory is sequentially consistent (OpenMP
gives no guarantee to a program with a data race: it is shown that there is none).  An update
`output(p) = output(p) + x` in an `!$omp atomic` or `!$omp critical` section is one step, otherwise it
is a load followed by a store.
-/
namespace Verif.Sparse
open Verif.Py Finset

/-- A statement of a kernel that modifies the output. -/
inductive Instr (R : Type)
  /-- `!$omp atomic` (one update) or `!$omp critical` section (several updates). -/
  | atomic (us : List (Nat × R))
  /-- Update without synchronisation. -/
  | plain (p : Nat) (x : R)

/-- A thread: what remains to be executed, and the value loaded by the update in progress. -/
structure Thread (R : Type) where
  code : List (Instr R)
  reg : Option R

/-- The threads and the shared output. -/
structure Machine (R : Type) where
  threads : List (Thread R)
  out : List R

/-- One step of one thread. -/
inductive Step {R : Type} [Add R] : Machine R → Machine R → Prop
  | atomic {s : Machine R} {t us code out'} (ht : s.threads[t]? = some ⟨.atomic us :: code, none⟩)
      (ho : applyAll us s.out = .ok out') : Step s ⟨s.threads.set t ⟨code, none⟩, out'⟩
  | load {s : Machine R} {t p x code a} (ht : s.threads[t]? = some ⟨.plain p x :: code, none⟩)
      (ha : s.out[p]? = some a) : Step s ⟨s.threads.set t ⟨.plain p x :: code, some a⟩, s.out⟩
  | store {s : Machine R} {t p x code a} (ht : s.threads[t]? = some ⟨.plain p x :: code, some a⟩) :
      Step s ⟨s.threads.set t ⟨code, none⟩, s.out.set p (a + x)⟩

/-- Any number of steps of any threads. -/
abbrev Exec {R : Type} [Add R] : Machine R → Machine R → Prop := Relation.ReflTransGen Step

/-- All the threads have finished. -/
def Machine.finished {R} (s : Machine R) : Prop := ∀ th ∈ s.threads, th.code = []

/-- Synchronisation of the updates made for one element. -/
inductive Sync
  | atomicEach   -- `!$omp atomic` before each update
  | critical     -- one `!$omp critical` section
  | none
  deriving DecidableEq

/-- The statements executed for one element. -/
def instrs {R} (sync : Sync) (us : List (Nat × R)) : List (Instr R) :=
  match sync with
  | .atomicEach => us.map fun u => .atomic [u]
  | .critical => [.atomic us]
  | .none => us.map fun u => .plain u.1 u.2

/-- The updates of the element (i, j).  (A kernel that reads out of the bounds has no meaning: the theorems are about
kernels whose sequential execution succeeds.) -/
def updates {R} (body : Nat → Nat → Res (List (Nat × R))) (i j : Nat) : List (Nat × R) :=
  match body i j with
  | .ok us => us
  | .error _ => []

/-- The code of a thread to which the iterations `chunk` are given. -/
def threadCode {R} (sync : Sync) (nmax : Nat) (body : Nat → Nat → Res (List (Nat × R))) (chunk : List Nat) :
    List (Instr R) :=
  chunk.flatMap fun i => (List.range nmax).flatMap fun j => instrs sync (updates body i j)

/-- The machine when the parallel region starts. -/
def start {R} (sync : Sync) (nmax : Nat) (body : Nat → Nat → Res (List (Nat × R))) (chunks : List (List Nat))
    (out : List R) : Machine R :=
  ⟨chunks.map fun c => ⟨threadCode sync nmax body c, none⟩, out⟩

/-- A schedule of `n` iterations: every iteration is given to exactly one thread, in any order. -/
def Schedule (n : Nat) (chunks : List (List Nat)) : Prop := chunks.flatten.Perm (List.range n)

section
variable {R : Type} [CommRing R]

/-- The positions that are written by a statement. -/
def Instr.positions : Instr R → List Nat
  | .atomic us => us.map (·.1)
  | .plain p _ => [p]

/-- What a list of updates adds at the position `q`. -/
def sumAt (us : List (Nat × R)) (q : Nat) : R := (us.map fun u => if q = u.1 then u.2 else 0).sum

/-- What a statement adds at the position `q`. -/
def Instr.sum : Instr R → Nat → R
  | .atomic us, q => sumAt us q
  | .plain p x, q => if q = p then x else 0

/-- What remains to be added at the position `q`. -/
def codeSum (code : List (Instr R)) (q : Nat) : R := (code.map fun i => i.sum q).sum

def Machine.total (s : Machine R) (q : Nat) : R := (s.threads.map fun th => codeSum th.code q).sum

/-- No position written without synchronisation by a thread is used by another one. -/
def RaceFree (threads : List (Thread R)) : Prop :=
  ∀ (t u : Nat) (a b : Thread R), t ≠ u → threads[t]? = some a → threads[u]? = some b →
    ∀ p x, Instr.plain p x ∈ a.code → ∀ i ∈ b.code, p ∉ i.positions

structure Inv (N : Nat) (f : Nat → R) (s : Machine R) : Prop where
  len : s.out.length = N
  sum : ∀ q, q < N → s.out.getD q 0 + s.total q = f q
  race : RaceFree s.threads
  range : ∀ th ∈ s.threads, ∀ i ∈ th.code, ∀ p ∈ i.positions, p < N
  reg : ∀ th ∈ s.threads, ∀ a, th.reg = some a → ∃ p x code, th.code = .plain p x :: code ∧ s.out[p]? = some a

theorem sum_set {α} (f : α → R) : ∀ {l : List α} {t : Nat} {a b : α}, l[t]? = some a →
    ((l.set t b).map f).sum = (l.map f).sum - f a + f b
  | [], _, _, _, h => by simp at h
  | c :: l, 0, a, b, h => by
    simp only [List.getElem?_cons_zero, Option.some.injEq] at h
    subst h
    simp only [List.set_cons_zero, List.map_cons, List.sum_cons]; ring
  | c :: l, t + 1, a, b, h => by
    simp only [List.getElem?_cons_succ] at h
    simp only [List.set_cons_succ, List.map_cons, List.sum_cons, sum_set f h]; ring

theorem getElem?_set_some {α} {l : List α} {t u : Nat} {b c : α} (h : (l.set t b)[u]? = some c) :
    (u = t ∧ c = b) ∨ (u ≠ t ∧ l[u]? = some c) := by
  rw [List.getElem?_set] at h
  by_cases hut : t = u
  · rw [if_pos hut] at h
    split at h
    · cases h; exact .inl ⟨hut.symm, rfl⟩
    · cases h
  · rw [if_neg hut] at h
    exact .inr ⟨Ne.symm hut, h⟩

omit [CommRing R] in
/-- Replacing the code of a thread by a part of it keeps the absence of race. -/
theorem RaceFree.set {threads : List (Thread R)} (h : RaceFree threads) {t : Nat} {a b : Thread R}
    (ht : threads[t]? = some a) (hab : ∀ i ∈ b.code, i ∈ a.code) : RaceFree (threads.set t b) := by
  intro u w c d huw hc hd p x hp i hi
  rcases getElem?_set_some hc with ⟨rfl, rfl⟩ | ⟨h1, h2⟩
  · rcases getElem?_set_some hd with ⟨rfl, rfl⟩ | ⟨h3, h4⟩
    · exact absurd rfl huw
    · exact h _ _ _ _ huw ht h4 p x (hab _ hp) i hi
  · rcases getElem?_set_some hd with ⟨rfl, rfl⟩ | ⟨h3, h4⟩
    · exact h _ _ _ _ huw h2 ht p x hp i (hab _ hi)
    · exact h _ _ _ _ huw h2 h4 p x hp i hi

omit [CommRing R] in
theorem mem_set_cases {threads : List (Thread R)} {t : Nat} {b th : Thread R} (h : th ∈ threads.set t b) :
    th = b ∨ ∃ u, u ≠ t ∧ threads[u]? = some th := by
  obtain ⟨u, hu⟩ := List.getElem?_of_mem h
  rcases getElem?_set_some hu with ⟨_, h2⟩ | ⟨h1, h2⟩
  · exact .inl h2
  · exact .inr ⟨u, h1, h2⟩

theorem applyAll_ok {us : List (Nat × R)} : ∀ {out out' : List R}, applyAll us out = .ok out' →
    out'.length = out.length ∧ (∀ u ∈ us, u.1 < out.length) ∧
    ∀ q, q < out.length → out'.getD q 0 = out.getD q 0 + sumAt us q := by
  induction us with
  | nil =>
    intro out out' h
    simp only [applyAll, Except.ok.injEq] at h
    subst h
    simp [sumAt]
  | cons u us ih =>
    intro out out' h
    obtain ⟨p, x⟩ := u
    simp only [applyAll, addAt] at h
    cases hp : out[p]? with
    | none => rw [hp] at h; cases h
    | some a =>
      rw [hp] at h
      simp only [Except.bind] at h
      obtain ⟨h1, h2, h3⟩ := ih h
      rw [List.length_set] at h1 h2 h3
      have hpl : p < out.length := (List.getElem?_eq_some_iff.1 hp).1
      refine ⟨h1, ?_, ?_⟩
      · intro u hu
        rcases List.mem_cons.1 hu with rfl | hu
        · exact hpl
        · exact h2 u hu
      · intro q hq
        rw [h3 q hq]
        simp only [sumAt, List.map_cons, List.sum_cons, List.getD_eq_getElem?_getD, List.getElem?_set]
        by_cases hqp : q = p
        · subst hqp
          rw [if_pos rfl, if_pos hpl, if_pos rfl, hp]
          simp only [Option.getD_some]; ring
        · simp [hqp, Ne.symm hqp]

theorem applyAll_exists {us : List (Nat × R)} : ∀ {out : List R}, (∀ u ∈ us, u.1 < out.length) →
    ∃ out', applyAll us out = .ok out' := by
  intro out h
  obtain ⟨o, ho, _⟩ := Adds.applyAll h out rfl
  exact ⟨o, ho⟩

theorem Inv.step {N : Nat} {f : Nat → R} {s s' : Machine R} (h : Inv N f s) (hs : Step s s') : Inv N f s' := by
  cases hs with
  | @atomic t us code out' ht ho =>
    have hth : (⟨.atomic us :: code, none⟩ : Thread R) ∈ s.threads := List.mem_of_getElem? ht
    obtain ⟨h1, h2, h3⟩ := applyAll_ok ho
    refine ⟨by rw [h1, h.len], ?_, ?_, ?_, ?_⟩
    · intro q hq
      simp only [Machine.total]
      rw [sum_set _ ht, h3 q (by rw [h.len]; exact hq), ← h.sum q hq]
      simp only [Machine.total, codeSum, List.map_cons, List.sum_cons, Instr.sum]
      ring
    · exact h.race.set ht (fun i hi => List.mem_cons_of_mem _ hi)
    · intro th hm i hi p hp
      rcases mem_set_cases hm with rfl | ⟨u, _, hu⟩
      · exact h.range _ hth i (List.mem_cons_of_mem _ hi) p hp
      · exact h.range th (List.mem_of_getElem? hu) i hi p hp
    · intro th hm a ha
      rcases mem_set_cases hm with rfl | ⟨u, hut, hu⟩
      · cases ha
      · obtain ⟨p, x, c, hc, hv⟩ := h.reg th (List.mem_of_getElem? hu) a ha
        refine ⟨p, x, c, hc, ?_⟩
        -- the position is not written by the atomic section
        have hnp : p ∉ (Instr.atomic us).positions :=
          h.race u t _ _ hut hu ht p x (by rw [hc]; exact List.mem_cons_self ..) _ (List.mem_cons_self ..)
        have hpl : p < s.out.length := (List.getElem?_eq_some_iff.1 hv).1
        have hz : sumAt us p = 0 := by
          unfold sumAt
          apply List.sum_eq_zero
          intro y hy
          obtain ⟨w, hw, rfl⟩ := List.mem_map.1 hy
          rw [if_neg]
          rintro rfl
          exact hnp (List.mem_map.2 ⟨w, hw, rfl⟩)
        have := h3 p hpl
        rw [hz, add_zero] at this
        rw [List.getD_eq_getElem?_getD, List.getD_eq_getElem?_getD, hv] at this
        rw [List.getElem?_eq_getElem (show p < out'.length by omega)] at this ⊢
        simpa using this
  | @load t p x code a ht ha =>
    have hth : (⟨.plain p x :: code, none⟩ : Thread R) ∈ s.threads := List.mem_of_getElem? ht
    refine ⟨h.len, ?_, ?_, ?_, ?_⟩
    · intro q hq
      rw [← h.sum q hq]
      simp only [Machine.total]
      rw [sum_set _ ht]
      ring
    · exact h.race.set ht (fun i hi => hi)
    · intro th hm i hi q hq
      rcases mem_set_cases hm with rfl | ⟨u, _, hu⟩
      · exact h.range _ hth i hi q hq
      · exact h.range th (List.mem_of_getElem? hu) i hi q hq
    · intro th hm b hb
      rcases mem_set_cases hm with rfl | ⟨u, hut, hu⟩
      · simp only [Option.some.injEq] at hb
        subst hb
        exact ⟨p, x, code, rfl, ha⟩
      · exact h.reg th (List.mem_of_getElem? hu) b hb
  | @store t p x code a ht =>
    have hth : (⟨.plain p x :: code, some a⟩ : Thread R) ∈ s.threads := List.mem_of_getElem? ht
    obtain ⟨p', x', c', hc', ha⟩ := h.reg _ hth a rfl
    simp only [List.cons.injEq, Instr.plain.injEq] at hc'
    obtain ⟨⟨rfl, rfl⟩, rfl⟩ := hc'
    have hpl : p < s.out.length := (List.getElem?_eq_some_iff.1 ha).1
    refine ⟨by rw [List.length_set, h.len], ?_, ?_, ?_, ?_⟩
    · intro q hq
      rw [← h.sum q hq]
      simp only [Machine.total]
      rw [sum_set _ ht]
      simp only [codeSum, List.map_cons, List.sum_cons, Instr.sum, List.getD_eq_getElem?_getD, List.getElem?_set]
      by_cases hqp : q = p
      · subst hqp
        rw [if_pos rfl, if_pos hpl, if_pos rfl, ha]
        simp only [Option.getD_some]; ring
      · simp [hqp, Ne.symm hqp]
    · exact h.race.set ht (fun i hi => List.mem_cons_of_mem _ hi)
    · intro th hm i hi q hq
      rcases mem_set_cases hm with rfl | ⟨u, _, hu⟩
      · exact h.range _ hth i (List.mem_cons_of_mem _ hi) q hq
      · exact h.range th (List.mem_of_getElem? hu) i hi q hq
    · intro th hm b hb
      rcases mem_set_cases hm with rfl | ⟨u, hut, hu⟩
      · cases hb
      · obtain ⟨q, y, c, hc, hv⟩ := h.reg th (List.mem_of_getElem? hu) b hb
        refine ⟨q, y, c, hc, ?_⟩
        have hnp : q ∉ (Instr.plain p x).positions :=
          h.race u t _ _ hut hu ht q y (by rw [hc]; exact List.mem_cons_self ..) _ (List.mem_cons_self ..)
        rw [List.getElem?_set, if_neg]
        · exact hv
        · rintro rfl
          exact hnp (by simp [Instr.positions])

theorem Inv.exec {N : Nat} {f : Nat → R} {s s' : Machine R} (h : Inv N f s) (hs : Exec s s') : Inv N f s' := by
  induction hs with
  | refl => exact h
  | tail _ hstep ih => exact ih.step hstep

/-- An execution that is not finished can go on. -/
theorem Inv.progress {N : Nat} {f : Nat → R} {s : Machine R} (h : Inv N f s) (hf : ¬ s.finished) : ∃ s', Step s s' := by
  simp only [Machine.finished, not_forall] at hf
  obtain ⟨th, hth, hne⟩ := hf
  obtain ⟨t, ht⟩ := List.getElem?_of_mem hth
  obtain ⟨code, reg⟩ := th
  cases code with
  | nil => exact absurd rfl hne
  | cons i code =>
    cases reg with
    | none =>
      cases i with
      | atomic us =>
        have : ∀ u ∈ us, u.1 < s.out.length := by
          intro u hu
          rw [h.len]
          exact h.range _ hth _ (List.mem_cons_self ..) u.1 (List.mem_map.2 ⟨u, hu, rfl⟩)
        obtain ⟨o, ho⟩ := applyAll_exists this
        exact ⟨_, .atomic ht ho⟩
      | plain p x =>
        have : p < s.out.length := by
          rw [h.len]
          exact h.range _ hth _ (List.mem_cons_self ..) p (by simp [Instr.positions])
        exact ⟨_, .load ht (List.getElem?_eq_getElem this)⟩
    | some a =>
      obtain ⟨p, x, c, hc, _⟩ := h.reg _ hth a rfl
      simp only [List.cons.injEq] at hc
      obtain ⟨rfl, rfl⟩ := hc
      exact ⟨_, .store ht⟩

theorem Inv.final {N : Nat} {f : Nat → R} {s : Machine R} (h : Inv N f s) (hf : s.finished) :
    s.out = (List.range N).map f := by
  apply List.ext_getElem?
  intro q
  by_cases hq : q < N
  · have h1 := h.sum q hq
    have hz : s.total q = 0 := by
      unfold Machine.total
      apply List.sum_eq_zero
      intro y hy
      obtain ⟨th, hth, rfl⟩ := List.mem_map.1 hy
      rw [hf th hth]; rfl
    rw [hz, add_zero] at h1
    have hl := h.len
    rw [List.getElem?_map, List.getElem?_range hq, Option.map_some, ← h1, List.getElem?_eq_getElem (by omega)]
    simp [List.getD_eq_getElem?_getD, hl, hq]
  · rw [List.getElem?_eq_none (by rw [h.len]; omega), List.getElem?_eq_none (by simp; omega)]

/-- A bound on the number of steps of a thread. -/
def Thread.fuel (th : Thread R) : Nat := 2 * th.code.length - (if th.reg.isSome then 1 else 0)

/-- A bound on the number of steps. -/
def Machine.fuel (s : Machine R) : Nat := (s.threads.map Thread.fuel).sum

theorem nat_sum_set {α} (f : α → Nat) : ∀ {l : List α} {t : Nat} {a b : α}, l[t]? = some a →
    ((l.set t b).map f).sum + f a = (l.map f).sum + f b
  | [], _, _, _, h => by simp at h
  | c :: l, 0, a, b, h => by
    simp only [List.getElem?_cons_zero, Option.some.injEq] at h
    subst h
    simp only [List.set_cons_zero, List.map_cons, List.sum_cons]; omega
  | c :: l, t + 1, a, b, h => by
    simp only [List.getElem?_cons_succ] at h
    have := nat_sum_set f (b := b) h
    simp only [List.set_cons_succ, List.map_cons, List.sum_cons]; omega

/-- Every step decreases the bound: every execution stops. -/
theorem Step.fuel_lt {s s' : Machine R} (h : Step s s') : s'.fuel < s.fuel := by
  cases h with
  | @atomic t us code out' ht ho =>
    have := nat_sum_set Thread.fuel (b := ⟨code, none⟩) ht
    have e1 : Thread.fuel (⟨code, none⟩ : Thread R) = 2 * code.length := rfl
    have e2 : Thread.fuel (⟨.atomic us :: code, none⟩ : Thread R) = 2 * (code.length + 1) := rfl
    simp only [Machine.fuel]
    omega
  | @load t p x code a ht ha =>
    have := nat_sum_set Thread.fuel (b := ⟨.plain p x :: code, some a⟩) ht
    have e1 : Thread.fuel (⟨.plain p x :: code, some a⟩ : Thread R) = 2 * (code.length + 1) - 1 := rfl
    have e2 : Thread.fuel (⟨.plain p x :: code, none⟩ : Thread R) = 2 * (code.length + 1) := rfl
    simp only [Machine.fuel]
    omega
  | @store t p x code a ht =>
    have := nat_sum_set Thread.fuel (b := ⟨code, none⟩) ht
    have e1 : Thread.fuel (⟨.plain p x :: code, some a⟩ : Thread R) = 2 * (code.length + 1) - 1 := rfl
    have e2 : Thread.fuel (⟨code, none⟩ : Thread R) = 2 * code.length := rfl
    simp only [Machine.fuel]
    omega

/-! ### The sequential loops -/

theorem foldRange_ok {α} {step : List R → Nat → Res (List R)} {S : Nat → Nat → R} {P : Nat → Nat → Prop} (_ : α)
    (hstep : ∀ i o o', step o i = .ok o' → o'.length = o.length ∧ P i o.length ∧
      ∀ q, q < o.length → o'.getD q 0 = o.getD q 0 + S i q) :
    ∀ {n : Nat} {o o' : List R}, (List.range n).foldlM step o = .ok o' →
      o'.length = o.length ∧ (∀ i, i < n → P i o.length) ∧
      ∀ q, q < o.length → o'.getD q 0 = o.getD q 0 + ∑ i ∈ range n, S i q := by
  intro n
  induction n with
  | zero =>
    intro o o' h
    simp only [List.range_zero, List.foldlM_nil, pure, Except.pure, Except.ok.injEq] at h
    subst h
    simp
  | succ n ih =>
    intro o o' h
    rw [List.range_succ, List.foldlM_append] at h
    simp only [List.foldlM_cons, List.foldlM_nil, bind_pure] at h
    cases ho : (List.range n).foldlM step o with
    | error e => rw [ho] at h; cases h
    | ok o1 =>
      rw [ho] at h
      have h : step o1 n = .ok o' := h
      obtain ⟨a1, a2, a3⟩ := ih ho
      obtain ⟨b1, b2, b3⟩ := hstep n o1 o' h
      rw [a1] at b1 b2 b3
      refine ⟨b1, ?_, ?_⟩
      · intro i hi
        by_cases hin : i = n
        · subst hin; exact b2
        · exact a2 i (by omega)
      · intro q hq
        rw [b3 q hq, a3 q hq, Finset.sum_range_succ]; ring

theorem loops_ok {n nmax : Nat} {body : Nat → Nat → Res (List (Nat × R))} {o o' : List R}
    (h : loops n nmax body o = .ok o') :
    o'.length = o.length ∧
    (∀ i, i < n → ∀ j, j < nmax → ∀ u ∈ updates body i j, u.1 < o.length) ∧
    ∀ q, q < o.length → o'.getD q 0 = o.getD q 0 + ∑ i ∈ range n, ∑ j ∈ range nmax, sumAt (updates body i j) q := by
  unfold loops at h
  refine foldRange_ok (S := fun i q => ∑ j ∈ range nmax, sumAt (updates body i j) q)
    (P := fun i N => ∀ j, j < nmax → ∀ u ∈ updates body i j, u.1 < N) () ?_ h
  intro i o o' h
  refine foldRange_ok (S := fun j q => sumAt (updates body i j) q)
    (P := fun j N => ∀ u ∈ updates body i j, u.1 < N) () ?_ h
  intro j o o' h
  cases hb : body i j with
  | error e => rw [hb] at h; cases h
  | ok us =>
    rw [hb] at h
    have h : applyAll us o = .ok o' := h
    obtain ⟨h1, h2, h3⟩ := applyAll_ok h
    have e : updates body i j = us := by simp [updates, hb]
    rw [e]
    exact ⟨h1, h2, h3⟩

/-! ### The initial state -/

theorem instrs_sum (sync : Sync) (us : List (Nat × R)) (q : Nat) :
    ((instrs sync us).map fun i => i.sum q).sum = sumAt us q := by
  cases sync with
  | critical => simp [instrs, Instr.sum]
  | atomicEach =>
    simp only [instrs, sumAt, List.map_map]
    congr 1
    apply List.map_congr_left
    intro u _
    simp [Instr.sum, sumAt]
  | none =>
    simp only [instrs, sumAt, List.map_map]
    congr 1

theorem flatMap_sum {α β} (l : List α) (f : α → List β) (g : β → R) :
    ((l.flatMap f).map g).sum = (l.map fun a => ((f a).map g).sum).sum := by
  induction l with
  | nil => rfl
  | cons a l ih => simp [List.flatMap_cons, ih]

theorem threadCode_sum (sync : Sync) (nmax : Nat) (body : Nat → Nat → Res (List (Nat × R))) (chunk : List Nat) (q : Nat) :
    codeSum (threadCode sync nmax body chunk) q =
      (chunk.map fun i => ∑ j ∈ range nmax, sumAt (updates body i j) q).sum := by
  unfold codeSum threadCode
  rw [flatMap_sum]
  congr 1
  apply List.map_congr_left
  intro i _
  rw [flatMap_sum, ← list_sum_range]
  congr 1
  apply List.map_congr_left
  intro j _
  exact instrs_sum sync _ q

theorem start_total (sync : Sync) {n : Nat} (nmax : Nat) (body : Nat → Nat → Res (List (Nat × R)))
    {chunks : List (List Nat)} (hs : Schedule n chunks) (out : List R) (q : Nat) :
    (start sync nmax body chunks out).total q = ∑ i ∈ range n, ∑ j ∈ range nmax, sumAt (updates body i j) q := by
  unfold Machine.total start
  simp only [List.map_map, Function.comp_def, threadCode_sum]
  rw [← list_sum_range]
  rw [← (hs.map (fun i => ∑ j ∈ range nmax, sumAt (updates body i j) q)).sum_eq]
  rw [List.map_flatten, List.sum_flatten, List.map_map]
  rfl

omit [CommRing R] in
theorem mem_threadCode {sync : Sync} {nmax : Nat} {body : Nat → Nat → Res (List (Nat × R))} {chunk : List Nat}
    {i : Instr R} (h : i ∈ threadCode sync nmax body chunk) :
    ∃ k ∈ chunk, ∃ j, j < nmax ∧ i ∈ instrs sync (updates body k j) := by
  simp only [threadCode, List.mem_flatMap, List.mem_range] at h
  exact h

omit [CommRing R] in
theorem positions_instrs {sync : Sync} {us : List (Nat × R)} {i : Instr R} (h : i ∈ instrs sync us) {p : Nat}
    (hp : p ∈ i.positions) : ∃ u ∈ us, u.1 = p := by
  cases sync with
  | critical =>
    simp only [instrs, List.mem_singleton] at h
    subst h
    simpa [Instr.positions] using hp
  | atomicEach =>
    simp only [instrs, List.mem_map] at h
    obtain ⟨u, hu, rfl⟩ := h
    simp [Instr.positions] at hp
    exact ⟨u, hu, hp.symm⟩
  | none =>
    simp only [instrs, List.mem_map] at h
    obtain ⟨u, hu, rfl⟩ := h
    simp [Instr.positions] at hp
    exact ⟨u, hu, hp.symm⟩

/-- The initial state satisfies the invariant, if there is no race. -/
theorem start_inv {sync : Sync} {n nmax : Nat} {body : Nat → Nat → Res (List (Nat × R))} {chunks : List (List Nat)}
    (hs : Schedule n chunks) {out out' : List R} (hseq : loops n nmax body out = .ok out')
    (hr : RaceFree (start sync nmax body chunks out).threads) :
    Inv out.length (fun q => out'.getD q 0) (start sync nmax body chunks out) := by
  obtain ⟨h1, h2, h3⟩ := loops_ok hseq
  refine ⟨rfl, ?_, hr, ?_, ?_⟩
  · intro q hq
    rw [start_total sync nmax body hs out q, h3 q hq]; rfl
  · intro th hth i hi p hp
    simp only [start, List.mem_map] at hth
    obtain ⟨c, hc, rfl⟩ := hth
    obtain ⟨k, hk, j, hj, hi⟩ := mem_threadCode hi
    obtain ⟨u, hu, rfl⟩ := positions_instrs hi hp
    refine h2 k ?_ j hj u hu
    exact List.mem_range.1 (hs.mem_iff.1 (List.mem_flatten.2 ⟨c, hc, hk⟩))
  · intro th hth a ha
    simp only [start, List.mem_map] at hth
    obtain ⟨c, _, rfl⟩ := hth
    cases ha

/-- Without race, an execution that is stopped has finished, with the sequential result. -/
theorem parallel_correct {sync : Sync} {n nmax : Nat} {body : Nat → Nat → Res (List (Nat × R))} {chunks : List (List Nat)}
    (hs : Schedule n chunks) {out out' : List R} (hseq : loops n nmax body out = .ok out')
    (hr : RaceFree (start sync nmax body chunks out).threads) {s : Machine R}
    (hex : Exec (start sync nmax body chunks out) s) :
    (s.finished → s.out = out') ∧ (¬ s.finished → ∃ s', Step s s') := by
  have h := (start_inv hs hseq hr).exec hex
  refine ⟨fun hf => ?_, h.progress⟩
  rw [h.final hf]
  have hl := (loops_ok hseq).1
  rw [← hl]
  apply List.ext_getElem?
  intro q
  by_cases hq : q < out'.length
  · simp [hq, List.getD_eq_getElem?_getD]
  · rw [List.getElem?_eq_none (by simp; omega), List.getElem?_eq_none (by omega)]

theorem raceFree_sync {sync : Sync} (hsync : sync ≠ .none) {nmax : Nat} {body : Nat → Nat → Res (List (Nat × R))}
    {chunks : List (List Nat)} {out : List R} : RaceFree (start sync nmax body chunks out).threads := by
  intro t u a b _ ha _ p x hp
  have := List.mem_of_getElem? ha
  simp only [start, List.mem_map] at this
  obtain ⟨c, _, rfl⟩ := this
  obtain ⟨k, _, j, _, hi⟩ := mem_threadCode hp
  cases sync with
  | none => exact absurd rfl hsync
  | critical => simp [instrs] at hi
  | atomicEach => simp [instrs] at hi

/-- A kernel whose iteration `i` only writes in the block `i` of `w` components of the output. -/
def RowLocal (w : Nat) (body : Nat → Nat → Res (List (Nat × R))) : Prop :=
  ∀ i j us, body i j = .ok us → ∀ u ∈ us, u.1 / w = i

omit [CommRing R] in
theorem RowLocal.updates {w : Nat} {body : Nat → Nat → Res (List (Nat × R))} (h : RowLocal w body) {i j : Nat} {u : Nat × R}
    (hu : u ∈ updates body i j) : u.1 / w = i := by
  unfold Sparse.updates at hu
  cases hb : body i j with
  | error e => rw [hb] at hu; cases hu
  | ok us =>
    rw [hb] at hu
    exact h i j us hb u hu

omit [CommRing R] in
theorem raceFree_row {w : Nat} {sync : Sync} {n nmax : Nat} {body : Nat → Nat → Res (List (Nat × R))} (hb : RowLocal w body)
    {chunks : List (List Nat)} (hs : Schedule n chunks) {out : List R} :
    RaceFree (start sync nmax body chunks out).threads := by
  intro t u a b htu ha hb' p x hp i hi hpi
  simp only [start, List.getElem?_map, Option.map_eq_some_iff] at ha hb'
  obtain ⟨c, hc, rfl⟩ := ha
  obtain ⟨d, hd, rfl⟩ := hb'
  obtain ⟨k, hk, j, _, hi1⟩ := mem_threadCode hp
  obtain ⟨k', hk', j', _, hi2⟩ := mem_threadCode hi
  obtain ⟨v, hv, hv'⟩ := positions_instrs hi1 (p := p) (by simp [Instr.positions])
  obtain ⟨v', hv2, hv2'⟩ := positions_instrs hi2 hpi
  have e1 := hb.updates hv
  have e2 := hb.updates hv2
  rw [hv'] at e1
  rw [hv2'] at e2
  have hkk : k = k' := by rw [← e1, ← e2]
  subst hkk
  -- the iteration `k` would be in two chunks
  have hnd : chunks.flatten.Nodup := hs.nodup_iff.2 List.nodup_range
  rw [List.nodup_flatten] at hnd
  have hpw := List.pairwise_iff_getElem.1 hnd.2
  obtain ⟨ht, hct⟩ := List.getElem?_eq_some_iff.1 hc
  obtain ⟨hu, hdu⟩ := List.getElem?_eq_some_iff.1 hd
  rcases Nat.lt_or_gt_of_ne htu with hlt | hlt
  · have := hpw t u ht hu hlt
    rw [hct, hdu] at this
    exact this hk hk'
  · have := hpw u t hu ht hlt
    rw [hct, hdu] at this
    exact this hk' hk

end
end Verif.Sparse
