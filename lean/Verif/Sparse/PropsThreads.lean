import Verif.Sparse.Threads
import Verif.Py.Lemmas

/-!
C29 and C71: whatever the number of threads, the schedule of the iterations and the interleaving of the threads, the
kernels give the sequential result.
-/
namespace Verif.Sparse
open Verif.Py

/-- Every execution from `s` stops, and when it stops all the threads have finished and the output is `out'`. -/
structure AlwaysGives {R : Type} [Add R] (s : Machine R) (out' : List R) : Prop where
  finished : ∀ s', Exec s s' → s'.finished → s'.out = out'
  progress : ∀ s', Exec s s' → ¬ s'.finished → ∃ s'', Step s' s''
  stops : ∀ f : Nat → Machine R, f 0 = s → ¬ ∀ k, Step (f k) (f (k + 1))

section
variable {R : Type} [CommRing R]

theorem no_infinite (f : Nat → Machine R) : ¬ ∀ k, Step (f k) (f (k + 1)) := by
  intro h
  have : ∀ k, (f k).fuel + k ≤ (f 0).fuel := by
    intro k
    induction k with
    | zero => simp
    | succ k ih => have := (h k).fuel_lt; omega
  have := this ((f 0).fuel + 1)
  omega

theorem alwaysGives {sync : Sync} {n nmax : Nat} {body : Nat → Nat → Res (List (Nat × R))} {chunks : List (List Nat)}
    (hs : Schedule n chunks) {out out' : List R} (hseq : loops n nmax body out = .ok out')
    (hr : RaceFree (start sync nmax body chunks out).threads) : AlwaysGives (start sync nmax body chunks out) out' :=
  ⟨fun _ h => (parallel_correct hs hseq hr h).1, fun _ h => (parallel_correct hs hseq hr h).2,
   fun f _ => no_infinite f⟩

/-- The column storage kernels, with the synchronisation of their updates: the threads share the iterations over the columns
and may write at the same position. -/
inductive ColKernel : Sync → (Nat → Nat → Res (List (Nat × R))) → Prop
  /-- sparse.f90.j2 34-54: `!$omp atomic` 38, 50. -/
  | scalar (flat nmax input) : ColKernel .atomicEach (fscBody flat nmax input)
  /-- sparse.f90.j2 78-100: `!$omp critical` 82, 95. -/
  | homothety (flat nmax input ext) : ColKernel .critical (fscHomothetyBody flat nmax input ext)
  /-- sparse.f90.j2 124-137: `!$omp atomic` 129, 132. -/
  | rot2d (flat nmax input) : ColKernel .atomicEach (fscRot2dBody flat nmax input)
  /-- sparse.f90.j2 161-176: `!$omp atomic` 166, 168, 171. -/
  | rot3d (flat nmax input) : ColKernel .atomicEach (fscRot3dBody flat nmax input)
  /-- module_operators.f90.j2: `!$omp critical` 28, 52, 100, 126, 178, 206, `!$omp atomic` 77, 154 (blocks whose output has
  one component). -/
  | block (m n flat nmax input) : ColKernel (if n = 1 then .atomicEach else .critical) (fscBlockBody m n flat nmax input)

/-- The row storage kernels: the threads share the iterations over the rows.  The updates are not synchronised
(sparse.f90.j2 199-220, 244-262, 372-383, 407-419, module_operators.f90.j2 222-432). -/
inductive RowKernel : (Nat → Nat → Res (List (Nat × R))) → Prop
  | scalar (flat nmax input) : RowKernel (fsrBody flat nmax input)
  | homothety (flat nmax input ext) : RowKernel (fsrHomothetyBody flat nmax input ext)
  | rot2d (flat nmax input) : RowKernel (fsrRot2dBody flat nmax input)
  | rot3d (flat nmax input) : RowKernel (fsrRot3dBody flat nmax input)
  | block (m n flat nmax input) : RowKernel (fsrBlockBody m n flat nmax input)

/-- C29: column storage kernels (back-projection) give the sequential result for every number of threads, every schedule and every
interleaving. -/
theorem C29_col {sync : Sync} {body : Nat → Nat → Res (List (Nat × R))} (hk : ColKernel sync body) {n nmax : Nat}
    {chunks : List (List Nat)} (hs : Schedule n chunks) {out out' : List R} (hseq : loops n nmax body out = .ok out') :
    AlwaysGives (start sync nmax body chunks out) out' := by
  apply alwaysGives hs hseq
  apply raceFree_sync
  cases hk <;> try (intro h; cases h)
  split <;> intro h <;> cases h

omit [CommRing R] in
theorem rowLocal_of {β} {w : Nat} {flat : List (Elem β)} {nmax : Nat} {f : Nat → Elem β → Nat → Res (List (Nat × R))}
    (h : ∀ i e col us, f i e col = .ok us → ∀ u ∈ us, u.1 / w = i) :
    RowLocal w (fun i j => (elemAt flat nmax i j).bind fun e => cycleNeg e (f i e)) := by
  intro i j us hus u hu
  obtain ⟨e, _, h2⟩ := bind_eq_ok.1 hus
  unfold cycleNeg at h2
  split at h2
  · cases h2; cases hu
  · exact h i e _ us h2 u hu

omit [CommRing R] in
theorem read_eq {v : List R} {p : Nat} {α} {k : R → Res α} {a : α} (h : (readAt v p >>= k) = .ok a) :
    ∃ x, k x = .ok a := by
  obtain ⟨x, _, h2⟩ := bind_eq_ok.1 h
  exact ⟨x, h2⟩

omit [CommRing R] in
theorem mapM_positions {g : Nat → Nat} {f : Nat → Res R} :
    ∀ {l : List Nat} {us : List (Nat × R)}, l.mapM (fun k => do let x ← f k; return (g k, x)) = .ok us →
      ∀ u ∈ us, ∃ k ∈ l, u.1 = g k := by
  intro l
  induction l with
  | nil => intro us h u hu; simp [pure, Except.pure] at h; subst h; cases hu
  | cons a l ih =>
    intro us h u hu
    rw [List.mapM_cons] at h
    obtain ⟨y, hy, h2⟩ := bind_eq_ok.1 h
    obtain ⟨ys, hys, h3⟩ := bind_eq_ok.1 h2
    cases h3
    rcases List.mem_cons.1 hu with rfl | hu
    · obtain ⟨z, _, hz⟩ := bind_eq_ok.1 hy
      cases hz
      exact ⟨a, List.mem_cons_self .., rfl⟩
    · obtain ⟨k, hk, e⟩ := ih hys u hu
      exact ⟨k, List.mem_cons_of_mem _ hk, e⟩

theorem RowKernel.local {body : Nat → Nat → Res (List (Nat × R))} (hk : RowKernel body) : ∃ w, RowLocal w body := by
  cases hk with
  | scalar flat nmax input =>
    refine ⟨1, rowLocal_of ?_⟩
    intro i e col us h u hu
    obtain ⟨_, h⟩ := read_eq h
    cases h
    simp at hu; subst hu; simp
  | homothety flat nmax input ext =>
    refine ⟨ext, rowLocal_of ?_⟩
    intro i e col us h u hu
    have h' : (List.range ext).mapM (fun k => do let x ← (readAt input (col * ext + k)).map (e.value * ·); return (i * ext + k, x)) = .ok us := by
      rw [← h]
      congr 1
      funext k
      cases readAt input (col * ext + k) <;> rfl
    obtain ⟨k, hk, e⟩ := mapM_positions h' u hu
    rw [e, Nat.mul_comm, Nat.mul_add_div (by have := List.mem_range.1 hk; omega), Nat.div_eq_of_lt (List.mem_range.1 hk), Nat.add_zero]
  | rot2d flat nmax input =>
    refine ⟨2, rowLocal_of ?_⟩
    intro i e col us h u hu
    obtain ⟨_, h⟩ := read_eq h
    obtain ⟨_, h⟩ := read_eq h
    cases h
    simp at hu; rcases hu with rfl | rfl <;> simp only <;> omega
  | rot3d flat nmax input =>
    refine ⟨3, rowLocal_of ?_⟩
    intro i e col us h u hu
    obtain ⟨_, h⟩ := read_eq h
    obtain ⟨_, h⟩ := read_eq h
    obtain ⟨_, h⟩ := read_eq h
    cases h
    simp at hu; rcases hu with rfl | rfl | rfl <;> simp only <;> omega
  | block m n flat nmax input =>
    refine ⟨m, ?_⟩
    unfold fsrBlockBody
    dsimp only
    split
    all_goals first
      | (intro i j us h u hu; cases h; cases hu)
      | skip
    all_goals
      refine rowLocal_of ?_
      intro i e col us h u hu
      repeat obtain ⟨_, h⟩ := read_eq h
      cases h
      simp at hu
      rcases hu with rfl | rfl | rfl <;> simp only <;> omega

/-- C71: row storage kernels, whose updates are not synchronised, give the sequential result for every number of threads, every
schedule and every interleaving (there is no data race). -/
theorem C71_row {body : Nat → Nat → Res (List (Nat × R))} (hk : RowKernel body) {n nmax : Nat}
    {chunks : List (List Nat)} (hs : Schedule n chunks) {out out' : List R} (hseq : loops n nmax body out = .ok out') :
    RaceFree (start .none nmax body chunks out).threads ∧ AlwaysGives (start .none nmax body chunks out) out' := by
  obtain ⟨w, hw⟩ := hk.local
  exact ⟨raceFree_row hw hs, alwaysGives hs hseq (raceFree_row hw hs)⟩

end

/-! ### Concrete cases -/

/-- Two columns given to two threads, both with an element in the row 1. -/
example : AlwaysGives (start .atomicEach 2 (fscBody exFsc.flat 2 [1, 10]) [[1], [0]] [0, 0, 0]) [0, 5, -40] :=
  C29_col (.scalar ..) (n := 2) (by show List.Perm [1, 0] [0, 1]; decide) rfl

example : AlwaysGives (start .none 2 (fsrBody exFsr.flat 2 [1, 10, 100]) [[], [1], [0]] [0, 0]) [50, -400] :=
  (C71_row (.scalar ..) (n := 2) (by show List.Perm [1, 0] [0, 1]; decide) rfl).2

/-- Without the `!$omp atomic`, an execution loses an update: the theorem C29 is not true of unsynchronised column kernels. -/
example : ¬ AlwaysGives (start .none 1 (fscBody [⟨0, 1⟩, ⟨0, 1⟩] 1 [(5 : Int), 7]) [[0], [1]] [0]) [12] := by
  intro h
  have e1 : Exec (start .none 1 (fscBody [⟨0, 1⟩, ⟨0, 1⟩] 1 [(5 : Int), 7]) [[0], [1]] [0]) ⟨[⟨[], none⟩, ⟨[], none⟩], [7]⟩ := by
    refine .head (Step.load (t := 0) (p := 0) (x := 5) (code := []) (a := 0) rfl rfl) ?_
    refine .head (Step.load (t := 1) (p := 0) (x := 7) (code := []) (a := 0) rfl rfl) ?_
    refine .head (Step.store (t := 0) (p := 0) (x := 5) (code := []) (a := 0) rfl) ?_
    refine .head (Step.store (t := 1) (p := 0) (x := 7) (code := []) (a := 0) rfl) ?_
    exact .refl
  have := h.finished _ e1 (by intro th hth; simp at hth; rw [hth])
  revert this
  decide

end Verif.Sparse
