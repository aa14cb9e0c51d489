import Verif.Py.Basic
import Mathlib.Algebra.BigOperators.Group.List.Basic
import Mathlib.Algebra.Module.Basic
import Mathlib.Tactic

set_option linter.unusedSectionVars false
set_option linter.unusedSimpArgs false

/-!
Samplings: period and times (C64), mean direction (C99), arguments of the pointings (C100): src/pysimulators/packedtables/samplings.py.
-/
namespace Verif.Data
open Verif.Py

/-! ### Model -/

section Time
variable {K : Type} [Field K] [LinearOrder K] [IsStrictOrderedRing K]

/-- The sampling: the packed index, the attribute `period` and the explicit times. -/
structure Sampling (K : Type) where
  index : List Nat
  period : K
  times : Option (List K)

/-- samplings.py 29-48 `Sampling.__init__` for `n` samples without selection.  `hasattr(keywords, 'time')` (line 40) is about the attributes of
a dictionary, and is false. -/
def Sampling.init (n : Nat) (period : Option K) (time : Option (List K)) : Sampling K :=
  let hasTime := false
  let period := match period with
    | some p => p
    | none => if hasTime then 0 else 1
  ⟨List.range n, period, time⟩

/-- The attribute `time`: the explicit times, or the method of lines 50-51. -/
def Sampling.time (s : Sampling K) : List K :=
  match s.times with
  | some t => t
  | none => s.index.map fun i : Nat => (i : K) * s.period

end Time

section Centre
variable {K V : Type} [Field K] [AddCommGroup V] [Module K V]

/-- The attribute `masked`: a scalar or an array. -/
inductive Masked where
  | scalar (b : Bool)
  | array (l : List Bool)

/-- samplings.py 150-163, on a process: the number of valid samples and the sum of their directions. -/
def centreLocal (coords : List V) : Masked → Nat × V
  | .scalar true => (0, [(0 : V)].sum)
  | .scalar false => (coords.length, coords.sum)
  | .array l => ((l.map fun m => if m then 0 else 1).sum, ((coords.zip l).map fun c => if c.2 then 0 else c.1).sum)

/-- samplings.py 145-170 `get_center`, without the last conversion into spherical coordinates. -/
def centre (K : Type) [Field K] [Module K V] (ranks : List (List V × Masked)) : Res V :=
  let n := (ranks.map fun r => (centreLocal r.1 r.2).1).sum
  let c := (ranks.map fun r => (centreLocal r.1 r.2).2).sum
  if n = 0 then .error .valueError else .ok ((n : K)⁻¹ • c)

end Centre

/-- An argument: None, a scalar, or an array of a given shape (the identifier stands for the values). -/
inductive Arg where
  | none
  | scalar (id : Int)
  | array (id : Int) (shape : List Nat)
deriving DecidableEq, Repr

/-- The shape that numpy gives to an argument (None is an object without dimension). -/
def Arg.shape : Arg → List Nat
  | .none => []
  | .scalar _ => []
  | .array _ s => s

/-- `np.broadcast(a, b).shape`, from the last dimension (reversed shapes). -/
def broadcastRev : List Nat → List Nat → Option (List Nat)
  | [], t => some t
  | s, [] => some s
  | a :: s, b :: t =>
    match broadcastRev s t with
    | none => none
    | some r => if a = b then some (a :: r) else if a = 1 then some (b :: r) else if b = 1 then some (a :: r) else none

/-- `np.broadcast(*arrays).shape`. -/
def broadcastAll (l : List (List Nat)) : Res (List Nat) :=
  match l.foldl (fun acc s => acc.bind fun a => broadcastRev a s.reverse) (some []) with
  | none => .error .valueError
  | some s => .ok s.reverse

/-- The keywords of the three angles and of the time (`none` if the keyword is missing). -/
structure Keywords where
  a0 : Option Arg := none
  a1 : Option Arg := none
  a2 : Option Arg := none
  time : Option Arg := none

/-- samplings.py 77-110 `SamplingSpherical.__init__` with three names: the number of samples and the three angles. -/
def spherical (args : List Arg) (kw : Keywords) : Res (Nat × Arg × Arg × Arg) := do
  let (k0, k1, k2) ← match args with
    | [] | [_] =>
      if (kw.a0.isSome ∧ kw.a1.isNone) ∨ (kw.a1.isSome ∧ kw.a0.isNone) then .error .valueError
      else .ok (kw.a0.getD .none, kw.a1.getD .none, kw.a2.getD (.scalar 0))
    | [a, b] => .ok (a, b, .scalar 0)
    | [a, b, c] => .ok (a, b, c)
    | _ => .error .valueError
  let shape ← match args with
    | [a] =>
      match a with
      | .scalar n => if 0 ≤ n then .ok [n.toNat] else .error .valueError
      | _ => .error .valueError
    | _ => broadcastAll [k0.shape, k1.shape, k2.shape, (kw.time.getD .none).shape]
  match shape with
  | [] => .ok (1, k0, k1, k2)
  | [n] => .ok (n, k0, k1, k2)
  | _ => .error .valueError

/-! ### C64 -/

section Time
variable {K : Type} [Field K] [LinearOrder K] [IsStrictOrderedRing K]

/-- C64: without explicit times, the times are the indices multiplied by the period, which is the given one or one second. -/
theorem C64_times (n : Nat) (period : Option K) :
    (Sampling.init n period none).time = (List.range n).map (fun i : Nat => (i : K) * period.getD 1) ∧
    (Sampling.init n period none).period = period.getD 1 := by
  cases period <;> exact ⟨rfl, rfl⟩

/-- C64: the explicit times are the times, and an explicit period is the period. -/
theorem C64_explicit (n : Nat) (period : K) (t : Option (List K)) (times : List K) :
    (Sampling.init n (some period) t).period = period ∧ (Sampling.init n none (some times)).time = times := ⟨rfl, rfl⟩

/-- The sampling has a period: the times are equally spaced by it. -/
def Spaced (dt : K) (times : List K) : Prop := ∀ (i : Nat) (a b : K), times[i]? = some a → times[i + 1]? = some b → b - a = dt

/-- C64, partial: the times are spaced by the period, unless they are explicit without an explicit period.  Full statement: for explicit times too;
it is false, see `C64_violation`. -/
theorem C64_spaced_partial (n : Nat) (period : Option K) : Spaced (Sampling.init n period none).period (Sampling.init n period none).time := by
  intro i a b ha hb
  rw [(C64_times n period).1, List.getElem?_map] at ha hb
  rw [(C64_times n period).2]
  by_cases hi : i + 1 < n
  · rw [List.getElem?_range (by omega)] at ha
    rw [List.getElem?_range hi] at hb
    simp only [Option.map_some, Option.some.injEq] at ha hb
    rw [← ha, ← hb]
    push_cast
    ring
  · rw [List.getElem?_eq_none (l := List.range n) (by simpa using hi)] at hb
    cases hb

/-- C64 does not hold for explicit times: for equally spaced times, at least two, the period is right if and only if it is one second. -/
theorem C64_violation (n : Nat) (a dt : K) (hn : 2 ≤ n) :
    let times := (List.range n).map fun i : Nat => a + (i : K) * dt
    Spaced dt times ∧ (Spaced (Sampling.init n none (some times)).period times ↔ dt = 1) := by
  intro times
  have hs : Spaced dt times := by
    intro i x y hx hy
    simp only [times, List.getElem?_map] at hx hy
    by_cases hi : i + 1 < n
    · rw [List.getElem?_range (by omega)] at hx
      rw [List.getElem?_range hi] at hy
      simp only [Option.map_some, Option.some.injEq] at hx hy
      rw [← hx, ← hy]
      push_cast
      ring
    · rw [List.getElem?_eq_none (l := List.range n) (by simpa using hi)] at hy
      cases hy
  refine ⟨hs, fun h => ?_, ?_⟩
  · have e0 : times[0]? = some (a + ((0 : Nat) : K) * dt) := by
      simp only [times, List.getElem?_map]
      rw [List.getElem?_range (by omega), Option.map_some]
    have e1 : times[0 + 1]? = some (a + ((1 : Nat) : K) * dt) := by
      simp only [times, List.getElem?_map]
      rw [List.getElem?_range (by omega), Option.map_some]
    rw [← hs 0 _ _ e0 e1, h 0 _ _ e0 e1]
    rfl
  · intro hdt
    have : (Sampling.init n none (some times)).period = dt := by rw [hdt]; rfl
    rw [this]
    exact hs

example : (Sampling.init 3 (some (1 / 2 : ℚ)) none).time = [0, 1 / 2, 1] := by decide +kernel

end Time

/-! ### C99 -/

section Centre
variable {K V : Type} [Field K] [CharZero K] [AddCommGroup V] [Module K V]

/-- The flags of the samples of a process. -/
def flags (coords : List V) : Masked → List Bool
  | .scalar b => List.replicate coords.length b
  | .array l => l

/-- The directions of the valid samples of all the processes. -/
def validDirections (ranks : List (List V × Masked)) : List V :=
  ranks.flatMap fun r => ((r.1.zip (flags r.1 r.2)).filter fun c => !c.2).map Prod.fst

theorem centreLocal_eq (coords : List V) (m : Masked) (hm : ∀ l, m = .array l → l.length = coords.length) :
    centreLocal coords m = ((((coords.zip (flags coords m)).filter fun c => !c.2).map Prod.fst).length,
      (((coords.zip (flags coords m)).filter fun c => !c.2).map Prod.fst).sum) := by
  have key : ∀ (coords : List V) (l : List Bool), l.length = coords.length →
      ((l.map fun m => if m then 0 else 1).sum, ((coords.zip l).map fun c => if c.2 then 0 else c.1).sum)
        = ((((coords.zip l).filter fun c => !c.2).map Prod.fst).length, (((coords.zip l).filter fun c => !c.2).map Prod.fst).sum) := by
    intro coords
    induction coords with
    | nil =>
      intro l hl
      rw [List.length_eq_zero_iff.1 hl]
      rfl
    | cons c cs ih =>
      intro l hl
      match l, hl with
      | b :: l, hl =>
        have := ih l (by simpa using hl)
        rw [Prod.mk.injEq] at this
        obtain ⟨h1, h2⟩ := this
        cases b
        · simp only [List.map_cons, List.sum_cons, List.zip_cons_cons, List.filter_cons, Bool.not_false, if_true, Bool.false_eq_true, if_false,
            List.length_cons, h1, h2]
          rw [Nat.add_comm]
        · simp only [List.map_cons, List.sum_cons, List.zip_cons_cons, List.filter_cons, Bool.not_true, if_true, Bool.false_eq_true, if_false,
            h1, h2, zero_add]
  match m with
  | .array l => exact key coords l (hm l rfl)
  | .scalar true =>
    have : ((coords.zip (flags coords (.scalar true))).filter fun c => !c.2) = [] := by
      rw [List.filter_eq_nil_iff]
      intro c hc
      have := (List.of_mem_zip hc).2
      simp only [flags] at this
      simp [List.eq_of_mem_replicate this]
    rw [this]
    simp [centreLocal]
  | .scalar false =>
    have h1 : ((coords.zip (flags coords (.scalar false))).filter fun c => !c.2) = coords.zip (flags coords (.scalar false)) := by
      rw [List.filter_eq_self]
      intro c hc
      have := (List.of_mem_zip hc).2
      simp only [flags] at this
      simp [List.eq_of_mem_replicate this]
    rw [h1, List.map_fst_zip (by simp [flags])]
    rfl

/-- C99: the centre is the mean of the directions of the valid samples of all the processes, and there is an error exactly when there is none. -/
theorem C99_mean (ranks : List (List V × Masked)) (hm : ∀ r ∈ ranks, ∀ l, r.2 = .array l → l.length = r.1.length) :
    centre K ranks = if validDirections ranks = [] then .error .valueError
      else .ok (((validDirections ranks).length : K)⁻¹ • (validDirections ranks).sum) := by
  have h1 : (ranks.map fun r => (centreLocal r.1 r.2).1).sum = (validDirections ranks).length := by
    unfold validDirections
    induction ranks with
    | nil => rfl
    | cons r rs ih =>
      rw [List.map_cons, List.sum_cons, List.flatMap_cons, List.length_append, ih fun r hr => hm r (List.mem_cons_of_mem _ hr),
        centreLocal_eq r.1 r.2 (hm r (by simp))]
  have h2 : (ranks.map fun r => (centreLocal r.1 r.2).2).sum = (validDirections ranks).sum := by
    unfold validDirections
    clear h1
    induction ranks with
    | nil => rfl
    | cons r rs ih =>
      rw [List.map_cons, List.sum_cons, List.flatMap_cons, List.sum_append, ih fun r hr => hm r (List.mem_cons_of_mem _ hr),
        centreLocal_eq r.1 r.2 (hm r (by simp))]
  unfold centre
  simp only [h1, h2, List.length_eq_zero_iff]

/-- C99: the centre does not depend on the distribution of the samples over the processes. -/
theorem C99_distribution (ranks ranks' : List (List V × Masked)) (hm : ∀ r ∈ ranks, ∀ l, r.2 = .array l → l.length = r.1.length)
    (hm' : ∀ r ∈ ranks', ∀ l, r.2 = .array l → l.length = r.1.length) (hp : (validDirections ranks).Perm (validDirections ranks')) :
    centre K ranks = centre K ranks' := by
  rw [C99_mean ranks hm, C99_mean ranks' hm', hp.sum_eq, hp.length_eq]
  by_cases h : validDirections ranks = []
  · rw [h] at hp
    rw [if_pos h, if_pos hp.nil_eq.symm]
  · rw [if_neg h, if_neg]
    intro h'
    rw [h'] at hp
    exact h hp.eq_nil

example : centre ℚ [([(1 : ℚ), 2, 6], .array [false, true, false]), ([5], .scalar false), ([7], .scalar true)] = .ok 4 := by decide +kernel

end Centre

/-! ### C100 -/

/-- The angle that the caller gave for a name: by position, or else by keyword. -/
def given (args : List Arg) (i : Nat) (kw : Option Arg) : Option Arg :=
  if 2 ≤ args.length then (args[i]?).orElse fun _ => kw else kw

/-- C100: the first two angles are the given ones; they are given together or not at all. -/
theorem C100_angles {args : List Arg} {kw : Keywords} {n : Nat} {k0 k1 k2 : Arg} (h : spherical args kw = .ok (n, k0, k1, k2)) :
    k0 = (given args 0 kw.a0).getD .none ∧ k1 = (given args 1 kw.a1).getD .none ∧ (args.length ≤ 1 → (kw.a0.isSome ↔ kw.a1.isSome)) ∧
    args.length ≤ 3 := by
  unfold spherical at h
  simp only [bind, Except.bind] at h
  match args with
  | [] =>
    by_cases hc : (kw.a0.isSome ∧ kw.a1.isNone) ∨ (kw.a1.isSome ∧ kw.a0.isNone)
    · simp only [if_pos hc, reduceCtorEq] at h
    · simp only [if_neg hc] at h
      split at h
      · cases h
      · refine ⟨?_, ?_, ?_, by simp⟩
        · split at h <;> first | (simp only [Except.ok.injEq, Prod.mk.injEq] at h; obtain ⟨-, h0, h1, h2⟩ := h; simp [given, ← h0, ← h1, ← h2]) | simp_all [given]
        · split at h <;> first | (simp only [Except.ok.injEq, Prod.mk.injEq] at h; obtain ⟨-, h0, h1, h2⟩ := h; simp [given, ← h0, ← h1, ← h2]) | simp_all [given]
        · intro _
          cases h0 : kw.a0 <;> cases h1 : kw.a1 <;> simp_all
  | [a] =>
    by_cases hc : (kw.a0.isSome ∧ kw.a1.isNone) ∨ (kw.a1.isSome ∧ kw.a0.isNone)
    · simp only [if_pos hc, reduceCtorEq] at h
    · simp only [if_neg hc] at h
      cases a with
      | none => simp at h
      | array _ _ => simp at h
      | scalar k =>
        dsimp only at h
        by_cases hk : 0 ≤ k
        · simp only [if_pos hk, Except.ok.injEq, Prod.mk.injEq] at h
          refine ⟨by simp [given, h.2.1], by simp [given, h.2.2.1], ?_, by simp⟩
          intro _
          cases h0 : kw.a0 <;> cases h1 : kw.a1 <;> simp_all
        · simp [if_neg hk] at h
  | [a, b] =>
    dsimp only at h
    split at h
    · cases h
    · refine ⟨?_, ?_, ?_, by simp⟩
      · split at h <;> first | (simp only [Except.ok.injEq, Prod.mk.injEq] at h; obtain ⟨-, h0, h1, h2⟩ := h; simp [given, ← h0, ← h1, ← h2]) | simp_all [given]
      · split at h <;> first | (simp only [Except.ok.injEq, Prod.mk.injEq] at h; obtain ⟨-, h0, h1, h2⟩ := h; simp [given, ← h0, ← h1, ← h2]) | simp_all [given]
      · intro h'; simp at h'
  | [a, b, c] =>
    dsimp only at h
    split at h
    · cases h
    · refine ⟨?_, ?_, ?_, by simp⟩
      · split at h <;> first | (simp only [Except.ok.injEq, Prod.mk.injEq] at h; obtain ⟨-, h0, h1, h2⟩ := h; simp [given, ← h0, ← h1, ← h2]) | simp_all [given]
      · split at h <;> first | (simp only [Except.ok.injEq, Prod.mk.injEq] at h; obtain ⟨-, h0, h1, h2⟩ := h; simp [given, ← h0, ← h1, ← h2]) | simp_all [given]
      · intro h'; simp at h'
  | _ :: _ :: _ :: _ :: _ => simp at h

/-- C100, partial: the third angle is the given one, or zero, if it is not given by keyword after two arguments.  Full statement: without this
condition; it is false, see `C100_violation`. -/
theorem C100_third_partial {args : List Arg} {kw : Keywords} {n : Nat} {k0 k1 k2 : Arg} (h : spherical args kw = .ok (n, k0, k1, k2))
    (hk : args.length ≤ 1 ∨ kw.a2 = none) : k2 = (given args 2 kw.a2).getD (.scalar 0) := by
  unfold spherical at h
  simp only [bind, Except.bind] at h
  match args with
  | [] =>
    by_cases hc : (kw.a0.isSome ∧ kw.a1.isNone) ∨ (kw.a1.isSome ∧ kw.a0.isNone)
    · simp only [if_pos hc, reduceCtorEq] at h
    · simp only [if_neg hc] at h
      split at h
      · cases h
      · split at h <;> first | (simp only [Except.ok.injEq, Prod.mk.injEq] at h; obtain ⟨-, h0, h1, h2⟩ := h; simp [given, ← h0, ← h1, ← h2]) | simp_all [given]
  | [a] =>
    by_cases hc : (kw.a0.isSome ∧ kw.a1.isNone) ∨ (kw.a1.isSome ∧ kw.a0.isNone)
    · simp only [if_pos hc, reduceCtorEq] at h
    · simp only [if_neg hc] at h
      cases a with
      | none => simp at h
      | array _ _ => simp at h
      | scalar k =>
        dsimp only at h
        by_cases hk : 0 ≤ k
        · simp only [if_pos hk, Except.ok.injEq, Prod.mk.injEq] at h
          simp [given, h.2.2.2]
        · simp [if_neg hk] at h
  | [a, b] =>
    dsimp only at h
    split at h
    · cases h
    · have hk' : kw.a2 = none := hk.resolve_left (by simp)
      split at h <;> first | (simp only [Except.ok.injEq, Prod.mk.injEq] at h; obtain ⟨-, h0, h1, h2⟩ := h; simp [given, ← h0, ← h1, ← h2, hk']) | simp_all [given]
  | [a, b, c] =>
    dsimp only at h
    split at h
    · cases h
    · split at h <;> first | (simp only [Except.ok.injEq, Prod.mk.injEq] at h; obtain ⟨-, h0, h1, h2⟩ := h; simp [given, ← h0, ← h1, ← h2]) | simp_all [given]
  | _ :: _ :: _ :: _ :: _ => simp at h

/-- C100 does not hold for the third angle given by keyword after two arguments: it is replaced by zero without error. -/
theorem C100_violation : spherical [.array 1 [5], .array 2 [5]] { a2 := some (.array 3 [5]) } = .ok (5, .array 1 [5], .array 2 [5], .scalar 0) := by
  decide +kernel

/-- The longest of the arrays among the arguments, which have at most one dimension. -/
theorem broadcast_one {l : List (List Nat)} {n : Nat} (h : broadcastAll l = .ok [n]) :
    (∀ s ∈ l, s = [] ∨ s = [1] ∨ s = [n]) ∧ (n = 1 ∨ [n] ∈ l) ∧ ∃ s ∈ l, s ≠ [] := by
  have key : ∀ (l : List (List Nat)) (acc : List Nat), (∃ r, acc.length ≤ 1 ∧
      l.foldl (fun a s => a.bind fun a => broadcastRev a s.reverse) (some acc) = some r ∧ r = [n]) →
      (∀ s ∈ l, s = [] ∨ s = [1] ∨ s = [n]) ∧ (acc = [] ∨ acc = [1] ∨ acc = [n]) ∧ (n = 1 ∨ [n] ∈ l ∨ acc = [n]) ∧ (acc ≠ [] ∨ ∃ s ∈ l, s ≠ []) := by
    intro l
    induction l with
    | nil =>
      rintro acc ⟨r, hacc, hr, rfl⟩
      simp only [List.foldl_nil, Option.some.injEq] at hr
      subst hr
      simp
    | cons s l ih =>
      rintro acc ⟨r, hacc, hr, rfl⟩
      rw [List.foldl_cons, Option.bind_some] at hr
      cases hb : broadcastRev acc s.reverse with
      | none =>
        rw [hb] at hr
        exfalso
        have : ∀ l : List (List Nat), l.foldl (fun a s => a.bind fun a => broadcastRev a s.reverse) none = none := by
          intro l
          induction l with
          | nil => rfl
          | cons s l ih => rw [List.foldl_cons, Option.bind_none, ih]
        rw [this] at hr
        cases hr
      | some acc' =>
        rw [hb] at hr
        have hlen : ∀ (a b c : List Nat), broadcastRev a b = some c → c.length = max a.length b.length := by
          intro a
          induction a with
          | nil =>
            intro b c h
            simp only [broadcastRev, Option.some.injEq] at h
            rw [h]
            simp
          | cons x a iha =>
            intro b c h
            cases b with
            | nil =>
              simp only [broadcastRev, Option.some.injEq] at h
              rw [← h]
              simp
            | cons y b =>
              simp only [broadcastRev] at h
              cases hb : broadcastRev a b with
              | none => rw [hb] at h; cases h
              | some c' =>
                rw [hb] at h
                dsimp only at h
                have := iha b c' hb
                split at h
                · simp only [Option.some.injEq] at h; rw [← h, List.length_cons, List.length_cons, List.length_cons, this]; omega
                · split at h
                  · simp only [Option.some.injEq] at h; rw [← h, List.length_cons, List.length_cons, List.length_cons, this]; omega
                  · split at h
                    · simp only [Option.some.injEq] at h; rw [← h, List.length_cons, List.length_cons, List.length_cons, this]; omega
                    · cases h
        have hmono : ∀ (l : List (List Nat)) (a c : List Nat),
            l.foldl (fun a s => a.bind fun a => broadcastRev a s.reverse) (some a) = some c → a.length ≤ c.length := by
          intro l
          induction l with
          | nil => intro a c h; simp only [List.foldl_nil, Option.some.injEq] at h; rw [h]
          | cons s l ih =>
            intro a c h
            rw [List.foldl_cons, Option.bind_some] at h
            cases hb : broadcastRev a s.reverse with
            | none =>
              rw [hb] at h
              exfalso
              have : ∀ l : List (List Nat), l.foldl (fun a s => a.bind fun a => broadcastRev a s.reverse) none = none := by
                intro l
                induction l with
                | nil => rfl
                | cons s l ih => rw [List.foldl_cons, Option.bind_none, ih]
              rw [this] at h
              cases h
            | some a' =>
              rw [hb] at h
              have h1 := ih a' c h
              have h2 := hlen _ _ _ hb
              omega
        have h1 := hmono l acc' [n] hr
        have h2 := hlen _ _ _ hb
        rw [List.length_singleton] at h1
        rw [List.length_reverse] at h2
        obtain ⟨e1, e2, e3, e4⟩ := ih acc' ⟨[n], h1, hr, rfl⟩
        have hs : s.length ≤ 1 := by omega
        match acc, s, hacc, hs, hb with
        | [], [], _, _, hb =>
          simp only [List.reverse_nil, broadcastRev, Option.some.injEq] at hb
          subst hb
          refine ⟨?_, Or.inl rfl, ?_, ?_⟩
          · intro s hs'
            rcases List.mem_cons.1 hs' with rfl | hs'
            · exact Or.inl rfl
            · exact e1 s hs'
          · rcases e3 with e | e | e
            · exact Or.inl e
            · exact Or.inr (Or.inl (List.mem_cons_of_mem _ e))
            · cases e
          · rcases e4 with e | ⟨s, hs', e⟩
            · exact absurd rfl e
            · exact Or.inr ⟨s, List.mem_cons_of_mem _ hs', e⟩
        | [], [y], _, _, hb =>
          simp only [List.reverse_cons, List.reverse_nil, List.nil_append, broadcastRev, Option.some.injEq] at hb
          subst hb
          refine ⟨?_, Or.inl rfl, ?_, Or.inr ⟨[y], by simp, by simp⟩⟩
          · intro s hs'
            rcases List.mem_cons.1 hs' with rfl | hs'
            · exact e2
            · exact e1 s hs'
          · rcases e3 with e | e | e
            · exact Or.inl e
            · exact Or.inr (Or.inl (List.mem_cons_of_mem _ e))
            · exact Or.inr (Or.inl (by rw [e]; simp))
        | [x], [], _, _, hb =>
          simp only [List.reverse_nil, broadcastRev, Option.some.injEq] at hb
          subst hb
          refine ⟨?_, e2, ?_, Or.inl (by simp)⟩
          · intro s hs'
            rcases List.mem_cons.1 hs' with rfl | hs'
            · exact Or.inl rfl
            · exact e1 s hs'
          · rcases e3 with e | e | e
            · exact Or.inl e
            · exact Or.inr (Or.inl (List.mem_cons_of_mem _ e))
            · exact Or.inr (Or.inr e)
        | [x], [y], _, _, hb =>
          simp only [List.reverse_cons, List.reverse_nil, List.nil_append, broadcastRev] at hb
          have hcase : (x = y ∧ acc' = [x]) ∨ (x = 1 ∧ acc' = [y]) ∨ (y = 1 ∧ acc' = [x]) := by
            split at hb
            · rename_i h; exact Or.inl ⟨h, (Option.some.inj hb).symm⟩
            · split at hb
              · rename_i h; exact Or.inr (Or.inl ⟨h, (Option.some.inj hb).symm⟩)
              · split at hb
                · rename_i h; exact Or.inr (Or.inr ⟨h, (Option.some.inj hb).symm⟩)
                · cases hb
          have hl : ∀ s ∈ l, s = [] ∨ s = [1] ∨ s = [n] := e1
          rcases hcase with ⟨rfl, rfl⟩ | ⟨rfl, rfl⟩ | ⟨rfl, rfl⟩
          · refine ⟨?_, e2, ?_, Or.inl (by simp)⟩
            · intro s hs'
              rcases List.mem_cons.1 hs' with rfl | hs'
              · exact e2
              · exact e1 s hs'
            · rcases e3 with e | e | e
              · exact Or.inl e
              · exact Or.inr (Or.inl (List.mem_cons_of_mem _ e))
              · exact Or.inr (Or.inr e)
          · refine ⟨?_, Or.inr (Or.inl rfl), ?_, Or.inl (by simp)⟩
            · intro s hs'
              rcases List.mem_cons.1 hs' with rfl | hs'
              · exact e2
              · exact e1 s hs'
            · rcases e3 with e | e | e
              · exact Or.inl e
              · exact Or.inr (Or.inl (List.mem_cons_of_mem _ e))
              · exact Or.inr (Or.inl (by rw [e]; simp))
          · refine ⟨?_, e2, ?_, Or.inl (by simp)⟩
            · intro s hs'
              rcases List.mem_cons.1 hs' with rfl | hs'
              · exact Or.inr (Or.inl rfl)
              · exact e1 s hs'
            · rcases e3 with e | e | e
              · exact Or.inl e
              · exact Or.inr (Or.inl (List.mem_cons_of_mem _ e))
              · exact Or.inr (Or.inr e)
  unfold broadcastAll at h
  split at h
  · cases h
  · rename_i r hr
    simp only [Except.ok.injEq] at h
    have hr' : r = [n] := by
      have := congrArg List.reverse h
      simpa using this
    obtain ⟨e1, -, e3, e4⟩ := key l [] ⟨r, by simp, hr, hr'⟩
    refine ⟨e1, ?_, ?_⟩
    · rcases e3 with e | e | e
      · exact Or.inl e
      · exact Or.inr e
      · cases e
    · rcases e4 with e | e
      · exact absurd rfl e
      · exact e

/-- C100: the number of samples is the argument if it is a number, otherwise the common length of the angles and times that are arrays. -/
theorem C100_length {args : List Arg} {kw : Keywords} {n : Nat} {k0 k1 k2 : Arg} (h : spherical args kw = .ok (n, k0, k1, k2)) :
    args = [.scalar n] ∨ (args.length ≠ 1 ∧ ∀ s ∈ [k0.shape, k1.shape, k2.shape, (kw.time.getD .none).shape], s = [] ∨ s = [1] ∨ s = [n]) := by
  have key : ∀ {shape : List Nat} {k0' k1' k2' : Arg}, (match shape with
      | [] => (.ok (1, k0', k1', k2') : Res (Nat × Arg × Arg × Arg))
      | [n] => .ok (n, k0', k1', k2')
      | _ => .error .valueError) = .ok (n, k0, k1, k2) → broadcastAll [k0'.shape, k1'.shape, k2'.shape, (kw.time.getD .none).shape] = .ok shape →
      ∀ s ∈ [k0.shape, k1.shape, k2.shape, (kw.time.getD .none).shape], s = [] ∨ s = [1] ∨ s = [n] := by
    intro shape k0' k1' k2' hm hb
    split at hm
    · simp only [Except.ok.injEq, Prod.mk.injEq] at hm
      obtain ⟨rfl, rfl, rfl, rfl⟩ := hm
      -- all the shapes are empty
      have hlen : ∀ (a b : List Nat) c, broadcastRev a b = some c → c = [] → a = [] ∧ b = [] := by
        intro a b c h hc
        subst hc
        cases a with
        | nil => simp only [broadcastRev, Option.some.injEq] at h; exact ⟨rfl, h⟩
        | cons x a =>
          cases b with
          | nil => simp [broadcastRev] at h
          | cons y b =>
            simp only [broadcastRev] at h
            split at h
            · cases h
            · split at h
              · cases h
              · split at h
                · cases h
                · split at h <;> cases h
      have hall : ∀ (l : List (List Nat)) (a : List Nat),
          l.foldl (fun a s => a.bind fun a => broadcastRev a s.reverse) (some a) = some [] → a = [] ∧ ∀ s ∈ l, s = [] := by
        intro l
        induction l with
        | nil => intro a h; simp only [List.foldl_nil, Option.some.injEq] at h; exact ⟨h, by simp⟩
        | cons s l ih =>
          intro a h
          rw [List.foldl_cons, Option.bind_some] at h
          cases hb : broadcastRev a s.reverse with
          | none =>
            rw [hb] at h
            exfalso
            have : ∀ l : List (List Nat), l.foldl (fun a s => a.bind fun a => broadcastRev a s.reverse) none = none := by
              intro l
              induction l with
              | nil => rfl
              | cons s l ih => rw [List.foldl_cons, Option.bind_none, ih]
            rw [this] at h
            cases h
          | some a' =>
            rw [hb] at h
            obtain ⟨rfl, h2⟩ := ih a' h
            obtain ⟨h3, h4⟩ := hlen _ _ _ hb rfl
            refine ⟨h3, ?_⟩
            intro s' hs'
            rcases List.mem_cons.1 hs' with rfl | hs'
            · simpa using h4
            · exact h2 s' hs'
      unfold broadcastAll at hb
      split at hb
      · cases hb
      · rename_i r hr
        simp only [Except.ok.injEq, List.reverse_eq_nil_iff] at hb
        rw [hb] at hr
        exact fun s hs => Or.inl ((hall _ _ hr).2 s hs)
    · simp only [Except.ok.injEq, Prod.mk.injEq] at hm
      obtain ⟨rfl, rfl, rfl, rfl⟩ := hm
      exact (broadcast_one hb).1
    · cases hm
  unfold spherical at h
  simp only [bind, Except.bind] at h
  match args with
  | [] =>
    right
    refine ⟨by simp, ?_⟩
    by_cases hc : (kw.a0.isSome ∧ kw.a1.isNone) ∨ (kw.a1.isSome ∧ kw.a0.isNone)
    · simp only [if_pos hc, reduceCtorEq] at h
    · simp only [if_neg hc] at h
      split at h
      · cases h
      · rename_i shape hb
        exact key h hb
  | [a] =>
    left
    by_cases hc : (kw.a0.isSome ∧ kw.a1.isNone) ∨ (kw.a1.isSome ∧ kw.a0.isNone)
    · simp only [if_pos hc, reduceCtorEq] at h
    · simp only [if_neg hc] at h
      cases a with
      | none => simp at h
      | array _ _ => simp at h
      | scalar k =>
        dsimp only at h
        by_cases hk : 0 ≤ k
        · simp only [if_pos hk, Except.ok.injEq, Prod.mk.injEq] at h
          rw [← h.1, Int.toNat_of_nonneg hk]
        · simp [if_neg hk] at h
  | [a, b] =>
    right
    refine ⟨by simp, ?_⟩
    dsimp only at h
    split at h
    · cases h
    · rename_i shape hb
      exact key h hb
  | [a, b, c] =>
    right
    refine ⟨by simp, ?_⟩
    dsimp only at h
    split at h
    · cases h
    · rename_i shape hb
      exact key h hb
  | _ :: _ :: _ :: _ :: _ => simp at h

example : spherical [] { a0 := some (.array 1 [4]), a1 := some (.scalar 2), time := some (.array 5 [4]) } = .ok (4, .array 1 [4], .scalar 2, .scalar 0) := by
  decide +kernel

end Verif.Data
