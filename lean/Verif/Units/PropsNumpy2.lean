import Verif.Units.PropsNumpy

/-!
Property C116: rejected units, and functions of the table.
-/
set_option linter.unusedSectionVars false

namespace Verif.Units
open Verif.Py RatPow LawfulRatPow

section
variable {K : Type} [Field K] [LinearOrder K] [IsStrictOrderedRing K] [LawfulRatPow K]
variable {G : DTable K} {v : Sym → K}

/-! ### Incommensurable operands -/

/-- The definitions of the symbols of the units of the array and of the common unit have a depth less than `n`. -/
def Bounded (G : DTable K) (n : Nat) (u : UnitD) (a : Arr K) : Prop :=
  ∃ rank, Ranked a.derived G rank ∧ ∀ p ∈ a.unit ++ u, rank p.1 < n

theorem convertArr_total {n : Nat} {u : UnitD} {a : Arr K} (h2 : u ≠ []) (hb : Bounded G n u a) :
    convertArr (n + 1) G u a = .error .unitError ∨ ∃ a', convertArr (n + 1) G u a = .ok a' := by
  unfold convertArr
  split
  · rename_i hc
    obtain ⟨rank, hr, hn⟩ := hb
    obtain ⟨r1, e1⟩ := si_total hr n ⟨1, a.unit⟩ fun p hp => hn p (List.mem_append_left _ hp)
    obtain ⟨r2, e2⟩ := si_total hr n ⟨1, u⟩ fun p hp => hn p (List.mem_append_right _ hp)
    have l1 : ¬ (a.unit.length = 0 ∨ u.length = 0) := by
      rintro (h | h)
      · exact hc.2.1 h
      · exact h2 (by simpa using h)
    rw [tounitArr, tounit, inunit, if_neg l1, e1, e2]
    dsimp only
    split
    · rename_i q hq
      split at hq
      · cases hq
      · exact Or.inr ⟨_, rfl⟩
    · rename_i q e hq
      split at hq
      · injection hq with _ hq
        injection hq with hq
        subst hq
        exact Or.inl rfl
      · cases hq
  · exact Or.inr ⟨_, rfl⟩

theorem convertArr_rejects {n : Nat} {u : UnitD} {a : Arr K} (ha : GoodArr G v a) (hu : Wf u) (h1 : a.unit ≠ []) (h2 : u ≠ [])
    (hb : Bounded G n u a) (hi : Incompatible a.derived G a.unit u) : convertArr (n + 1) G u a = .error .unitError := by
  obtain ⟨rank, hr, hn⟩ := hb
  have hq : a.isQ = true := by
    by_contra hq
    exact h1 (ha.plain (by simpa using hq))
  have hd : dictEq a.unit u = false := by
    rw [← Bool.not_eq_true]
    intro h
    obtain ⟨v, v', hv, hv', hne⟩ := hi
    have hp := (dictEq_perm ha.wf hu).1 h
    rw [value_perm hp, value_perm hp, div_self (value_pos hv.pos _).ne', div_self (value_pos hv'.pos _).ne'] at hne
    exact hne rfl
  rw [convertArr, if_pos ⟨hq, by simpa using h1, by simp [hd]⟩, tounitArr, tounit, C23_inunit_partial ha.tables hr ha.wf hu h1 h2 hn hi]
  rfl

theorem mapM_rejects {n : Nat} {u : UnitD} (hu : Wf u) (h2 : u ≠ []) : ∀ (l : List (Arr K)), (∀ a ∈ l, GoodArr G v a ∧ Bounded G n u a) →
    (l.mapM (convertArr (n + 1) G u) = .error .unitError ∨ ∃ l', l.mapM (convertArr (n + 1) G u) = .ok l') ∧
    ((∃ a ∈ l, a.unit ≠ [] ∧ Incompatible a.derived G a.unit u) → l.mapM (convertArr (n + 1) G u) = .error .unitError)
  | [], _ => ⟨Or.inr ⟨[], rfl⟩, by simp⟩
  | a :: l, hg => by
    obtain ⟨ih1, ih2⟩ := mapM_rejects hu h2 l fun b hb => hg b (by simp [hb])
    obtain ⟨ga, ba⟩ := hg a (by simp)
    simp only [List.mapM_cons]
    constructor
    · rcases convertArr_total h2 ba with h | ⟨a', h⟩
      · rw [h]; exact Or.inl rfl
      · rw [h]
        rcases ih1 with h' | ⟨l', h'⟩
        · rw [h']; exact Or.inl rfl
        · rw [h']; exact Or.inr ⟨_, rfl⟩
    · rintro ⟨b, hb, h1, hi⟩
      rcases List.mem_cons.1 hb with rfl | hb
      · rw [convertArr_rejects ga hu h1 h2 ba hi]
        rfl
      · rcases convertArr_total h2 ba with h | ⟨a', h⟩
        · rw [h]; rfl
        · rw [h, ih2 ⟨b, hb, h1, hi⟩]
          rfl

theorem convertArg_rejects {n : Nat} {u : UnitD} (hu : Wf u) (h2 : u ≠ []) {mode : Input} {i : Nat} {a : Arg K}
    (hg : GoodArg G v mode i a) (hb : operandAt mode i = true → ∀ x ∈ a.arrays, Bounded G n u x) :
    (convertArg (n + 1) G u mode i a = .error .unitError ∨ ∃ a', convertArg (n + 1) G u mode i a = .ok a') ∧
    (operandAt mode i = true → (∃ x ∈ a.arrays, x.unit ≠ [] ∧ Incompatible x.derived G x.unit u) →
      convertArg (n + 1) G u mode i a = .error .unitError) := by
  obtain ⟨hg, hs⟩ := hg
  rw [convertArg.eq_def, isSequence_eq]
  cases ho : operandAt mode i with
  | false =>
    simp only [Bool.false_and, Bool.false_eq_true, if_false, false_implies, and_true]
    cases hq : asSequence mode with
    | true =>
      rw [isConverted_seq mode i hq]
      simp only [Bool.false_eq_true, if_false]
      exact Or.inr ⟨_, rfl⟩
    | false =>
      rw [isConverted_eq mode i hq, ho]
      simp only [Bool.false_eq_true, if_false]
      exact Or.inr ⟨_, rfl⟩
  | true =>
    have hb := hb ho
    simp only [ho, if_true] at hs
    cases hq : asSequence mode with
    | true =>
      simp only [hq, if_true] at hs
      obtain ⟨l, rfl⟩ := hs
      simp only [Bool.true_and, if_true, true_implies]
      obtain ⟨m1, m2⟩ := mapM_rejects (n := n) (u := u) hu h2 l fun b hl => ⟨hg b hl, hb b hl⟩
      simp only [Arg.elements]
      constructor
      · rcases m1 with m1 | ⟨l', m1⟩
        · left
          show (l.mapM (convertArr (n + 1) G u)).map Arg.seq = _
          rw [m1]
          rfl
        · right
          refine ⟨.seq l', ?_⟩
          show (l.mapM (convertArr (n + 1) G u)).map Arg.seq = _
          rw [m1]
          rfl
      · intro h
        show (l.mapM (convertArr (n + 1) G u)).map Arg.seq = _
        rw [m2 h]
        rfl
    | false =>
      simp only [hq, Bool.false_eq_true, if_false] at hs
      rw [isConverted_eq mode i hq, ho]
      simp only [Bool.and_false, Bool.false_eq_true, if_false, if_true, true_implies]
      cases a with
      | arr a =>
        have ha := hb a (by simp [Arg.arrays])
        constructor
        · rcases convertArr_total h2 ha with h | ⟨a', h⟩
          · left
            show (convertArr (n + 1) G u a).map Arg.arr = _
            rw [h]
            rfl
          · right
            refine ⟨.arr a', ?_⟩
            show (convertArr (n + 1) G u a).map Arg.arr = _
            rw [h]
            rfl
        · rintro ⟨x, hx, h1, hi⟩
          simp only [Arg.arrays, List.mem_singleton] at hx
          subst hx
          show (convertArr (n + 1) G u x).map Arg.arr = _
          rw [convertArr_rejects (hg x (by simp [Arg.arrays])) hu h1 h2 ha hi]
          rfl
      | seq l => exact absurd rfl (hs l)
      | other m =>
        refine ⟨Or.inr ⟨_, rfl⟩, ?_⟩
        rintro ⟨x, hx, _⟩
        simp [Arg.arrays] at hx

theorem convertAll_rejects {n : Nat} {u : UnitD} (hu : Wf u) (h2 : u ≠ []) {mode : Input} : ∀ (args : List (Arg K)) (i : Nat),
    GoodArgs G v mode i args → (∀ x ∈ operandsFrom mode i args, Bounded G n u x) →
    (∃ x ∈ operandsFrom mode i args, x.unit ≠ [] ∧ Incompatible x.derived G x.unit u) →
    convertAll (n + 1) G u mode i args = .error .unitError
  | [], _, _, _, h => by
    obtain ⟨x, hx, _⟩ := h
    simp [operandsFrom] at hx
  | a :: args, i, hg, hb, h => by
    obtain ⟨c1, c2⟩ := convertArg_rejects (n := n) hu h2 hg.1 fun ho x hx => hb x (by simp [operandsFrom, ho, hx])
    rw [convertAll]
    rcases c1 with c1 | ⟨a', c1⟩
    · rw [c1]; rfl
    · obtain ⟨x, hx, h⟩ := h
      rw [operandsFrom, List.mem_append] at hx
      rcases hx with hx | hx
      · split at hx
        · rename_i ho
          rw [c2 ho ⟨x, hx, h⟩]
          rfl
        · simp at hx
      · have := convertAll_rejects (n := n) hu h2 args (i + 1) hg.2 (fun y hy => hb y (by simp [operandsFrom, hy])) ⟨x, hx, h⟩
        rw [c1]
        show (convertAll (n + 1) G u mode (i + 1) args).map _ = _
        rw [this]
        rfl

/-- C116: operands that are not commensurable are rejected with `UnitError`, before the function is called. -/
theorem C116_rejects {n : Nat} {self : Arr K} {conv : Conv} {f : NpFunc K} {args : List (Arg K)} {us : List UnitD}
    (hg : GoodArgs G v conv.input 0 args) (ha : conv.action = .same) (h1 : conv.input ≠ .first) (h2 : conv.input ≠ .second)
    (hi : inputUnits args conv.input = .ok us)
    (hb : ∀ x ∈ operandsFrom conv.input 0 args, Bounded G n (commonUnit (operandsFrom conv.input 0 args)) x)
    (h : ∃ x ∈ operandsFrom conv.input 0 args, x.unit ≠ [] ∧
      Incompatible x.derived G x.unit (commonUnit (operandsFrom conv.input 0 args))) :
    arrayFunction (n + 1) G self conv f args = .error .unitError := by
  have h0 : commonUnit (operandsFrom conv.input 0 args) ≠ [] := by
    intro h0
    obtain ⟨x, hx, hne, _⟩ := h
    exact hne (commonUnit_nil h0 x hx)
  have hc : convertInputs (n + 1) G args (.unit (commonUnit (operandsFrom conv.input 0 args))) conv = .error .unitError := by
    rw [convertInputs.eq_def, if_neg (by simp [ha, h1, h2])]
    dsimp only
    rw [if_neg (by simpa using h0), convertAll_rejects (commonUnit_wf (operands_good args 0 hg)) h0 args 0 hg hb h]
  have hu : outputUnits us conv.action = .ok (.unit (commonUnit (operandsFrom conv.input 0 args))) := by
    rw [ha, outputUnits, common_eq hg hi]
  unfold arrayFunction
  rw [hi]
  show (outputUnits us conv.action).bind _ = _
  rw [hu]
  show (convertInputs (n + 1) G args (.unit (commonUnit (operandsFrom conv.input 0 args))) conv).bind _ = _
  rw [hc]
  rfl

/-! ### Functions of NumPy -/

/-- `np.sum`. -/
def npSum : NpFunc K
  | .arr x :: _ => .ok (.one [x.sum])
  | _ => .error .typeError

/-- `np.var`. -/
def npVar : NpFunc K
  | .arr x :: _ => .ok (.one [(x.map fun y => (y - x.sum / x.length) ^ 2).sum / x.length])
  | _ => .error .typeError

/-- `np.concatenate`. -/
def npConcatenate : NpFunc K
  | .seq l :: _ => .ok (.one l.flatten)
  | _ => .error .typeError

/-- `np.dot`. -/
def npDot : NpFunc K
  | .arr x :: .arr y :: _ => if x.length = y.length then .ok (.one [(List.zipWith (· * ·) x y).sum]) else .error .valueError
  | _ => .error .typeError

/-- `np.clip`. -/
def npClip : NpFunc K
  | .arr x :: .arr [lo] :: .arr [hi] :: _ => .ok (.one (x.map fun y => min (max y lo) hi))
  | _ => .error .typeError

/-- `np.interp` with two nodes. -/
def npInterp : NpFunc K
  | .arr x :: .arr [x0, x1] :: .arr [y0, y1] :: _ => .ok (.one (x.map fun t => y0 + (min (max t x0) x1 - x0) * (y1 - y0) / (x1 - x0)))
  | _ => .error .typeError

/-- `np.atleast_1d` with several arguments. -/
def npAtleast1d : NpFunc K := fun raw => .ok (.many (raw.map fun
  | .arr x => x
  | .seq l => l.flatten
  | .other _ => []))

/-- `np.append`. -/
def npAppend : NpFunc K
  | .arr x :: .arr y :: _ => .ok (.one (x ++ y))
  | _ => .error .typeError

theorem sum_map_mul (l : List K) (c : K) : (l.map (· * c)).sum = l.sum * c := by
  rw [List.sum_map_mul_right]
  simp

theorem amounts_own (a : Arr K) : a.amounts v a.unit = a.amounts v [] := by
  unfold Arr.amounts
  split
  · rename_i h
    rw [h]
  · rfl

theorem npSum_homogeneous : Homogeneous .first .default (npSum (K := K)) := by
  intro c _ raw
  cases raw with
  | nil => rfl
  | cons x raw =>
    cases x with
    | arr x =>
      simp only [scaleFrom, Raw.scale, npSum, Except.map, Out.scale, operandAt, dimensioned, sum_map_mul]
      simp
    | seq l => rfl
    | other m => rfl

theorem npSum_single : Single (npSum (K := K)) := by
  intro raw out h
  cases raw with
  | nil => cases h
  | cons x raw =>
    cases x <;> simp only [npSum] at h <;> cases h
    exact ⟨_, rfl⟩

/-- C116: the sum of a quantity is the sum of the amounts. -/
theorem C116_sum {n : Nat} {self a : Arr K} (hv : ∀ s, 0 < v s) (ha : GoodArr G v a) : ∃ conv r, conversionOf "sum" = some conv ∧
    arrayFunction n G self conv npSum [.arr a] = .ok r ∧ r.amounts v = .one [(a.amounts v []).sum] := by
  refine ⟨{}, _, rfl, rfl, ?_⟩
  have := C116_same (n := n) (G := G) (self := self) (conv := {}) (f := npSum) (args := [.arr a]) (r := _) hv
    ⟨⟨by simpa [Arg.arrays] using ha, by simp [operandAt, asSequence]⟩, trivial⟩ rfl (by simp)
    (fun _ => npSum_single) npSum_homogeneous rfl
  obtain ⟨e, -⟩ := this
  injection e with e
  rw [← e]
  have hc : commonUnit (operandsFrom .first 0 [.arr a]) = a.unit := commonUnit_single
  show Out.one [(Arr.amounts v (commonUnit (operandsFrom .first 0 [.arr a])) a).sum] = _
  rw [hc, amounts_own]

theorem npVar_scale (c : K) (_ : 0 < c) (raw : List (Raw K)) :
    npVar (scaleFrom (fun i => if i = 0 then c else 1) 0 raw) = (npVar raw).map (Out.scale fun _ => c ^ 2) := by
  cases raw with
  | nil => rfl
  | cons x raw =>
    cases x with
    | arr x =>
      simp only [scaleFrom, Raw.scale, npVar, Except.map, Out.scale, if_true, sum_map_mul, List.length_map, List.map_map, List.map_cons,
        List.map_nil]
      congr 3
      rw [div_mul_eq_mul_div, ← List.sum_map_mul_right]
      congr 2
      refine List.map_congr_left fun y _ => ?_
      simp only [Function.comp_apply]
      rw [mul_div_right_comm, ← sub_mul, mul_pow]
    | seq l => rfl
    | other m => rfl

theorem npVar_single : Single (npVar (K := K)) := by
  intro raw out h
  cases raw with
  | nil => cases h
  | cons x raw =>
    cases x <;> simp only [npVar] at h <;> cases h
    exact ⟨_, rfl⟩

/-- C116: the variance of a quantity is the variance of the amounts, in the square of the unit. -/
theorem C116_var {n : Nat} {self a : Arr K} (hv : ∀ s, 0 < v s) (ha : GoodArr G v a) : ∃ conv r, conversionOf "var" = some conv ∧
    arrayFunction n G self conv npVar [.arr a] = .ok r ∧ npVar [.arr (a.amounts v [])] = .ok (r.amounts v) ∧
    ∀ b ∈ r.arrays, ∀ s, expo b.unit s = 2 * expo a.unit s := by
  refine ⟨{ action := .square }, _, rfl, rfl, ?_⟩
  exact C116_square (n := n) (G := G) (self := self) (conv := { action := .square }) (f := npVar) (a := a) (args := []) (r := _) hv rfl
    ⟨⟨by simpa [Arg.arrays] using ha, by simp [operandAt, asSequence]⟩, trivial⟩ rfl rfl npVar_single npVar_scale rfl

theorem npConcatenate_homogeneous : Homogeneous .firstSequence .default (npConcatenate (K := K)) := by
  intro c _ raw
  cases raw with
  | nil => rfl
  | cons x raw =>
    cases x with
    | seq l =>
      simp only [scaleFrom, Raw.scale, npConcatenate, Except.map, Out.scale, operandAt, dimensioned]
      simp [List.map_flatten]
    | arr l => rfl
    | other m => rfl

theorem npConcatenate_single : Single (npConcatenate (K := K)) := by
  intro raw out h
  cases raw with
  | nil => cases h
  | cons x raw =>
    cases x <;> simp only [npConcatenate] at h <;> cases h
    exact ⟨_, rfl⟩

/-- C116: the concatenation of quantities has the amounts of the quantities, in the unit of the first one that has a unit. -/
theorem C116_concatenate {n : Nat} {self : Arr K} {l : List (Arr K)} {r : Result K} (hv : ∀ s, 0 < v s) (hl : ∀ a ∈ l, GoodArr G v a)
    (h : ((conversionOf "concatenate").map fun conv => arrayFunction n G self conv npConcatenate [.seq l]) = some (.ok r)) :
    r.amounts v = .one (l.map (Arr.amounts v (commonUnit l))).flatten ∧ ∀ b ∈ r.arrays, b.unit = commonUnit l := by
  have hc : conversionOf "concatenate" = some { input := .firstSequence } := by decide +kernel
  rw [hc] at h
  simp only [Option.map_some, Option.some.injEq] at h
  obtain ⟨e, e'⟩ := C116_same (n := n) (G := G) (self := self) (conv := { input := .firstSequence }) (f := npConcatenate) (args := [.seq l]) (r := r) hv
    ⟨⟨by simpa [Arg.arrays] using hl, by simp [operandAt, asSequence]⟩, trivial⟩ rfl (by simp)
    (fun _ => npConcatenate_single) npConcatenate_homogeneous h
  have ho : operandsFrom .firstSequence 0 [.seq l] = l := by simp [operandsFrom, operandAt, Arg.arrays]
  simp only [ho] at e e'
  injection e with e
  refine ⟨e.symm, fun b hb => ?_⟩
  cases r with
  | one a =>
    obtain ⟨us, hi, units, hu, args', hc, raw, hx, out, hout, h⟩ := arrayFunction_ok h
    simp only [Result.arrays, List.mem_singleton] at hb
    subst hb
    refine (e' b (by simp [Result.arrays]) ?_).1
    simp only [reduceCtorEq, if_false] at h
    unfold convertOutputs at h
    split at h <;> cases h
    rfl
  | many l => cases e
  | none => cases e

theorem npDot_homogeneous : MultiHomogeneous .firstAndSecond (npDot (K := K)) := by
  intro c _ hc raw
  match raw with
  | .arr x :: .arr y :: raw =>
    have hone : ∏ i ∈ Finset.range raw.length, c (i + 2) = 1 :=
      Finset.prod_eq_one fun i _ => hc (i + 2) (by simp [operandAt])
    simp only [scaleFrom, Raw.scale, npDot, List.length_map, List.length_cons, Finset.prod_range_succ']
    rw [hone]
    split
    · simp only [Except.map, Out.scale, List.map_cons, List.map_nil, ← sum_map_mul]
      congr 4
      rw [List.map_zipWith, List.zipWith_map]
      congr 1
      funext a b
      ring
    · rfl
  | [] => rfl
  | .seq _ :: _ => rfl
  | .other _ :: _ => rfl
  | [.arr _] => rfl
  | .arr _ :: .seq _ :: _ => rfl
  | .arr _ :: .other _ :: _ => rfl

theorem npDot_single : Single (npDot (K := K)) := by
  intro raw out h
  unfold npDot at h
  split at h
  · split at h <;> cases h
    exact ⟨_, rfl⟩
  · cases h

/-- C116: the scalar product of quantities is the scalar product of the amounts. -/
theorem C116_dot {n : Nat} {self a b : Arr K} (hv : ∀ s, 0 < v s) (ha : GoodArr G v a) (hb : GoodArr G v b)
    (hl : a.mags.length = b.mags.length) : ∃ conv r, conversionOf "dot" = some conv ∧
    arrayFunction n G self conv npDot [.arr a, .arr b] = .ok r ∧
    r.amounts v = .one [(List.zipWith (· * ·) (a.amounts v []) (b.amounts v [])).sum] ∧
    ∀ c ∈ r.arrays, ∀ s, expo c.unit s = expo a.unit s + expo b.unit s := by
  have hr : arrayFunction n G self { input := .firstAndSecond, action := .prod } npDot [.arr a, .arr b] =
      .ok (.one ⟨true, [(List.zipWith (· * ·) a.mags b.mags).sum], mulUnit a.unit b.unit, self.derived⟩) := by
    have h1 : Arg.units (.arr a) = a.unit := by rw [Arg.units, arr_units ha]
    have h2 : Arg.units (.arr b) = b.unit := by rw [Arg.units, arr_units hb]
    rw [← h1, ← h2]
    have : npDot [.arr a.mags, .arr b.mags] = .ok (.one [(List.zipWith (· * ·) a.mags b.mags).sum]) := if_pos hl
    show (npDot [.arr a.mags, .arr b.mags]).bind _ = _
    rw [this]
    rfl
  refine ⟨{ input := .firstAndSecond, action := .prod }, _, by decide +kernel, hr, ?_, ?_⟩
  · have := C116_prod (n := n) (G := G) (self := self) (conv := { input := .firstAndSecond, action := .prod }) (f := npDot)
      (args := [.arr a, .arr b]) (r := _) hv rfl
      ⟨⟨by simpa [Arg.arrays] using ha, by simp [operandAt, asSequence]⟩, ⟨by simpa [Arg.arrays] using hb, by simp [operandAt, asSequence]⟩, trivial⟩
      rfl rfl npDot_single npDot_homogeneous hr
    have hd : npDot [.arr (a.amounts v []), .arr (b.amounts v [])] =
        .ok (.one [(List.zipWith (· * ·) (a.amounts v []) (b.amounts v [])).sum]) := if_pos (by simp [Arr.amounts, hl])
    have hx : amountsFrom v [] .firstAndSecond 0 [.arr a, .arr b] = [.arr (a.amounts v []), .arr (b.amounts v [])] := by
      simp [amountsFrom, Arg.amounts]
    rw [hx, hd] at this
    injection this with this
    exact this.symm
  · intro c hc s
    simp only [Result.arrays, List.mem_singleton] at hc
    subst hc
    exact mulUnit_expo ha.wf b.unit s

/-- No function of the table has an input or an action that is not implemented. -/
theorem C116_table : ∀ p ∈ functions, p.2.input ≠ .firstNested ∧ p.2.action ≠ .unitless ∧ (p.2.action = .each → p.2.output = .sequence) := by
  decide +kernel

/-- The functions of degree two in their argument. -/
def quadratic : List String := ["var", "nanvar"]

/-- The functions of degree one in each of their arguments. -/
def multilinear : List String := ["convolve", "correlate", "cov", "cross", "dot", "einsum", "inner", "kron", "outer", "tensordot", "vdot"]

/-- The functions that return several arrays with the unit of the argument. -/
def splitting : List String := ["array_split", "dsplit", "hsplit", "split", "unstack", "vsplit"]

/-- C116: the rule of every function for the unit of the output is the one of its degree: the unit is squared for the functions of degree two only, multiplied for
the multilinear functions only, and it is that of the arguments for the other functions, which are of degree one; the outputs that are sequences are those of the
functions that split an array, and of the broadcasts. -/
theorem C116_degrees : ∀ p ∈ functions, (p.2.action = .square ↔ p.1 ∈ quadratic) ∧ (p.2.action = .prod ↔ p.1 ∈ multilinear) ∧
    (p.2.action = .each ↔ p.1 = "broadcast_arrays") ∧ (p.2.output = .sequence ↔ p.1 ∈ splitting ∨ p.1 = "broadcast_arrays") := by
  decide +kernel

end

/-! ### Witnesses -/

theorem arrayFunction_eq {K : Type} [Field K] [RatPow K] {n : Nat} {G : DTable K} {self : Arr K} {conv : Conv} {f : NpFunc K}
    {args args' : List (Arg K)} {r : Result K} {us : List UnitD} {units : OutUnits} {raw : List (Raw K)} {out : Out K}
    (hi : inputUnits args conv.input = .ok us) (hu : outputUnits us conv.action = .ok units)
    (hc : convertInputs n G args units conv = .ok args') (hx : viewAll conv.input 0 args' = .ok raw) (hout : f raw = .ok out)
    (h : (if conv.output = .none then .ok .none else convertOutputs self out units conv) = (.ok r : Res (Result K))) :
    arrayFunction n G self conv f args = .ok r := by
  simp only [arrayFunction, hi, hu, hc, hx, hout, Except.bind, h]

theorem value_km' : realValue ['k', 'm'] = 1000 := realValue_km

theorem value_m' : realValue ['m'] = 1 := realValue_m

/-- A quantity of the examples. -/
def arr1 (x : List ℝ) (u : String) : Arr ℝ := ⟨true, x, [(u.toList, 1)], []⟩

theorem arr1_good (x : List ℝ) (u : String) : GoodArr realTable realValue (arr1 x u) where
  plain h := by cases h
  wf := by simp [arr1, Wf]
  tables := realTable_good
  valuation := realTable_valuation

/-- The concatenation of 2 km and 5 m is 2 km and 0.005 km: the hypotheses can be met. -/
example : ∃ r, arrayFunction 5 realTable (arr1 [2] "km") { input := .firstSequence } npConcatenate [.seq [arr1 [2] "km", arr1 [5] "m"]] = .ok r ∧
    r.amounts realValue = .one [2000, 5] := by
  obtain ⟨r1, h1⟩ := si_total realTable_ranked 4 ⟨1, [("km".toList, 1)]⟩ (by decide +kernel)
  obtain ⟨r2, h2⟩ := si_total realTable_ranked 4 ⟨1, [("m".toList, 1)]⟩ (by decide +kernel)
  have u1 : r1.unit = [("m".toList, 1)] := by
    have : (si 5 [] realTable ⟨1, [("km".toList, 1)]⟩).map (·.unit) = .ok [("m".toList, 1)] := by decide +kernel
    rw [h1] at this
    simpa [Except.map] using this
  have u2 : r2.unit = [("m".toList, 1)] := by
    have : (si 5 [] realTable ⟨1, [("m".toList, 1)]⟩).map (·.unit) = .ok [("m".toList, 1)] := by decide +kernel
    rw [h2] at this
    simpa [Except.map] using this
  have ht : tounit 5 [] realTable ⟨1, [("m".toList, 1)]⟩ [("km".toList, 1)] = .ok ⟨1 * (r2.mag / r1.mag), [("km".toList, 1)]⟩ :=
    (tounit_ok (by simp) (by simp)).2 ⟨r2, r1, h2, h1, by rw [u1, u2]; rfl, rfl⟩
  have hm : convertArr 5 realTable [("km".toList, 1)] (arr1 [5] "m") =
      .ok ⟨true, [5 * (1 * (r2.mag / r1.mag))], [("km".toList, 1)], []⟩ := by
    rw [convertArr, if_pos (by decide +kernel), tounitArr]
    show (tounit 5 [] realTable ⟨1, [("m".toList, 1)]⟩ [("km".toList, 1)]).map _ = _
    rw [ht]
    rfl
  have hk : convertArr 5 realTable [("km".toList, 1)] (arr1 [2] "km") = .ok (arr1 [2] "km") := by
    rw [convertArr, if_neg (by decide +kernel)]
  have hr : arrayFunction 5 realTable (arr1 [2] "km") { input := .firstSequence } npConcatenate [.seq [arr1 [2] "km", arr1 [5] "m"]] =
      .ok (.one ⟨true, [2, 5 * (1 * (r2.mag / r1.mag))], [("km".toList, 1)], []⟩) := by
    have hc : convertAll 5 realTable [("km".toList, 1)] .firstSequence 0 [.seq [arr1 [2] "km", arr1 [5] "m"]] =
        .ok [.seq [arr1 [2] "km", ⟨true, [5 * (1 * (r2.mag / r1.mag))], [("km".toList, 1)], []⟩]] := by
      have : [arr1 [2] "km", arr1 [5] "m"].mapM (convertArr 5 realTable [("km".toList, 1)]) =
          .ok [arr1 [2] "km", ⟨true, [5 * (1 * (r2.mag / r1.mag))], [("km".toList, 1)], []⟩] := by
        simp only [List.mapM_cons, List.mapM_nil, hk, hm]
        rfl
      rw [convertAll]
      show (([arr1 [2] "km", arr1 [5] "m"].mapM (convertArr 5 realTable [("km".toList, 1)])).map Arg.seq).bind _ = _
      rw [this]
      rfl
    have hi : convertInputs 5 realTable [.seq [arr1 [2] "km", arr1 [5] "m"]] (.unit [("km".toList, 1)]) { input := .firstSequence } =
        .ok [.seq [arr1 [2] "km", ⟨true, [5 * (1 * (r2.mag / r1.mag))], [("km".toList, 1)], []⟩]] := by
      rw [convertInputs.eq_def, if_neg (by decide)]
      exact hc
    exact arrayFunction_eq (us := [[("km".toList, 1)], [("m".toList, 1)]]) rfl rfl hi rfl rfl rfl
  refine ⟨_, hr, ?_⟩
  have := (C116_concatenate (n := 5) (G := realTable) (v := realValue) (self := arr1 [2] "km") (l := [arr1 [2] "km", arr1 [5] "m"])
    realTable_valuation.pos (by simp [arr1_good]) (by
      rw [show conversionOf "concatenate" = some { input := .firstSequence } by decide +kernel, Option.map_some, hr])).1
  rw [this]
  simp [Arr.amounts, arr1, amount, value, value_km', value_m', rpow_real]
  norm_num

/-- C116 fails for `clip`: the bounds are not converted.  500 m clipped between 1 km and 2 km is 2 m. -/
theorem C116_violation_clip : ∃ (x lo hi : Arr ℝ) (conv : Conv) (r : Result ℝ), (∀ a ∈ [x, lo, hi], GoodArr realTable realValue a) ∧
    conversionOf "clip" = some conv ∧ arrayFunction 5 realTable x conv npClip [.arr x, .arr lo, .arr hi] = .ok r ∧
    npClip [.arr (x.amounts realValue []), .arr (lo.amounts realValue []), .arr (hi.amounts realValue [])] = .ok (.one [1000]) ∧
    r.amounts realValue = .one [2] := by
  refine ⟨arr1 [500] "m", arr1 [1] "km", arr1 [2] "km", {}, _, by simp [arr1_good], by decide +kernel, rfl, ?_, ?_⟩
  · simp [Arr.amounts, arr1, amount, value, value_km', value_m', rpow_real, npClip]
    norm_num
  · simp [Result.amounts, Arr.amounts, arr1, amount, value, value_m', rpow_real, Arg.units, Arr.units]
    norm_num

/-- C116 fails for `interp`: the values have the unit of the abscissae. -/
theorem C116_violation_interp : ∃ (x xp fp : Arr ℝ) (conv : Conv) (r : Result ℝ), (∀ a ∈ [x, xp, fp], GoodArr realTable realValue a) ∧
    conversionOf "interp" = some conv ∧ arrayFunction 5 realTable x conv npInterp [.arr x, .arr xp, .arr fp] = .ok r ∧
    npInterp [.arr (x.amounts realValue []), .arr (xp.amounts realValue []), .arr (fp.amounts realValue [])] = .ok (.one [5000]) ∧
    r.amounts realValue = .one [5] ∧ ∀ a ∈ r.arrays, a.unit = x.unit := by
  refine ⟨arr1 [1] "m", arr1 [0, 2] "m", arr1 [0, 10] "km", {}, _, by simp [arr1_good], by decide +kernel, rfl, ?_, ?_, ?_⟩
  · simp [Arr.amounts, arr1, amount, value, value_km', value_m', rpow_real, npInterp]
    norm_num
  · simp [Result.amounts, Arr.amounts, arr1, amount, value, value_m', rpow_real, Arg.units, Arr.units]
    norm_num
  · simp [Result.arrays, arr1, Arg.units, Arr.units]

/-- C116 fails for `atleast_1d` with several arguments: the units are lost. -/
theorem C116_violation_atleast : ∃ (x y : Arr ℝ) (conv : Conv) (r : Result ℝ), (∀ a ∈ [x, y], GoodArr realTable realValue a) ∧
    conversionOf "atleast_1d" = some conv ∧ arrayFunction 5 realTable x conv npAtleast1d [.arr x, .arr y] = .ok r ∧
    npAtleast1d [.arr (x.amounts realValue []), .arr (y.amounts realValue [])] = .ok (.many [[1000], [2000]]) ∧
    r.amounts realValue = .many [[1], [2]] ∧ ∀ a ∈ r.arrays, a.isQ = false ∧ a.unit = [] := by
  refine ⟨arr1 [1] "km", arr1 [2] "km", {}, _, by simp [arr1_good], by decide +kernel, rfl, ?_, ?_, ?_⟩
  · simp [Arr.amounts, arr1, amount, value, value_km', rpow_real, npAtleast1d]
    norm_num
  · simp [Result.amounts, Arr.amounts, arr1, amount, wrapAll, isOutput]
  · simp [Result.arrays, arr1, wrapAll, isOutput]

/-- C116 fails for the covariance of a single quantity: an `IndexError` is raised whatever the quantity. -/
theorem C116_violation_cov (n : Nat) (G : DTable ℝ) (a : Arr ℝ) (f : NpFunc ℝ) : ∃ conv, conversionOf "cov" = some conv ∧
    arrayFunction n G a conv f [.arr a] = .error .indexError :=
  ⟨{ input := .firstAndSecond, action := .prod }, by decide +kernel, rfl⟩

/-- C116 fails for the concatenation of the elements of a quantity: the unit is lost. -/
theorem C116_violation_hstack : ∃ (x : Arr ℝ) (conv : Conv) (r : Result ℝ), GoodArr realTable realValue x ∧
    conversionOf "hstack" = some conv ∧ arrayFunction 5 realTable x conv npConcatenate [.arr x] = .ok r ∧
    x.amounts realValue [] = [1000, 2000] ∧ r.amounts realValue = .one [1, 2] := by
  refine ⟨arr1 [1, 2] "km", { input := .firstSequence }, _, arr1_good _ _, by decide +kernel, rfl, ?_, ?_⟩
  · simp [Arr.amounts, arr1, amount, value, value_km', rpow_real]
    norm_num
  · simp [Result.amounts, Arr.amounts, arr1, amount, value, Arr.units]

/-- A table of derived units with one definition, in metres. -/
def fooTable (x : ℝ) : DTable ℝ := [⟨.sym "foo".toList, false, some ⟨x, [("m".toList, 1)]⟩⟩]

/-- The values of the symbols with this definition. -/
noncomputable def fooValue (x : ℝ) : Sym → ℝ := fun s => if s = "foo".toList then x else realValue s

theorem realTable_foo : ∀ e ∈ realTable, e.key.symbol ≠ "foo".toList ∧ ∀ d ∈ e.value, ∀ p ∈ d.unit, p.1 ≠ "foo".toList := by
  obtain ⟨h1, h2, h3, h4, h5, h6, h7, h8, h9, h10, h11, h12, h13, h14, h15, h16, h17, h18, h19, h20, h21⟩ := parsed_units
  simp only [realTable, unitsTable, baseUnit, derivedUnit, List.forall_mem_cons, Option.mem_def, Option.some.injEq, forall_eq',
    reduceCtorEq, IsEmpty.forall_iff, implies_true, and_true, List.not_mem_nil, DKey.symbol,
    h1, h2, h3, h4, h5, h6, h7, h8, h9, h10, h11, h12, h13, h14, h15, h16, h17, h18, h19, h20, h21]
  repeat' apply And.intro
  all_goals decide +kernel

theorem foo_glob (x : ℝ) (e : DEntry ℝ) (he : e ∈ realTable) : EntryOk (fooValue x) e := by
  obtain ⟨h1, h2⟩ := realTable_foo e he
  have hok := realTable_valuation.glob e he (by rintro ⟨e', he', _⟩; simp at he')
  have hval : ∀ d ∈ e.value, amount (fooValue x) d = amount realValue d := by
    intro d hd
    rw [amount, amount, value_congr (v' := realValue) fun p hp => if_neg (h2 d hd p hp)]
  have hsym : fooValue x e.key.symbol = realValue e.key.symbol := if_neg h1
  obtain ⟨key, rw', val⟩ := e
  cases val with
  | none => trivial
  | some d =>
    have hv' := hval d rfl
    cases key with
    | sym s =>
      simp only [EntryOk, DKey.symbol] at hok hsym ⊢
      rw [hsym, hv', hok]
    | pow s y =>
      simp only [EntryOk, DKey.symbol] at hok hsym ⊢
      rw [hsym, hv', hok]

theorem foo_good (x : ℝ) (hx : 0 < x) (y : List ℝ) : GoodArr realTable (fooValue x) ⟨true, y, [("foo".toList, 1)], fooTable x⟩ where
  plain h := by cases h
  wf := by simp [Wf]
  tables := by
    refine ⟨by simp [fooTable], ?_, ?_⟩
    · intro e he d hd
      rcases List.mem_append.1 he with he | he
      · simp only [fooTable, List.mem_singleton] at he
        subst he
        simp only [Option.mem_some_iff] at hd
        subst hd
        exact hx
      · exact realTable_pos e he d hd
    · intro e he d hd
      rcases List.mem_append.1 he with he | he
      · simp only [fooTable, List.mem_singleton] at he
        subst he
        simp only [Option.mem_some_iff] at hd
        subst hd
        simp [Wf]
      · exact realTable_good.wf e (by simpa using he) d hd
  valuation := by
    refine ⟨?_, ?_, ?_⟩
    · intro s
      simp only [fooValue]
      split
      · exact hx
      · exact realTable_valuation.pos s
    · intro e he
      simp only [fooTable, List.mem_singleton] at he
      subst he
      have : ("m".toList : Sym) ≠ "foo".toList := by decide
      simp [EntryOk, amount, value, fooValue, realValue, rpow_real]
    · intro e he _
      exact foo_glob x e he

/-- C116 fails when the operands have different definitions of the same symbol: the symbols are compared instead of the
amounts.  One foo of 3 m followed by one foo of 5 m is twice one foo of 3 m. -/
theorem C116_violation_derived : ∃ (a b : Arr ℝ) (va vb : Sym → ℝ) (conv : Conv) (r : Result ℝ), GoodArr realTable va a ∧
    GoodArr realTable vb b ∧ va "m".toList = 1 ∧ vb "m".toList = 1 ∧ conversionOf "append" = some conv ∧
    arrayFunction 5 realTable a conv npAppend [.arr a, .arr b] = .ok r ∧ a.amounts va [] = [3] ∧ b.amounts vb [] = [5] ∧
    r.amounts va = .one [3, 3] ∧ ∀ c ∈ r.arrays, c.derived = a.derived := by
  refine ⟨⟨true, [1], [("foo".toList, 1)], fooTable 3⟩, ⟨true, [1], [("foo".toList, 1)], fooTable 5⟩, fooValue 3, fooValue 5,
    { input := .firstAndSecond }, _, foo_good 3 (by norm_num) _, foo_good 5 (by norm_num) _, ?_, ?_, by decide +kernel, rfl, ?_, ?_, ?_, ?_⟩
  · simp [fooValue, realValue]
  · simp [fooValue, realValue]
  · simp [Arr.amounts, amount, value, fooValue, rpow_real]
  · simp [Arr.amounts, amount, value, fooValue, rpow_real]
  · simp [Result.amounts, Arr.amounts, amount, value, fooValue, rpow_real, Arg.units, Arr.units]
  · simp [Result.arrays]

/-- 'foo' and 'm' are not commensurable, so that one foo cannot be concatenated to one metre: the hypotheses of
`C116_rejects` can be met. -/
example : arrayFunction 6 realTable (arr1 [1] "m") { input := .firstSequence } npConcatenate [.seq [arr1 [1] "m", arr1 [1] "foo"]] =
    .error .unitError := by
  have hv : ∀ x : ℝ, 0 < x → Valuation [] realTable (fooValue x) := fun x hx =>
    ⟨(foo_good x hx []).valuation.pos, by simp, fun e he _ => foo_glob x e he⟩
  have ho : operandsFrom .firstSequence 0 [.seq [arr1 [1] "m", arr1 [1] "foo"]] = [arr1 [1] "m", arr1 [1] "foo"] := by
    simp [operandsFrom, operandAt, Arg.arrays]
  have hc : commonUnit [arr1 [1] "m", arr1 [1] "foo"] = [("m".toList, 1)] := rfl
  refine C116_rejects (n := 5) (G := realTable) (v := realValue) (conv := { input := .firstSequence })
    (args := [.seq [arr1 [1] "m", arr1 [1] "foo"]]) (us := [[("m".toList, 1)], [("foo".toList, 1)]])
    ⟨⟨by simp [Arg.arrays, arr1_good], by simp [operandAt, asSequence]⟩, trivial⟩ rfl (by simp) (by simp) rfl ?_ ?_
  · dsimp only
    rw [ho, hc]
    intro a ha
    refine ⟨rankOf, ?_, ?_⟩
    · simp only [List.mem_cons, List.not_mem_nil, or_false] at ha
      rcases ha with rfl | rfl <;> exact realTable_ranked
    · simp only [List.mem_cons, List.not_mem_nil, or_false] at ha
      rcases ha with rfl | rfl <;> decide +kernel
  · dsimp only
    rw [ho, hc]
    refine ⟨arr1 [1] "foo", by simp, by simp [arr1], fooValue 1, fooValue 2, hv 1 (by norm_num), hv 2 (by norm_num), ?_⟩
    simp [arr1, value, fooValue, rpow_real, value_m']

/-- `np.broadcast_arrays` of arrays of the same length. -/
def npBroadcast : NpFunc ℝ := npAtleast1d

/-- 1 km and 2 m are broadcast to 1 km and 2 m. -/
example : ∃ r, ((conversionOf "broadcast_arrays").map fun conv =>
      arrayFunction 5 realTable (arr1 [1] "km") conv npBroadcast [.arr (arr1 [1] "km"), .arr (arr1 [2] "m")]) = some (.ok r) ∧
    r.amounts realValue = .many [[1000], [2]] := by
  refine ⟨.many [arr1 [1] "km", arr1 [2] "m"], ?_, ?_⟩
  · rw [show conversionOf "broadcast_arrays" = some { input := .sequence, output := .sequence, action := .each } by decide +kernel]
    rfl
  · simp [Result.amounts, Arr.amounts, arr1, amount, value, value_km', value_m', rpow_real]

end Verif.Units
