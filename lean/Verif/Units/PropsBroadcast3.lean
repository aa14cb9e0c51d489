import Verif.Units.PropsBroadcast2
import Verif.Units.Real

/-!
C117: keys and conversions that break the derived units.
-/
namespace Verif.Units
open Verif.Py

/-- `[[1, 1], [1, 1]] foo` with `foo[leftward] = [1, 10] m`. -/
noncomputable def leftQ : BQ ℝ :=
  ⟨⟨[2, 2], fun _ => 1⟩, [("foo".toList, 1)], [⟨"foo".toList, some .left, .quantity ⟨[2], fun i => if i = [0] then 1 else 10⟩ [("m".toList, 1)] false⟩]⟩

/-- `[[1, 1], [1, 1]] foo` with `foo[rightward] = [1, 10] m`. -/
noncomputable def rightQ : BQ ℝ :=
  ⟨⟨[2, 2], fun _ => 1⟩, [("foo".toList, 1)], [⟨"foo".toList, some .right, .quantity ⟨[2], fun i => if i = [0] then 1 else 10⟩ [("m".toList, 1)] false⟩]⟩

/-- `[[[1, 1], [1, 1]], [[1, 1], [1, 1]]] foo` with `foo[leftward] = [[1, 1], [10, 10]] m`. -/
noncomputable def cubeQ : BQ ℝ :=
  ⟨⟨[2, 2, 2], fun _ => 1⟩, [("foo".toList, 1)],
    [⟨"foo".toList, some .left, .quantity ⟨[2, 2], fun i => if i.headD 0 = 0 then 1 else 10⟩ [("m".toList, 1)] false⟩]⟩

theorem leftQ_good : FitsAll leftQ.mag.shape leftQ.derived ∧ PositiveAll leftQ.derived := by
  constructor
  · intro e he
    simp only [leftQ, List.mem_singleton] at he
    subst he
    exact ⟨_, _, _, rfl, by simp, [2], rfl⟩
  · intro e he v u l hv i _
    simp only [leftQ, List.mem_singleton] at he
    subst he
    simp only [DVal.quantity.injEq] at hv
    rw [← hv.1]
    dsimp only
    split <;> norm_num

theorem rightQ_good : FitsAll rightQ.mag.shape rightQ.derived ∧ PositiveAll rightQ.derived := by
  constructor
  · intro e he
    simp only [rightQ, List.mem_singleton] at he
    subst he
    exact ⟨_, _, _, rfl, by simp, [2], rfl⟩
  · intro e he v u l hv i _
    simp only [rightQ, List.mem_singleton] at he
    subst he
    simp only [DVal.quantity.injEq] at hv
    rw [← hv.1]
    dsimp only
    split <;> norm_num

theorem cubeQ_good : FitsAll cubeQ.mag.shape cubeQ.derived ∧ PositiveAll cubeQ.derived := by
  constructor
  · intro e he
    simp only [cubeQ, List.mem_singleton] at he
    subst he
    exact ⟨_, _, _, rfl, by simp, [2], rfl⟩
  · intro e he v u l hv i _
    simp only [cubeQ, List.mem_singleton] at he
    subst he
    simp only [DVal.quantity.injEq] at hv
    rw [← hv.1]
    dsimp only
    split <;> norm_num

/-- C117 does not hold for `q[..., 0]`: the ellipsis stands for one dimension less than it should, so that the derived unit of all the columns is
applied to the rows. -/
theorem C117_violation_ellipsis : FitsAll leftQ.mag.shape leftQ.derived ∧ PositiveAll leftQ.derived ∧
    ∃ item b, getitemB leftQ (.tuple [.ellipsis, .int 0]) = .ok (.inr item) ∧
      npIndex ⟨leftQ.mag.shape, amountAt (fun _ => 1) leftQ⟩ [.ellipsis, .int 0] = .ok b ∧ b.shape = item.mag.shape ∧ Inside b.shape [1] ∧
      b.get [1] = 1 ∧ amountAt (fun _ => 1) item [1] = 10 := by
  refine ⟨leftQ_good.1, leftQ_good.2, _, _, rfl, rfl, rfl, ?_, ?_, ?_⟩
  · exact .cons (by decide) .nil
  · simp [amountAt, leftQ, value, symbolAt, elementFor, rpow_real, mergeAxes]
  · simp [amountAt, leftQ, value, symbolAt, elementFor, rpow_real, mergeAxes, outShape, BEntry.isScalar]

/-- C117 does not hold for `q[[1, 0]]`: the list is read as the tuple (1, 0), so that the derived unit of the first row is applied to all of them. -/
theorem C117_violation_list : FitsAll cubeQ.mag.shape cubeQ.derived ∧ PositiveAll cubeQ.derived ∧
    ∃ item b, getitemB cubeQ (.list [1, 0]) = .ok (.inr item) ∧ npTake ⟨cubeQ.mag.shape, amountAt (fun _ => 1) cubeQ⟩ [1, 0] = .ok b ∧
      b.shape = item.mag.shape ∧ Inside b.shape [0, 1, 0] ∧ b.get [0, 1, 0] = 10 ∧ amountAt (fun _ => 1) item [0, 1, 0] = 1 := by
  refine ⟨cubeQ_good.1, cubeQ_good.2, _, _, rfl, rfl, rfl, ?_, ?_, ?_⟩
  · exact .cons (by decide) (.cons (by decide) (.cons (by decide) .nil))
  · simp [amountAt, cubeQ, value, symbolAt, elementFor, rpow_real]
  · simp [amountAt, cubeQ, value, symbolAt, elementFor, rpow_real, mergeAxes, outShape, BEntry.isScalar]

/-- C117 does not hold for a key that selects one element of a derived unit: it is replaced by a number without unit, and the item can not be converted. -/
theorem C117_violation_scalar : FitsAll rightQ.mag.shape rightQ.derived ∧ PositiveAll rightQ.derived ∧
    ∃ item, getitemB rightQ (.tuple [.int 1]) = .ok (.inr item) ∧ siB item = .error .attributeError ∧ ∃ r, siB rightQ = .ok r := by
  refine ⟨rightQ_good.1, rightQ_good.2, _, rfl, rfl, ?_⟩
  obtain ⟨r, h, -⟩ := C117_si (w := fun _ => (1 : ℝ)) (fun _ => one_pos) rightQ_good.1 rightQ_good.2
  exact ⟨r, h⟩

/-- C117 does not hold after a conversion: the derived units that are used then belong to their own derived units, and no slice can be extracted any more. -/
theorem C117_violation_recursion : FitsAll rightQ.mag.shape rightQ.derived ∧ PositiveAll rightQ.derived ∧
    (∃ item, getitemB rightQ (.tuple [.slice List.range]) = .ok (.inr item)) ∧
    getitemB (afterSI rightQ) (.tuple [.slice List.range]) = .error .recursionError :=
  ⟨rightQ_good.1, rightQ_good.2, ⟨_, rfl⟩, rfl⟩

/-- C117 does not hold for the conversion of a quantity with a leftward derived unit: the values of the columns are applied to the rows. -/
theorem C117_violation_tounit : FitsAll leftQ.mag.shape leftQ.derived ∧ PositiveAll leftQ.derived ∧
    ∃ r, tounitB leftQ [("m".toList, 1)] = .ok r ∧ r.mag.shape = leftQ.mag.shape ∧ Inside r.mag.shape [0, 1] ∧
      amountAt (fun _ => 1) leftQ [0, 1] = 10 ∧ amountAt (fun _ => 1) r [0, 1] = 1 := by
  refine ⟨leftQ_good.1, leftQ_good.2, _, rfl, rfl, ?_, ?_, ?_⟩
  · exact .cons (by decide) (.cons (by decide) .nil)
  · simp [amountAt, leftQ, value, symbolAt, elementFor, rpow_real]
  · simp [amountAt, leftQ, value, symbolAt, elementFor, rpow_real, NArr.T, NArr.at, NArr.map, NArr.scalar, fit, powElem]

/-! ### The hypotheses can be met -/

/-- The conversion of a table whose rows and columns have different values. -/
example : ∃ r, siB leftQ = .ok r ∧ r.mag.get [0, 1] * value (fun _ => 1) r.unit = 10 ∧ r.mag.get [1, 0] * value (fun _ => 1) r.unit = 1 := by
  obtain ⟨r, h, -, -, e⟩ := C117_si (w := fun _ => (1 : ℝ)) (fun _ => one_pos) leftQ_good.1 leftQ_good.2
  refine ⟨r, h, ?_, ?_⟩
  · rw [e _ (.cons (by decide) (.cons (by decide) .nil))]
    simp [amountAt, leftQ, value, symbolAt, elementFor, rpow_real]
  · rw [e _ (.cons (by decide) (.cons (by decide) .nil))]
    simp [amountAt, leftQ, value, symbolAt, elementFor, rpow_real]

/-- The rows in reverse order. -/
def reversed : KElem := .slice fun n => (List.range n).map fun i => n - 1 - i

/-- `q[::-1]` selects the values of the derived unit too. -/
example : ∃ item, getitemB rightQ (.tuple [reversed]) = .ok (.inr item) ∧ amountAt (fun _ => 1) item [0, 0] = 10 ∧ amountAt (fun _ => 1) item [1, 0] = 1 := by
  obtain ⟨item, h, h1, -, -, h2⟩ := C117_getitem_partial (q := rightQ) (key := [reversed]) (ks := [reversed, .all]) rightQ_good.1
    (by
      intro f hf n p hp
      simp only [reversed, List.mem_singleton, KElem.slice.injEq] at hf
      subst hf
      simp only [List.mem_map, List.mem_range] at hp
      omega)
    (by
      intro a b h
      cases a with
      | nil => simp [reversed] at h
      | cons x a => simp at h)
    rfl
    (by
      intro e he side v u l hb hv
      simp only [rightQ, List.mem_singleton] at he
      subst he
      simp only [Option.some.injEq] at hb
      simp only [DVal.quantity.injEq] at hv
      subst hb
      refine ⟨hv.2.2.symm, fun n => (List.range n).map fun i => n - 1 - i, ?_⟩
      rw [← hv.1]
      exact List.mem_cons_self)
    rfl rfl
  obtain ⟨b, hb, hs, e⟩ := h2 fun _ => 1
  have hb' := hb
  obtain ⟨rfl⟩ : b = _ := by
    have := hb.symm.trans (show _ = Except.ok _ from rfl)
    exact Except.ok.inj this
  refine ⟨item, h, ?_, ?_⟩
  · rw [← e _ (.cons (by decide) (.cons (by decide) .nil))]
    simp [amountAt, rightQ, value, symbolAt, elementFor, rpow_real, mergeAxes, List.range, List.range.loop]
  · rw [← e _ (.cons (by decide) (.cons (by decide) .nil))]
    simp [amountAt, rightQ, value, symbolAt, elementFor, rpow_real, mergeAxes, List.range, List.range.loop]

/-- The conversion of the rows. -/
example : ∃ r, tounitB rightQ [("m".toList, 1)] = .ok r ∧ amountAt (fun _ => 1) r [1, 0] = 10 ∧ amountAt (fun _ => 1) r [0, 1] = 1 := by
  refine ⟨_, rfl, ?_, ?_⟩
  · obtain ⟨-, -, e⟩ := C117_tounit_partial (w := fun _ => (1 : ℝ)) (newunit := [("m".toList, 1)]) (fun _ => one_pos) rightQ_good.1 rightQ_good.2
      (by
        intro p _ e he _
        simp only [rightQ, List.mem_singleton] at he
        subst he
        simp)
      (by
        intro p hp e he h
        simp only [rightQ, List.mem_singleton] at he hp
        subst he hp
        revert h
        decide)
      (by simp [rightQ]) (by simp) rfl
    rw [e _ (.cons (by decide) (.cons (by decide) .nil))]
    simp [amountAt, rightQ, value, symbolAt, elementFor, rpow_real]
  · simp [amountAt, rightQ, value, symbolAt, elementFor, rpow_real, NArr.T, NArr.at, NArr.map, NArr.scalar, fit, powElem]

end Verif.Units
