import Verif.Dist.PropsAcq

/-! C136: the observation of a scene. -/
namespace Verif.Dist
open Verif.Py

variable {σ α : Type}

/-- The call `H(x, out, operation=operation)` of line 222 for one detector: `h` is the row of H(x), `op` is none for the assignment. -/
def applyH (h : List α) (out : Option (List α)) (op : Option (α → α → α)) : Res (List α) :=
  match op, out with
  | none, none => .ok h
  | none, some o => if o.length = h.length then .ok h else .error .valueError
  | some _, none => .error .valueError
  | some f, some o => if o.length = h.length then .ok (List.zipWith f o h) else .error .valueError

/-- acquisitions.py 201-225 `get_observation` for one detector: the row `h` of H(x), the noise of a part of the sampling, the blocks. -/
def getObservation [Add α] (h : List α) (noise : List σ → List α) (sampling : List σ) (bs : List (Nat × Nat)) (noiseless : Bool) (out : Option (List α))
    (op : Option (α → α → α)) : Res (List α) :=
  (applyH h out op).bind fun out =>
  if noiseless then .ok out else .ok (getNoise (· + ·) noise sampling out bs)

/-- C136: the observation is H(x), plus the noise of the blocks unless no noise is requested. -/
theorem C136_value [Add α] {nbytes : Nat} {m : Option Nat} {bs : List (Nat × Nat)} (h : List α) (noise : List σ → List α)
    (hnoise : ∀ s, (noise s).length = s.length) (sampling : List σ) (hb : blocks sampling.length nbytes m = .ok bs) (hh : h.length = sampling.length) :
    getObservation h noise sampling bs true none none = .ok h ∧
    ∃ obs, getObservation h noise sampling bs false none none = .ok obs ∧ obs.length = sampling.length ∧
      ∀ (k : Nat), k < sampling.length → ∃ a v, h[k]? = some a ∧ (bs.flatMap fun b => noise (slice sampling b))[k]? = some v ∧ obs[k]? = some (a + v) := by
  obtain ⟨h1, h2⟩ := C51_noise (· + ·) noise hnoise sampling h hh nbytes m bs hb
  refine ⟨rfl, _, rfl, ?_, fun k hk => ?_⟩
  · rw [h1, List.length_zipWith, hh, h2, min_self]
  · refine ⟨_, _, List.getElem?_eq_getElem (by omega), List.getElem?_eq_getElem (by omega), ?_⟩
    rw [h1, List.getElem?_zipWith, List.getElem?_eq_getElem (by omega), List.getElem?_eq_getElem (by omega)]

example : getObservation [1, 2, 3] (fun s => s.map (10 * ·)) [4, 5, 6] [(0, 2), (2, 3)] false none none = .ok [41, 52, 63] := by decide

/-- C136, for the operations that commute with the addition of the noise (the assignment, the addition) and without noise: `get_observation(x, out=out, operation=operation)`
is equivalent to `operation(out, get_observation(x))`. -/
theorem C136_operation_partial [Add α] {nbytes : Nat} {m : Option Nat} {bs : List (Nat × Nat)} (h : List α) (noise : List σ → List α)
    (hnoise : ∀ s, (noise s).length = s.length) (sampling : List σ) (hb : blocks sampling.length nbytes m = .ok bs) (hh : h.length = sampling.length)
    (out : List α) (ho : out.length = sampling.length) (noiseless : Bool) (op : α → α → α) (hop : noiseless = true ∨ ∀ a b v, op a b + v = op a (b + v)) :
    ∃ obs, getObservation h noise sampling bs noiseless none none = .ok obs ∧
      getObservation h noise sampling bs noiseless (some out) (some op) = .ok (List.zipWith op out obs) ∧
      getObservation h noise sampling bs noiseless (some out) none = .ok obs := by
  have hl : out.length = h.length := by omega
  unfold getObservation applyH
  simp only [if_pos hl]
  simp only [Except.bind]
  cases noiseless
  · have hop := hop.resolve_left (by simp)
    refine ⟨_, rfl, ?_, rfl⟩
    have hz : (List.zipWith op out h).length = sampling.length := by simp; omega
    obtain ⟨h1, h2⟩ := C51_noise (· + ·) noise hnoise sampling h hh nbytes m bs hb
    rw [if_neg (by simp), (C51_noise (· + ·) noise hnoise sampling _ hz nbytes m bs hb).1, h1]
    congr 1
    apply List.ext_getElem
    · simp
    · intro k hk _
      simp [hop]
  · exact ⟨_, rfl, rfl, rfl⟩

example : getObservation [1, 2] (fun s => s.map (10 * ·)) [4, 5] [(0, 2)] false (some [100, 200]) (some (· + ·)) = .ok [141, 252] := by decide

/-- C136 fails for the subtraction and the multiplication: the noise is added to the result of the operation. -/
theorem C136_violation_operation :
    (∃ obs : List Int, getObservation [1] (fun s => s.map (10 * ·)) [4] [(0, 1)] false none none = .ok obs ∧
      getObservation [1] (fun s => s.map (10 * ·)) [4] [(0, 1)] false (some [100]) (some (· - ·)) ≠ .ok (List.zipWith (· - ·) [100] obs)) ∧
    ∃ obs : List Int, getObservation [1] (fun s => s.map (10 * ·)) [4] [(0, 1)] false none none = .ok obs ∧
      getObservation [1] (fun s => s.map (10 * ·)) [4] [(0, 1)] false (some [100]) (some (· * ·)) ≠ .ok (List.zipWith (· * ·) [100] obs) :=
  ⟨⟨[41], by decide, by decide⟩, [41], by decide, by decide⟩

/-- An operation without a buffer is rejected. -/
theorem C136_buffer [Add α] (h : List α) (noise : List σ → List α) (sampling : List σ) (bs : List (Nat × Nat)) (noiseless : Bool) (op : α → α → α) :
    getObservation h noise sampling bs noiseless none (some op) = .error .valueError := rfl

end Verif.Dist
