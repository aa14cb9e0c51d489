import Verif.Py.Basic
import Mathlib.Algebra.Order.Field.Basic
import Mathlib.Analysis.SpecialFunctions.Log.Basic
import Mathlib.Analysis.SpecialFunctions.Pow.Real
import Mathlib.Analysis.SpecialFunctions.Complex.Log

/-!
Model of the noise functions (src/pysimulators/noises.py, instruments.py), of the truncated exponential convolution
(src/pysimulators/operators.py 334-424, src/flib/module_operators.f90.j2 440-532, src/flib/operators.f90.j2 354-423) and of
`RollOperator` (src/pysimulators/operators.py 1199-1221).

The functions that work along the last axis are modelled for one row.  Numbers are elements of a field; buffers returned by `empty` have
an arbitrary content.
-/
namespace Verif.Signal
open Verif.Py

section Psd
variable {K : Type} [Field K]

/-- `out[s:s+len(vals)] = vals`. -/
def writeAt {α : Type} (out : List α) (s : Nat) (vals : List α) : List α :=
  out.mapIdx fun k e => if s ≤ k then (vals[k - s]?).getD e else e

/-- noises.py 16-24 `_fold_psd`; `buf` is the buffer allocated on line 20, of length `len(p) // 2 + 1`. -/
def foldPsd (buf p : List K) : Res (List K) :=
  let n := p.length / 2 + 1
  match p[0]? with
  | none => .error .indexError
  | some a =>
    let out := buf.set 0 a
    let out := writeAt out 1 (((p.drop 1).take (n - 1 - 1)).map fun v => v * 2)
    match p[n]? with
    | none => .error .indexError
    | some b => .ok (out.set (n - 1) b)

/-- noises.py 27-36 `_unfold_psd`; `buf` is the buffer allocated on line 31, of length `2 * (len(p) - 1)`. -/
def unfoldPsd (buf p : List K) : Res (List K) :=
  let n := p.length
  match p[0]? with
  | none => .error .valueError
  | some a =>
    if buf.length = 0 then .error .indexError
    else
      let out := buf.set 0 a
      let out := writeAt out 1 (((p.drop 1).take (n - 1 - 1)).map fun v => v * (1 / 2))
      match p[n - 1]? with
      | none => .error .indexError
      | some b =>
        let out := out.set (n - 1) b
        .ok (writeAt out n (((out.take (n - 1)).drop 1).reverse))

variable [LinearOrder K]

/-- noises.py 193-196: the `while` loop of `_interp`, from the state (ix, x1, x2). -/
def advance (x : List K) (z : K) (ix : Nat) (x1 x2 : K) : Nat × K × K :=
  if z > x2 ∧ ix < x.length - 1 then advance x z (ix + 1) x2 ((x[ix + 1]?).getD 0)
  else (ix, x1, x2)
termination_by x.length - ix

/-- noises.py 192-197: the `for` loop of `_interp`. -/
def interpLoop (x y : List K) : List K → Nat → K → K → Res (List K)
  | [], _, _, _ => .ok []
  | z :: zs, ix, x1, x2 =>
    let s := advance x z ix x1 x2
    match y[s.1]?, y[s.1 - 1]? with
    | some b, some a =>
      (interpLoop x y zs s.1 s.2.1 s.2.2).map fun r => ((z - s.2.1) * b + (s.2.2 - z) * a) / (s.2.2 - s.2.1) :: r
    | _, _ => .error .indexError

/-- noises.py 180-198 `_interp`. -/
def interp (z x y : List K) : Res (List K) :=
  match x[0]?, x[1]? with
  | some x1, some x2 => interpLoop x y z 1 x1 x2
  | _, _ => .error .indexError

end Psd

/-- `a[1:-1]`. -/
def inner {α : Type} (l : List α) : List α := (l.drop 1).dropLast

/-- noises.py 164-177 `_logloginterp_psd`; `buf` is the buffer of line 170, of the length of `f`. -/
noncomputable def logloginterpPsd (buf f : List ℝ) (bandwidth : ℝ) (psd : List ℝ) : Res (List ℝ) :=
  let frequency := (List.range psd.length).map fun (k : Nat) => (k : ℝ) * bandwidth
  match psd[0]? with
  | none => .error .indexError
  | some a =>
    if buf.length = 0 then .error .indexError
    else
      let out := buf.set 0 a
      (interp ((f.drop 1).map Real.log) ((inner frequency).map Real.log) ((inner psd).map Real.log)).map fun r =>
        let out := writeAt out 1 r
        let out := writeAt out 1 ((out.drop 1).map Real.exp)
        out.mapIdx fun k e => if k = out.length - 1 then e / 2 else e

/-- instruments.py 216-219: the loop `while fftsize < nsamples_max`. -/
def fftLoop (nsamples fftsize : Nat) : Nat :=
  if _h : fftsize < nsamples ∧ 0 < fftsize then fftLoop nsamples (fftsize * 2) else fftsize
termination_by nsamples - fftsize

/-- instruments.py 216-219: the length of the Fourier transform. -/
def fftSize (nsamples : Nat) : Nat := fftLoop nsamples 2

/-- The discrete Fourier transform computed by `fft.fft`. -/
noncomputable def dft (a : List ℂ) : List ℂ :=
  (List.range a.length).map fun (j : Nat) =>
    ((List.range a.length).map fun (k : Nat) =>
      (a[k]?).getD 0 * Complex.exp (-(2 * Real.pi * Complex.I * (j * k : ℕ) / (a.length : ℕ)))).sum

/-- noises.py 148-161 `_psd2invntt` for one row. -/
noncomputable def psd2invntt (psd : List ℝ) (bandwidth : ℝ) (ncorr : Nat) : List ℝ :=
  let fftsize : ℕ := psd.length
  let fsamp := bandwidth * fftsize
  let psd := psd.map fun p => 1 / fsamp / p
  let out := dft (psd.map Complex.ofReal)
  (out.take (ncorr + 1)).map fun c => c.re / fftsize

/-- The inverse discrete Fourier transform computed by `fft.ifft`. -/
noncomputable def idft (a : List ℂ) : List ℂ :=
  (List.range a.length).map fun (j : Nat) =>
    ((List.range a.length).map fun (k : Nat) =>
      (a[k]?).getD 0 * Complex.exp (2 * Real.pi * Complex.I * (j * k : ℕ) / (a.length : ℕ))).sum / (a.length : ℕ)

/-- The element `k` of `np.fft.fftfreq(n, d=1 / fs)`. -/
noncomputable def fftfreq (n : Nat) (fs : ℝ) (k : Nat) : ℝ :=
  (if k < (n - 1) / 2 + 1 then (k : ℝ) else (k : ℝ) - n) * (fs / n)

/-- noises.py 39-76 `_gaussian_psd_1f` for scalar parameters.  The frequency 0 is replaced by infinity (line 72): the ratio is 0.  (The
power of 0 by a negative slope, infinite in floating point, is 0 here.) -/
noncomputable def gaussianPsd1f (alloc : Nat → List ℝ) (nsamples : Nat) (fs sigma fknee fslope : ℝ) (twosided : Bool) : Res (List ℝ) :=
  if nsamples = 0 then .error .zeroDivisionError
  else
    let psd := (List.range nsamples).map fun (k : Nat) =>
      sigma ^ 2 * (1 + |if k = 0 then 0 else fknee / fftfreq nsamples fs k| ^ fslope) / fs
    if twosided then .ok psd else foldPsd (alloc (psd.length / 2 + 1)) psd

/-- noises.py 79-121 `_gaussian_sample` for one row: `gauss` is the result of line 113. -/
noncomputable def gaussianSample (alloc : Nat → List ℝ) (nsamples : Nat) (fs : ℝ) (psd : List ℝ) (twosided : Bool)
    (gauss : List ℝ) : Res (List ℝ) := do
  let psd ← if twosided then pure psd else unfoldPsd (alloc (2 * (psd.length - 1))) psd
  if nsamples = 0 then .error .valueError
  else if psd.length = nsamples ∨ psd.length = 1 then
    let ftgauss := (dft (gauss.map Complex.ofReal)).set 0 0
    let spec := ftgauss.mapIdx fun k c => c * ((Real.sqrt ((psd[if psd.length = 1 then 0 else k]?).getD 0) : ℝ) : ℂ)
    .ok ((idft spec).map fun c => c.re * Real.sqrt fs)
  else .error .valueError

/-- The value given to `sigma` or `nep`: a scalar or one value per detector. -/
inductive Level | scalar (s : ℝ) | array (l : List ℝ)

/-- Division by a number. -/
noncomputable def Level.div (a : Level) (c : ℝ) : Level :=
  match a with
  | .scalar s => .scalar (s / c)
  | .array l => .array (l.map (· / c))

/-- The arguments that specify the noise. -/
structure NoiseArgs where
  psd : Option (List ℝ)
  bandwidth : Option ℝ
  twosided : Bool
  sigma : Option Level
  nep : Option Level
  fknee : ℝ
  fslope : ℝ

/-- instruments.py 194-204 and 282-292. -/
noncomputable def checkNoise (a : NoiseArgs) (period : ℝ) : Res (Option Level) :=
  if a.bandwidth.isNone ∧ a.psd.isSome ∨ a.bandwidth.isSome ∧ a.psd.isNone then .error .valueError
  else
    let sigma := match a.nep with
      | some nep => some (nep.div (Real.sqrt (2 * period)))
      | none => a.sigma
    if a.bandwidth.isNone ∧ a.psd.isNone ∧ sigma.isNone then .error .valueError else .ok sigma

/-- The result of `get_invntt_operator`: the diagonal (one value or one per detector) or the first row of a band Toeplitz matrix. -/
inductive InvNtt | diagonal (v : Level) | toeplitz (row : List ℝ)

/-- instruments.py 138-236 `get_invntt_operator`; in the correlated case `sigma` is a scalar and the spectrum has one row. -/
noncomputable def getInvntt (alloc : Nat → List ℝ) (period : ℝ) (nsamples : Nat) (a : NoiseArgs) (ncorr : Option Nat) : Res InvNtt := do
  let sigma ← checkNoise a period
  if a.bandwidth.isNone ∧ a.fknee = 0 then
    match sigma with
    | some (.scalar s) => .ok (.diagonal (.scalar (1 / s ^ 2)))
    | some (.array l) => .ok (.diagonal (.array (l.map fun s => 1 / s ^ 2)))
    | none => .error .typeError
  else
    let fs := 1 / period
    let fftsize := fftSize nsamples
    let newBandwidth := fs / fftsize
    let p ← match a.psd, a.bandwidth with
      | some psd, some bandwidth => do
        let psd ← if a.twosided then foldPsd (alloc (psd.length / 2 + 1)) psd else pure psd
        let f := (List.range (fftsize / 2 + 1)).map fun (k : Nat) => (k : ℝ) * newBandwidth
        let q ← logloginterpPsd (alloc f.length) f bandwidth psd
        unfoldPsd (alloc (2 * (q.length - 1))) q
      | _, _ => match sigma with
        | some (.scalar s) => gaussianPsd1f alloc fftsize fs s a.fknee a.fslope true
        | _ => .error .notImplementedError
    let p := match p[1]? with
      | some p1 => p.set 0 p1
      | none => p
    match ncorr with
    | none => .error .typeError
    | some ncorr => .ok (.toeplitz (psd2invntt p newBandwidth ncorr))

/-- instruments.py 238-336 `get_noise`.  `g i` is the row `i` of the normal deviates, `out` the array given by the caller, `op` the
operation (none for the assignment). -/
noncomputable def getNoise (alloc : Nat → List ℝ) (period : ℝ) (ndet nsamples : Nat) (a : NoiseArgs) (g : Nat → List ℝ)
    (out : Option (List (List ℝ))) (op : Option (ℝ → ℝ → ℝ)) : Res (List (List ℝ)) := do
  let sigma ← checkNoise a period
  if out.isNone ∧ op.isSome then .error .valueError
  else
    let put (old new : List ℝ) : List ℝ := match op with
      | none => new
      | some op => List.zipWith op old new
    if a.bandwidth.isNone ∧ a.fknee = 0 then
      let sigma := match sigma with
        | some (.scalar s) => [s]
        | some (.array l) => l
        | none => []
      -- broadcast of the shapes (ndet, nsamples) and (len(sigma), 1)
      let nrow := if sigma.length = 1 then ndet else sigma.length
      if sigma.length ≠ 1 ∧ ndet ≠ 1 ∧ sigma.length ≠ ndet then .error .valueError
      else
        let noise := (List.range nrow).map fun i =>
          (g (if ndet = 1 then 0 else i)).map fun v => v * (sigma[if sigma.length = 1 then 0 else i]?).getD 0
        match out with
        | none => .ok noise
        | some out => if out.length = noise.length then .ok (List.zipWith put out noise) else .error .valueError
    else
      let out := match out with
        | some out => out
        | none => (List.range ndet).map fun _ => alloc nsamples
      let fs := 1 / period
      let (p, twosided, rows) ← match a.psd, a.bandwidth with
        | some psd, some bandwidth => do
          let psd ← if a.twosided then foldPsd (alloc (psd.length / 2 + 1)) psd else pure psd
          let f := (List.range (nsamples / 2 + 1)).map fun (k : Nat) => (k : ℝ) * (fs / nsamples)
          let p ← logloginterpPsd (alloc f.length) f bandwidth psd
          pure (p, false, none)
        | _, _ => match sigma with
          | some (.scalar s) => do
            let p ← gaussianPsd1f alloc nsamples fs s a.fknee a.fslope true
            pure (p, true, none)
          | some (.array l) => do
            let p ← gaussianPsd1f alloc nsamples fs (l.headD 0) a.fknee a.fslope true
            pure (p, true, some l.length)
          | none => .error .typeError
      -- a spectrum per detector gives as many samples, which do not fit in the row of one detector
      (out.zipIdx).mapM fun (o, i) => do
        if rows.isSome ∧ (rows ≠ some 1 ∨ op.isSome) then .error .valueError
        else do
          let s ← gaussianSample alloc nsamples fs p twosided (g i)
          pure (put o s)

/-! ### Truncated exponential -/

/-- module_operators.f90.j2 446-455: `w`.  For a zero time constant the IEEE value of `exp(-1 / tau)` is 0. -/
noncomputable def trexpW (tau : ℝ) : ℝ := if tau = 0 then 0 else Real.exp (-1 / tau)

/-- Element `i` (from 0) of an array. -/
noncomputable def at' (a : List ℝ) (i : Nat) : ℝ := (a[i]?).getD 0

/-- module_operators.f90.j2 442-460 `trexp_direct_inplace`: the content of `input` at the end. -/
noncomputable def directInplace (tau : ℝ) (input : List ℝ) : List ℝ :=
  if tau = 0 then input
  else if tau < 0 then input.map fun _ => 0
  else
    let w := trexpW tau
    let v := 1 - w
    (List.range' 1 (input.length - 1)).foldl (fun m i => m.set i (w * at' m (i - 1) + v * at' m i)) input

/-- module_operators.f90.j2 463-483 `trexp_direct_outplace`: the content of `output` at the end (at least one sample: otherwise line 478
writes out of bounds). -/
noncomputable def directOutplace (tau : ℝ) (input output : List ℝ) : List ℝ :=
  if tau = 0 then input
  else if tau < 0 then output.map fun _ => 0
  else
    let w := trexpW tau
    let v := 1 - w
    let output := output.set 0 (at' input 0)
    (List.range' 1 (input.length - 1)).foldl (fun m i => m.set i (w * at' m (i - 1) + v * at' input i)) output

/-- module_operators.f90.j2 486-506 `trexp_transpose_inplace`: the content of `input` at the end. -/
noncomputable def transposeInplace (tau : ℝ) (input : List ℝ) : List ℝ :=
  if tau = 0 then input
  else if tau < 0 then input.map fun _ => 0
  else
    let w := trexpW tau
    let v := 1 - w
    let m := (List.range (input.length - 1)).reverse.foldl (fun m i => m.set i (w * at' m (i + 1) + v * at' m i)) input
    m.set 0 (at' m 0 / v)

/-- module_operators.f90.j2 509-532 `trexp_transpose_outplace`: the content of `output` at the end.  There is no `return` in the branch
of the zero time constant (line 518). -/
noncomputable def transposeOutplace (tau : ℝ) (input output : List ℝ) : List ℝ :=
  let n := input.length
  let output := if tau = 0 then input else output
  if tau < 0 then output.map fun _ => 0
  else
    let w := trexpW tau
    let v := 1 - w
    let m := output.set (n - 1) (v * at' input (n - 1))
    let m := (List.range (n - 1)).reverse.foldl (fun m i => m.set i (w * at' m (i + 1) + v * at' input i)) m
    m.set 0 (at' m 0 / v)

/-- The time constant of the detector `i` (from 0): `tau(min(i, ntaus))` in operators.f90.j2 375, 384, 408, 417. -/
noncomputable def tauOf (taus : List ℝ) (i : Nat) : ℝ := (taus[min (i + 1) taus.length - 1]?).getD 0

/-- operators.py 351-366: the constructor replaces the operator by the identity if no time constant is positive. -/
noncomputable def isIdentity (taus : List ℝ) : Bool := taus.all fun t => decide (t ≤ 0)

/-- operators.py 404-411 `validatein` for a signal of `n` rows. -/
def trexpValid (taus : List ℝ) (n : Nat) : Prop := taus.length = 1 ∨ taus.length = n

/-- operators.py 368-384, operators.f90.j2 356-387: `direct` on the rows of the signal; `output` is none if the input and the output are
the same memory. -/
noncomputable def trexpDirect (taus : List ℝ) (rows : List (List ℝ)) (output : Option (List (List ℝ))) : List (List ℝ) :=
  if isIdentity taus then rows
  else match output with
    | none => rows.mapIdx fun i r => directInplace (tauOf taus i) r
    | some out => (rows.zip out).mapIdx fun i r => directOutplace (tauOf taus i) r.1 r.2

/-- operators.py 386-402, operators.f90.j2 390-421: `transpose`. -/
noncomputable def trexpTranspose (taus : List ℝ) (rows : List (List ℝ)) (output : Option (List (List ℝ))) : List (List ℝ) :=
  if isIdentity taus then rows
  else match output with
    | none => rows.mapIdx fun i r => transposeInplace (tauOf taus i) r
    | some out => (rows.zip out).mapIdx fun i r => transposeOutplace (tauOf taus i) r.1 r.2

/-- An array in memory: its shape, its strides and the size of its items in bytes. -/
structure Strided where
  shape : List Nat
  strides : List Int
  itemsize : Nat

/-- operators.py 415-424 `_ravel_strided`: the numbers of rows and of columns, the distance between the rows, and the length of the
one-dimensional view and the distance in bytes between its elements. -/
def ravelStrided (x : Strided) : Res (Nat × Nat × Int × Int × Int) :=
  match x.shape, x.strides with
  | [n], [s] => .ok (1, n, n, n, s)
  | [n, m], [s0, s1] =>
    if s1 ≠ 8 then .error .valueError
    else
      let rowlen := s0 / 8
      let size := (n : Int) * rowlen
      if size < 0 then .error .valueError else .ok (n, m, rowlen, size, 8)
  | _, _ => .error .notImplementedError

/-! ### Roll -/

/-- An array of `r` dimensions `d`. -/
abbrev Arr (r : Nat) (d : Fin r → Nat) (K : Type) := (∀ a : Fin r, Fin (d a)) → K

/-- The position `(i - n) mod m`, with the Python modulo. -/
def rollIdx {m : Nat} (i : Fin m) (n : Int) : Fin m :=
  ⟨(((i : Int) - n) % (m : Int)).toNat, by
    have hm : (0 : Int) < m := by exact_mod_cast Fin.pos i
    have h1 := Int.emod_nonneg ((i : Int) - n) hm.ne'
    have h2 := Int.emod_lt_of_pos ((i : Int) - n) hm
    omega⟩

/-- `np.roll(x, n, axis)` for a valid axis. -/
def roll {r : Nat} {d : Fin r → Nat} {K : Type} (x : Arr r d K) (n : Int) (axis : Fin r) : Arr r d K :=
  fun idx => x (Function.update idx axis (rollIdx (idx axis) n))

/-- numpy axis: negative ones count from the last. -/
def axisOf (r : Nat) (axis : Int) : Option (Fin r) :=
  if h : 0 ≤ axis ∧ axis < r then some ⟨axis.toNat, by omega⟩
  else if h : axis < 0 ∧ 0 ≤ axis + r then some ⟨(axis + r).toNat, by omega⟩
  else none

/-- `np.roll(x, n, axis)`: an invalid axis raises `AxisError` (a `ValueError` and an `IndexError`). -/
def npRoll {r : Nat} {d : Fin r → Nat} {K : Type} (x : Arr r d K) (n : Int) (axis : Int) : Res (Arr r d K) :=
  match axisOf r axis with
  | none => .error .valueError
  | some a => .ok (roll x n a)

/-- The arguments of `RollOperator`: a scalar or a tuple. -/
inductive Arg | scalar (n : Int) | tuple (l : List Int)

/-- operators.py 1200-1209 `RollOperator.__init__`: the attributes (n, axis). -/
def rollInit (n : Arg) (axis : Option Arg) : Res (List Int × List Int) :=
  let axis := match axis with
    | some a => a
    | none => match n with
      | .scalar _ => .scalar (-1)
      | .tuple l => .tuple (progression (-(l.length : Int)) 1 l.length)
  let axis := match axis with
    | .scalar a => [a]
    | .tuple l => l
  let n := match n with
    | .scalar m => List.replicate axis.length m
    | .tuple l => l
  if axis.length ≠ n.length then .error .valueError else .ok (n, axis)

/-- operators.py 1211-1214 `direct`: `np.roll` returns a new array, so that it does not matter whether the input and the output are the
same memory. -/
def rollDirect {r : Nat} {d : Fin r → Nat} {K : Type} (n axis : List Int) (x : Arr r d K) : Res (Arr r d K) :=
  match n, axis with
  | n0 :: ns, a0 :: as => (ns.zip as).foldlM (fun o p => npRoll o p.1 p.2) =<< npRoll x n0 a0
  | _, _ => .error .indexError

/-- operators.py 1216-1219 `transpose`. -/
def rollTranspose {r : Nat} {d : Fin r → Nat} {K : Type} (n axis : List Int) (x : Arr r d K) : Res (Arr r d K) :=
  match n, axis with
  | n0 :: ns, a0 :: as => (ns.zip as).foldlM (fun o p => npRoll o (-p.1) p.2) =<< npRoll x (-n0) a0
  | _, _ => .error .indexError

end Verif.Signal
