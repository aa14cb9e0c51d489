import Mathlib.Analysis.SpecialFunctions.Trigonometric.Basic
import Mathlib.Analysis.Calculus.Deriv.Pow
import Mathlib.Analysis.Calculus.Deriv.Mul
import Mathlib.Analysis.Calculus.Deriv.Add
import Mathlib.Tactic
import Verif.Sparse.Props

/-! The Laplacian of Healpix maps (interfaces/healpy/operators.py 358-388). -/

namespace Verif.Healpix

open Verif.Py
open Verif.Sparse
open Finset

set_option linter.unusedSectionVars false
set_option linter.unusedSimpArgs false

noncomputable section

/-! ### The neighbours of a Healpix pixel (trusted library) -/

/-- A pixel: the base face and the position in the face, x towards the North-East and y towards the North-West. -/
structure Pix where
  face : Nat
  x : Int
  y : Int
deriving DecidableEq

/-- The pixels of the resolution `n`. -/
def Pix.In (n : Nat) (p : Pix) : Prop := p.face < 12 ∧ (0 ≤ p.x ∧ p.x < n) ∧ (0 ≤ p.y ∧ p.y < n)

/-- The displacements towards the neighbours, in the order of `get_all_neighbours`: SW, W, NW, N, NE, E, SE, S. -/
def offX (k : Nat) : Int := [-1, -1, 0, 1, 1, 1, 0, -1].getD k 0

/-- The second component of the displacements. -/
def offY (k : Nat) : Int := [0, 1, 1, 1, 0, -1, -1, -1].getD k 0

/-- The face reached by leaving a face (`nb_facearray` of the Healpix library), by the South, SE, E, SW, centre, NE, W, NW, North. -/
def faceArray : List (List Int) :=
  [[8, 9, 10, 11, -1, -1, -1, -1, 10, 11, 8, 9],
   [5, 6, 7, 4, 8, 9, 10, 11, 9, 10, 11, 8],
   [-1, -1, -1, -1, 5, 6, 7, 4, -1, -1, -1, -1],
   [4, 5, 6, 7, 11, 8, 9, 10, 11, 8, 9, 10],
   [0, 1, 2, 3, 4, 5, 6, 7, 8, 9, 10, 11],
   [1, 2, 3, 0, 0, 1, 2, 3, 5, 6, 7, 4],
   [-1, -1, -1, -1, 7, 4, 5, 6, -1, -1, -1, -1],
   [3, 0, 1, 2, 3, 0, 1, 2, 4, 5, 6, 7],
   [2, 3, 0, 1, -1, -1, -1, -1, 0, 1, 2, 3]]

/-- The change of orientation between the faces (`nb_swaparray` of the Healpix library): 1 and 2 for the reversals of x and y, 4 for their exchange. -/
def swapArray : List (List Nat) := [[0, 0, 3], [0, 0, 6], [0, 0, 0], [0, 0, 5], [0, 0, 0], [5, 0, 0], [0, 0, 0], [6, 0, 0], [3, 0, 0]]

/-- A coordinate brought back in the face, and the side by which it has left. -/
def wrap (n v : Int) : Int × Int := if v < 0 then (v + n, -1) else if n ≤ v then (v - n, 1) else (v, 0)

/-- The face that is reached. -/
def nextFace (a b : Int) (face : Nat) : Int := (faceArray.getD (4 + a + 3 * b).toNat []).getD face (-1)

/-- The change of orientation. -/
def nextSwap (a b : Int) (face : Nat) : Nat := (swapArray.getD (4 + a + 3 * b).toNat []).getD (face / 4) 0

/-- A position of a face in the orientation of the next one. -/
def orient (n : Int) (bits : Nat) (x y : Int) : Int × Int :=
  let x := if bits % 2 = 1 then n - x - 1 else x
  let y := if bits / 2 % 2 = 1 then n - y - 1 else y
  if bits / 4 % 2 = 1 then (y, x) else (x, y)

/-- `healpy.get_all_neighbours(nside, ipix)`: the k-th neighbour, or none (the Healpix library returns -1). -/
def neighbour (n : Nat) (p : Pix) (k : Nat) : Option Pix :=
  let u := wrap n (p.x + offX k)
  let v := wrap n (p.y + offY k)
  let f := nextFace u.2 v.2 p.face
  if 0 ≤ f then
    let q := orient n (nextSwap u.2 v.2 p.face) u.1 v.1
    some ⟨f.toNat, q.1, q.2⟩
  else none

/-- The numbering of the pixels of the resolution `n` (the ring scheme in the code; the properties hold for any of them). -/
structure Numbering (n : Nat) where
  pix : Nat → Pix
  number : Pix → Nat
  pix_in : ∀ i < 12 * n ^ 2, (pix i).In n
  number_lt : ∀ p : Pix, p.In n → number p < 12 * n ^ 2
  number_pix : ∀ i < 12 * n ^ 2, number (pix i) = i
  pix_number : ∀ p : Pix, p.In n → pix (number p) = p

/-! ### The model -/

/-- operators.py 387: the weights of the neighbours, before their division by 6 h². -/
def weight (k : Nat) : ℝ := [1, 4, 1, 4, 1, 4, 1, 4].getD k 0

/-- operators.py 385: the area of a pixel. -/
def h2 (n : Nat) : ℝ := 4 * Real.pi / (12 * n ^ 2 : ℕ)

/-- operators.py 383-387: the element j of the row i. -/
def laplacianElem (n : Nat) (num : Numbering n) (i j : Nat) : Elem ℝ :=
  if j = 0 then ⟨i, -20 / (6 * h2 n)⟩
  else ⟨match neighbour n (num.pix i) (j - 1) with
    | some q => num.number q
    | none => -1, weight (j - 1) / (6 * h2 n)⟩

/-- operators.py 377-389 `HealpixLaplacianOperator.__init__`: the matrix. -/
def laplacian (n : Nat) (num : Numbering n) : Mat ℝ where
  nrow := 12 * n ^ 2
  ncol := 12 * n ^ 2
  bs0 := 1
  bs1 := 1
  nlines := 12 * n ^ 2
  nmax := 9
  flat := (List.range (12 * n ^ 2 * 9)).map fun t => laplacianElem n num (t / 9) (t % 9)

/-! ### The specification -/

/-- The map of a function of the pixels. -/
def mapOf {n : Nat} (num : Numbering n) (f : Pix → ℝ) : List ℝ := (List.range (12 * n ^ 2)).map fun i => f (num.pix i)

/-- The value at a neighbour, zero if there is none. -/
def valueAt (f : Pix → ℝ) : Option Pix → ℝ
  | some q => f q
  | none => 0

/-! ### The neighbours -/

/-- The direction from the neighbour back to the pixel. -/
def back (bits k : Nat) : Nat := (k + (if bits = 0 then 4 else if bits = 6 then 2 else if bits = 5 then 6 else 0)) % 8

theorem wrap_spec {n v w a : Int} (h : wrap n v = (w, a)) (h0 : -n ≤ v) (h1 : v < 2 * n) : (0 ≤ w ∧ w < n) ∧ (a = -1 ∨ a = 0 ∨ a = 1) ∧ v = w + a * n := by
  unfold wrap at h
  split_ifs at h <;> rw [Prod.mk.injEq] at h <;> obtain ⟨rfl, rfl⟩ := h
  · exact ⟨by omega, by omega, by ring⟩
  · exact ⟨by omega, by omega, by ring⟩
  · exact ⟨by omega, by omega, by ring⟩

theorem wrap_eq {n v w a : Int} (hw : 0 ≤ w ∧ w < n) (ha : a = -1 ∨ a = 0 ∨ a = 1) (h : v = w + a * n) : wrap n v = (w, a) := by
  subst h
  unfold wrap
  rcases ha with rfl | rfl | rfl
  · rw [if_pos (by omega)]
    simp
  · rw [if_neg (by omega), if_neg (by omega)]
    simp
  · rw [if_neg (by omega), if_pos (by omega)]
    simp

/-- The sides of the next face. -/
def turnX (bits : Nat) (a b : Int) : Int := if bits = 0 then -a else if bits = 6 then b else if bits = 5 then -b else a

/-- The sides of the next face. -/
def turnY (bits : Nat) (a b : Int) : Int := if bits = 0 then -b else if bits = 6 then -a else if bits = 5 then a else b

/-- The reversed change of orientation. -/
def unswap (bits : Nat) : Nat := if bits = 6 then 5 else if bits = 5 then 6 else bits

theorem faces : ∀ f < 12, ∀ a ∈ [(-1 : Int), 0, 1], ∀ b ∈ [(-1 : Int), 0, 1], 0 ≤ nextFace a b f →
    (nextFace a b f).toNat < 12 ∧ nextSwap a b f ∈ [0, 3, 5, 6] ∧
    nextFace (turnX (nextSwap a b f) a b) (turnY (nextSwap a b f) a b) (nextFace a b f).toNat = f ∧
    nextSwap (turnX (nextSwap a b f) a b) (turnY (nextSwap a b f) a b) (nextFace a b f).toNat = unswap (nextSwap a b f) := by
  decide +kernel

theorem offsets : ∀ k < 8, (offX k = -1 ∨ offX k = 0 ∨ offX k = 1) ∧ (offY k = -1 ∨ offY k = 0 ∨ offY k = 1) ∧
    ∀ bits ∈ [0, 3, 5, 6], offX (back bits k) = turnX bits (offX k) (offY k) ∧ offY (back bits k) = turnY bits (offX k) (offY k) ∧
      back (unswap bits) (back bits k) = k ∧ back bits k < 8 ∧ weight (back bits k) = weight k := by
  intro k hk
  refine ⟨by interval_cases k <;> decide, by interval_cases k <;> decide, ?_⟩
  intro bits hb
  simp only [List.mem_cons, List.not_mem_nil, or_false] at hb
  rcases hb with rfl | rfl | rfl | rfl <;> interval_cases k <;> refine ⟨by decide, by decide, by decide, by decide, rfl⟩

/-- The change of orientation by which the neighbour is reached. -/
def swapOf (n : Nat) (p : Pix) (k : Nat) : Nat := nextSwap (wrap n (p.x + offX k)).2 (wrap n (p.y + offY k)).2 p.face

/-- A neighbour is a pixel, of which the pixel is a neighbour with the same weight. -/
theorem neighbour_back {n : Nat} {p q : Pix} {k : Nat} (hk : k < 8) (hp : p.In n) (h : neighbour n p k = some q) :
    q.In n ∧ back (swapOf n p k) k < 8 ∧ neighbour n q (back (swapOf n p k) k) = some p ∧ weight (back (swapOf n p k) k) = weight k ∧
      back (swapOf n q (back (swapOf n p k) k)) (back (swapOf n p k) k) = k := by
  obtain ⟨hf, ⟨hx0, hx1⟩, hy0, hy1⟩ := hp
  obtain ⟨hdx, hdy, hd⟩ := offsets k hk
  rcases hu : wrap n (p.x + offX k) with ⟨u, a⟩
  rcases hv : wrap n (p.y + offY k) with ⟨v, b⟩
  obtain ⟨hu1, ha, hu2⟩ := wrap_spec hu (by omega) (by omega)
  obtain ⟨hv1, hb, hv2⟩ := wrap_spec hv (by omega) (by omega)
  have hsw : swapOf n p k = nextSwap a b p.face := by rw [swapOf, hu, hv]
  rw [hsw]
  rw [neighbour, hu, hv] at h
  dsimp only at h
  split at h
  case isFalse => cases h
  rename_i hface
  have ha' : a ∈ [(-1 : Int), 0, 1] := by simpa using ha
  have hb' : b ∈ [(-1 : Int), 0, 1] := by simpa using hb
  obtain ⟨g1, g2, g3, g4⟩ := faces p.face hf a ha' b hb' hface
  generalize hbits : nextSwap a b p.face = bits at *
  obtain ⟨d1, d2, d3, d4, d5⟩ := hd bits g2
  cases h
  have key : ∀ q1 q2 : Int, (q1, q2) = orient n bits u v →
      (0 ≤ q1 ∧ q1 < n) ∧ (0 ≤ q2 ∧ q2 < n) ∧ wrap n (q1 + offX (back bits k)) = ((orient n bits p.x p.y).1, turnX bits a b) ∧
      wrap n (q2 + offY (back bits k)) = ((orient n bits p.x p.y).2, turnY bits a b) ∧
      orient n (unswap bits) (orient n bits p.x p.y).1 (orient n bits p.x p.y).2 = (p.x, p.y) := by
    intro q1 q2 hq
    rw [d1, d2]
    simp only [List.mem_cons, List.not_mem_nil, or_false] at g2
    rcases g2 with rfl | rfl | rfl | rfl <;> simp [orient, turnX, turnY, unswap] at hq ⊢ <;> obtain ⟨rfl, rfl⟩ := hq <;>
      refine ⟨by omega, by omega, wrap_eq (by omega) (by omega) (by linarith), ?_⟩ <;>
      first
      | exact wrap_eq (by omega) (by omega) (by linarith)
      | exact ⟨wrap_eq (by omega) (by omega) (by linarith), by ring, by ring⟩
      | exact ⟨wrap_eq (by omega) (by omega) (by linarith), by ring⟩
  obtain ⟨k1, k2, k3, k4, k5⟩ := key (orient n bits u v).1 (orient n bits u v).2 rfl
  have hsw' : swapOf n ⟨(nextFace a b p.face).toNat, (orient n bits u v).1, (orient n bits u v).2⟩ (back bits k) = unswap bits := by
    rw [swapOf, k3, k4, g4]
  refine ⟨⟨g1, k1, k2⟩, d4, ?_, d5, by rw [hsw', d3]⟩
  rw [neighbour]
  dsimp only
  rw [k3, k4]
  dsimp only
  rw [g3, if_pos (by omega), g4, k5]
  rfl

/-! ### The properties -/

theorem laplacian_wf (n : Nat) (num : Numbering n) : RowWf (laplacian n num) (12 * n ^ 2) (12 * n ^ 2) := by
  refine ⟨⟨one_pos, one_pos⟩, by simp [laplacian], by simp [laplacian], rfl, by simp [laplacian], ?_⟩
  intro e he
  obtain ⟨t, ht, rfl⟩ := List.mem_map.1 he
  have hi : t / 9 < 12 * n ^ 2 := by
    rw [List.mem_range] at ht
    omega
  unfold laplacianElem
  split_ifs
  · change ((t / 9 : ℕ) : ℤ) < _
    exact_mod_cast hi
  · dsimp only
    have hj : t % 9 - 1 < 8 := by omega
    cases hq : neighbour n (num.pix (t / 9)) (t % 9 - 1) with
    | none =>
      change (-1 : ℤ) < _
      exact (by norm_num : (-1 : ℤ) < 0).trans_le (Int.natCast_nonneg _)
    | some q =>
      change ((num.number q : ℕ) : ℤ) < _
      exact_mod_cast num.number_lt q (neighbour_back hj (num.pix_in _ hi) hq).1

theorem flat_get {n : Nat} {num : Numbering n} {i j : Nat} (hi : i < 12 * n ^ 2) (hj : j < 9) :
    (laplacian n num).flat[i * 9 + j]? = some (laplacianElem n num i j) := by
  have : i * 9 + j < 12 * n ^ 2 * 9 := by nlinarith
  simp only [laplacian, List.getElem?_map, List.getElem?_range this, Option.map_some]
  rw [show (i * 9 + j) / 9 = i by omega, show (i * 9 + j) % 9 = j by omega]

/-- The dense matrix. -/
def dense (n : Nat) (num : Numbering n) (i k : Nat) : ℝ := lineEntry scalarEntry (laplacian n num) i k 0 0

theorem dense_eq {n : Nat} {num : Numbering n} {i k : Nat} (hi : i < 12 * n ^ 2) (hk : k < 12 * n ^ 2) :
    dense n num i k = (if i = k then -20 / (6 * h2 n) else 0) +
      ∑ d ∈ range 8, if neighbour n (num.pix i) d = some (num.pix k) then weight d / (6 * h2 n) else 0 := by
  unfold dense lineEntry
  have hnmax : (laplacian n num).nmax = 8 + 1 := rfl
  rw [hnmax]
  rw [Finset.sum_range_succ', add_comm]
  congr 1
  · rw [flat_get hi (show 0 < 9 by norm_num)]
    simp only [laplacianElem, if_true, scalarEntry, Nat.cast_inj]
  · refine Finset.sum_congr rfl fun d hd => ?_
    rw [Finset.mem_range] at hd
    rw [flat_get hi (show d + 1 < 9 by omega)]
    simp only [laplacianElem, Nat.add_eq_zero_iff, one_ne_zero, and_false, if_false, Nat.add_sub_cancel, scalarEntry]
    cases hq : neighbour n (num.pix i) d with
    | none => simp
    | some q =>
      have hin := (neighbour_back hd (num.pix_in i hi) hq).1
      simp only [Nat.cast_inj, Option.some.injEq]
      congr 1
      rw [eq_iff_iff]
      constructor
      · intro e
        rw [← e, num.pix_number q hin]
      · rintro rfl
        exact num.number_pix k hk

/-- C113: the operator adds, to minus twenty times the value of the pixel, the values of its neighbours (those that exist) times their weights, divided
by six times the pixel area. -/
theorem C113_action {n : Nat} (hn : 0 < n) (num : Numbering n) (fast : Bool) (f : Pix → ℝ) :
    ∃ out, fsrMatvec fast (laplacian n num) (mapOf num f) none = .ok out ∧ out.length = 12 * n ^ 2 ∧
      ∀ p : Pix, p.In n → out[num.number p]? = some ((∑ k ∈ range 8, weight k * valueAt f (neighbour n p k) - 20 * f p) / (6 * h2 n)) := by
  have hpos : 0 < 12 * n ^ 2 := by positivity
  obtain ⟨out, h1, h2, h3⟩ := C26_fsr_partial (laplacian_wf n num) hpos rfl rfl fast (ext := 1) one_pos (v := mapOf num f) (by simp [mapOf]) (out := none)
    (.inl hpos) (by simp)
  refine ⟨out, h1, by simpa using h2, fun p hp => ?_⟩
  set i := num.number p with hi
  have hilt : i < 12 * n ^ 2 := num.number_lt p hp
  have hpix : num.pix i = p := num.pix_number p hp
  have h4 := h3 i hilt 0 one_pos
  simp only [mul_one, add_zero] at h4
  rw [h4]
  simp only [initial, List.getElem?_replicate, mul_one, hilt, if_true, Option.map_some, zero_add, Option.some.injEq]
  have hget : ∀ k ∈ range (12 * n ^ 2), lineEntry scalarEntry (laplacian n num) i k 0 0 * (mapOf num f).getD k 0 =
      (if i = k then -20 / (6 * Healpix.h2 n) * f p else 0) +
        ∑ d ∈ range 8, if neighbour n p d = some (num.pix k) then weight d / (6 * Healpix.h2 n) * f (num.pix k) else 0 := by
    intro k hk
    rw [Finset.mem_range] at hk
    have hv : (mapOf num f).getD k 0 = f (num.pix k) := by
      simp [mapOf, List.getD_eq_getElem?_getD, List.getElem?_map, List.getElem?_range hk]
    rw [hv]
    have := dense_eq (num := num) hilt hk
    unfold dense at this
    rw [this, hpix, add_mul, Finset.sum_mul]
    congr 1
    · split_ifs with e
      · rw [← e, hpix]
      · rw [zero_mul]
    · refine Finset.sum_congr rfl fun d _ => ?_
      split_ifs
      · rfl
      · rw [zero_mul]
  rw [Finset.sum_congr rfl hget, Finset.sum_add_distrib, Finset.sum_comm, Finset.sum_ite_eq, if_pos (Finset.mem_range.2 hilt)]
  have hsum : ∀ d ∈ range 8, (∑ k ∈ range (12 * n ^ 2), if neighbour n p d = some (num.pix k) then weight d / (6 * Healpix.h2 n) * f (num.pix k) else 0) =
      weight d / (6 * Healpix.h2 n) * valueAt f (neighbour n p d) := by
    intro d hd
    rw [Finset.mem_range] at hd
    cases hq : neighbour n p d with
    | none => simp [valueAt]
    | some q =>
      have hin := (neighbour_back hd hp hq).1
      have e : ∀ k ∈ range (12 * n ^ 2), (if some q = some (num.pix k) then weight d / (6 * Healpix.h2 n) * f (num.pix k) else 0) =
          if num.number q = k then weight d / (6 * Healpix.h2 n) * f q else 0 := by
        intro k hk
        rw [Finset.mem_range] at hk
        by_cases hqk : num.number q = k
        · rw [if_pos hqk, ← hqk, num.pix_number q hin, if_pos rfl]
        · rw [if_neg hqk, if_neg]
          intro e
          rw [Option.some.injEq] at e
          rw [e, num.number_pix k hk] at hqk
          exact hqk rfl
      rw [Finset.sum_congr rfl e, Finset.sum_ite_eq, if_pos (Finset.mem_range.2 (num.number_lt q hin))]
      rfl
  rw [Finset.sum_congr rfl hsum, sub_div, Finset.sum_div]
  rw [show -20 / (6 * Healpix.h2 n) * f p = -(20 * f p / (6 * Healpix.h2 n)) by ring, neg_add_eq_sub]
  congr 1
  exact Finset.sum_congr rfl fun d _ => by ring

/-- C113: the operator is symmetric, as it is declared. -/
theorem C113_symmetric {n : Nat} (num : Numbering n) {i k : Nat} (hi : i < 12 * n ^ 2) (hk : k < 12 * n ^ 2) : dense n num i k = dense n num k i := by
  have hle : ∀ p q : Pix, p.In n → (∑ d ∈ range 8, if neighbour n p d = some q then weight d / (6 * h2 n) else 0) =
      ∑ d ∈ (range 8).filter (fun d => neighbour n p d = some q), weight d / (6 * h2 n) := fun p q _ => (Finset.sum_filter _ _).symm
  rw [dense_eq hi hk, dense_eq hk hi, hle _ _ (num.pix_in i hi), hle _ _ (num.pix_in k hk)]
  congr 1
  · simp only [eq_comm]
  · refine Finset.sum_bij' (fun d _ => back (swapOf n (num.pix i) d) d) (fun d _ => back (swapOf n (num.pix k) d) d) ?_ ?_ ?_ ?_ ?_
    · intro d hd
      obtain ⟨h1, h2⟩ := Finset.mem_filter.1 hd
      obtain ⟨-, b1, b2, -, -⟩ := neighbour_back (Finset.mem_range.1 h1) (num.pix_in i hi) h2
      exact Finset.mem_filter.2 ⟨Finset.mem_range.2 b1, b2⟩
    · intro d hd
      obtain ⟨h1, h2⟩ := Finset.mem_filter.1 hd
      obtain ⟨-, b1, b2, -, -⟩ := neighbour_back (Finset.mem_range.1 h1) (num.pix_in k hk) h2
      exact Finset.mem_filter.2 ⟨Finset.mem_range.2 b1, b2⟩
    · intro d hd
      obtain ⟨h1, h2⟩ := Finset.mem_filter.1 hd
      exact (neighbour_back (Finset.mem_range.1 h1) (num.pix_in i hi) h2).2.2.2.2
    · intro d hd
      obtain ⟨h1, h2⟩ := Finset.mem_filter.1 hd
      exact (neighbour_back (Finset.mem_range.1 h1) (num.pix_in k hk) h2).2.2.2.2
    · intro d hd
      obtain ⟨h1, h2⟩ := Finset.mem_filter.1 hd
      rw [(neighbour_back (Finset.mem_range.1 h1) (num.pix_in i hi) h2).2.2.2.1]

theorem h2_pos {n : Nat} (hn : 0 < n) : 0 < h2 n := by
  have := Real.pi_pos
  unfold h2
  positivity

theorem sum_weight : ∑ k ∈ range 8, weight k = 20 := by
  simp only [Finset.sum_range_succ, Finset.sum_range_zero, weight]
  norm_num [List.getD]

/-- The sum of the weights of the missing neighbours. -/
def missing (n : Nat) (p : Pix) : ℝ := ∑ k ∈ range 8, if neighbour n p k = none then weight k else 0

/-- C113: the Laplacian of a constant map is zero at the pixels that have eight neighbours; at the other ones it is not. -/
theorem C113_constant_partial {n : Nat} (hn : 0 < n) (num : Numbering n) (fast : Bool) (c : ℝ) :
    ∃ out, fsrMatvec fast (laplacian n num) (mapOf num fun _ => c) none = .ok out ∧
      ∀ p : Pix, p.In n → ∃ x, out[num.number p]? = some x ∧
        ((∀ k < 8, neighbour n p k ≠ none) → x = 0) ∧ ((∃ k < 8, neighbour n p k = none) → c ≠ 0 → x ≠ 0) := by
  obtain ⟨out, h1, -, h2⟩ := C113_action hn num fast fun _ => c
  refine ⟨out, h1, fun p hp => ⟨_, h2 p hp, ?_⟩⟩
  have hpos := h2_pos hn
  have key : (∑ k ∈ range 8, weight k * valueAt (fun _ => c) (neighbour n p k) - 20 * c) / (6 * Healpix.h2 n) = -(missing n p * c) / (6 * Healpix.h2 n) := by
    congr 1
    rw [← sum_weight, missing, Finset.sum_mul, Finset.sum_mul, ← Finset.sum_sub_distrib, ← Finset.sum_neg_distrib]
    refine Finset.sum_congr rfl fun k _ => ?_
    cases neighbour n p k with
    | none => simp [valueAt]
    | some q => simp [valueAt]
  rw [key]
  constructor
  · intro h
    have : missing n p = 0 := Finset.sum_eq_zero fun k hk => if_neg (h k (Finset.mem_range.1 hk))
    rw [this]
    simp
  · rintro ⟨k, hk, hnone⟩ hc
    have hw : ∀ j ∈ range 8, 0 < weight j := by
      intro j hj
      have := Finset.mem_range.1 hj
      interval_cases j <;> norm_num [weight, List.getD]
    have : 0 < missing n p := by
      refine Finset.sum_pos' (fun j hj => ?_) ⟨k, Finset.mem_range.2 hk, ?_⟩
      · split_ifs
        · exact (hw j hj).le
        · exact le_rfl
      · rw [if_pos hnone]
        exact hw k (Finset.mem_range.2 hk)
    have h6 : 6 * Healpix.h2 n ≠ 0 := by positivity
    rw [neg_div, neg_ne_zero]
    exact div_ne_zero (mul_ne_zero this.ne' hc) h6

theorem neighbour_corner {n : Nat} (hn : 0 < n) : ∀ f < 4, (⟨f, 0, n - 1⟩ : Pix).In n ∧ neighbour n ⟨f, 0, n - 1⟩ 1 = none := by
  intro f hf
  refine ⟨⟨by dsimp only; omega, by simp; omega, by simp; omega⟩, ?_⟩
  have h1 : wrap n (0 + offX 1) = ((n : Int) - 1, -1) := wrap_eq (by omega) (by omega) (by simp [offX]; ring)
  have h2 : wrap n ((n : Int) - 1 + offY 1) = (0, 1) := wrap_eq (by omega) (by omega) (by simp [offY])
  unfold neighbour
  dsimp only
  rw [h1, h2]
  interval_cases f <;> rfl

/-- C113 is false for constant maps: whatever the resolution, there is no pixel on the West of the West corner of the faces of the North, where the
result is not zero. -/
theorem C113_violation_constant {n : Nat} (hn : 0 < n) (num : Numbering n) (fast : Bool) {c : ℝ} (hc : c ≠ 0) :
    ∃ out, fsrMatvec fast (laplacian n num) (mapOf num fun _ => c) none = .ok out ∧
      ∀ f < 4, ∃ x, out[num.number ⟨f, 0, n - 1⟩]? = some x ∧ x ≠ 0 := by
  obtain ⟨out, h1, h2⟩ := C113_constant_partial hn num fast c
  refine ⟨out, h1, fun f hf => ?_⟩
  obtain ⟨hin, hnone⟩ := neighbour_corner hn f hf
  obtain ⟨x, h3, -, h4⟩ := h2 _ hin
  exact ⟨x, h3, h4 ⟨1, by norm_num, hnone⟩ hc⟩

/-- The Laplacian of a function, in units of the inverse square of the side of a pixel. -/
def flatLaplacian (F : ℝ → ℝ → ℝ) (x y : ℝ) : ℝ := deriv (deriv fun s => F s y) x + deriv (deriv fun t => F x t) y

theorem neighbour_interior {n : Nat} {p : Pix} (hf : p.face < 12) (hx : 0 < p.x ∧ p.x < n - 1) (hy : 0 < p.y ∧ p.y < n - 1) {k : Nat} (hk : k < 8) :
    neighbour n p k = some ⟨p.face, p.x + offX k, p.y + offY k⟩ := by
  obtain ⟨hdx, hdy, -⟩ := offsets k hk
  have h1 : wrap n (p.x + offX k) = (p.x + offX k, 0) := wrap_eq (by omega) (by omega) (by simp)
  have h2 : wrap n (p.y + offY k) = (p.y + offY k, 0) := wrap_eq (by omega) (by omega) (by simp)
  rw [neighbour, h1, h2]
  have h3 : ∀ f < 12, nextFace 0 0 f = f ∧ nextSwap 0 0 f = 0 := by decide
  simp only [(h3 p.face hf).1, (h3 p.face hf).2]
  rw [if_pos (by omega)]
  simp [orient]

theorem flatLaplacian_quadratic (A B C D E G x y : ℝ) :
    flatLaplacian (fun x y => A * x ^ 2 + B * x * y + C * y ^ 2 + D * x + E * y + G) x y = 2 * A + 2 * C := by
  have key : ∀ a b c z : ℝ, deriv (deriv fun s : ℝ => a * s ^ 2 + b * s + c) z = 2 * a := by
    intro a b c z
    have h1 : deriv (fun s : ℝ => a * s ^ 2 + b * s + c) = fun s => 2 * a * s + b := by
      funext s
      have : HasDerivAt (fun s : ℝ => a * s ^ 2 + b * s + c) (a * (2 * s) + b * 1) s := by
        have h := (((hasDerivAt_pow 2 s).const_mul a).add ((hasDerivAt_id s).const_mul b)).add_const c
        simpa using h
      rw [this.deriv]
      ring
    rw [h1]
    have : HasDerivAt (fun s : ℝ => 2 * a * s + b) (2 * a * 1) z := ((hasDerivAt_id z).const_mul (2 * a)).add_const b
    rw [this.deriv, mul_one]
  unfold flatLaplacian
  have e1 : (fun s => A * s ^ 2 + B * s * y + C * y ^ 2 + D * s + E * y + G) = fun s => A * s ^ 2 + (B * y + D) * s + (C * y ^ 2 + E * y + G) := by
    funext s; ring
  have e2 : (fun t => A * x ^ 2 + B * x * t + C * t ^ 2 + D * x + E * t + G) = fun t => C * t ^ 2 + (B * x + E) * t + (A * x ^ 2 + D * x + G) := by
    funext t; ring
  rw [e1, e2, key, key]

/-- C113 is false: the weights of the neighbours by a side and by a corner are exchanged, so that the result is once and a half the Laplacian, for all the
functions that are quadratic in the position in the face, at all the pixels inside a face. -/
theorem C113_violation_weights {n : Nat} (num : Numbering n) (fast : Bool) (A B C D E G : ℝ) {p : Pix} (hf : p.face < 12)
    (hx : 0 < p.x ∧ p.x < n - 1) (hy : 0 < p.y ∧ p.y < n - 1) (F : ℝ → ℝ → ℝ)
    (hF : F = fun x y => A * x ^ 2 + B * x * y + C * y ^ 2 + D * x + E * y + G) :
    ∃ out, fsrMatvec fast (laplacian n num) (mapOf num fun q => F q.x q.y) none = .ok out ∧
      out[num.number p]? = some (3 / 2 * (flatLaplacian F p.x p.y / h2 n)) := by
  have hn : 0 < n := by omega
  obtain ⟨out, h1, -, h2⟩ := C113_action hn num fast fun q => F q.x q.y
  refine ⟨out, h1, ?_⟩
  rw [h2 p ⟨hf, by omega, by omega⟩, Option.some.injEq]
  have hpos := (h2_pos hn).ne'
  have : ∑ k ∈ range 8, weight k * valueAt (fun q => F q.x q.y) (neighbour n p k) =
      ∑ k ∈ range 8, weight k * F ((p.x : ℝ) + offX k) ((p.y : ℝ) + offY k) := by
    refine Finset.sum_congr rfl fun k hk => ?_
    rw [neighbour_interior hf hx hy (Finset.mem_range.1 hk)]
    simp [valueAt]
  rw [this, hF, flatLaplacian_quadratic]
  simp only [Finset.sum_range_succ, Finset.sum_range_zero, weight, offX, offY, List.getD, List.getElem?_cons_zero, List.getElem?_cons_succ, Option.getD_some]
  push_cast
  field_simp
  ring

/-- The numbering of the lowest resolution: the pixels are the faces. -/
def numbering1 : Numbering 1 where
  pix i := ⟨i, 0, 0⟩
  number p := p.face
  pix_in i hi := ⟨by simpa using hi, by simp, by simp⟩
  number_lt p hp := by simpa using hp.1
  number_pix i _ := rfl
  pix_number p hp := by
    obtain ⟨-, hx, hy⟩ := hp
    cases p
    simp only [Pix.mk.injEq, true_and]
    simp only [Nat.cast_one] at hx hy
    omega

/-- A numbering of any resolution. -/
def rowNumbering (n : Nat) (hn : 0 < n) : Numbering n where
  pix i := ⟨i / n / n, (i % n : Nat), (i / n % n : Nat)⟩
  number p := (p.face * n + p.y.toNat) * n + p.x.toNat
  pix_in i hi := by
    refine ⟨?_, ⟨Int.natCast_nonneg _, ?_⟩, Int.natCast_nonneg _, ?_⟩
    · dsimp only
      rw [Nat.div_div_eq_div_mul, Nat.div_lt_iff_lt_mul (by positivity)]
      linarith [sq n]
    · exact Int.ofNat_lt.2 (Nat.mod_lt _ hn)
    · exact Int.ofNat_lt.2 (Nat.mod_lt _ hn)
  number_lt p hp := by
    obtain ⟨hf, hx, hy⟩ := hp
    have h1 : p.x.toNat < n := by omega
    have h2 : p.y.toNat < n := by omega
    nlinarith
  number_pix i _ := by
    simp only [Int.toNat_natCast]
    rw [Nat.div_add_mod', Nat.div_add_mod']
  pix_number p hp := by
    obtain ⟨hf, hx, hy⟩ := hp
    have h1 : p.x.toNat < n := by omega
    have h2 : p.y.toNat < n := by omega
    have e1 : ((p.face * n + p.y.toNat) * n + p.x.toNat) / n = p.face * n + p.y.toNat := by
      rw [mul_comm, Nat.mul_add_div hn, Nat.div_eq_of_lt h1, add_zero]
    have e2 : (p.face * n + p.y.toNat) / n = p.face := by
      rw [mul_comm, Nat.mul_add_div hn, Nat.div_eq_of_lt h2, add_zero]
    have e3 : ((p.face * n + p.y.toNat) * n + p.x.toNat) % n = p.x.toNat := by
      rw [mul_comm, Nat.mul_add_mod, Nat.mod_eq_of_lt h1]
    have e4 : (p.face * n + p.y.toNat) % n = p.y.toNat := by
      rw [mul_comm, Nat.mul_add_mod, Nat.mod_eq_of_lt h2]
    rw [e1, e2, e3, e4]
    cases p
    simp only [Pix.mk.injEq, true_and]
    simp only at hx hy
    omega

example : ∃ out, fsrMatvec true (laplacian 8 (rowNumbering 8 (by norm_num))) (mapOf (rowNumbering 8 (by norm_num)) fun q => (q.x : ℝ) ^ 2) none = .ok out ∧
    out[(rowNumbering 8 (by norm_num)).number ⟨5, 3, 4⟩]? = some (3 / h2 8) := by
  obtain ⟨out, h1, h2⟩ := C113_violation_weights (rowNumbering 8 (by norm_num)) true 1 0 0 0 0 0 (p := ⟨5, 3, 4⟩) (by norm_num) (by norm_num) (by norm_num)
    _ rfl
  refine ⟨out, by simpa using h1, ?_⟩
  rw [h2, flatLaplacian_quadratic, Option.some.injEq]
  ring

/-- The case of the repository's test: the response to a unit value at the pixel 4 of the lowest resolution. -/
example : ∃ out, fsrMatvec true (laplacian 1 numbering1) (mapOf numbering1 fun q => if q.face = 4 then 1 else 0) none = .ok out ∧
    ∀ i < 12, out[i]? = some ([1, 0, 0, 1, -20, 4, 0, 4, 1, 0, 0, 1].getD i 0 / (6 * h2 1)) := by
  obtain ⟨out, h1, -, h2⟩ := C113_action one_pos numbering1 true fun q => if q.face = 4 then 1 else 0
  refine ⟨out, h1, fun i hi => ?_⟩
  have h := h2 ⟨i, 0, 0⟩ ⟨hi, by simp, by simp⟩
  change out[i]? = _ at h
  rw [h, Option.some.injEq]
  congr 1
  have hnb : ∀ k < 8, ∀ i < 12, (neighbour 1 ⟨i, 0, 0⟩ k).map Pix.face =
      ([[(some 4), none, some 3, some 2, some 1, none, some 5, some 8], [some 5, none, some 0, some 3, some 2, none, some 6, some 9],
       [some 6, none, some 1, some 0, some 3, none, some 7, some 10], [some 7, none, some 2, some 1, some 0, none, some 4, some 11],
       [some 11, some 7, some 3, none, some 0, some 5, some 8, none], [some 8, some 4, some 0, none, some 1, some 6, some 9, none],
       [some 9, some 5, some 1, none, some 2, some 7, some 10, none], [some 10, some 6, some 2, none, some 3, some 4, some 11, none],
       [some 11, none, some 4, some 0, some 5, none, some 9, some 10], [some 8, none, some 5, some 1, some 6, none, some 10, some 11],
       [some 9, none, some 6, some 2, some 7, none, some 11, some 8], [some 10, none, some 7, some 3, some 4, none, some 8, some 9]].getD i []).getD k none := by
    decide +kernel
  have hval : ∀ k < 8, valueAt (fun q => if q.face = 4 then (1 : ℝ) else 0) (neighbour 1 ⟨i, 0, 0⟩ k) =
      ((neighbour 1 ⟨i, 0, 0⟩ k).map Pix.face).elim 0 fun f => if f = 4 then 1 else 0 := by
    intro k _
    cases neighbour 1 ⟨i, 0, 0⟩ k <;> simp [valueAt]
  simp only [Finset.sum_range_succ, Finset.sum_range_zero]
  rw [hval 0 (by norm_num), hval 1 (by norm_num), hval 2 (by norm_num), hval 3 (by norm_num), hval 4 (by norm_num), hval 5 (by norm_num), hval 6 (by norm_num),
    hval 7 (by norm_num)]
  rw [hnb 0 (by norm_num) i hi, hnb 1 (by norm_num) i hi, hnb 2 (by norm_num) i hi, hnb 3 (by norm_num) i hi, hnb 4 (by norm_num) i hi,
    hnb 5 (by norm_num) i hi, hnb 6 (by norm_num) i hi, hnb 7 (by norm_num) i hi]
  interval_cases i <;> norm_num [weight, List.getD, reduceCtorEq]

end

end Verif.Healpix
