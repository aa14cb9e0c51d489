import Mathlib.Analysis.Real.Sqrt
import Mathlib.Tactic
import Verif.Py.Basic

/-! Radial profiles (datautils.py 373-412 and 454-504, datautils.f90.j2 117-161).  NaN is `none`; infinite values are left out. -/

namespace Verif.Data

open Finset
open Verif.Py

set_option linter.unusedSectionVars false
set_option linter.unusedSimpArgs false

noncomputable section

/-! ### The model -/

/-- The conversion of a real number into an integer, by Fortran or by Python: the fractional part is removed. -/
def trunc (q : ℝ) : ℤ := if 0 ≤ q then ⌊q⌋ else ⌈q⌉

/-- The arrays `x`, `y` and `n`, whose first index is one. -/
structure Acc where
  x : ℤ → ℝ
  y : ℤ → ℝ
  n : ℤ → ℤ

/-- datautils.f90.j2 132-134. -/
def Acc.zero : Acc := ⟨fun _ => 0, fun _ => 0, fun _ => 0⟩

/-- The reduction clause of line 135. -/
def Acc.add (a b : Acc) : Acc := ⟨fun k => a.x k + b.x k, fun k => a.y k + b.y k, fun k => a.n k + b.n k⟩

/-- datautils.f90.j2 137-146, the body of the loop for the pixel `array(i,j)`, which is `input[j,i]`.  The array is written out of bounds if
`ibin` is not positive, or undefined (division by zero). -/
def pixel (input : ℕ → ℕ → Option ℝ) (origin : ℝ × ℝ) (bin : ℝ) (nbins : ℤ) (a : Acc) (p : ℕ × ℕ) : Res Acc :=
  match input p.2 p.1 with
  | none => .ok a
  | some val =>
    let tmpj := ((p.2 : ℝ) - origin.2) ^ 2
    let distance := √(((p.1 : ℝ) - origin.1) ^ 2 + tmpj)
    if bin = 0 then .error .outOfBounds
    else
      let ibin := trunc (distance / bin) + 1
      if nbins < ibin then .ok a
      else if ibin < 1 then .error .outOfBounds
      else .ok ⟨Function.update a.x ibin (a.x ibin + distance), Function.update a.y ibin (a.y ibin + val),
        Function.update a.n ibin (a.n ibin + 1)⟩

/-- The iterations of a thread, from the rows that it is given. -/
def thread (input : ℕ → ℕ → Option ℝ) (nx : ℕ) (origin : ℝ × ℝ) (bin : ℝ) (nbins : ℤ) (rows : List ℕ) : Res Acc :=
  (rows.flatMap fun j => (List.range nx).map fun i => (i, j)).foldlM (pixel input origin bin nbins) Acc.zero

/-- datautils.f90.j2 135-149: the results of the threads are added. -/
def threads (input : ℕ → ℕ → Option ℝ) (nx : ℕ) (origin : ℝ × ℝ) (bin : ℝ) (nbins : ℤ) (rows : List (List ℕ)) : Res Acc :=
  rows.foldlM (fun a r => do .ok (a.add (← thread input nx origin bin nbins r))) Acc.zero

/-- datautils.f90.j2 117-161 `profile_axisymmetric_2d`, with the rows that each thread is given. -/
def profileAxisymmetric (input : ℕ → ℕ → Option ℝ) (nx : ℕ) (rows : List (List ℕ)) (origin : ℝ × ℝ) (bin : ℝ) (nbins : ℕ) :
    Res (List (ℝ × Option ℝ × ℤ)) := do
  let a ← threads input nx origin bin nbins rows
  .ok ((List.range nbins).map fun i0 : ℕ =>
    let i : ℤ := i0 + 1
    if a.n i ≠ 0 then (a.x i / a.n i, some (a.y i / a.n i), a.n i) else (bin * ((i : ℝ) - 1 / 2), none, a.n i))

/-- datautils.py 479-482: the default centre. -/
def profileCentre (ny nx : ℕ) : Option (ℝ × ℝ) → ℝ × ℝ
  | none => (((nx : ℝ) - 1) / 2, ((ny : ℝ) - 1) / 2)
  | some c => c

/-- datautils.py 485-495: the default number of bins. -/
def profileNbins (ny nx : ℕ) (c : ℝ × ℝ) (bin : ℝ) : Option ℤ → ℤ
  | some n => n
  | none => trunc (max (max (max ((ny : ℝ) - c.2) c.2) ((nx : ℝ) - c.1)) c.1 / bin)

/-- datautils.py 454-504 `profile(input, bin, nbins, True, center, scale)` for an input of shape `(ny, nx)`: the arrays `x`, `y` and `n`. -/
def profile (input : ℕ → ℕ → Option ℝ) (ny nx : ℕ) (rows : List (List ℕ)) (bin : ℝ) (nbins : Option ℤ) (centre : Option (ℝ × ℝ)) (scale : ℝ) :
    Res (List (ℝ × Option ℝ × ℤ)) :=
  if scale = 0 then .error .zeroDivisionError
  else
    let c := profileCentre ny nx centre
    let nb := profileNbins ny nx c (bin / scale) nbins
    if nb < 0 then .error .valueError
    else do
      let r ← profileAxisymmetric input nx rows c (bin / scale) nb.toNat
      .ok (r.map fun e => (e.1 * scale, e.2))

/-- `np.cumsum`. -/
def cumsumReal (acc : ℝ) : List ℝ → List ℝ
  | [] => []
  | a :: l => (acc + a) :: cumsumReal (acc + a) l

/-- datautils.py 373-412 `integrated_profile`: the arrays `x` and `y`. -/
def integratedProfile (input : ℕ → ℕ → Option ℝ) (ny nx : ℕ) (rows : List (List ℕ)) (bin : ℝ) (nbins : Option ℤ) (centre : Option (ℝ × ℝ))
    (scale : ℝ) : Res (List ℝ × List ℝ) := do
  let r ← profile input ny nx rows bin nbins centre scale
  .ok (r.map fun e => e.1, cumsumReal 0 (r.map fun e => e.2.1.getD 0 * (e.2.2 * scale ^ 2)))

/-! ### Specification -/

/-- The distance of a pixel to the centre. -/
def radius (c : ℝ × ℝ) (scale : ℝ) (p : ℕ × ℕ) : ℝ := scale * √(((p.1 : ℝ) - c.1) ^ 2 + ((p.2 : ℝ) - c.2) ^ 2)

/-- The finite pixels (column, row) that are in the ring. -/
def ring (input : ℕ → ℕ → Option ℝ) (ny nx : ℕ) (c : ℝ × ℝ) (scale lo hi : ℝ) : Finset (ℕ × ℕ) :=
  open Classical in (range nx ×ˢ range ny).filter fun p => (input p.2 p.1).isSome ∧ lo ≤ radius c scale p ∧ radius c scale p < hi

/-! ### Lemmas -/

theorem trunc_eq_iff {q : ℝ} (hq : 0 ≤ q) (k : ℤ) : trunc q = k ↔ (k : ℝ) ≤ q ∧ q < k + 1 := by
  rw [trunc, if_pos hq]
  exact Int.floor_eq_iff

/-- The bin of a pixel. -/
def binOf (origin : ℝ × ℝ) (bin : ℝ) (p : ℕ × ℕ) : ℤ := trunc (radius origin 1 p / bin) + 1

/-- The contribution of a pixel to a bin. -/
def contrib (input : ℕ → ℕ → Option ℝ) (origin : ℝ × ℝ) (bin : ℝ) (nbins k : ℤ) (f : ℝ → ℝ) (p : ℕ × ℕ) : ℝ :=
  match input p.2 p.1 with
  | none => 0
  | some v => if binOf origin bin p = k ∧ k ≤ nbins then f v else 0

theorem radius_nonneg (c : ℝ × ℝ) (p : ℕ × ℕ) : 0 ≤ radius c 1 p := by
  rw [radius, one_mul]; exact Real.sqrt_nonneg _

theorem binOf_pos {origin : ℝ × ℝ} {bin : ℝ} (hb : 0 < bin) (p : ℕ × ℕ) : 1 ≤ binOf origin bin p := by
  have : 0 ≤ trunc (radius origin 1 p / bin) := by
    rw [trunc, if_pos (div_nonneg (radius_nonneg _ _) hb.le)]
    exact Int.floor_nonneg.mpr (div_nonneg (radius_nonneg _ _) hb.le)
  rw [binOf]; omega

/-- An accumulator is the sum of the contributions of some pixels. -/
def Holds (input : ℕ → ℕ → Option ℝ) (origin : ℝ × ℝ) (bin : ℝ) (nbins : ℤ) (ps : List (ℕ × ℕ)) (a : Acc) : Prop :=
  ∀ k, a.x k = (ps.map fun p => contrib input origin bin nbins k (fun _ => radius origin 1 p) p).sum ∧
    a.y k = (ps.map (contrib input origin bin nbins k id)).sum ∧
    (a.n k : ℝ) = (ps.map (contrib input origin bin nbins k fun _ => 1)).sum

theorem pixel_holds {input : ℕ → ℕ → Option ℝ} {origin : ℝ × ℝ} {bin : ℝ} {nbins : ℤ} (hb : 0 < bin) {ps : List (ℕ × ℕ)} {a : Acc}
    (ha : Holds input origin bin nbins ps a) (p : ℕ × ℕ) : ∃ a', pixel input origin bin nbins a p = .ok a' ∧ Holds input origin bin nbins (ps ++ [p]) a' := by
  rw [pixel]
  split
  · rename_i h
    refine ⟨a, rfl, fun k => ?_⟩
    obtain ⟨h1, h2, h3⟩ := ha k
    simp [h1, h2, h3, contrib, h]
  · rename_i v h
    dsimp only
    rw [if_neg hb.ne']
    have hr : √(((p.1 : ℝ) - origin.1) ^ 2 + ((p.2 : ℝ) - origin.2) ^ 2) = radius origin 1 p := by rw [radius, one_mul]
    rw [hr]
    have hbin : trunc (radius origin 1 p / bin) + 1 = binOf origin bin p := rfl
    rw [hbin]
    split
    · rename_i hlt
      refine ⟨a, rfl, fun k => ?_⟩
      obtain ⟨h1, h2, h3⟩ := ha k
      have : ¬ (binOf origin bin p = k ∧ k ≤ nbins) := by omega
      simp [h1, h2, h3, contrib, h, this]
    · rename_i hle
      have := binOf_pos (origin := origin) hb p
      rw [if_neg (by omega)]
      refine ⟨_, rfl, fun k => ?_⟩
      obtain ⟨h1, h2, h3⟩ := ha k
      by_cases hk : k = binOf origin bin p
      · subst hk
        have hc : binOf origin bin p ≤ nbins := by omega
        simp [h1, h2, h3, contrib, h, hc]
      · have hc : ¬ (binOf origin bin p = k ∧ k ≤ nbins) := by
          intro hh; exact hk hh.1.symm
        simp only [Function.update_of_ne hk, List.map_append, List.map_cons, List.map_nil, List.sum_append, List.sum_cons, List.sum_nil, contrib, h,
          if_neg hc, add_zero]
        exact ⟨h1, h2, h3⟩

theorem fold_holds {input : ℕ → ℕ → Option ℝ} {origin : ℝ × ℝ} {bin : ℝ} {nbins : ℤ} (hb : 0 < bin) (qs : List (ℕ × ℕ)) :
    ∀ {ps : List (ℕ × ℕ)} {a : Acc}, Holds input origin bin nbins ps a →
      ∃ a', qs.foldlM (pixel input origin bin nbins) a = .ok a' ∧ Holds input origin bin nbins (ps ++ qs) a' := by
  induction qs with
  | nil => intro ps a ha; exact ⟨a, rfl, by simpa using ha⟩
  | cons q qs ih =>
    intro ps a ha
    obtain ⟨a1, h1, ha1⟩ := pixel_holds hb ha q
    obtain ⟨a2, h2, ha2⟩ := ih ha1
    refine ⟨a2, ?_, by simpa using ha2⟩
    rw [List.foldlM_cons, h1]
    exact h2

theorem zero_holds {input : ℕ → ℕ → Option ℝ} {origin : ℝ × ℝ} {bin : ℝ} {nbins : ℤ} : Holds input origin bin nbins [] Acc.zero := by
  intro k; simp [Acc.zero]

/-- The pixels of some rows. -/
def pixelsOf (nx : ℕ) (rows : List ℕ) : List (ℕ × ℕ) := rows.flatMap fun j => (List.range nx).map fun i => (i, j)

theorem threads_holds {input : ℕ → ℕ → Option ℝ} {nx : ℕ} {origin : ℝ × ℝ} {bin : ℝ} {nbins : ℤ} (hb : 0 < bin) (rows : List (List ℕ)) :
    ∃ a, threads input nx origin bin nbins rows = .ok a ∧ Holds input origin bin nbins (pixelsOf nx rows.flatten) a := by
  rw [threads]
  suffices h : ∀ (l : List (List ℕ)) (ps : List (ℕ × ℕ)) (a : Acc), Holds input origin bin nbins ps a →
      ∃ a', l.foldlM (fun a r => do .ok (a.add (← thread input nx origin bin nbins r))) a = .ok a' ∧
        Holds input origin bin nbins (ps ++ pixelsOf nx l.flatten) a' by
    have := h rows [] Acc.zero zero_holds
    simpa using this
  intro l
  induction l with
  | nil => intro ps a ha; exact ⟨a, rfl, by simpa [pixelsOf] using ha⟩
  | cons r l ih =>
    intro ps a ha
    obtain ⟨b, hb1, hb2⟩ := fold_holds (input := input) (origin := origin) (nbins := nbins) hb (pixelsOf nx r) zero_holds
    have hadd : Holds input origin bin nbins (ps ++ pixelsOf nx r) (a.add b) := by
      intro k
      obtain ⟨h1, h2, h3⟩ := ha k
      obtain ⟨g1, g2, g3⟩ := hb2 k
      simp only [List.nil_append] at g1 g2 g3
      simp only [Acc.add, List.map_append, List.sum_append, Int.cast_add, h1, h2, h3, g1, g2, g3, and_self]
    obtain ⟨a', h1, h2⟩ := ih _ _ hadd
    refine ⟨a', ?_, ?_⟩
    · rw [List.foldlM_cons]
      have : thread input nx origin bin nbins r = .ok b := hb1
      rw [this]
      exact h1
    · have : pixelsOf nx (r :: l).flatten = pixelsOf nx r ++ pixelsOf nx l.flatten := by simp [pixelsOf]
      rw [this, ← List.append_assoc]
      exact h2

/-- A list sum over the rows of all the threads is a sum over the image. -/
theorem sum_pixels {nx ny : ℕ} {rows : List (List ℕ)} (hr : rows.flatten.Perm (List.range ny)) (f : ℕ × ℕ → ℝ) :
    ((pixelsOf nx rows.flatten).map f).sum = ∑ p ∈ range nx ×ˢ range ny, f p := by
  have hp : (pixelsOf nx rows.flatten).Perm (pixelsOf nx (List.range ny)) := hr.flatMap_right _
  rw [(hp.map f).sum_eq]
  have : ∀ n : ℕ, ((pixelsOf nx (List.range n)).map f).sum = ∑ j ∈ range n, ∑ i ∈ range nx, f (i, j) := by
    intro n
    induction n with
    | zero => simp [pixelsOf]
    | succ n ih =>
      have hs : pixelsOf nx (List.range (n + 1)) = pixelsOf nx (List.range n) ++ (List.range nx).map fun i => (i, n) := by
        simp [pixelsOf, List.range_succ]
      rw [hs, List.map_append, List.sum_append, ih, Finset.sum_range_succ, List.map_map]
      congr 1
  rw [this, Finset.sum_product_right]

theorem binOf_iff {c : ℝ × ℝ} {bin scale : ℝ} (hb : 0 < bin) (hs : 0 < scale) (p : ℕ × ℕ) (k : ℤ) :
    binOf c (bin / scale) p = k + 1 ↔ k * bin ≤ radius c scale p ∧ radius c scale p < (k + 1) * bin := by
  have hbs : 0 < bin / scale := div_pos hb hs
  have hr : radius c scale p = scale * radius c 1 p := by simp [radius]
  rw [binOf, add_left_inj, trunc_eq_iff (div_nonneg (radius_nonneg _ _) hbs.le), le_div_iff₀ hbs, div_lt_iff₀ hbs, hr, mul_div_assoc', mul_div_assoc',
    div_le_iff₀ hs, lt_div_iff₀ hs, mul_comm scale]

theorem sum_contrib {input : ℕ → ℕ → Option ℝ} {ny nx : ℕ} {c : ℝ × ℝ} {bin scale : ℝ} (hb : 0 < bin) (hs : 0 < scale) {nbins : ℕ} {k : ℕ}
    (hk : k < nbins) (f : ℕ × ℕ → ℝ → ℝ) :
    ∑ p ∈ range nx ×ˢ range ny, contrib input c (bin / scale) nbins (k + 1) (f p) p =
      ∑ p ∈ ring input ny nx c scale (k * bin) ((k + 1) * bin), f p ((input p.2 p.1).getD 0) := by
  classical
  rw [ring, Finset.sum_filter]
  refine Finset.sum_congr (by congr) fun p _ => ?_
  rw [contrib]
  split
  · rename_i h; simp [h]
  · rename_i v h
    have := binOf_iff (c := c) hb hs p k
    push_cast at this
    have hkn : (k : ℤ) + 1 ≤ nbins := by omega
    simp only [h, this, hkn, and_true, Option.isSome_some, true_and, Option.getD_some]

/-- The number of bins: the given one, or the number of whole bins in the largest distance of the centre to a side. -/
def NumberOfBins (ny nx : ℕ) (c : ℝ × ℝ) (bin scale : ℝ) (nbins : Option ℤ) (n : ℕ) : Prop :=
  nbins = some (n : ℤ) ∨ nbins = none ∧ n = ⌊scale * max (max c.1 ((nx : ℝ) - c.1)) (max c.2 ((ny : ℝ) - c.2)) / bin⌋₊

/-- The default centre is the middle of the image. -/
def CentreOf (ny nx : ℕ) (centre : Option (ℝ × ℝ)) (c : ℝ × ℝ) : Prop := centre = some c ∨ centre = none ∧ 2 * c.1 = nx - 1 ∧ 2 * c.2 = ny - 1

theorem profileCentre_eq {ny nx : ℕ} {centre : Option (ℝ × ℝ)} {c : ℝ × ℝ} (hc : CentreOf ny nx centre c) : profileCentre ny nx centre = c := by
  rcases hc with rfl | ⟨rfl, h1, h2⟩
  · rfl
  · rw [profileCentre]
    ext
    · dsimp only; linarith
    · dsimp only; linarith

theorem profileNbins_eq {ny nx : ℕ} {c : ℝ × ℝ} {bin scale : ℝ} {nbins : Option ℤ} {n : ℕ} (hb : 0 < bin) (hs : 0 < scale)
    (hn : NumberOfBins ny nx c bin scale nbins n) : profileNbins ny nx c (bin / scale) nbins = n := by
  rcases hn with rfl | ⟨rfl, rfl⟩
  · rfl
  · have hm : max (max (max ((ny : ℝ) - c.2) c.2) ((nx : ℝ) - c.1)) c.1 = max (max c.1 ((nx : ℝ) - c.1)) (max c.2 ((ny : ℝ) - c.2)) := by
      ac_rfl
    have h0 : 0 ≤ max (max c.1 ((nx : ℝ) - c.1)) (max c.2 ((ny : ℝ) - c.2)) := by
      have h1 : c.1 ≤ max (max c.1 ((nx : ℝ) - c.1)) (max c.2 ((ny : ℝ) - c.2)) := le_max_of_le_left (le_max_left _ _)
      have h2 : (nx : ℝ) - c.1 ≤ max (max c.1 ((nx : ℝ) - c.1)) (max c.2 ((ny : ℝ) - c.2)) := le_max_of_le_left (le_max_right _ _)
      have h3 : (0 : ℝ) ≤ nx := Nat.cast_nonneg _
      linarith
    rw [profileNbins, hm, trunc, if_pos (div_nonneg h0 (div_nonneg hb.le hs.le)), div_div_eq_mul_div, mul_comm _ scale,
      Int.natCast_floor_eq_floor (div_nonneg (mul_nonneg hs.le h0) hb.le)]

/-! ### Properties -/

/-- C66: for each bin, the number of the finite pixels whose distance to the centre is in the bin, the mean of their distances and the mean of
their values; the middle of the bin and NaN if there is none.  Whatever the distribution of the rows over the threads. -/
theorem C66_profile {input : ℕ → ℕ → Option ℝ} {ny nx : ℕ} {rows : List (List ℕ)} (hr : rows.flatten.Perm (List.range ny)) {bin scale : ℝ}
    (hb : 0 < bin) (hs : 0 < scale) {nbins : Option ℤ} {n : ℕ} {centre : Option (ℝ × ℝ)} {c : ℝ × ℝ} (hc : CentreOf ny nx centre c)
    (hn : NumberOfBins ny nx c bin scale nbins n) :
    ∃ r, profile input ny nx rows bin nbins centre scale = .ok r ∧ r.length = n ∧ ∀ k < n, ∃ x y,
      r[k]? = some (x, y, (#(ring input ny nx c scale (k * bin) ((k + 1) * bin)) : ℤ)) ∧
      ((ring input ny nx c scale (k * bin) ((k + 1) * bin)).Nonempty →
        x = (∑ p ∈ ring input ny nx c scale (k * bin) ((k + 1) * bin), radius c scale p) / #(ring input ny nx c scale (k * bin) ((k + 1) * bin)) ∧
        y = some ((∑ p ∈ ring input ny nx c scale (k * bin) ((k + 1) * bin), (input p.2 p.1).getD 0) /
          #(ring input ny nx c scale (k * bin) ((k + 1) * bin)))) ∧
      (ring input ny nx c scale (k * bin) ((k + 1) * bin) = ∅ → x = (k + 1 / 2) * bin ∧ y = none) := by
  obtain ⟨a, ha, hh⟩ := threads_holds (input := input) (nx := nx) (origin := c) (bin := bin / scale) (nbins := n) (div_pos hb hs) rows
  have hprof : profile input ny nx rows bin nbins centre scale = .ok (((List.range n).map fun i0 : ℕ =>
      let i : ℤ := i0 + 1
      if a.n i ≠ 0 then (a.x i / a.n i, some (a.y i / a.n i), a.n i) else (bin / scale * ((i : ℝ) - 1 / 2), none, a.n i)).map
        fun e => (e.1 * scale, e.2)) := by
    rw [profile, if_neg hs.ne']
    dsimp only
    rw [profileCentre_eq hc, profileNbins_eq hb hs hn, if_neg (by omega), profileAxisymmetric, Int.toNat_natCast, ha]
    rfl
  refine ⟨_, hprof, ?_, ?_⟩
  · simp
  · intro k hk
    have hkey := hh (k + 1)
    obtain ⟨h1, h2, h3⟩ := hkey
    rw [sum_pixels hr, sum_contrib hb hs hk fun p _ => radius c 1 p] at h1
    rw [sum_pixels hr, sum_contrib hb hs hk fun p => id] at h2
    rw [sum_pixels hr, sum_contrib hb hs hk fun p _ => 1, Finset.sum_const, nsmul_eq_mul, mul_one] at h3
    have h3' : a.n (k + 1) = (#(ring input ny nx c scale (k * bin) ((k + 1) * bin)) : ℤ) := by exact_mod_cast h3
    generalize hR : ring input ny nx c scale (k * bin) ((k + 1) * bin) = R at *
    refine ⟨if a.n (k + 1) ≠ 0 then a.x (k + 1) / a.n (k + 1) * scale else bin / scale * ((((k : ℤ) + 1 : ℤ) : ℝ) - 1 / 2) * scale,
      if a.n (k + 1) ≠ 0 then some (a.y (k + 1) / a.n (k + 1)) else none, ?_, ?_, ?_⟩
    · rw [List.getElem?_map, List.getElem?_map, List.getElem?_range hk, ← h3']
      simp only [Option.map_some]
      split <;> simp_all
    · intro hne
      have hpos : a.n (k + 1) ≠ 0 := by
        rw [h3']; exact_mod_cast hne.card_pos.ne'
      rw [if_pos hpos, if_pos hpos, h3, h1, h2]
      refine ⟨?_, rfl⟩
      have : ∀ p, radius c scale p = radius c 1 p * scale := fun p => by simp [radius, mul_comm]
      simp only [this, ← Finset.sum_mul]
      ring
    · intro hem
      have hz : a.n (k + 1) = 0 := by rw [h3', hem]; rfl
      rw [if_neg (by simp [hz]), if_neg (by simp [hz])]
      refine ⟨?_, rfl⟩
      push_cast
      field_simp
      ring

theorem mem_ring {input : ℕ → ℕ → Option ℝ} {ny nx : ℕ} {c : ℝ × ℝ} {scale lo hi : ℝ} {p : ℕ × ℕ} : p ∈ ring input ny nx c scale lo hi ↔
    (p.1 < nx ∧ p.2 < ny) ∧ (input p.2 p.1).isSome ∧ lo ≤ radius c scale p ∧ radius c scale p < hi := by
  simp [ring]

theorem ring_succ (input : ℕ → ℕ → Option ℝ) (ny nx : ℕ) (c : ℝ × ℝ) {scale bin : ℝ} (hb : 0 < bin) (k : ℕ) (f : ℕ × ℕ → ℝ) :
    ∑ p ∈ ring input ny nx c scale 0 ((k + 1 : ℕ) * bin), f p =
      ∑ p ∈ ring input ny nx c scale 0 (k * bin), f p + ∑ p ∈ ring input ny nx c scale (k * bin) ((k + 1) * bin), f p := by
  classical
  rw [← Finset.sum_union]
  · congr 1
    ext p
    rw [Finset.mem_union, mem_ring, mem_ring, mem_ring]
    push_cast
    have hkb : (0 : ℝ) ≤ k * bin := by positivity
    constructor
    · rintro ⟨h1, h2, h3, h4⟩
      rcases lt_or_ge (radius c scale p) (k * bin) with h | h
      · exact .inl ⟨h1, h2, h3, h⟩
      · exact .inr ⟨h1, h2, h, h4⟩
    · rintro (⟨h1, h2, h3, h4⟩ | ⟨h1, h2, h3, h4⟩)
      · exact ⟨h1, h2, h3, by nlinarith⟩
      · exact ⟨h1, h2, hkb.trans h3, h4⟩
  · rw [Finset.disjoint_left]
    intro p h1 h2
    rw [mem_ring] at h1 h2
    linarith [h1.2.2.2, h2.2.2.1]

/-- C66: each finite pixel that is nearer than the number of bins times their width contributes to exactly one bin. -/
theorem C66_once {input : ℕ → ℕ → Option ℝ} {ny nx n : ℕ} {c : ℝ × ℝ} {scale bin : ℝ} (hb : 0 < bin) (hs : 0 < scale) {p : ℕ × ℕ} (h1 : p.1 < nx) (h2 : p.2 < ny)
    (hv : (input p.2 p.1).isSome) :
    (∃! k, k < n ∧ p ∈ ring input ny nx c scale (k * bin) ((k + 1) * bin)) ↔ radius c scale p < n * bin := by
  have h0 : 0 ≤ radius c scale p := mul_nonneg hs.le (Real.sqrt_nonneg _)
  constructor
  · rintro ⟨k, ⟨hk, hm⟩, -⟩
    rw [mem_ring] at hm
    have : (k : ℝ) + 1 ≤ n := by exact_mod_cast hk
    nlinarith [hm.2.2.2]
  · intro h
    refine ⟨⌊radius c scale p / bin⌋₊, ⟨?_, ?_⟩, ?_⟩
    · rw [Nat.floor_lt (div_nonneg h0 hb.le), div_lt_iff₀ hb]; exact h
    · rw [mem_ring]
      refine ⟨⟨h1, h2⟩, hv, ?_, ?_⟩
      · exact (le_div_iff₀ hb).mp (Nat.floor_le (div_nonneg h0 hb.le))
      · exact (div_lt_iff₀ hb).mp (Nat.lt_floor_add_one _)
    · rintro k ⟨-, hm⟩
      rw [mem_ring] at hm
      symm
      rw [Nat.floor_eq_iff (div_nonneg h0 hb.le), le_div_iff₀ hb, div_lt_iff₀ hb]
      exact ⟨hm.2.2.1, hm.2.2.2⟩

/-- A 2x3 image with a NaN. -/
def image23 (j i : ℕ) : Option ℝ := if j = 0 ∧ i = 1 then none else some (10 * j + i)

example : ∃ r, profile image23 2 3 [[1], [0]] 1 none none 1 = .ok r ∧ r.length = 2 := by
  obtain ⟨r, h1, h2, -⟩ := C66_profile (input := image23) (ny := 2) (nx := 3) (rows := [[1], [0]]) (by decide) (bin := 1) (scale := 1) one_pos one_pos
    (nbins := none) (n := 2) (centre := none) (c := (1, 1 / 2)) (.inr ⟨rfl, by norm_num, by norm_num⟩)
    (.inr ⟨rfl, by
      symm
      rw [Nat.floor_eq_iff (by norm_num)]
      norm_num [max_def]⟩)
  exact ⟨r, h1, h2⟩

/-- C66 does not hold for the default number of bins: the corners of a 4x4 image are in no bin; and with bins larger than 2.5 the profile is
empty. -/
theorem C66_violation_default :
    (∃ r, profile (fun _ _ => some 1) 4 4 [[0, 1, 2, 3]] 1 none none 1 = .ok r ∧ ∀ k < r.length,
      (0, 0) ∉ ring (fun _ _ => some 1) 4 4 (3 / 2, 3 / 2) 1 (k * 1) ((k + 1) * 1)) ∧
    profile (fun _ _ => some 1) 4 4 [[0, 1, 2, 3]] 3 none none 1 = .ok [] := by
  constructor
  · obtain ⟨r, h1, h2, -⟩ := C66_profile (input := fun _ _ => some 1) (ny := 4) (nx := 4) (rows := [[0, 1, 2, 3]]) (by decide) (bin := 1) (scale := 1)
      one_pos one_pos (nbins := none) (n := 2) (centre := none) (c := (3 / 2, 3 / 2)) (.inr ⟨rfl, by norm_num, by norm_num⟩)
      (.inr ⟨rfl, by
        symm
        rw [Nat.floor_eq_iff (by norm_num)]
        norm_num [max_def]⟩)
    refine ⟨r, h1, fun k hk hm => ?_⟩
    rw [mem_ring] at hm
    have h3 : radius (3 / 2, 3 / 2) 1 (0, 0) < 2 := by
      have : (k : ℝ) + 1 ≤ 2 := by rw [h2] at hk; exact_mod_cast hk
      linarith [hm.2.2.2]
    rw [radius, one_mul, Real.sqrt_lt' (by norm_num)] at h3
    norm_num at h3
  · obtain ⟨r, h1, h2, -⟩ := C66_profile (input := fun _ _ => some 1) (ny := 4) (nx := 4) (rows := [[0, 1, 2, 3]]) (by decide) (bin := 3) (scale := 1)
      (by norm_num) one_pos (nbins := none) (n := 0) (centre := none) (c := (3 / 2, 3 / 2)) (.inr ⟨rfl, by norm_num, by norm_num⟩)
      (.inr ⟨rfl, by
        symm
        rw [Nat.floor_eq_zero]
        norm_num [max_def]⟩)
    rw [h1, List.length_eq_zero_iff.mp h2]

/-- A negative width, which is not rejected, makes the loop write out of bounds. -/
theorem C66_violation_negative : profile (fun _ _ => some 1) 1 2 [[0]] (-1) (some 1) (some (0, 0)) 1 = .error .outOfBounds := by
  rw [profile, if_neg one_ne_zero]
  dsimp only [profileCentre, profileNbins]
  rw [if_neg (by norm_num), profileAxisymmetric, threads, List.foldlM_cons]
  have h1 : √(((0 : ℕ) : ℝ) - 0) = 0 := by simp
  have ha : trunc (√((((0 : ℕ) : ℝ) - 0) ^ 2 + (((0 : ℕ) : ℝ) - 0) ^ 2) / (-1 / 1)) = 0 := by norm_num [trunc]
  have hb : trunc (√((((1 : ℕ) : ℝ) - 0) ^ 2 + (((0 : ℕ) : ℝ) - 0) ^ 2) / (-1 / 1)) = -1 := by norm_num [trunc]
  have : thread (fun _ _ => some 1) 2 (0, 0) (-1 / 1) ((1 : ℤ).toNat : ℕ) [0] = .error .outOfBounds := by
    rw [thread]
    have hl : ([0].flatMap fun j => (List.range 2).map fun i => (i, j)) = [(0, 0), (1, 0)] := by decide
    rw [hl, List.foldlM_cons, pixel]
    dsimp only
    rw [if_neg (by norm_num), ha, if_neg (by norm_num), if_neg (by norm_num)]
    simp only [bind, Except.bind]
    rw [List.foldlM_cons, pixel]
    dsimp only
    rw [if_neg (by norm_num), hb, if_neg (by norm_num), if_pos (by norm_num)]
    rfl
  rw [this]
  rfl

theorem cumsumReal_get (l : List ℝ) : ∀ (acc : ℝ) (k : ℕ), k < l.length → (cumsumReal acc l)[k]? = some (acc + (l.take (k + 1)).sum) := by
  induction l with
  | nil => intro acc k hk; simp at hk
  | cons a l ih =>
    intro acc k hk
    cases k with
    | zero => simp [cumsumReal]
    | succ k =>
      rw [cumsumReal, List.getElem?_cons_succ, ih _ _ (by simpa using hk)]
      simp [add_assoc]

theorem mean_mul {R : Finset (ℕ × ℕ)} {f : ℕ × ℕ → ℝ} {y : Option ℝ} {s : ℝ} (h1 : R.Nonempty → y = some ((∑ p ∈ R, f p) / #R))
    (h2 : R = ∅ → y = none) : y.getD 0 * (((#R : ℤ) : ℝ) * s) = ∑ p ∈ R, f p * s := by
  rcases Finset.eq_empty_or_nonempty R with he | hne
  · rw [h2 he, he]; simp
  · have : (0 : ℝ) < #R := by exact_mod_cast hne.card_pos
    rw [h1 hne, Option.getD_some, ← Finset.sum_mul]
    push_cast
    field_simp

/-- C101: the integrated profile is the integral of the finite pixels that are nearer than the upper boundary of the bin. -/
theorem C101_integral {input : ℕ → ℕ → Option ℝ} {ny nx : ℕ} {rows : List (List ℕ)} (hr : rows.flatten.Perm (List.range ny)) {bin scale : ℝ}
    (hb : 0 < bin) (hs : 0 < scale) {nbins : Option ℤ} {n : ℕ} {centre : Option (ℝ × ℝ)} {c : ℝ × ℝ} (hc : CentreOf ny nx centre c)
    (hn : NumberOfBins ny nx c bin scale nbins n) :
    ∃ x y, integratedProfile input ny nx rows bin nbins centre scale = .ok (x, y) ∧ x.length = n ∧ y.length = n ∧ ∀ k < n,
      y[k]? = some (∑ p ∈ ring input ny nx c scale 0 ((k + 1 : ℕ) * bin), (input p.2 p.1).getD 0 * scale ^ 2) := by
  obtain ⟨r, h1, h2, h3⟩ := C66_profile (input := input) hr hb hs hc hn
  have hlen : ∀ (l : List ℝ) (acc : ℝ), (cumsumReal acc l).length = l.length := by
    intro l
    induction l with
    | nil => intro acc; rfl
    | cons a l ih => intro acc; simp [cumsumReal, ih]
  refine ⟨r.map fun e => e.1, cumsumReal 0 (r.map fun e => e.2.1.getD 0 * (e.2.2 * scale ^ 2)), ?_, ?_, ?_, ?_⟩
  · rw [integratedProfile, h1]
    rfl
  · rw [List.length_map, h2]
  · rw [hlen, List.length_map, h2]
  · intro k hk
    rw [cumsumReal_get _ _ _ (by rw [List.length_map, h2]; exact hk), zero_add]
    congr 1
    induction k with
    | zero =>
      have h0 := ring_succ input ny nx c (scale := scale) hb 0 fun p => (input p.2 p.1).getD 0 * scale ^ 2
      obtain ⟨x, y, g1, g2, g3⟩ := h3 0 hk
      have hem : ring input ny nx c scale 0 (((0 : ℕ) : ℝ) * bin) = ∅ := by
        ext p
        rw [mem_ring]
        simp only [Nat.cast_zero, zero_mul, Finset.notMem_empty, iff_false]
        rintro ⟨-, -, h, h'⟩
        linarith
      rw [h0, hem, Finset.sum_empty, List.take_one]
      rw [List.head?_eq_getElem?, List.getElem?_map, g1]
      simp only [Option.map_some, Option.toList_some, List.sum_cons, List.sum_nil, add_zero]
      rw [zero_add]
      exact mean_mul (fun h => (g2 h).2) fun h => (g3 h).2
    | succ k ih =>
      have h0 := ring_succ input ny nx c (scale := scale) hb (k + 1) fun p => (input p.2 p.1).getD 0 * scale ^ 2
      obtain ⟨x, y, g1, g2, g3⟩ := h3 (k + 1) hk
      rw [h0, ← ih (by omega), List.take_add_one (i := k + 1), List.sum_append]
      congr 1
      rw [List.getElem?_map, g1]
      simp only [Option.map_some, Option.toList_some, List.sum_cons, List.sum_nil, add_zero]
      exact mean_mul (fun h => (g2 h).2) fun h => (g3 h).2

/-- C101 does not hold for the abscissae, which are documented as the upper boundaries of the integrations: each of them is less. -/
theorem C101_violation_abscissae {input : ℕ → ℕ → Option ℝ} {ny nx : ℕ} {rows : List (List ℕ)} (hr : rows.flatten.Perm (List.range ny)) {bin scale : ℝ}
    (hb : 0 < bin) (hs : 0 < scale) {nbins : Option ℤ} {n : ℕ} {centre : Option (ℝ × ℝ)} {c : ℝ × ℝ} (hc : CentreOf ny nx centre c)
    (hn : NumberOfBins ny nx c bin scale nbins n) :
    ∃ x y, integratedProfile input ny nx rows bin nbins centre scale = .ok (x, y) ∧ x.length = n ∧ ∀ k < n, ∃ v, x[k]? = some v ∧ v < (k + 1) * bin := by
  obtain ⟨r, h1, h2, h3⟩ := C66_profile (input := input) hr hb hs hc hn
  refine ⟨r.map fun e => e.1, cumsumReal 0 (r.map fun e => e.2.1.getD 0 * (e.2.2 * scale ^ 2)), ?_, ?_, ?_⟩
  · rw [integratedProfile, h1]
    rfl
  · rw [List.length_map, h2]
  · intro k hk
    obtain ⟨x, y, g1, g2, g3⟩ := h3 k hk
    refine ⟨x, by rw [List.getElem?_map, g1]; rfl, ?_⟩
    rcases Finset.eq_empty_or_nonempty (ring input ny nx c scale (k * bin) ((k + 1) * bin)) with he | hne
    · rw [(g3 he).1]; nlinarith
    · rw [(g2 hne).1, div_lt_iff₀ (by exact_mod_cast hne.card_pos)]
      calc _ < ∑ p ∈ ring input ny nx c scale (k * bin) ((k + 1) * bin), (k + 1) * bin :=
            Finset.sum_lt_sum_of_nonempty hne fun p hp => (mem_ring.mp hp).2.2.2
        _ = _ := by rw [Finset.sum_const, nsmul_eq_mul, mul_comm]

example : ∃ x y, integratedProfile image23 2 3 [[1], [0]] 1 (some 2) (some (0, 0)) 1 = .ok (x, y) ∧ x.length = 2 ∧ y.length = 2 := by
  obtain ⟨x, y, h1, h2, h3, -⟩ := C101_integral (input := image23) (ny := 2) (nx := 3) (rows := [[1], [0]]) (by decide) (bin := 1) (scale := 1) one_pos one_pos
    (nbins := some 2) (n := 2) (centre := some (0, 0)) (c := (0, 0)) (.inl rfl) (.inl rfl)
  exact ⟨x, y, h1, h2, h3⟩

end
end Verif.Data
