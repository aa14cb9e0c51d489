import Verif.Py.Lemmas

/-!
`pyoperators.utils.split(n, m[, rank])`, an external function used by
/repo/src/pysimulators/packedtables/core.py 470, 524, 562, mpiutils.py 32, 87, 193, 280,
instruments.py 104, acquisitions.py 121.  Its assumed semantics (trusted base) is the balanced
partition: `work = n // m + (rank < n % m)`, `start = n // m * rank + min(rank, n % m)`,
`slice(start, start + work)`.
-/
namespace Verif.Py

/-- First item of the partition number `r`. -/
def splitStart (n m r : Nat) : Nat := n / m * r + min r (n % m)

/-- Number of items of the partition number `r`. -/
def splitLen (n m r : Nat) : Nat := n / m + (if r < n % m then 1 else 0)

/-- `split(n, m, r)`. -/
def splitSlice (n m r : Nat) : PySlice :=
  ⟨some (splitStart n m r), some (splitStart n m r + splitLen n m r : Nat), none⟩

/-- `split(n, m)`. -/
def split (n m : Nat) : List PySlice := (List.range m).map (splitSlice n m)

theorem splitStart_zero (n m : Nat) : splitStart n m 0 = 0 := by simp [splitStart]

theorem splitStart_succ (n m r : Nat) : splitStart n m (r + 1) = splitStart n m r + splitLen n m r := by
  unfold splitStart splitLen
  rw [Nat.mul_add, Nat.mul_one]
  split <;> omega

theorem splitStart_last {n m : Nat} (h : 0 < m) : splitStart n m m = n := by
  unfold splitStart
  have h1 := Nat.mod_lt n h
  have h2 := Nat.div_add_mod n m
  rw [Nat.mul_comm] at h2
  omega

theorem splitStart_mono {n m r r' : Nat} (h : r ≤ r') : splitStart n m r ≤ splitStart n m r' := by
  induction r' with
  | zero => simp at h; subst h; omega
  | succ k ih =>
    rcases Nat.eq_or_lt_of_le h with rfl | h
    · exact Nat.le_refl _
    · have := ih (by omega)
      rw [splitStart_succ]; omega

theorem splitStop_le {n m r : Nat} (h : r < m) : splitStart n m r + splitLen n m r ≤ n := by
  rw [← splitStart_succ]
  have := splitStart_mono (n := n) (m := m) (show r + 1 ≤ m from h)
  rwa [splitStart_last (by omega)] at this

/-- Sizes are balanced. -/
theorem splitLen_balanced (n m r r' : Nat) : splitLen n m r ≤ splitLen n m r' + 1 := by
  unfold splitLen; split <;> split <;> omega

theorem splitLen_antitone {n m r r' : Nat} (h : r ≤ r') : splitLen n m r' ≤ splitLen n m r := by
  unfold splitLen; split <;> split <;> omega

/-- Concatenating the partitions gives the sequence back. -/
theorem split_concat_aux {α} (l : List α) (m r : Nat) (h : r ≤ m) :
    (List.range r).flatMap (fun k => (l.drop (splitStart l.length m k)).take (splitLen l.length m k))
      = l.take (splitStart l.length m r) := by
  induction r with
  | zero => simp [splitStart_zero]
  | succ r ih =>
    rw [List.range_succ, List.flatMap_append, ih (by omega), splitStart_succ, List.take_add]
    simp

theorem split_concat {α} (l : List α) {m : Nat} (hm : 0 < m) :
    (List.range m).flatMap (fun k => (l.drop (splitStart l.length m k)).take (splitLen l.length m k))
      = l := by
  rw [split_concat_aux l m m (Nat.le_refl _), splitStart_last hm, List.take_length]

/-- The slice returned by `split` takes consecutive items. -/
theorem sliceIndices_split {n m r : Nat} (h : r < m) :
    sliceIndices (splitSlice n m r) n = .ok (progression (splitStart n m r) 1 (splitLen n m r)) := by
  have hle := splitStop_le (n := n) h
  unfold sliceIndices splitSlice
  simp only [Option.getD_none]
  rw [if_neg (by decide)]
  unfold sliceStart sliceStop clipBound
  simp only
  rw [if_neg (show ¬ ((splitStart n m r : Nat) : Int) < 0 by omega),
    if_neg (show ¬ ((splitStart n m r + splitLen n m r : Nat) : Int) < 0 by omega)]
  rw [if_neg (by decide), if_neg (by decide)]
  have h1 : max (0 : Int) (min ((splitStart n m r : Nat) : Int) n) = (splitStart n m r : Nat) := by omega
  have h2 : max (0 : Int) (min ((splitStart n m r + splitLen n m r : Nat) : Int) n)
      = (splitStart n m r : Nat) + (splitLen n m r : Nat) * 1 := by omega
  rw [h1, h2, pyRange_progression _ _ _ (by decide)]

theorem takeIdx_consecutive {α} {l : List α} {a k : Nat} (h : a + k ≤ l.length) :
    takeIdx l (progression a 1 k) = .ok ((l.drop a).take k) := by
  rw [takeIdx_eq_ok]
  apply List.ext_getElem?
  intro i
  simp only [List.getElem?_map, progression_getElem?]
  by_cases hi : i < k
  · rw [if_pos hi]
    simp only [Option.map_some]
    rw [wrapIndex_nonneg (by omega) (by omega)]
    simp only [Option.bind_some]
    rw [List.getElem?_take, if_pos hi, List.getElem?_drop,
      show ((a : Int) + 1 * i).toNat = a + i by omega, List.getElem?_eq_getElem (by omega)]
    rfl
  · rw [if_neg hi, List.getElem?_take, if_neg hi]; rfl

theorem takeSlice_split {α} {l : List α} {m r : Nat} (h : r < m) :
    takeSlice l (splitSlice l.length m r)
      = .ok ((l.drop (splitStart l.length m r)).take (splitLen l.length m r)) := by
  unfold takeSlice
  rw [sliceIndices_split h]
  exact takeIdx_consecutive (splitStop_le h)

end Verif.Py
