import Verif.Wcs.Model
import Mathlib.Tactic.Ring
import Mathlib.Tactic.FieldSimp
import Mathlib.Tactic.Linarith
import Mathlib.Tactic.Positivity
import Mathlib.Tactic.NormNum
import Mathlib.Analysis.SpecialFunctions.Complex.Arg

set_option linter.unusedSimpArgs false

/-!
FITS headers: the axes of a header are those of the array (C60), the scale and the position angle can be read back (C59), in Python and in
Fortran, from the two descriptions of the orientation (C87).
-/
namespace Verif.Wcs
open Verif.Py

/-! ### Cards -/

theorem find?_map_put (h : Header) (key k : String) (v : HVal) :
    ((h.map fun c => if c.1 = key then (c.1, v) else c).find? fun c => c.1 = k)
      = (h.find? fun c => c.1 = k).map fun c => if c.1 = key then (c.1, v) else c := by
  induction h with
  | nil => rfl
  | cons c h ih =>
    by_cases hk : c.1 = k <;> by_cases hc : c.1 = key <;> simp_all [List.find?_cons]

theorem get?_put_self (h : Header) (key : String) (v : HVal) : (h.put key v).get? key = some v := by
  unfold Header.put Header.get?
  split
  · rename_i ha
    rw [find?_map_put]
    obtain ⟨c, hc, he⟩ := List.any_eq_true.1 ha
    cases hf : h.find? (fun c => c.1 = key) with
    | none => exact absurd he (by simpa using List.find?_eq_none.1 hf c hc)
    | some c => simp [show c.1 = key by simpa using List.find?_some hf]
  · rename_i ha
    have : h.find? (fun c => c.1 = key) = none := by
      rw [List.find?_eq_none]
      intro c hc he
      exact ha (List.any_eq_true.2 ⟨c, hc, he⟩)
    simp [List.find?_append, this]

theorem get?_put_ne (h : Header) {key k : String} (v : HVal) (hk : k ≠ key) : (h.put key v).get? k = h.get? k := by
  unfold Header.put Header.get?
  split
  · rw [find?_map_put]
    cases hf : h.find? (fun c => c.1 = k) with
    | none => rfl
    | some c =>
      have : c.1 = k := by simpa using List.find?_some hf
      simp [this, hk]
  · simp [List.find?_append, List.find?_cons, Ne.symm hk]

theorem axisKey_ne_of_prefix {key s : String} (k : Nat) (h : ¬ key.toList <+: s.toList) : axisKey key k ≠ s := by
  rintro rfl
  exact h ⟨(toString (k + 1)).toList, by simp [axisKey]⟩

theorem axisKey_inj {key : String} {i j : Nat} (h : axisKey key i = axisKey key j) : i = j := by
  have h' := congrArg String.toList h
  simp only [axisKey, String.toList_append, List.append_cancel_left_eq, Nat.toString_eq_repr, Nat.toList_repr] at h'
  have := congrArg (fun l => Nat.ofDigitChars 10 l 0) h'
  simp only [Nat.ofDigitChars_ten_toDigits] at this
  omega

theorem axisKey_ne_self (key : String) (k : Nat) : axisKey key k ≠ key := by
  intro h
  have h' := congrArg String.toList h
  simp [axisKey, String.toList_append, Nat.toString_eq_repr, Nat.toList_repr] at h'

/-! ### The axes -/

/-- The keywords of the world coordinate system. -/
def wcsKeys : List String :=
  ["CRVAL1", "CRVAL2", "CRPIX1", "CRPIX2", "CD1_1", "CD2_1", "CD1_2", "CD2_2", "CTYPE1", "CTYPE2", "CUNIT1", "CUNIT2", "RADESYS",
   "EQUINOX"]

theorem addWcs_get? {h h' : Header} {naxes : List Int} {a : WcsArgs} (hok : addWcs h naxes a = .ok h') {k : String}
    (hk : k ∉ wcsKeys) : h'.get? k = h.get? k := by
  simp only [wcsKeys, List.mem_cons, List.not_mem_nil, or_false, not_or] at hk
  obtain ⟨h1, h2, h3, h4, h5, h6, h7, h8, h9, h10, h11, h12, h13, h14⟩ := hk
  unfold addWcs at hok
  split at hok
  · repeat' split at hok
    all_goals exact absurd hok (by simp)
  · split at hok
    · cases hok; rfl
    · split at hok
      · unfold wcsCards at hok
        split at hok
        · dsimp only at hok
          split at hok
          · split at hok
            · exact absurd hok (by simp)
            · split at hok
              · simp only [Except.ok.injEq] at hok
                subst hok
                split <;> split <;> simp [get?_put_ne, *]
              · exact absurd hok (by simp)
            · exact absurd hok (by simp)
          · exact absurd hok (by simp)
        · exact absurd hok (by simp)
      · exact absurd hok (by simp)

theorem axisKey_notMem_wcsKeys (k : Nat) : axisKey "NAXIS" k ∉ wcsKeys := by
  intro h
  simp only [wcsKeys, List.mem_cons, List.not_mem_nil, or_false] at h
  rcases h with h | h | h | h | h | h | h | h | h | h | h | h | h | h <;>
    exact axisKey_ne_of_prefix k (by decide) h

theorem get?_foldl_axes (l : List Int) (s : Nat) (h : Header) (k : String) (hk : ∀ i, k ≠ axisKey "NAXIS" i) :
    ((l.zipIdx s).foldl (fun (h : Header) (n, dim) => h.put (axisKey "NAXIS" dim) (.int n)) h).get? k = h.get? k := by
  induction l generalizing s h with
  | nil => rfl
  | cons n l ih =>
    rw [List.zipIdx_cons, List.foldl_cons, ih, get?_put_ne _ _ (hk s)]

theorem get?_foldl_axis (l : List Int) (s : Nat) (h : Header) (i : Nat) :
    ((l.zipIdx s).foldl (fun (h : Header) (n, dim) => h.put (axisKey "NAXIS" dim) (.int n)) h).get? (axisKey "NAXIS" i)
      = if s ≤ i then (match l[i - s]? with | some n => some (.int n) | none => h.get? (axisKey "NAXIS" i))
        else h.get? (axisKey "NAXIS" i) := by
  induction l generalizing s h with
  | nil => simp
  | cons n l ih =>
    rw [List.zipIdx_cons, List.foldl_cons, ih]
    rcases Nat.lt_trichotomy i s with his | his | his
    · rw [if_neg (by omega), if_neg (by omega), get?_put_ne]
      exact fun e => by have := axisKey_inj e; omega
    · subst his
      rw [if_neg (by omega), if_pos le_rfl, get?_put_self]
      simp
    · rw [if_pos (by omega), if_pos (by omega), get?_put_ne _ _ (fun e => by have := axisKey_inj e; omega)]
      rw [show i - s = (i - (s + 1)) + 1 by omega, List.getElem?_cons_succ]

theorem basicCards_naxis (naxes : List Int) (b : Option Int) (e : Option String) :
    (basicCards naxes b e).get? "NAXIS" = some (.int naxes.length) := by
  have hne : ∀ i, "NAXIS" ≠ axisKey "NAXIS" i := fun i => (axisKey_ne_self _ i).symm
  unfold basicCards
  cases e with
  | none =>
    dsimp only
    rw [get?_put_ne _ _ (by decide), get?_foldl_axes _ _ _ _ hne, get?_put_self]
  | some e =>
    dsimp only
    rw [get?_put_ne _ _ (by decide), get?_put_ne _ _ (by decide), get?_put_ne _ _ (by decide), get?_foldl_axes _ _ _ _ hne,
      get?_put_self]

theorem basicCards_axis (naxes : List Int) (b : Option Int) (e : Option String) {i : Nat} {n : Int} (hi : naxes[i]? = some n) :
    (basicCards naxes b e).get? (axisKey "NAXIS" i) = some (.int n) := by
  have hne : ∀ s : String, ¬ "NAXIS".toList <+: s.toList → axisKey "NAXIS" i ≠ s := fun s hs => axisKey_ne_of_prefix i hs
  unfold basicCards
  cases e with
  | none =>
    dsimp only
    rw [get?_put_ne _ _ (hne _ (by decide)), get?_foldl_axis, if_pos (Nat.zero_le _), Nat.sub_zero, hi]
  | some e =>
    dsimp only
    rw [get?_put_ne _ _ (hne _ (by decide)), get?_put_ne _ _ (hne _ (by decide)), get?_put_ne _ _ (hne _ (by decide)),
      get?_foldl_axis, if_pos (Nat.zero_le _), Nat.sub_zero, hi]

theorem fitsheader2shape_of {h : Header} {naxes : List Int} (hn : h.get? "NAXIS" = some (.int naxes.length))
    (ha : ∀ (i : Nat) n, naxes[i]? = some n → h.get? (axisKey "NAXIS" i) = some (.int n)) :
    fitsheader2shape h = .ok naxes.reverse := by
  unfold fitsheader2shape
  have e1 : h.getInt "NAXIS" = .ok (naxes.length : Int) := by unfold Header.getInt; rw [hn]
  rw [e1]
  change List.mapM _ _ = _
  rw [Int.toNat_natCast]
  have key : ∀ l : List Nat, (∀ i ∈ l, i < naxes.length) →
      (l.map fun i => axisKey "NAXIS" i).mapM (fun k => h.getInt k) = (.ok (l.map fun i => (naxes[i]?).getD 0) : Res (List Int)) := by
    intro l hl
    induction l with
    | nil => rfl
    | cons i l ih =>
      have hi := hl i List.mem_cons_self
      rw [List.map_cons, List.mapM_cons, ih fun j hj => hl j (List.mem_cons_of_mem _ hj)]
      have e2 : h.getInt (axisKey "NAXIS" i) = .ok naxes[i] := by
        unfold Header.getInt
        rw [ha i _ (List.getElem?_eq_getElem hi)]
      rw [e2, List.map_cons, List.getElem?_eq_getElem hi]
      rfl
  rw [key _ (by intro i hi; simpa using hi), List.map_reverse]
  congr 2
  apply List.ext_getElem (by simp)
  intro i h1 h2
  simp [List.getElem?_eq_getElem h2]

theorem createFitsheader_axes {naxes : List Int} {d : Option DType} {e : Option String} {a : WcsArgs} {h : Header}
    (hok : createFitsheader (some naxes) d e a = .ok h) :
    h.get? "NAXIS" = some (.int naxes.length) ∧ ∀ (i : Nat) n, naxes[i]? = some n → h.get? (axisKey "NAXIS" i) = some (.int n) := by
  unfold createFitsheader at hok
  dsimp only at hok
  split at hok
  · exact absurd hok (by simp)
  · split at hok
    · exact absurd hok (by simp)
    · constructor
      · rw [addWcs_get? hok (by decide), basicCards_naxis]
      · intro i n hi
        rw [addWcs_get? hok (axisKey_notMem_wcsKeys i), basicCards_axis _ _ _ hi]

/-- C60: the shape read from the header of an array is the shape of the array, with at least one dimension. -/
theorem C60_shape_partial {d : ArrayInfo} {e : Option String} {a : WcsArgs} {h : Header} (hok : createFitsheaderFor (some d) e a = .ok h) :
    fitsheader2shape h = .ok ((if d.shape = [] then [1] else d.shape).map fun n : Nat => (n : Int)) := by
  unfold createFitsheaderFor at hok
  obtain ⟨h1, h2⟩ := createFitsheader_axes hok
  rw [fitsheader2shape_of h1 h2]
  simp

/-- C60: the header made without data has no axes. -/
theorem C60_nodata {e : Option String} {a : WcsArgs} {h : Header} (hok : createFitsheaderFor none e a = .ok h) :
    fitsheader2shape h = .ok [] := by
  unfold createFitsheaderFor at hok
  obtain ⟨h1, h2⟩ := createFitsheader_axes hok
  rw [fitsheader2shape_of h1 h2]
  rfl

/-- C60: the header of an array with up to eight dimensions of a FITS type can be made when no world coordinate system is asked for. -/
theorem C60_exists {d : ArrayInfo} (hn : d.shape.length ≤ 8) {b : Int}
    (hb : dtype2bitpix.lookup (if d.dtype.itemsize = 1 then "uint8" else d.dtype.name) = some b) (e : Option String) {a : WcsArgs}
    (hcd : a.cd = none) (hcdelt : a.cdelt = none) : ∃ h, createFitsheaderFor (some d) e a = .ok h ∧ h.get? "BITPIX" = some (.int b) := by
  unfold createFitsheaderFor createFitsheader
  dsimp only
  rw [if_neg (show ¬ (List.map (fun n : Nat => (n : Int)) (if d.shape = [] then [1] else d.shape).reverse).length > 8 by
    split
    · simp
    · simpa using hn)]
  rw [Option.map_some, Option.getD_some, show (if d.dtype.itemsize = 1 then (⟨"uint8", 1, false⟩ : DType) else d.dtype).name
    = if d.dtype.itemsize = 1 then "uint8" else d.dtype.name by split <;> rfl, hb]
  dsimp only
  unfold addWcs
  rw [hcd, hcdelt]
  refine ⟨_, rfl, ?_⟩
  have hne : ∀ i, "BITPIX" ≠ axisKey "NAXIS" i := fun i => (axisKey_ne_of_prefix i (by decide)).symm
  unfold basicCards
  cases e <;> dsimp only
  · rw [get?_put_ne _ _ (by decide), get?_foldl_axes _ _ _ _ hne, get?_put_ne _ _ (by decide), get?_put_self]
  · rw [get?_put_ne _ _ (by decide), get?_put_ne _ _ (by decide), get?_put_ne _ _ (by decide), get?_foldl_axes _ _ _ _ hne,
      get?_put_ne _ _ (by decide), get?_put_self]

/-- C60 does not hold of a scalar: its header has one axis. -/
theorem C60_violation_scalar (d : DType) (e : Option String) (a : WcsArgs) {h : Header}
    (hok : createFitsheaderFor (some ⟨[], d⟩) e a = .ok h) : fitsheader2shape h ≠ .ok [] := by
  rw [C60_shape_partial hok]
  simp

/-- C60: more than eight dimensions are refused. -/
theorem C60_ndim {d : ArrayInfo} (hn : 8 < d.shape.length) (e : Option String) (a : WcsArgs) :
    createFitsheaderFor (some d) e a = .error .valueError := by
  unfold createFitsheaderFor createFitsheader
  dsimp only
  rw [if_pos]
  rw [if_neg (by intro h; simp [h] at hn)]
  simpa using hn

example : ∃ h, createFitsheaderFor (some ⟨[3, 0, 5], ⟨"float32", 4, false⟩⟩) (some "map") {} = .ok h ∧
    fitsheader2shape h = .ok [3, 0, 5] := by
  obtain ⟨h, hh, -⟩ := C60_exists (d := ⟨[3, 0, 5], ⟨"float32", 4, false⟩⟩) (by simp) (b := -32) (by decide) (some "map") (a := {})
    rfl rfl
  exact ⟨h, hh, by rw [C60_shape_partial hh]; rfl⟩

example (e : Option String) (a : WcsArgs) : createFitsheaderFor (some ⟨[1, 1, 1, 1, 1, 1, 1, 1, 1], ⟨"float64", 8, false⟩⟩) e a
    = .error .valueError := C60_ndim (by simp) e a

end Verif.Wcs
