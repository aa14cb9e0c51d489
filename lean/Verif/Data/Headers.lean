import Verif.Wcs.PropsHeader

/-!
C139: the headers of the arrays: src/pysimulators/datatypes.py 100-206 and 277-296.

A header is an object that can be modified: the arrays have references to a heap.
-/
namespace Verif.Data.Headers
open Verif.Py Verif.Wcs

/-! ### The model -/

abbrev Heap := List Header

/-- An array: its shape, its data type and the reference to its header (`_header`). -/
structure HArr where
  shape : List Nat
  dtype : DType
  header : Option Nat

/-- `np.iscomplexobj`. -/
def isComplex (d : DType) : Bool := d.name = "complex64" ∨ d.name = "complex128"

/-- datatypes.py 284-288: the attribute `header`, created for the array if it has none.  The result is the heap and the array after the access. -/
noncomputable def getHeader (heap : Heap) (a : HArr) : Res (Heap × HArr) :=
  match a.header with
  | some _ => .ok (heap, a)
  | none =>
    if isComplex a.dtype then .ok (heap, a)
    else do
      let h ← createFitsheaderFor (some ⟨a.shape, a.dtype⟩) none {}
      .ok (heap ++ [h], { a with header := some heap.length })

/-- datatypes.py 161-163 `__array_finalize__`: an array made by numpy from `a` (its method `copy`, a slice, the result of an operation) has the header of `a`. -/
def derive (a : HArr) (shape : List Nat) (dtype : DType) : HArr := ⟨shape, dtype, a.header⟩

/-- datatypes.py 137-159 `FitsArray(a, header=..., copy=...)`. -/
def construct (heap : Heap) (a : HArr) (header : Option Nat) (copy : Bool) : Heap × HArr :=
  match header with
  | some r => (heap, { a with header := some r })
  | none =>
    match a.header with
    | some r => if copy then (heap ++ (heap[r]?).toList, { a with header := some heap.length }) else (heap, a)
    | none => (heap, a)

/-- datatypes.py 176-206 `astype`. -/
def astype (heap : Heap) (a : HArr) (dtype : DType) : Res (Heap × HArr) :=
  match a.header with
  | none => .ok (heap, derive a a.shape dtype)
  | some r =>
    match dtype2bitpix.lookup dtype.name with
    | none => .error .keyError
    | some b => .ok (heap ++ ((heap[r]?).map fun h => h.put "BITPIX" (.int b)).toList, ⟨a.shape, dtype, some heap.length⟩)

/-- `a.header[key] = value` for an array with a header. -/
def setCard (heap : Heap) (a : HArr) (key : String) (v : HVal) : Heap :=
  match a.header with
  | none => heap
  | some r => heap.modify r fun h => h.put key v

/-! ### Specification -/

/-- What is seen with `a.header`. -/
def look (heap : Heap) (a : HArr) : Option Header := a.header.bind fun r => heap[r]?

/-- The modifications of the header of `b` are not seen with `a`. -/
def Independent (heap : Heap) (a b : HArr) : Prop := ∀ key v, look (setCard heap b key v) a = look heap a

/-! ### C139 -/

theorem independent_of_ne {heap : Heap} {a b : HArr} (h : ∀ r, a.header = some r → b.header ≠ some r) : Independent heap a b := by
  intro key v
  unfold look setCard
  cases hb : b.header with
  | none => rfl
  | some s =>
    cases ha : a.header with
    | none => rfl
    | some r =>
      have : r ≠ s := by rintro rfl; exact h r ha hb
      dsimp only [Option.bind]
      rw [List.getElem?_modify]
      simp [Ne.symm this]

/-- C139: a copy made by the constructor has the same header, and they are independent. -/
theorem C139_constructor (heap : Heap) (a : HArr) (r : Nat) (hr : a.header = some r) (hl : r < heap.length) :
    let s := construct heap a none true
    look s.1 s.2 = look heap a ∧ look s.1 a = look heap a ∧ Independent s.1 a s.2 ∧ Independent s.1 s.2 a := by
  have hs : construct heap a none true = (heap ++ [heap[r]], { a with header := some heap.length }) := by
    unfold construct
    rw [hr]
    simp [List.getElem?_eq_getElem hl]
  rw [hs]
  dsimp only
  refine ⟨?_, ?_, independent_of_ne ?_, independent_of_ne ?_⟩
  · simp [look, hr, List.getElem?_eq_getElem hl]
  · simp [look, hr, List.getElem?_append_left hl]
  · intro q hq
    rw [hr] at hq
    cases hq
    simp only [ne_eq, Option.some.injEq]
    omega
  · intro q hq
    cases hq
    rw [hr]
    simp only [ne_eq, Option.some.injEq]
    omega

/-- C139: a conversion of type gives an independent header, the same one but for BITPIX. -/
theorem C139_astype_partial (heap : Heap) (a : HArr) (r : Nat) (h : Header) (hr : a.header = some r) (hl : heap[r]? = some h) (d : DType) (b : Int)
    (hb : dtype2bitpix.lookup d.name = some b) :
    ∃ heap' a' h', astype heap a d = .ok (heap', a') ∧ a'.shape = a.shape ∧ a'.dtype = d ∧ look heap' a = some h ∧ look heap' a' = some h' ∧
      (∀ key, key ≠ "BITPIX" → h'.get? key = h.get? key) ∧ h'.get? "BITPIX" = some (.int b) ∧ Independent heap' a a' ∧ Independent heap' a' a := by
  have hlt : r < heap.length := by
    by_contra hc
    rw [List.getElem?_eq_none (by omega)] at hl
    cases hl
  refine ⟨heap ++ [h.put "BITPIX" (.int b)], ⟨a.shape, d, some heap.length⟩, h.put "BITPIX" (.int b), ?_, rfl, rfl, ?_, ?_, ?_, ?_, independent_of_ne ?_, independent_of_ne ?_⟩
  · unfold astype
    rw [hr]
    dsimp only
    rw [hb, hl]
    rfl
  · simp [look, hr, List.getElem?_append_left hlt, hl]
  · simp [look]
  · intro key hk
    exact get?_put_ne h _ hk
  · exact get?_put_self h "BITPIX" _
  · intro q hq
    rw [hr] at hq
    cases hq
    simp only [ne_eq, Option.some.injEq]
    omega
  · intro q hq
    cases hq
    rw [hr]
    simp only [ne_eq, Option.some.injEq]
    omega

/-- A header with a keyword, a copy of the array and a conversion into single precision. -/
example : let heap : Heap := [[("BITPIX", .int (-64)), ("NAXIS", .int 1)]]
    let a : HArr := ⟨[5], ⟨"float64", 8, false⟩, some 0⟩
    look (construct heap a none true).1 (construct heap a none true).2 = some [("BITPIX", .int (-64)), ("NAXIS", .int 1)] ∧
      ∃ heap' a' h', astype heap a ⟨"float32", 4, false⟩ = .ok (heap', a') ∧ look heap' a' = some h' ∧ h'.get? "BITPIX" = some (.int (-32)) := by
  dsimp only
  refine ⟨(C139_constructor _ _ 0 rfl (by decide)).1, ?_⟩
  obtain ⟨heap', a', h', h1, -, -, -, h2, -, h3, -⟩ := C139_astype_partial [[("BITPIX", .int (-64)), ("NAXIS", .int 1)]] ⟨[5], ⟨"float64", 8, false⟩, some 0⟩ 0 _ rfl rfl
    ⟨"float32", 4, false⟩ (-32) (by decide)
  exact ⟨heap', a', h', h1, h2, h3⟩

/-- C139: the header that is made for an array without header has its shape and its type, and it is not that of another array. -/
theorem C139_created_partial (heap : Heap) (a : HArr) (ha : a.header = none) (hc : isComplex a.dtype = false) (hs : a.shape ≠ []) (hn : a.shape.length ≤ 8) (b : Int)
    (hb : dtype2bitpix.lookup (if a.dtype.itemsize = 1 then "uint8" else a.dtype.name) = some b) :
    ∃ heap' a' h, getHeader heap a = .ok (heap', a') ∧ look heap' a' = some h ∧ fitsheader2shape h = .ok (a.shape.map fun n : Nat => (n : Int)) ∧ h.get? "BITPIX" = some (.int b) ∧
      ∀ c : HArr, (∀ r, c.header = some r → r < heap.length) → look heap' c = look heap c ∧ Independent heap' c a' ∧ Independent heap' a' c := by
  obtain ⟨h, h1, h2⟩ := C60_exists (d := ⟨a.shape, a.dtype⟩) hn hb none (a := {}) rfl rfl
  refine ⟨heap ++ [h], { a with header := some heap.length }, h, ?_, by simp [look], ?_, h2, fun c hcr => ⟨?_, independent_of_ne ?_, independent_of_ne ?_⟩⟩
  · unfold getHeader
    rw [ha, hc]
    simp only [Bool.false_eq_true, if_false]
    rw [h1]
    rfl
  · rw [C60_shape_partial h1, if_neg hs]
  · unfold look
    cases hh : c.header with
    | none => rfl
    | some r => exact List.getElem?_append_left (hcr r hh)
  · intro r hr he
    have := hcr r hr
    simp only [Option.some.injEq] at he
    omega
  · intro r hr he
    have := hcr r he
    simp only [Option.some.injEq] at hr
    omega

/-- An array of 2 by 3 numbers. -/
example : ∃ heap' a' h, getHeader [] ⟨[2, 3], ⟨"float64", 8, false⟩, none⟩ = .ok (heap', a') ∧ look heap' a' = some h ∧ fitsheader2shape h = .ok [2, 3] := by
  obtain ⟨heap', a', h, h1, h2, h3, -⟩ := C139_created_partial [] ⟨[2, 3], ⟨"float64", 8, false⟩, none⟩ rfl (by decide) (by decide) (by decide) (-64) (by decide)
  exact ⟨heap', a', h, h1, h2, h3⟩

/-! ### What is shared -/

/-- C139 fails for the arrays made by numpy from an array with a header: its copies (method `copy`), its slices, the results of operations have its header, and any change of the header of
one of them is one of the header of the array. -/
theorem C139_violation_copy (heap : Heap) (a : HArr) (h : Header) (hl : look heap a = some h) (shape : List Nat) (d : DType) (key : String) (v : HVal) :
    look (setCard heap (derive a shape d) key v) a = some (h.put key v) := by
  unfold look setCard derive at *
  cases ha : a.header with
  | none => rw [ha] at hl; cases hl
  | some r =>
    rw [ha] at hl
    dsimp only [Option.bind] at hl ⊢
    rw [List.getElem?_modify, hl]
    simp

/-- C139 fails for a slice of an array with a header: the header has the shape of the whole array. -/
theorem C139_violation_slice (heap : Heap) (a : HArr) (h : Header) (hl : look heap a = some h) (hs : fitsheader2shape h = .ok (a.shape.map fun n : Nat => (n : Int)))
    (shape : List Nat) (hne : shape ≠ a.shape) : ∃ heap' b' h', getHeader heap (derive a shape a.dtype) = .ok (heap', b') ∧ b'.shape = shape ∧ look heap' b' = some h' ∧
      fitsheader2shape h' ≠ .ok (shape.map fun n : Nat => (n : Int)) := by
  cases ha : a.header with
  | none => rw [look, ha] at hl; cases hl
  | some r =>
    refine ⟨heap, derive a shape a.dtype, h, ?_, rfl, hl, ?_⟩
    · unfold getHeader derive
      rw [ha]
    · rw [hs]
      intro he
      injection he with he
      exact hne (List.map_injective_iff.2 Nat.cast_injective he).symm

/-- C139 fails for the header given to the constructor, which is not copied even if a copy is asked: two arrays made with it share it. -/
theorem C139_violation_argument (heap : Heap) (a b : HArr) (r : Nat) (h : Header) (hl : heap[r]? = some h) (key : String) (v : HVal) :
    look (setCard heap (construct heap a (some r) true).2 key v) (construct heap b (some r) true).2 = some (h.put key v) := by
  unfold look setCard construct
  dsimp only [Option.bind]
  rw [List.getElem?_modify, hl]
  simp

/-- C139 fails for complex numbers: the conversion succeeds if the header has not been read, and raises KeyError if it has. -/
theorem C139_violation_complex : ∃ (a : HArr) (d : DType), (∃ s, astype [] a d = .ok s) ∧
    ∀ heap' a', getHeader [] a = .ok (heap', a') → astype heap' a' d = .error .keyError := by
  refine ⟨⟨[2, 3], ⟨"float64", 8, false⟩, none⟩, ⟨"complex128", 16, false⟩, ⟨_, rfl⟩, fun heap' a' h => ?_⟩
  obtain ⟨heap'', a'', h', h1, h2, -⟩ := C139_created_partial [] ⟨[2, 3], ⟨"float64", 8, false⟩, none⟩ rfl (by decide) (by decide) (by decide) (-64) (by decide)
  rw [h1] at h
  cases h
  unfold look at h2
  unfold astype
  cases ha : a'.header with
  | none => rw [ha] at h2; cases h2
  | some r => rfl

end Verif.Data.Headers
