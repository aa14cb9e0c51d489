import Verif.Units.Numpy

/-!
Property C116: the functions of NumPy applied to quantities return the function of the amounts.
-/
set_option linter.unusedSectionVars false

namespace Verif.Units
open Verif.Py RatPow LawfulRatPow

/-! ### Vocabulary -/

/-- The positions of the operands that carry a dimension. -/
def operandAt : Input → Nat → Bool
  | .first, i => i = 0
  | .second, i => i = 1
  | .sequence, _ => true
  | .sequenceExceptFirst, i => 1 ≤ i
  | .firstSequence, i => i = 0
  | .secondSequence, i => i = 1
  | .firstAndSecond, i => i = 0 ∨ i = 1
  | .firstAndThird, i => i = 0 ∨ i = 2
  | .secondAndThird, i => i = 1 ∨ i = 2
  | .firstNested, _ => false

/-- The operands are given as a sequence. -/
def asSequence : Input → Bool
  | .firstSequence | .secondSequence => true
  | _ => false

section
variable {K : Type} [Field K] [RatPow K]

/-- The arrays of an argument. -/
def Arg.arrays : Arg K → List (Arr K)
  | .arr a => [a]
  | .seq l => l
  | .other _ => []

/-- The operands among the arguments from number `i`. -/
def operandsFrom (mode : Input) : Nat → List (Arg K) → List (Arr K)
  | _, [] => []
  | i, a :: args => (if operandAt mode i then a.arrays else []) ++ operandsFrom mode (i + 1) args

/-- The unit of the first array that has one. -/
def commonUnit (l : List (Arr K)) : UnitD := ((l.map (·.unit)).find? fun u => u.length ≠ 0).getD []

/-- The amounts of an array; without unit, it is in unit `u`. -/
def Arr.amounts (v : Sym → K) (u : UnitD) (a : Arr K) : List K :=
  a.mags.map fun x => amount v ⟨x, if a.unit = [] then u else a.unit⟩

/-- The amounts of an argument. -/
def Arg.amounts (v : Sym → K) (u : UnitD) : Arg K → Raw K
  | .arr a => .arr (a.amounts v u)
  | .seq l => .seq (l.map (Arr.amounts v u))
  | .other n => .other n

/-- The amounts of the arguments from number `i`; the operands without unit are in unit `u`. -/
def amountsFrom (v : Sym → K) (u : UnitD) (mode : Input) : Nat → List (Arg K) → List (Raw K)
  | _, [] => []
  | i, a :: args => a.amounts v (if operandAt mode i then u else []) :: amountsFrom v u mode (i + 1) args

/-- Multiplication of an argument by a number. -/
def Raw.scale (c : K) : Raw K → Raw K
  | .arr x => .arr (x.map (· * c))
  | .seq l => .seq (l.map fun x => x.map (· * c))
  | .other n => .other n

/-- Multiplication of the argument number `i` by `c i`. -/
def scaleFrom (c : Nat → K) : Nat → List (Raw K) → List (Raw K)
  | _, [] => []
  | i, x :: xs => x.scale (c i) :: scaleFrom c (i + 1) xs

/-- Multiplication of the arrays from number `i`. -/
def scaleOutFrom (d : Nat → K) : Nat → List (List K) → List (List K)
  | _, [] => []
  | i, x :: xs => x.map (· * d i) :: scaleOutFrom d (i + 1) xs

/-- Multiplication of the output number `i` by `d i`. -/
def Out.scale (d : Nat → K) : Out K → Out K
  | .one x => .one (x.map (· * d 0))
  | .many l => .many (scaleOutFrom d 0 l)
  | .none => .none

/-- The arrays of a result. -/
def Result.arrays : Result K → List (Arr K)
  | .one a => [a]
  | .many l => l
  | .none => []

/-- The amounts of a result. -/
def Result.amounts (v : Sym → K) : Result K → Out K
  | .one a => .one (a.amounts v [])
  | .many l => .many (l.map (Arr.amounts v []))
  | .none => .none

/-- The outputs that carry the dimension of the operands. -/
def dimensioned : Output → Nat → Bool
  | .firstIfSequence, i => i = 0
  | .firstInSequence, i => i = 0
  | _, _ => true

/-- A function without a conversion for sequences returns a single array. -/
def Single (f : NpFunc K) : Prop := ∀ raw out, f raw = .ok out → ∃ x, out = .one x

variable [LinearOrder K]

/-- A plain array has no unit, a unit is a dictionary, and the derived units of the array are consistent with the values
of the symbols. -/
structure GoodArr (G : DTable K) (v : Sym → K) (a : Arr K) : Prop where
  plain : a.isQ = false → a.unit = []
  wf : Wf a.unit
  tables : GoodTables a.derived G
  valuation : Valuation a.derived G v

/-- The operands are sequences of arrays or arrays, depending on the function, and the other arguments have no unit. -/
def GoodArg (G : DTable K) (v : Sym → K) (mode : Input) (i : Nat) (a : Arg K) : Prop :=
  (∀ x ∈ a.arrays, GoodArr G v x) ∧
  if operandAt mode i then (if asSequence mode then ∃ l, a = .seq l else ∀ l, a ≠ .seq l)
  else ∀ x ∈ a.arrays, x.unit = []

/-- The arguments from number `i` are good. -/
def GoodArgs (G : DTable K) (v : Sym → K) (mode : Input) : Nat → List (Arg K) → Prop
  | _, [] => True
  | i, a :: args => GoodArg G v mode i a ∧ GoodArgs G v mode (i + 1) args

/-- The function is homogeneous: when the operands are multiplied by a positive number, so are the outputs that carry a
dimension. -/
def Homogeneous (mode : Input) (out : Output) (f : NpFunc K) : Prop :=
  ∀ c : K, 0 < c → ∀ raw, f (scaleFrom (fun i => if operandAt mode i then c else 1) 0 raw) =
    (f raw).map (Out.scale fun i => if dimensioned out i then c else 1)

end

/-! ### Conversion of the arguments -/

section
variable {K : Type} [Field K] [LinearOrder K] [IsStrictOrderedRing K] [LawfulRatPow K]
variable {G : DTable K} {v : Sym → K}

theorem isSequence_eq (mode : Input) (i : Nat) : isSequence mode i = (operandAt mode i && asSequence mode) := by
  cases mode <;> simp [isSequence, operandAt, asSequence, beq_eq_decide]

theorem isConverted_eq (mode : Input) (i : Nat) (h : asSequence mode = false) : isConverted mode i = operandAt mode i := by
  cases mode <;> simp_all [isConverted, operandAt, asSequence, beq_eq_decide, Nat.pos_iff_ne_zero, Nat.one_le_iff_ne_zero]

theorem isConverted_seq (mode : Input) (i : Nat) (h : asSequence mode = true) : isConverted mode i = false := by
  cases mode <;> simp_all [isConverted, asSequence]

theorem amounts_self (v : Sym → K) {a : Arr K} {u : UnitD} (h : a.unit = [] ∨ a.unit = u) :
    a.amounts v u = a.mags.map (· * value v u) := by
  unfold Arr.amounts
  rcases h with h | h
  · simp [h, amount]
  · split <;> simp_all [amount]

theorem tounitArr_amounts {n : Nat} {a a' : Arr K} {u : UnitD} (ha : GoodArr G v a) (hu : Wf u) (h1 : a.unit ≠ [])
    (h2 : u ≠ []) (h : tounitArr n G a u = .ok a') : a'.mags.map (· * value v u) = a.amounts v u ∧ a'.unit = u := by
  obtain ⟨r, hr, rfl⟩ := map_eq_ok.1 h
  obtain ⟨e, e'⟩ := C22_amount_partial ha.tables ha.valuation ha.wf hu h1 h2 hr
  refine ⟨?_, rfl⟩
  rw [amount, amount, e', one_mul] at e
  simp only [Arr.amounts, List.map_map, if_neg h1]
  refine List.map_congr_left fun x _ => ?_
  simp only [Function.comp_apply, amount]
  rw [mul_assoc, e]

theorem convertArr_amounts {n : Nat} {a a' : Arr K} {u : UnitD} (ha : GoodArr G v a) (hu : Wf u) (h2 : u ≠ [])
    (h : convertArr n G u a = .ok a') : a'.mags.map (· * value v u) = a.amounts v u := by
  unfold convertArr at h
  split at h
  · rename_i hc
    exact (tounitArr_amounts ha hu (by simpa using hc.2.1) h2 h).1
  · rename_i hc
    cases h
    by_cases h0 : a.unit = []
    · rw [amounts_self v (Or.inl h0)]
    · have hq : a.isQ = true := by
        by_contra hq
        exact h0 (ha.plain (by simpa using hq))
      have hd : dictEq a.unit u = true := by
        by_contra hd
        exact hc ⟨hq, by simpa using h0, by simpa using hd⟩
      have := value_perm (v := v) ((dictEq_perm ha.wf hu).1 hd)
      simp only [Arr.amounts, if_neg h0, amount, this]

theorem mapM_amounts {n : Nat} {u : UnitD} (hu : Wf u) (h2 : u ≠ []) : ∀ (l l' : List (Arr K)), (∀ a ∈ l, GoodArr G v a) →
    l.mapM (convertArr n G u) = .ok l' → (l'.map (·.mags)).map (fun x => x.map (· * value v u)) = l.map (Arr.amounts v u)
  | [], l', _, h => by
    simp only [List.mapM_nil] at h
    cases h
    rfl
  | a :: l, l', hg, h => by
    simp only [List.mapM_cons] at h
    obtain ⟨a', ha, h⟩ := bind_eq_ok.1 h
    obtain ⟨l'', hl, h⟩ := bind_eq_ok.1 h
    cases h
    simp only [List.map_cons]
    rw [convertArr_amounts (hg a (by simp)) hu h2 ha, mapM_amounts hu h2 l l'' (fun b hb => hg b (by simp [hb])) hl]

theorem scale_one (x : Raw K) : x.scale 1 = x := by
  cases x <;> simp [Raw.scale]

theorem amounts_plain {a : Arr K} (h : a.unit = []) : a.amounts v [] = a.mags := by
  simp [Arr.amounts, h, amount, value]

/-- The values of an argument that is not an operand. -/
theorem view_plain {mode : Input} {i : Nat} {a : Arg K} {x : Raw K} (ho : operandAt mode i = false)
    (h : ∀ x ∈ a.arrays, x.unit = []) (hx : viewArg mode i a = .ok x) : x = a.amounts v [] := by
  rw [viewArg.eq_def, isSequence_eq, ho] at hx
  simp only [Bool.false_and, Bool.false_eq_true, if_false] at hx
  cases a with
  | arr a =>
    injection hx with hx
    rw [← hx, Arg.amounts, amounts_plain (h a (by simp [Arg.arrays]))]
  | seq l =>
    injection hx with hx
    rw [← hx, Arg.amounts]
    congr 1
    exact List.map_congr_left fun a ha => (amounts_plain (h a ha)).symm
  | other n =>
    injection hx with hx
    rw [← hx, Arg.amounts]

theorem convertArg_amounts {n : Nat} {u : UnitD} (hu : Wf u) (h2 : u ≠ []) {mode : Input} {i : Nat} {a a' : Arg K}
    {x : Raw K} (hg : GoodArg G v mode i a) (h : convertArg n G u mode i a = .ok a') (hx : viewArg mode i a' = .ok x) :
    x.scale (if operandAt mode i then value v u else 1) = a.amounts v (if operandAt mode i then u else []) := by
  obtain ⟨hg, hs⟩ := hg
  cases ho : operandAt mode i with
  | false =>
    simp only [ho, Bool.false_eq_true, if_false] at hs ⊢
    have ha : a' = a := by
      rw [convertArg.eq_def, isSequence_eq, ho] at h
      simp only [Bool.false_and, Bool.false_eq_true, if_false] at h
      cases hq : asSequence mode with
      | true =>
        rw [isConverted_seq mode i hq] at h
        simp only [Bool.false_eq_true, if_false] at h
        injection h with h
        exact h.symm
      | false =>
        rw [isConverted_eq mode i hq, ho] at h
        simp only [Bool.false_eq_true, if_false] at h
        injection h with h
        exact h.symm
    rw [scale_one, view_plain ho (ha ▸ hs) hx, ha]
  | true =>
    simp only [ho, if_true] at hs ⊢
    cases hq : asSequence mode with
    | true =>
      simp only [hq, if_true] at hs
      obtain ⟨l, rfl⟩ := hs
      rw [convertArg.eq_def, isSequence_eq, ho, hq] at h
      simp only [Bool.true_and, if_true, Arg.elements] at h
      obtain ⟨l', hl, rfl⟩ := map_eq_ok.1 h
      have hl : l.mapM (convertArr n G u) = .ok l' := hl
      rw [viewArg.eq_def, isSequence_eq, ho, hq] at hx
      simp only [Bool.true_and, if_true, Arg.elements] at hx
      injection hx with hx
      rw [← hx, Raw.scale, Arg.amounts, mapM_amounts hu h2 l l' hg hl]
    | false =>
      simp only [hq, Bool.false_eq_true, if_false] at hs
      rw [convertArg.eq_def, isSequence_eq, ho, hq, isConverted_eq mode i hq, ho] at h
      simp only [Bool.and_false, Bool.false_eq_true, if_false, if_true] at h
      rw [viewArg.eq_def, isSequence_eq, ho, hq] at hx
      simp only [Bool.and_false, Bool.false_eq_true, if_false] at hx
      cases a with
      | arr a =>
        obtain ⟨b, hb, rfl⟩ := map_eq_ok.1 h
        injection hx with hx
        rw [← hx, Raw.scale, Arg.amounts, convertArr_amounts (hg a (by simp [Arg.arrays])) hu h2 hb]
      | seq l => exact absurd rfl (hs l)
      | other n =>
        injection h with h
        subst h
        injection hx with hx
        rw [← hx]
        rfl

theorem convertAll_amounts {n : Nat} {u : UnitD} (hu : Wf u) (h2 : u ≠ []) {mode : Input} : ∀ (args args' : List (Arg K)) (i : Nat)
    (raw : List (Raw K)), GoodArgs G v mode i args → convertAll n G u mode i args = .ok args' → viewAll mode i args' = .ok raw →
    scaleFrom (fun i => if operandAt mode i then value v u else 1) i raw = amountsFrom v u mode i args
  | [], args', i, raw, _, h, hx => by
    injection h with h
    subst h
    injection hx with hx
    subst hx
    rfl
  | a :: args, args', i, raw, hg, h, hx => by
    obtain ⟨a', ha, h⟩ := bind_eq_ok.1 h
    obtain ⟨as, has, rfl⟩ := map_eq_ok.1 h
    obtain ⟨x, hxa, hx⟩ := bind_eq_ok.1 hx
    obtain ⟨xs, hxs, rfl⟩ := map_eq_ok.1 hx
    simp only [scaleFrom, amountsFrom]
    rw [convertArg_amounts hu h2 hg.1 ha hxa, convertAll_amounts hu h2 args as (i + 1) xs hg.2 has hxs]

/-- Without conversion: the units of the operands are absent or the common one. -/
theorem viewArg_amounts {u : UnitD} {mode : Input} {i : Nat} {a : Arg K} {x : Raw K} (hg : GoodArg G v mode i a)
    (hu : operandAt mode i = true → ∀ y ∈ a.arrays, y.unit = [] ∨ y.unit = u) (hx : viewArg mode i a = .ok x) :
    x.scale (if operandAt mode i then value v u else 1) = a.amounts v (if operandAt mode i then u else []) := by
  obtain ⟨hg, hs⟩ := hg
  cases ho : operandAt mode i with
  | false =>
    simp only [ho, Bool.false_eq_true, if_false] at hs ⊢
    rw [scale_one, view_plain ho hs hx]
  | true =>
    have hu := hu ho
    simp only [ho, if_true] at hs ⊢
    rw [viewArg.eq_def, isSequence_eq, ho] at hx
    cases hq : asSequence mode with
    | true =>
      simp only [hq, if_true] at hs
      obtain ⟨l, rfl⟩ := hs
      simp only [hq, Bool.true_and, if_true, Arg.elements] at hx
      injection hx with hx
      rw [← hx, Raw.scale, Arg.amounts, List.map_map]
      congr 1
      exact List.map_congr_left fun a ha => (amounts_self v (hu a ha)).symm
    | false =>
      simp only [hq, Bool.and_false, Bool.false_eq_true, if_false] at hx hs
      cases a with
      | arr a =>
        injection hx with hx
        rw [← hx, Raw.scale, Arg.amounts, amounts_self v (hu a (by simp [Arg.arrays]))]
      | seq l => exact absurd rfl (hs l)
      | other n =>
        injection hx with hx
        rw [← hx]
        rfl

theorem viewAll_amounts {u : UnitD} {mode : Input} : ∀ (args : List (Arg K)) (i : Nat) (raw : List (Raw K)),
    GoodArgs G v mode i args → (∀ y ∈ operandsFrom mode i args, y.unit = [] ∨ y.unit = u) → viewAll mode i args = .ok raw →
    scaleFrom (fun i => if operandAt mode i then value v u else 1) i raw = amountsFrom v u mode i args
  | [], i, raw, _, _, hx => by
    injection hx with hx
    subst hx
    rfl
  | a :: args, i, raw, hg, hu, hx => by
    obtain ⟨x, hxa, hx⟩ := bind_eq_ok.1 hx
    obtain ⟨xs, hxs, rfl⟩ := map_eq_ok.1 hx
    simp only [scaleFrom, amountsFrom]
    rw [viewArg_amounts hg.1 (fun ho y hy => hu y (by simp [operandsFrom, ho, hy])) hxa,
      viewAll_amounts args (i + 1) xs hg.2 (fun y hy => hu y (by simp [operandsFrom, hy])) hxs]

/-! ### The common unit -/

theorem find_first (us : List UnitD) : (us.find? fun u => u.length ≠ 0) = (us.filter fun u => u.length ≠ 0).head? :=
  (List.head?_filter ..).symm

theorem arr_units {a : Arr K} (ha : GoodArr G v a) : a.units = a.unit := by
  unfold Arr.units
  split
  · rfl
  · rename_i h
    exact (ha.plain (by simpa using h)).symm

theorem arg_units {a : Arg K} (ha : ∀ x ∈ a.arrays, GoodArr G v x) (hs : ∀ l, a ≠ .seq l) :
    ([a.units].filter fun u => u.length ≠ 0) = ((a.arrays.map (·.unit)).filter fun u => u.length ≠ 0) := by
  cases a with
  | arr a =>
    simp only [Arg.units, Arg.arrays, List.map_cons, List.map_nil]
    rw [arr_units (ha a (by simp [Arg.arrays]))]
  | seq l => exact absurd rfl (hs l)
  | other n => rfl

theorem operandsFrom_nil {mode : Input} : ∀ (args : List (Arg K)) (i : Nat), (∀ j, i ≤ j → operandAt mode j = false) →
    operandsFrom mode i args = []
  | [], _, _ => rfl
  | a :: args, i, h => by
    simp only [operandsFrom, h i le_rfl, Bool.false_eq_true, if_false, List.nil_append]
    exact operandsFrom_nil args (i + 1) fun j hj => h j (by omega)

theorem item_zero {α : Type} {args : List α} {a : α} (h : item args 0 = .ok a) : ∃ rest, args = a :: rest := by
  cases args with
  | nil => cases h
  | cons b rest =>
    injection h with h
    exact ⟨rest, by rw [h]⟩

theorem item_succ {α : Type} {b : α} {args : List α} {i : Nat} : item (b :: args) (i + 1) = item args i := rfl

theorem units_from {mode : Input} (hm : asSequence mode = false) : ∀ (args : List (Arg K)) (i : Nat),
    GoodArgs G v mode i args → (∀ j, i ≤ j → operandAt mode j = true) →
    ((args.map Arg.units).filter fun u => u.length ≠ 0) = (((operandsFrom mode i args).map (·.unit)).filter fun u => u.length ≠ 0)
  | [], _, _, _ => rfl
  | a :: args, i, hg, h => by
    have h0 := h i le_rfl
    have hs := hg.1.2
    simp only [h0, hm, if_true, Bool.false_eq_true, if_false] at hs
    have := units_from hm args (i + 1) hg.2 fun j hj => h j (by omega)
    have ha := arg_units hg.1.1 hs
    simp only [operandsFrom, h0, if_true, List.map_append, List.filter_append, ← this, ← ha]
    rw [List.map_cons, ← List.filter_append]
    rfl

/-- The units of the inputs that are not empty are those of the operands. -/
theorem inputUnits_operands {mode : Input} {args : List (Arg K)} {us : List UnitD} (hg : GoodArgs G v mode 0 args)
    (h : inputUnits args mode = .ok us) :
    (us.filter fun u => u.length ≠ 0) = (((operandsFrom mode 0 args).map (·.unit)).filter fun u => u.length ≠ 0) := by
  have one : ∀ {a : Arg K} {i : Nat}, GoodArg G v mode i a → operandAt mode i = true → asSequence mode = false →
      ([a.units].filter fun u => u.length ≠ 0) = ((a.arrays.map (·.unit)).filter fun u => u.length ≠ 0) := by
    intro a i hg ho hq
    have hs := hg.2
    simp only [ho, hq, if_true, Bool.false_eq_true, if_false] at hs
    exact arg_units hg.1 hs
  have seq : ∀ {a : Arg K} {i : Nat} {l : List (Arr K)}, GoodArg G v mode i a → operandAt mode i = true → asSequence mode = true →
      a.elements = .ok l → l.map Arr.units = a.arrays.map (·.unit) := by
    intro a i l hg ho hq he
    have hs := hg.2
    simp only [ho, hq, if_true] at hs
    obtain ⟨l', rfl⟩ := hs
    injection he with he
    subst he
    exact List.map_congr_left fun x hx => arr_units (hg.1 x hx)
  cases mode with
  | first =>
    obtain ⟨a, ha, rfl⟩ := map_eq_ok.1 h
    obtain ⟨rest, rfl⟩ := item_zero ha
    rw [one hg.1 rfl rfl]
    simp only [operandsFrom, operandAt]
    rw [operandsFrom_nil rest 1 (by intro j hj; simp [operandAt]; omega)]
    simp
  | second =>
    obtain ⟨a, ha, rfl⟩ := map_eq_ok.1 h
    cases args with
    | nil => cases ha
    | cons b args =>
      obtain ⟨rest, rfl⟩ := item_zero (item_succ ▸ ha)
      rw [one hg.2.1 rfl rfl]
      simp only [operandsFrom, operandAt]
      rw [operandsFrom_nil rest 2 (by intro j hj; simp [operandAt]; omega)]
      simp
  | sequence =>
    injection h with h
    subst h
    exact units_from rfl args 0 hg fun _ _ => rfl
  | sequenceExceptFirst =>
    injection h with h
    subst h
    cases args with
    | nil => rfl
    | cons b args =>
      simp only [operandsFrom, List.drop_succ_cons, List.drop_zero]
      have := units_from (mode := .sequenceExceptFirst) rfl args 1 hg.2 fun j hj => by simpa [operandAt] using hj
      rw [this]
      simp [operandAt]
  | firstSequence =>
    obtain ⟨l, hl, rfl⟩ := map_eq_ok.1 h
    obtain ⟨a, ha, hl⟩ := bind_eq_ok.1 hl
    obtain ⟨rest, rfl⟩ := item_zero ha
    rw [seq hg.1 rfl rfl hl]
    simp only [operandsFrom, operandAt]
    rw [operandsFrom_nil rest 1 (by intro j hj; simp [operandAt]; omega)]
    simp
  | secondSequence =>
    obtain ⟨l, hl, rfl⟩ := map_eq_ok.1 h
    obtain ⟨a, ha, hl⟩ := bind_eq_ok.1 hl
    cases args with
    | nil => cases ha
    | cons b args =>
      obtain ⟨rest, rfl⟩ := item_zero (item_succ ▸ ha)
      rw [seq hg.2.1 rfl rfl hl]
      simp only [operandsFrom, operandAt]
      rw [operandsFrom_nil rest 2 (by intro j hj; simp [operandAt]; omega)]
      simp
  | firstAndSecond =>
    obtain ⟨a, ha, h⟩ := bind_eq_ok.1 h
    obtain ⟨b, hb, rfl⟩ := map_eq_ok.1 h
    obtain ⟨rest, rfl⟩ := item_zero ha
    obtain ⟨rest, rfl⟩ := item_zero (item_succ ▸ hb)
    have h1 := one hg.1 rfl rfl
    have h2 := one hg.2.1 rfl rfl
    simp only [operandsFrom, operandAt]
    rw [operandsFrom_nil rest 2 (by intro j hj; simp [operandAt]; omega)]
    rw [show [a.units, b.units] = [a.units] ++ [b.units] from rfl, List.filter_append, h1, h2]
    simp
  | firstAndThird =>
    obtain ⟨a, ha, h⟩ := bind_eq_ok.1 h
    obtain ⟨b, hb, rfl⟩ := map_eq_ok.1 h
    obtain ⟨rest, rfl⟩ := item_zero ha
    cases rest with
    | nil => cases hb
    | cons c args =>
      obtain ⟨rest, rfl⟩ := item_zero (item_succ ▸ item_succ ▸ hb)
      have h1 := one hg.1 rfl rfl
      have h2 := one hg.2.2.1 rfl rfl
      simp only [operandsFrom, operandAt]
      rw [operandsFrom_nil rest 3 (by intro j hj; simp [operandAt]; omega)]
      rw [show [a.units, b.units] = [a.units] ++ [b.units] from rfl, List.filter_append, h1, h2]
      simp
  | secondAndThird =>
    obtain ⟨a, ha, h⟩ := bind_eq_ok.1 h
    obtain ⟨b, hb, rfl⟩ := map_eq_ok.1 h
    cases args with
    | nil => cases ha
    | cons c args =>
      obtain ⟨rest, rfl⟩ := item_zero (item_succ ▸ ha)
      obtain ⟨rest, rfl⟩ := item_zero (item_succ ▸ item_succ ▸ hb)
      have h1 := one hg.2.1 rfl rfl
      have h2 := one hg.2.2.1 rfl rfl
      simp only [operandsFrom, operandAt]
      rw [operandsFrom_nil rest 3 (by intro j hj; simp [operandAt]; omega)]
      rw [show [a.units, b.units] = [a.units] ++ [b.units] from rfl, List.filter_append, h1, h2]
      simp
  | firstNested => cases h

theorem common_eq {mode : Input} {args : List (Arg K)} {us : List UnitD} (hg : GoodArgs G v mode 0 args)
    (h : inputUnits args mode = .ok us) : (us.find? fun u => u.length ≠ 0).getD [] = commonUnit (operandsFrom mode 0 args) := by
  rw [commonUnit, find_first, find_first, inputUnits_operands hg h]

theorem operands_good {mode : Input} : ∀ (args : List (Arg K)) (i : Nat), GoodArgs G v mode i args →
    ∀ a ∈ operandsFrom mode i args, GoodArr G v a
  | [], _, _, a, ha => by simp [operandsFrom] at ha
  | b :: args, i, hg, a, ha => by
    rw [operandsFrom, List.mem_append] at ha
    rcases ha with ha | ha
    · split at ha
      · exact hg.1.1 a ha
      · simp at ha
    · exact operands_good args (i + 1) hg.2 a ha

theorem commonUnit_wf {l : List (Arr K)} (h : ∀ a ∈ l, GoodArr G v a) : Wf (commonUnit l) := by
  unfold commonUnit
  cases hf : (l.map (·.unit)).find? fun u => u.length ≠ 0 with
  | none => exact wf_nil
  | some u =>
    obtain ⟨a, ha, rfl⟩ := List.mem_map.1 (List.mem_of_find?_eq_some hf)
    exact (h a ha).wf

theorem commonUnit_nil {l : List (Arr K)} (h : commonUnit l = []) : ∀ a ∈ l, a.unit = [] := by
  intro a ha
  unfold commonUnit at h
  cases hf : (l.map (·.unit)).find? fun u => u.length ≠ 0 with
  | none =>
    have := List.find?_eq_none.1 hf a.unit (List.mem_map.2 ⟨a, ha, rfl⟩)
    simpa using this
  | some u =>
    rw [hf] at h
    have := List.find?_some hf
    simp only [Option.getD_some] at h
    simp [h] at this

theorem commonUnit_single {a : Arr K} : commonUnit [a] = a.unit := by
  unfold commonUnit
  by_cases h : a.unit = [] <;> simp [h]

/-- Either the arguments are left as they are and the units of the operands are absent or the common one, or they are
converted. -/
theorem inputs_amounts {n : Nat} {conv : Conv} {args args' : List (Arg K)} {raw : List (Raw K)} {us : List UnitD}
    (hg : GoodArgs G v conv.input 0 args) (hi : inputUnits args conv.input = .ok us)
    (h : convertInputs n G args (.unit (commonUnit (operandsFrom conv.input 0 args))) conv = .ok args') (ha : conv.action = .same)
    (hx : viewAll conv.input 0 args' = .ok raw) :
    scaleFrom (fun i => if operandAt conv.input i then value v (commonUnit (operandsFrom conv.input 0 args)) else 1) 0 raw =
      amountsFrom v (commonUnit (operandsFrom conv.input 0 args)) conv.input 0 args := by
  unfold convertInputs at h
  split at h
  · rename_i hc
    injection h with h
    subst h
    refine viewAll_amounts args 0 raw hg ?_ hx
    rcases hc with hc | hc | hc
    · exact absurd ha hc
    · rw [hc] at hg hi ⊢
      obtain ⟨a, hi', rfl⟩ := map_eq_ok.1 hi
      obtain ⟨rest, rfl⟩ := item_zero hi'
      have ho : operandsFrom .first 0 (a :: rest) = a.arrays := by
        simp only [operandsFrom, operandAt]
        rw [operandsFrom_nil rest 1 (by intro j hj; simp [operandAt]; omega)]
        simp
      rw [ho]
      have hs := hg.1.2
      simp only [operandAt, asSequence] at hs
      cases a with
      | arr a =>
        intro y hy
        simp only [Arg.arrays, List.mem_singleton] at hy
        rw [hy, Arg.arrays, commonUnit_single]
        exact Or.inr rfl
      | seq l => simp at hs
      | other n => simp [Arg.arrays]
    · rw [hc] at hg hi ⊢
      obtain ⟨a, hi', rfl⟩ := map_eq_ok.1 hi
      cases args with
      | nil => cases hi'
      | cons b args =>
        obtain ⟨rest, rfl⟩ := item_zero (item_succ ▸ hi')
        have ho : operandsFrom .second 0 (b :: a :: rest) = a.arrays := by
          simp only [operandsFrom, operandAt]
          rw [operandsFrom_nil rest 2 (by intro j hj; simp [operandAt]; omega)]
          simp
        rw [ho]
        have hs := hg.2.1.2
        simp only [operandAt, asSequence] at hs
        cases a with
        | arr a =>
          intro y hy
          simp only [Arg.arrays, List.mem_singleton] at hy
          rw [hy, Arg.arrays, commonUnit_single]
          exact Or.inr rfl
        | seq l => simp at hs
        | other n => simp [Arg.arrays]
  · dsimp only at h
    split at h
    · rename_i h0
      injection h with h
      subst h
      have h0 : commonUnit (operandsFrom conv.input 0 args) = [] := by simpa using h0
      exact viewAll_amounts args 0 raw hg (fun y hy => Or.inl (commonUnit_nil h0 y hy)) hx
    · rename_i h0
      exact convertAll_amounts (commonUnit_wf (operands_good args 0 hg)) (by simpa using h0) args args' 0 raw hg h hx

/-! ### Outputs -/

theorem amounts_output {self : Arr K} {x : List K} {u : UnitD} :
    Arr.amounts v [] ⟨true, x, u, self.derived⟩ = x.map (· * value v u) := by
  unfold Arr.amounts
  split
  · rename_i h
    simp only at h
    simp [h, amount]
  · rfl

theorem wrapAll_amounts {self : Arr K} {mode : Output} : ∀ (l : List (List K)) (us : List UnitD) (i : Nat) (d : Nat → K),
    l.length = us.length → (∀ (j : Nat) (u : UnitD), us[j]? = some u → d (i + j) = if isOutput mode (i + j) then value v u else 1) →
    (wrapAll self mode i l us).map (Arr.amounts v []) = scaleOutFrom d i l
  | [], us, i, d, _, _ => by
    cases us <;> rfl
  | x :: l, [], i, d, h, _ => by simp at h
  | x :: l, u :: us, i, d, h, hd => by
    simp only [wrapAll, List.map_cons, scaleOutFrom]
    rw [wrapAll_amounts l us (i + 1) d (by simpa using h) (fun j w hw => by
      have := hd (j + 1) w (by simpa using hw)
      rwa [show i + (j + 1) = i + 1 + j by omega] at this)]
    have h0 := hd 0 u rfl
    simp only [Nat.add_zero] at h0
    congr 1
    rw [h0]
    split
    · exact amounts_output
    · simp [Arr.amounts, amount]

theorem wrapAll_units {self : Arr K} {mode : Output} : ∀ (l : List (List K)) (us : List UnitD) (i : Nat) (a : Arr K),
    a ∈ wrapAll self mode i l us → a.isQ = true → a.unit ∈ us ∧ a.derived = self.derived
  | [], us, i, a, h, _ => by cases us <;> simp [wrapAll] at h
  | x :: l, [], i, a, h, _ => by simp [wrapAll] at h
  | x :: l, u :: us, i, a, h, hq => by
    rw [wrapAll, List.mem_cons] at h
    rcases h with h | h
    · split at h
      · rw [h]
        simp
      · rw [h] at hq
        simp at hq
    · obtain ⟨h1, h2⟩ := wrapAll_units l us (i + 1) a h hq
      exact ⟨List.mem_cons_of_mem _ h1, h2⟩

/-- The amounts of the outputs when they have a single unit. -/
theorem outputs_amounts {self : Arr K} {conv : Conv} {out : Out K} {u : UnitD} {r : Result K} (ho : conv.output ≠ .none)
    (h1 : conv.output = .default → ∃ x, out = .one x) (h : convertOutputs self out (.unit u) conv = .ok r) :
    r.amounts v = out.scale (fun i => if dimensioned conv.output i then value v u else 1) ∧
      ∀ a ∈ r.arrays, a.isQ = true → a.unit = u ∧ a.derived = self.derived := by
  have hd0 : dimensioned conv.output 0 = true := by cases conv.output <;> simp [dimensioned]
  cases out with
  | none => cases h
  | one x =>
    injection h with h
    subst h
    refine ⟨?_, by simp [Result.arrays]⟩
    simp only [Result.amounts, Out.scale, hd0, if_true]
    rw [amounts_output]
  | many l =>
    injection h with h
    subst h
    have hne : conv.output ≠ .default := fun hc => by
      obtain ⟨x, hx⟩ := h1 hc
      cases hx
    refine ⟨?_, fun a ha hq => ?_⟩
    · simp only [Result.amounts, Out.scale]
      rw [wrapAll_amounts]
      · simp
      · intro j w hw
        have hw : w = u := by
          obtain ⟨_, hw⟩ := List.getElem?_eq_some_iff.1 hw
          rw [← hw]
          simp
        rw [hw]
        have : isOutput conv.output (0 + j) = dimensioned conv.output (0 + j) := by
          cases hc : conv.output <;> simp_all [isOutput, dimensioned, beq_eq_decide]
        rw [this]
    · obtain ⟨hu, hd⟩ := wrapAll_units l _ 0 a ha hq
      exact ⟨List.eq_of_mem_replicate hu, hd⟩

/-! ### C116 -/

theorem arrayFunction_ok {n : Nat} {self : Arr K} {conv : Conv} {f : NpFunc K} {args : List (Arg K)} {r : Result K}
    (h : arrayFunction n G self conv f args = .ok r) : ∃ us, inputUnits args conv.input = .ok us ∧ ∃ units,
    outputUnits us conv.action = .ok units ∧ ∃ args', convertInputs n G args units conv = .ok args' ∧ ∃ raw,
    viewAll conv.input 0 args' = .ok raw ∧ ∃ out, f raw = .ok out ∧
    (if conv.output = .none then .ok .none else convertOutputs self out units conv) = (.ok r : Res (Result K)) := by
  obtain ⟨us, hi, h⟩ := bind_eq_ok.1 h
  obtain ⟨units, hu, h⟩ := bind_eq_ok.1 h
  obtain ⟨args', hc, h⟩ := bind_eq_ok.1 h
  obtain ⟨raw, hx, h⟩ := bind_eq_ok.1 h
  obtain ⟨out, hout, h⟩ := bind_eq_ok.1 h
  exact ⟨us, hi, units, hu, args', hc, raw, hx, out, hout, h⟩

/-- C116: a homogeneous function whose operands are converted to a common unit returns the function of the amounts, in the
unit of the first operand that has one; the operands without unit are in this unit. -/
theorem C116_same {n : Nat} {self : Arr K} {conv : Conv} {f : NpFunc K} {args : List (Arg K)} {r : Result K}
    (hv : ∀ s, 0 < v s) (hg : GoodArgs G v conv.input 0 args) (ha : conv.action = .same) (ho : conv.output ≠ .none)
    (h1 : conv.output = .default → Single f) (hf : Homogeneous conv.input conv.output f)
    (h : arrayFunction n G self conv f args = .ok r) :
    f (amountsFrom v (commonUnit (operandsFrom conv.input 0 args)) conv.input 0 args) = .ok (r.amounts v) ∧
      ∀ a ∈ r.arrays, a.isQ = true → a.unit = commonUnit (operandsFrom conv.input 0 args) ∧ a.derived = self.derived := by
  replace h := arrayFunction_ok h
  obtain ⟨us, hi, units, hu, args', hc, raw, hx, out, hout, h⟩ := h
  rw [if_neg ho] at h
  rw [ha, outputUnits] at hu
  injection hu with hu
  rw [common_eq hg hi] at hu
  subst hu
  obtain ⟨e1, e2⟩ := outputs_amounts (v := v) ho (fun hd => h1 hd raw out hout) h
  refine ⟨?_, e2⟩
  rw [← inputs_amounts hg hi hc ha hx, hf _ (value_pos hv _), hout, e1]
  rfl

/-! Products -/

/-- The function is homogeneous in each operand. -/
def MultiHomogeneous (mode : Input) (f : NpFunc K) : Prop :=
  ∀ c : Nat → K, (∀ i, 0 < c i) → (∀ i, operandAt mode i = false → c i = 1) → ∀ raw,
    f (scaleFrom c 0 raw) = (f raw).map (Out.scale fun _ => ∏ i ∈ Finset.range raw.length, c i)

/-- The values of the units of the arguments. -/
def unitValue (v : Sym → K) (mode : Input) (args : List (Arg K)) (i : Nat) : K :=
  if operandAt mode i then (match args[i]? with | some a => value v a.units | none => 1) else 1

theorem viewAll_units {mode : Input} (hm : asSequence mode = false) : ∀ (args : List (Arg K)) (i : Nat) (raw : List (Raw K)) (c : Nat → K),
    GoodArgs G v mode i args → (∀ (j : Nat) (a : Arg K), args[j]? = some a → c (i + j) = if operandAt mode (i + j) then value v a.units else 1) →
    viewAll mode i args = .ok raw → scaleFrom c i raw = amountsFrom v [] mode i args ∧ raw.length = args.length
  | [], i, raw, c, _, _, hx => by
    injection hx with hx
    subst hx
    exact ⟨rfl, rfl⟩
  | a :: args, i, raw, c, hg, hc, hx => by
    obtain ⟨x, hxa, hx⟩ := bind_eq_ok.1 hx
    obtain ⟨xs, hxs, rfl⟩ := map_eq_ok.1 hx
    obtain ⟨e1, e2⟩ := viewAll_units hm args (i + 1) xs c hg.2 (fun j b hb => by
      have := hc (j + 1) b (by simpa using hb)
      rwa [show i + (j + 1) = i + 1 + j by omega] at this) hxs
    refine ⟨?_, by simp [e2]⟩
    have h0 := hc 0 a rfl
    simp only [Nat.add_zero] at h0
    simp only [scaleFrom, amountsFrom, e1, h0, ite_self]
    congr 1
    cases ho : operandAt mode i with
    | false =>
      have hs := hg.1.2
      simp only [ho, Bool.false_eq_true, if_false] at hs ⊢
      rw [scale_one, view_plain ho hs hxa]
    | true =>
      have hs := hg.1.2
      simp only [ho, hm, if_true, Bool.false_eq_true, if_false] at hs ⊢
      rw [viewArg.eq_def, isSequence_eq, ho, hm] at hxa
      simp only [Bool.and_false, Bool.false_eq_true, if_false] at hxa
      cases a with
      | arr a =>
        injection hxa with hxa
        have ha := hg.1.1 a (by simp [Arg.arrays])
        rw [← hxa, Raw.scale, Arg.amounts, Arg.units, arr_units ha]
        congr 1
        by_cases h0 : a.unit = []
        · simp [Arr.amounts, h0, amount]
        · simp [Arr.amounts, h0, amount]
      | seq l => exact absurd rfl (hs l)
      | other n =>
        injection hxa with hxa
        rw [← hxa]
        rfl

theorem arg_units_wf {mode : Input} {i : Nat} {a : Arg K} (hg : GoodArg G v mode i a) : Wf a.units := by
  cases a with
  | arr a =>
    have := hg.1 a (by simp [Arg.arrays])
    rw [Arg.units, arr_units this]
    exact this.wf
  | seq l => exact wf_nil
  | other n => exact wf_nil

theorem value_foldl_mul (hv : ∀ s, 0 < v s) : ∀ (us : List UnitD) (u : UnitD), Wf u →
    value v (us.foldl mulUnit u) = value v u * (us.map (value v)).prod
  | [], u, _ => by simp
  | w :: us, u, hu => by
    rw [List.foldl_cons, value_foldl_mul hv us _ (mulUnit_wf hu w), value_mulUnit hv hu, List.map_cons, List.prod_cons, mul_assoc]

theorem goodArgs_get {mode : Input} : ∀ (args : List (Arg K)) (i j : Nat) (a : Arg K), GoodArgs G v mode i args → args[j]? = some a →
    GoodArg G v mode (i + j) a
  | [], _, _, _, _, h => by simp at h
  | b :: args, i, 0, a, hg, h => by
    simp only [List.getElem?_cons_zero, Option.some.injEq] at h
    subst h
    exact hg.1
  | b :: args, i, j + 1, a, hg, h => by
    have := goodArgs_get args (i + 1) j a hg.2 (by simpa using h)
    rwa [show i + 1 + j = i + (j + 1) by omega] at this

theorem prod_map_range (l : List (Arg K)) (g : Arg K → K) (c : Nat → K) (h : ∀ (i : Nat) (a : Arg K), l[i]? = some a → c i = g a) :
    ∏ i ∈ Finset.range l.length, c i = (l.map g).prod := by
  induction l generalizing c with
  | nil => rfl
  | cons a l ih =>
    rw [List.length_cons, Finset.prod_range_succ', List.map_cons, List.prod_cons, h 0 a rfl, mul_comm,
      ih (fun i => c (i + 1)) fun i b hb => h (i + 1) b (by simpa using hb)]

/-- The value of the product of the units. -/
theorem value_prod (hv : ∀ s, 0 < v s) {mode : Input} (hm : asSequence mode = false) {args : List (Arg K)} {us : List UnitD} {u : UnitD}
    (hg : GoodArgs G v mode 0 args) (h : inputUnits args mode = .ok us) (hu : outputUnits us .prod = .ok (.unit u)) :
    value v u = ∏ i ∈ Finset.range args.length, unitValue v mode args i := by
  have hw : ∀ w ∈ us, Wf w := by
    have hget : ∀ {i : Nat} {a : Arg K}, item args i = .ok a → Wf a.units := by
      intro i a ha
      unfold item at ha
      cases he : args[i]? with
      | none => rw [he] at ha; cases ha
      | some b =>
        rw [he] at ha
        injection ha with ha
        subst ha
        exact arg_units_wf (goodArgs_get args 0 i b hg he)
    have hall : ∀ a ∈ args, Wf a.units := by
      intro a ha
      obtain ⟨i, hi⟩ := List.mem_iff_getElem?.1 ha
      exact arg_units_wf (goodArgs_get args 0 i a hg hi)
    cases mode with
    | first | second =>
      obtain ⟨a, ha, rfl⟩ := map_eq_ok.1 h
      simpa using hget ha
    | sequence =>
      injection h with h
      subst h
      intro w hw
      obtain ⟨a, ha, rfl⟩ := List.mem_map.1 hw
      exact hall a ha
    | sequenceExceptFirst =>
      injection h with h
      subst h
      intro w hw
      obtain ⟨a, ha, rfl⟩ := List.mem_map.1 hw
      exact hall a (List.mem_of_mem_drop ha)
    | firstAndSecond | firstAndThird | secondAndThird =>
      obtain ⟨a, ha, h⟩ := bind_eq_ok.1 h
      obtain ⟨b, hb, rfl⟩ := map_eq_ok.1 h
      simpa using ⟨hget ha, hget hb⟩
    | firstSequence | secondSequence => simp [asSequence] at hm
    | firstNested => cases h
  have hval : value v u = (us.map (value v)).prod := by
    cases us with
    | nil => cases hu
    | cons w us =>
      injection hu with hu
      injection hu with hu
      rw [← hu, value_foldl_mul hv us w (hw w (by simp)), List.map_cons, List.prod_cons]
  rw [hval]
  have hone : ∀ (rest : List (Arg K)) (k : Nat), (∀ j, k ≤ j → operandAt mode j = false) →
      ∏ i ∈ Finset.range rest.length, unitValue v mode args (i + k) = 1 := by
    intro rest k hk
    refine Finset.prod_eq_one fun i _ => ?_
    rw [unitValue, hk (i + k) (by omega)]
    rfl
  cases mode with
  | first =>
    obtain ⟨a, ha, rfl⟩ := map_eq_ok.1 h
    obtain ⟨rest, rfl⟩ := item_zero ha
    rw [List.length_cons, Finset.prod_range_succ', hone rest 1 (by intro j hj; simp [operandAt]; omega)]
    simp [unitValue, operandAt]
  | second =>
    obtain ⟨a, ha, rfl⟩ := map_eq_ok.1 h
    cases args with
    | nil => cases ha
    | cons b args =>
      obtain ⟨rest, rfl⟩ := item_zero (item_succ ▸ ha)
      rw [List.length_cons, List.length_cons, Finset.prod_range_succ', Finset.prod_range_succ',
        hone rest 2 (by intro j hj; simp [operandAt]; omega)]
      simp [unitValue, operandAt]
  | sequence =>
    injection h with h
    subst h
    rw [List.map_map, prod_map_range args (value v ∘ Arg.units)]
    intro i a ha
    simp [unitValue, operandAt, ha]
  | sequenceExceptFirst =>
    injection h with h
    subst h
    cases args with
    | nil => rfl
    | cons b args =>
      rw [List.length_cons, Finset.prod_range_succ', List.drop_succ_cons, List.drop_zero, List.map_map,
        prod_map_range args (value v ∘ Arg.units) (fun i => unitValue v .sequenceExceptFirst (b :: args) (i + 1))]
      · simp [unitValue, operandAt]
      · intro i a ha
        simp [unitValue, operandAt, ha]
  | firstAndSecond =>
    obtain ⟨a, ha, h⟩ := bind_eq_ok.1 h
    obtain ⟨b, hb, rfl⟩ := map_eq_ok.1 h
    obtain ⟨rest, rfl⟩ := item_zero ha
    obtain ⟨rest, rfl⟩ := item_zero (item_succ ▸ hb)
    rw [List.length_cons, List.length_cons, Finset.prod_range_succ', Finset.prod_range_succ',
      hone rest 2 (by intro j hj; simp [operandAt]; omega)]
    simp [unitValue, operandAt, mul_comm]
  | firstAndThird =>
    obtain ⟨a, ha, h⟩ := bind_eq_ok.1 h
    obtain ⟨b, hb, rfl⟩ := map_eq_ok.1 h
    obtain ⟨rest, rfl⟩ := item_zero ha
    cases rest with
    | nil => cases hb
    | cons c args =>
      obtain ⟨rest, rfl⟩ := item_zero (item_succ ▸ item_succ ▸ hb)
      rw [List.length_cons, List.length_cons, List.length_cons, Finset.prod_range_succ', Finset.prod_range_succ',
        Finset.prod_range_succ', hone rest 3 (by intro j hj; simp [operandAt]; omega)]
      simp [unitValue, operandAt, mul_comm]
  | secondAndThird =>
    obtain ⟨a, ha, h⟩ := bind_eq_ok.1 h
    obtain ⟨b, hb, rfl⟩ := map_eq_ok.1 h
    cases args with
    | nil => cases ha
    | cons c args =>
      obtain ⟨rest, rfl⟩ := item_zero (item_succ ▸ ha)
      obtain ⟨rest, rfl⟩ := item_zero (item_succ ▸ item_succ ▸ hb)
      rw [List.length_cons, List.length_cons, List.length_cons, Finset.prod_range_succ', Finset.prod_range_succ',
        Finset.prod_range_succ', hone rest 3 (by intro j hj; simp [operandAt]; omega)]
      simp [unitValue, operandAt, mul_comm]
  | firstSequence | secondSequence => simp [asSequence] at hm
  | firstNested => cases h

/-- C116: a function that multiplies its operands returns the function of the amounts. -/
theorem C116_prod {n : Nat} {self : Arr K} {conv : Conv} {f : NpFunc K} {args : List (Arg K)} {r : Result K}
    (hv : ∀ s, 0 < v s) (hm : asSequence conv.input = false) (hg : GoodArgs G v conv.input 0 args) (ha : conv.action = .prod)
    (ho : conv.output = .default) (h1 : Single f) (hf : MultiHomogeneous conv.input f)
    (h : arrayFunction n G self conv f args = .ok r) :
    f (amountsFrom v [] conv.input 0 args) = .ok (r.amounts v) := by
  replace h := arrayFunction_ok h
  obtain ⟨us, hi, units, hu, args', hc, raw, hx, out, hout, h⟩ := h
  rw [if_neg (by rw [ho]; simp)] at h
  rw [ha] at hu
  obtain ⟨u, rfl⟩ : ∃ u, units = .unit u := by
    cases us with
    | nil => cases hu
    | cons w us =>
      injection hu with hu
      exact ⟨_, hu.symm⟩
  have hargs : args' = args := by
    rw [convertInputs.eq_def, if_pos (Or.inl (by rw [ha]; simp))] at hc
    injection hc with hc
    exact hc.symm
  subst hargs
  obtain ⟨e1, -⟩ := outputs_amounts (v := v) (by rw [ho]; simp) (fun _ => h1 raw out hout) h
  obtain ⟨e3, e4⟩ := viewAll_units hm args' 0 raw (unitValue v conv.input args') hg (fun j a hj => by simp [unitValue, hj]) hx
  have hpos : ∀ i, 0 < unitValue v conv.input args' i := by
    intro i
    unfold unitValue
    split
    · split
      · exact value_pos hv _
      · exact one_pos
    · exact one_pos
  rw [← e3, hf _ hpos (fun i hi => by simp [unitValue, hi]), hout, e1, e4, ← value_prod hv hm hg hi hu, ho]
  rfl

/-- C116: a function of degree two of its first argument, such as the variance, returns the function of the amounts. -/
theorem C116_square {n : Nat} {self : Arr K} {conv : Conv} {f : NpFunc K} {a : Arr K} {args : List (Arg K)} {r : Result K}
    (hv : ∀ s, 0 < v s) (hm : conv.input = .first) (hg : GoodArgs G v .first 0 (.arr a :: args)) (ha : conv.action = .square)
    (ho : conv.output = .default) (h1 : Single f)
    (hf : ∀ c : K, 0 < c → ∀ raw, f (scaleFrom (fun i => if i = 0 then c else 1) 0 raw) = (f raw).map (Out.scale fun _ => c ^ 2))
    (h : arrayFunction n G self conv f (.arr a :: args) = .ok r) :
    f (amountsFrom v [] .first 0 (.arr a :: args)) = .ok (r.amounts v) ∧ ∀ b ∈ r.arrays, ∀ s, expo b.unit s = 2 * expo a.unit s := by
  replace h := arrayFunction_ok h
  obtain ⟨us, hi, units, hu, args', hc, raw, hx, out, hout, h⟩ := h
  rw [if_neg (by rw [ho]; simp)] at h
  have hargs : args' = .arr a :: args := by
    rw [convertInputs.eq_def, if_pos (Or.inl (by rw [ha]; simp))] at hc
    injection hc with hc
    exact hc.symm
  subst hargs
  have haa := hg.1.1 a (by simp [Arg.arrays])
  rw [hm] at hi hx
  injection hi with hi
  subst hi
  rw [ha, outputUnits] at hu
  injection hu with hu
  subst hu
  obtain ⟨x, rfl⟩ := h1 raw out hout
  injection h with h
  subst h
  obtain ⟨e3, e4⟩ := viewAll_units (mode := .first) rfl (.arr a :: args) 0 raw (fun i => if i = 0 then value v a.unit else 1) hg
    (fun j b hj => by
      cases j with
      | zero =>
        simp only [List.getElem?_cons_zero, Option.some.injEq] at hj
        subst hj
        simp [operandAt, Arg.units, arr_units haa]
      | succ j => simp [operandAt]) hx
  have e5 : Arg.units (.arr a) = a.unit := by rw [Arg.units, arr_units haa]
  refine ⟨?_, ?_⟩
  · rw [← e3, hf _ (value_pos hv a.unit), hout]
    simp only [Result.amounts, amounts_output, e5]
    rw [value_powUnit hv, show (2 : ℚ) = ((2 : ℕ) : ℚ) by norm_num]
    have hp : rpow (value v a.unit) ((2 : ℕ) : ℚ) = value v a.unit ^ 2 := by
      have h1 := rpow_add (value v a.unit) 1 1 (value_pos hv _)
      rw [rpow_one _ (value_pos hv _)] at h1
      rw [show ((2 : ℕ) : ℚ) = 1 + 1 by norm_num, h1, sq]
    rw [hp]
    rfl
  · intro b hb s
    simp only [Result.arrays, List.mem_singleton] at hb
    subst hb
    rw [e5, powUnit_expo, mul_comm]

/-- C116: `broadcast_arrays` keeps the unit of each array. -/
theorem C116_each {n : Nat} {self : Arr K} {conv : Conv} {f : NpFunc K} {args : List (Arg K)} {r : Result K}
    (hm : conv.input = .sequence) (ho : conv.output = .sequence) (ha : conv.action = .each)
    (hg : GoodArgs G v .sequence 0 args) (hl : ∀ raw out, f raw = .ok out → ∃ l, out = .many l ∧ l.length = raw.length)
    (hf : ∀ c : Nat → K, ∀ raw, f (scaleFrom c 0 raw) = (f raw).map (Out.scale c))
    (h : arrayFunction n G self conv f args = .ok r) :
    f (amountsFrom v [] .sequence 0 args) = .ok (r.amounts v) ∧ r.arrays.map (·.unit) = args.map Arg.units := by
  replace h := arrayFunction_ok h
  obtain ⟨us, hi, units, hu, args', hc, raw, hx, out, hout, h⟩ := h
  rw [if_neg (by rw [ho]; simp)] at h
  have hargs : args' = args := by
    rw [convertInputs.eq_def, if_pos (Or.inl (by rw [ha]; simp))] at hc
    injection hc with hc
    exact hc.symm
  subst hargs
  rw [hm] at hi hx
  injection hi with hi
  subst hi
  rw [ha] at hu
  injection hu with hu
  subst hu
  obtain ⟨l, rfl, hlen⟩ := hl raw out hout
  injection h with h
  subst h
  obtain ⟨e3, e4⟩ := viewAll_units (mode := .sequence) rfl args' 0 raw (unitValue v .sequence args') hg
    (fun j b hj => by simp [unitValue, hj]) hx
  refine ⟨?_, ?_⟩
  · rw [← e3, hf, hout]
    simp only [Result.amounts]
    rw [wrapAll_amounts l (args'.map Arg.units) 0 (unitValue v .sequence args') (by simp [hlen, e4])]
    · rfl
    · intro j u hu
      obtain ⟨a, ha', rfl⟩ := by simpa using hu
      simp [unitValue, operandAt, ha', ho, isOutput]
  · have : ∀ (l : List (List K)) (us : List UnitD) (i : Nat), l.length = us.length →
        (wrapAll self conv.output i l us).map (·.unit) = us := by
      intro l
      induction l with
      | nil => intro us i h; cases us with
        | nil => rfl
        | cons u us => simp at h
      | cons x l ih =>
        intro us i h
        cases us with
        | nil => simp at h
        | cons u us =>
          simp only [wrapAll, List.map_cons]
          rw [ih us (i + 1) (by simpa using h), if_pos (by simp [isOutput, ho])]
    exact this l _ 0 (by simp [hlen, e4])

end
end Verif.Units
