import Verif.Units.Broadcast
import Verif.Units.Convert
import Verif.Py.Lemmas
import Mathlib.Data.List.Infix
import Mathlib.Algebra.BigOperators.Group.List.Basic
import Mathlib.Tactic

/-!
C117: conversions with broadcastable derived units.
-/
namespace Verif.Units
open Verif.Py

variable {K : Type}

/-! ### Specification -/

/-- The indices of an array. -/
def Inside (s i : List Nat) : Prop := List.Forall₂ (· < ·) i s

/-- The element of a derived unit that applies to an element of the quantity: a leftward derived unit is aligned with the last dimensions, a
rightward one with the first dimensions. -/
def elementFor (side : Side) (v : NArr K) (i : List Nat) : K :=
  match side with
  | .left => v.get (i.drop (i.length - v.shape.length))
  | .right => v.get (i.take v.shape.length)

/-- A derived unit that can be used for arrays of shape `s`: without suffix, it is a scalar; the dimensions of a leftward derived unit are the last ones of
the array, those of a rightward derived unit are the first ones. -/
def FitsShape (s : List Nat) (bracket : Option Side) (t : List Nat) : Prop :=
  match bracket with
  | none => t = []
  | some .left => t ≠ [] ∧ t <:+ s
  | some .right => t ≠ [] ∧ t <+: s

/-- The derived units are quantities that can be used for arrays of shape `s`. -/
def FitsAll (s : List Nat) (D : List (BEntry K)) : Prop :=
  ∀ e ∈ D, ∃ v u l, e.val = .quantity v u l ∧ FitsShape s e.bracket v.shape

section
variable [Field K] [RatPow K]

/-- The value of a symbol for an element of a quantity, given the values of the base symbols. -/
def symbolAt (w : Sym → K) (D : List (BEntry K)) (i : List Nat) (k : Sym) : K :=
  match D.find? fun e => e.name = k with
  | some ⟨_, b, .quantity v u _⟩ => elementFor (b.getD .left) v i * value w u
  | _ => w k

/-- The physical amount of an element of a quantity, given the values of the base symbols. -/
def amountAt (w : Sym → K) (q : BQ K) (i : List Nat) : K := q.mag.get i * value (symbolAt w q.derived i) q.unit

/-- The derived units are positive. -/
def PositiveAll [LinearOrder K] (D : List (BEntry K)) : Prop :=
  ∀ e ∈ D, ∀ v u l, e.val = .quantity v u l → ∀ i, Inside v.shape i → 0 < v.get i

end

/-! ### Broadcast of arrays aligned on the last dimensions -/

/-- The element of an array whose dimensions are the last ones of `i`. -/
def NArr.last (a : NArr K) (i : List Nat) : K := a.get (i.drop (i.length - a.shape.length))

theorem Inside.length {s i : List Nat} (h : Inside s i) : i.length = s.length := List.Forall₂.length_eq h

theorem Inside.drop {s i : List Nat} (h : Inside s i) (n : Nat) : Inside (s.drop n) (i.drop n) := List.forall₂_drop n h

theorem Inside.take {s i : List Nat} (h : Inside s i) (n : Nat) : Inside (s.take n) (i.take n) := List.forall₂_take n h

theorem Inside.reverse {s i : List Nat} (h : Inside s i) : Inside s.reverse i.reverse := List.rel_reverse h

theorem fit_inside : ∀ {s i : List Nat}, Inside s i → fit s i = i
  | [], _, h => by cases h; rfl
  | d :: s, _, h => by
    cases h with
    | cons h1 h2 =>
      rename_i x i
      have := fit_inside h2
      unfold fit at this ⊢
      rw [List.zipWith_cons_cons, this]
      congr 1
      split <;> omega

theorem suffix_drop {s t : List Nat} (h : s <:+ t) : t.drop (t.length - s.length) = s := by
  obtain ⟨r, rfl⟩ := h
  simp

theorem Inside.last {s t i : List Nat} (h : Inside t i) (hs : s <:+ t) : Inside s (i.drop (i.length - s.length)) := by
  have := h.drop (i.length - s.length)
  rwa [show i.length - s.length = t.length - s.length by rw [h.length], suffix_drop hs, ← h.length] at this

theorem bshape_prefix : ∀ {s t : List Nat}, s <+: t → bshapeRev s t = .ok t ∧ bshapeRev t s = .ok t
  | [], t, _ => ⟨by unfold bshapeRev; rfl, by cases t <;> (unfold bshapeRev; rfl)⟩
  | a :: s, [], h => by simp at h
  | a :: s, b :: t, h => by
    obtain ⟨rfl, h'⟩ := List.cons_prefix_cons.1 h
    obtain ⟨h1, h2⟩ := bshape_prefix h'
    unfold bshapeRev
    simp [h1, h2, Except.bind, Except.map]

/-- Broadcast of two arrays whose dimensions are the last ones of a shape. -/
theorem bop_suffix (f : K → K → K) {a b : NArr K} {s : List Nat} (ha : a.shape <:+ s) (hb : b.shape <:+ s) :
    ∃ c, bop f a b = .ok c ∧ (c.shape = a.shape ∧ b.shape <:+ a.shape ∨ c.shape = b.shape ∧ a.shape <:+ b.shape) ∧
      ∀ i, Inside s i → c.last i = f (a.last i) (b.last i) := by
  have key : ∀ {a b : NArr K} {t : List Nat} {i : List Nat}, a.shape <:+ t → b.shape <:+ t → t <:+ s → Inside s i →
      f (a.at (i.drop (i.length - t.length))) (b.at (i.drop (i.length - t.length))) = f (a.last i) (b.last i) := by
    intro a b t i ha hb ht hi
    have hl := hi.last ht
    have hat : ∀ {a : NArr K}, a.shape <:+ t → a.at (i.drop (i.length - t.length)) = a.last i := by
      intro a ha
      unfold NArr.at NArr.last
      rw [fit_inside (hl.last ha), List.drop_drop, List.length_drop]
      have h1 := ha.length_le
      have h2 := ht.length_le
      have h3 := hi.length
      congr 2
      omega
    rw [hat ha, hat hb]
  rcases List.suffix_or_suffix_of_suffix ha hb with h | h
  · refine ⟨⟨b.shape, fun i => f (a.at i) (b.at i)⟩, ?_, Or.inr ⟨rfl, h⟩, fun i hi => ?_⟩
    · unfold bop
      rw [(bshape_prefix (List.reverse_prefix.2 h)).1]
      simp [Except.map]
    · exact key h (List.suffix_refl _) hb hi
  · refine ⟨⟨a.shape, fun i => f (a.at i) (b.at i)⟩, ?_, Or.inl ⟨rfl, h⟩, fun i hi => ?_⟩
    · unfold bop
      rw [(bshape_prefix (List.reverse_prefix.2 h)).2]
      simp [Except.map]
    · exact key (List.suffix_refl _) h ha hi

/-- The element of an array whose dimensions are the first ones of `i`. -/
def NArr.first (a : NArr K) (i : List Nat) : K := a.get (i.take a.shape.length)

theorem last_T (a : NArr K) (i : List Nat) : a.T.last i.reverse = a.first i := by
  unfold NArr.last NArr.first NArr.T
  simp only [List.length_reverse]
  congr 1
  rw [List.drop_reverse, List.reverse_reverse]
  by_cases h : a.shape.length ≤ i.length
  · congr 1
    omega
  · rw [List.take_of_length_le (by omega), List.take_of_length_le (by omega)]

theorem first_T (a : NArr K) (i : List Nat) : a.T.first i.reverse = a.last i := by
  unfold NArr.last NArr.first NArr.T
  simp only [List.length_reverse]
  congr 1
  rw [List.take_reverse, List.reverse_reverse]

/-- Broadcast of two arrays whose dimensions are the first ones of a shape. -/
theorem bop_prefix (f : K → K → K) {a b : NArr K} {s : List Nat} (ha : a.shape <+: s) (hb : b.shape <+: s) :
    ∃ c, bop f a.T b.T = .ok c ∧ (c.T.shape = a.shape ∧ b.shape <+: a.shape ∨ c.T.shape = b.shape ∧ a.shape <+: b.shape) ∧
      ∀ i, Inside s i → c.T.first i = f (a.first i) (b.first i) := by
  obtain ⟨c, h1, h2, h3⟩ := bop_suffix f (a := a.T) (b := b.T) (s := s.reverse) (List.reverse_suffix.2 ha) (List.reverse_suffix.2 hb)
  refine ⟨c, h1, ?_, fun i hi => ?_⟩
  · rcases h2 with ⟨h2, h4⟩ | ⟨h2, h4⟩
    · refine Or.inl ⟨?_, List.reverse_suffix.1 h4⟩
      simp [NArr.T, h2]
    · refine Or.inr ⟨?_, List.reverse_suffix.1 h4⟩
      simp [NArr.T, h2]
  · have := h3 i.reverse hi.reverse
    rw [last_T, last_T] at this
    rw [← this, ← first_T, List.reverse_reverse]

/-! ### Conversion to base units -/

theorem last_full {a : NArr K} {i : List Nat} (h : Inside a.shape i) : a.last i = a.get i := by
  unfold NArr.last
  rw [h.length, Nat.sub_self, List.drop_zero]

theorem first_full {a : NArr K} {i : List Nat} (h : Inside a.shape i) : a.first i = a.get i := by
  unfold NArr.first
  rw [List.take_of_length_le (by rw [h.length])]

theorem elementFor_inside {s : List Nat} {b : Option Side} {v : NArr K} (h : FitsShape s b v.shape) {i : List Nat} (hi : Inside s i) :
    ∃ j, Inside v.shape j ∧ elementFor (b.getD .left) v i = v.get j := by
  have left : v.shape <:+ s → ∃ j, Inside v.shape j ∧ elementFor .left v i = v.get j := fun hs => ⟨_, hi.last hs, rfl⟩
  match b, h with
  | none, h => exact left (by rw [show v.shape = [] from h]; exact List.nil_suffix)
  | some .left, h => exact left h.2
  | some .right, h =>
    refine ⟨_, ?_, rfl⟩
    have := hi.take v.shape.length
    rwa [← List.prefix_iff_eq_take.1 h.2] at this

section
variable [Field K] [LinearOrder K] [IsStrictOrderedRing K] [LawfulRatPow K]
open RatPow LawfulRatPow

theorem powElem_eq (x : ℚ) {y : K} (hy : 0 < y) : powElem x y = rpow y x := by
  unfold powElem
  split
  · rename_i h
    rw [h, rpow_one y hy]
  · split
    · rename_i h
      rw [h, rpow_neg y 1 hy, rpow_one y hy, one_div]
    · rfl

theorem value_powFactor {w : Sym → K} (hw : ∀ s, 0 < w s) (x : ℚ) (u : UnitD) : value w (powFactor x u) = rpow (value w u) x := by
  have hp := value_pos hw u
  unfold powFactor
  split
  · rename_i h
    rw [h, rpow_one _ hp]
  · split
    · rename_i h
      rw [h, rpow_neg _ 1 hp, rpow_one _ hp, value_divUnit hw wf_nil]
      simp [value]
    · exact value_powUnit hw u x

/-- The step of the loop. -/
def siStepB (D : List (BEntry K)) (f : Factors K) (p : Sym × ℚ) : Res (Factors K) :=
  (factorOf D p.1 p.2).bind fun r => match r with
      | none => .ok { f with slowUnit := mulInplace f.slowUnit p.1 p.2 }
      | some (v, w, .left) => (bop (· * ·) f.slow v).map fun s => { f with slow := s, slowUnit := mulUnit f.slowUnit w }
      | some (v, w, .right) => (bop (· * ·) f.fast.T v.T).map fun s => { f with fast := s.T, fastUnit := mulUnit f.fastUnit w }

/-- The factors found so far, for an element. -/
def Factors.total (w : Sym → K) (f : Factors K) (i : List Nat) : K :=
  f.slow.last i * value w f.slowUnit * (f.fast.first i * value w f.fastUnit)

/-- What the loop preserves. -/
structure Factors.Good (s : List Nat) (f : Factors K) : Prop where
  slow : f.slow.shape <:+ s
  fast : f.fast.shape <+: s
  slowUnit : Wf f.slowUnit
  fastUnit : Wf f.fastUnit

variable {w : Sym → K}

theorem siStepB_spec (hw : ∀ s, 0 < w s) {s : List Nat} {D : List (BEntry K)} (hD : FitsAll s D) (hp : PositiveAll D) {f : Factors K} (hf : f.Good s)
    (p : Sym × ℚ) : ∃ g, siStepB D f p = .ok g ∧ g.Good s ∧
      ∀ i, Inside s i → g.total w i = f.total w i * rpow (symbolAt w D i p.1) p.2 := by
  obtain ⟨h1, h2, h3, h4⟩ := hf
  unfold siStepB factorOf symbolAt checkIn
  cases hc : D.find? fun e => e.name = p.1 with
  | none =>
    refine ⟨_, rfl, ⟨h1, h2, mulInplace_wf h3 _ _, h4⟩, fun i _ => ?_⟩
    simp only [Factors.total, value_mulInplace hw h3]
    ring
  | some e =>
    obtain ⟨name, b, val⟩ := e
    obtain ⟨v, u, l, hv, hs⟩ := hD _ (List.mem_of_find?_eq_some hc)
    have hpos := hp _ (List.mem_of_find?_eq_some hc) v u l hv
    dsimp only at hv hs
    subst hv
    dsimp only
    have hval : ∀ i, Inside s i → rpow (elementFor (b.getD .left) v i * value w u) p.2 =
        powElem p.2 (elementFor (b.getD .left) v i) * value w (powFactor p.2 u) := by
      intro i hi
      obtain ⟨j, hj, e⟩ := elementFor_inside hs hi
      have hj' := hpos j hj
      rw [e, mul_rpow _ _ _ hj' (value_pos hw u), powElem_eq _ hj', value_powFactor hw]
    have left : v.shape <:+ s → b.getD .left = .left → ∃ g, ((bop (· * ·) f.slow (v.map (powElem p.2))).map fun t =>
          ({ f with slow := t, slowUnit := mulUnit f.slowUnit (powFactor p.2 u) } : Factors K)) = .ok g ∧ g.Good s ∧
          ∀ i, Inside s i → g.total w i = f.total w i * rpow (elementFor (b.getD .left) v i * value w u) p.2 := by
      intro hv hb
      obtain ⟨c, e1, e2, e3⟩ := bop_suffix (· * ·) (b := v.map (powElem p.2)) h1 hv
      rw [e1]
      refine ⟨_, rfl, ⟨?_, h2, mulUnit_wf h3 _, h4⟩, fun i hi => ?_⟩
      · rcases e2 with ⟨e2, -⟩ | ⟨e2, -⟩
        · dsimp only; rw [e2]; exact h1
        · dsimp only; rw [e2]; exact hv
      · rw [hval i hi, hb]
        simp only [Factors.total, value_mulUnit hw h3]
        rw [e3 i hi]
        simp only [elementFor, NArr.last, NArr.map]
        ring
    match b, hs with
    | none, hs => exact left (by rw [show v.shape = [] from hs]; exact List.nil_suffix) rfl
    | some .left, hs => exact left hs.2 rfl
    | some .right, hs =>
      have hv := hs.2
      obtain ⟨c, e1, e2, e3⟩ := bop_prefix (· * ·) (b := v.map (powElem p.2)) h2 hv
      simp only [Except.bind, Option.getD_some] at hval ⊢
      rw [e1]
      refine ⟨_, rfl, ⟨h1, ?_, h3, mulUnit_wf h4 _⟩, fun i hi => ?_⟩
      · rcases e2 with ⟨e2, -⟩ | ⟨e2, -⟩
        · dsimp only; rw [e2]; exact h2
        · dsimp only; rw [e2]; exact hv
      · rw [hval i hi]
        simp only [Factors.total, value_mulUnit hw h4]
        rw [e3 i hi]
        simp only [elementFor, NArr.first, NArr.map]
        ring

theorem siFoldB_spec (hw : ∀ s, 0 < w s) {s : List Nat} {D : List (BEntry K)} (hD : FitsAll s D) (hp : PositiveAll D) :
    ∀ (u : UnitD) (f : Factors K), f.Good s → ∃ g, u.foldlM (siStepB D) f = .ok g ∧ g.Good s ∧
      ∀ i, Inside s i → g.total w i = f.total w i * value (symbolAt w D i) u
  | [], f, hf => ⟨f, rfl, hf, fun i _ => by simp [value]⟩
  | p :: u, f, hf => by
    obtain ⟨g, e1, e2, e3⟩ := siStepB_spec hw hD hp hf p
    obtain ⟨k, k1, k2, k3⟩ := siFoldB_spec hw hD hp u g e2
    refine ⟨k, ?_, k2, fun i hi => ?_⟩
    · rw [List.foldlM_cons, e1]
      exact k1
    · rw [k3 i hi, e3 i hi, value_cons, mul_assoc]

theorem siLoopB_spec (hw : ∀ s, 0 < w s) {s : List Nat} {D : List (BEntry K)} (hD : FitsAll s D) (hp : PositiveAll D) (u : UnitD) :
    ∃ g, siLoop D u = .ok g ∧ g.Good s ∧ ∀ i, Inside s i → g.total w i = value (symbolAt w D i) u := by
  obtain ⟨g, h1, h2, h3⟩ := siFoldB_spec hw hD hp u ⟨.scalar 1, [], .scalar 1, []⟩ ⟨List.nil_suffix, List.nil_prefix, wf_nil, wf_nil⟩
  refine ⟨g, h1, h2, fun i hi => ?_⟩
  rw [h3 i hi]
  simp [Factors.total, NArr.last, NArr.first, NArr.scalar, value]

/-- C117: the conversion to base units of a quantity whose derived units are arrays preserves the physical amount of each element, for any number of dimensions. -/
theorem C117_si (hw : ∀ s, 0 < w s) {q : BQ K} (hq : FitsAll q.mag.shape q.derived) (hp : PositiveAll q.derived) :
    ∃ r, siB q = .ok r ∧ r.mag.shape = q.mag.shape ∧ (q.unit ≠ [] → r.derived = q.derived) ∧
      ∀ i, Inside q.mag.shape i → r.mag.get i * value w r.unit = amountAt w q i := by
  by_cases hu : q.unit = []
  · refine ⟨q, ?_, rfl, fun _ => rfl, fun i _ => ?_⟩
    · unfold siB
      rw [if_pos (by simp [hu])]
    · simp [amountAt, hu, value]
  obtain ⟨g, h1, ⟨h2, h3, h4, h5⟩, h6⟩ := siLoopB_spec hw hq hp q.unit
  obtain ⟨a, a1, a2, a3⟩ := bop_suffix (· * ·) (List.suffix_refl q.mag.shape) h2
  have ea : a.shape = q.mag.shape := by
    rcases a2 with ⟨a2, -⟩ | ⟨a2, a4⟩
    · exact a2
    · rw [a2]
      exact h2.eq_of_length (le_antisymm h2.length_le a4.length_le)
  obtain ⟨b, b1, b2, b3⟩ := bop_prefix (· * ·) (a := a) (b := g.fast) (s := q.mag.shape) (by rw [ea]) h3
  have eb : b.T.shape = q.mag.shape := by
    rcases b2 with ⟨b2, -⟩ | ⟨b2, b4⟩
    · rw [b2, ea]
    · rw [b2]
      rw [ea] at b4
      exact h3.eq_of_length (le_antisymm h3.length_le b4.length_le)
  refine ⟨⟨b.T, mulUnit g.slowUnit g.fastUnit, q.derived⟩, ?_, eb, fun _ => rfl, fun i hi => ?_⟩
  · unfold siB
    rw [if_neg (by simpa using hu), h1]
    simp only [Except.bind, a1, b1, Except.map]
  · dsimp only
    have hb := b3 i hi
    rw [first_full (by rw [eb]; exact hi), first_full (by rw [ea]; exact hi), ← last_full (a := a) (by rw [ea]; exact hi), a3 i hi,
      last_full hi] at hb
    rw [hb, value_mulUnit hw h4, amountAt, ← h6 i hi]
    unfold Factors.total
    ring

end

end Verif.Units
