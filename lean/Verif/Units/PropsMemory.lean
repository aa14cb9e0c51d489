import Verif.Units.MemorySI
import Verif.Units.Convert

/-!
C118: the operations on quantities keep the amounts of the other ones.
-/
namespace Verif.Units.Mem
open Verif.Py

variable {K : Type}

/-! ### Specification -/

/-- The amounts of the elements of a quantity, given the values of the symbols. -/
def amounts [Field K] [RatPow K] (v : Sym → K) (h : Heap K) (i : Nat) : List K := (h.mags i).map (· * value v (h.unit i))

/-- Two quantities share an element. -/
def Overlap (h : Heap K) (i j : Nat) : Prop := (h.obj i).buf = (h.obj j).buf ∧ ∃ p ∈ (h.obj i).pos, p ∈ (h.obj j).pos

/-- The existing quantities keep their magnitudes and their units. -/
structure Keeps [Zero K] (h h' : Heap K) : Prop where
  valid : Valid h'
  len : h.objs.length ≤ h'.objs.length
  mags : ∀ i < h.objs.length, h'.mags i = h.mags i
  unit : ∀ i < h.objs.length, h'.unit i = h.unit i

/-! ### Conversion in place -/

section
variable [Field K] [RatPow K]

omit [RatPow K] in
theorem Ext.keeps {D : RefTable} {h h' : Heap K} (v : Valid h) (e : Ext D h h') (v' : Valid h') : Keeps h h' :=
  ⟨v', e.len, fun _ hi => e.mags v hi, fun _ hi => e.unit v hi⟩

omit [RatPow K] in
theorem Keeps.trans {h h' h'' : Heap K} (a : Keeps h h') (b : Keeps h' h'') : Keeps h h'' :=
  ⟨b.valid, a.len.trans b.len, fun i hi => (b.mags i (hi.trans_le a.len)).trans (a.mags i hi),
    fun i hi => (b.unit i (hi.trans_le a.len)).trans (a.unit i hi)⟩

theorem Keeps.amounts {h h' : Heap K} (a : Keeps h h') {i : Nat} (hi : i < h.objs.length) (v : Sym → K) : amounts v h' i = amounts v h i := by
  unfold Mem.amounts
  rw [a.mags i hi, a.unit i hi]

/-- The memory after a conversion in place by the factor `c`, where `d` is the dictionary of the new unit. -/
def converted (h : Heap K) (self d : Nat) (c : K) : Heap K :=
  (setObj self (fun o => { o with unit := d }) (assign self (fun x => x * c) h).1).1

omit [RatPow K] in
theorem assign_one (h : Heap K) (i : Nat) : (assign i (fun x => x * (1 : K)) h).1 = h := by
  unfold assign
  have : (h.bufs.modify (h.obj i).buf fun b => b.mapIdx fun p x => if p ∈ (h.obj i).pos then x * 1 else x) = h.bufs := by
    apply List.ext_getElem?
    intro j
    rw [List.getElem?_modify]
    cases h.bufs[j]? with
    | none => rfl
    | some b =>
      simp only [Option.map_eq_map, Option.map_some, mul_one, ite_self, Option.some.injEq]
      split
      · apply List.ext_getElem <;> simp
      · rfl
  rw [this]

theorem inunitM_spec {fuel self : Nat} {newunit : UnitD} {D : RefTable} {h : Heap K} (v : Valid h) (hi : self < h.objs.length)
    (hd : (h.obj self).derived = D) : ∃ hm, Ext D h hm ∧ Valid hm ∧ h.dicts.length < hm.dicts.length ∧ hm.dicts.getD h.dicts.length [] = newunit ∧
      match tounit fuel (h.table D) (h.table h.globals) ⟨1, h.unit self⟩ newunit with
      | .error e => inunitM fuel self newunit h = (hm, .error e)
      | .ok q => inunitM fuel self newunit h = (converted hm self h.dicts.length q.mag, .ok ()) := by
  have hD : GoodTable h D := hd ▸ v.derived self hi
  have e1 := newDict_ext D newunit h
  have v1 := newDict_valid v newunit
  have len1 : (newDict newunit h).1.dicts.length = h.dicts.length + 1 := by simp [newDict]
  have get1 : (newDict newunit h).1.dicts.getD h.dicts.length [] = newunit := by simp [newDict]
  by_cases h0 : (h.unit self).length = 0 ∨ newunit.length = 0
  · refine ⟨(newDict newunit h).1, e1, v1, by omega, get1, ?_⟩
    rw [tounit, inunit, if_pos h0]
    dsimp only
    unfold inunitM converted
    rw [assign_one, M.then]
    simp only [newDict, if_pos h0]
    rfl
  · set h1 := (newDict newunit h).1 with d1
    have e2 := newObj_ext D [(1 : K)] (h.obj self).unit D h1
    have v2 := newObj_valid v1 [(1 : K)] (d := (h.obj self).unit) (T := D) ((v.unit self hi).trans_le e1.dicts.length_le) (e1.good hD)
    set h2 := (newObj [(1 : K)] (h.obj self).unit D h1).1 with d2
    have l2 : h1.objs.length < h2.objs.length := by simp [d2, newObj]
    obtain ⟨h3, r1, a1, a2, a3, a4⟩ := siM_spec fuel D h2 h1.objs.length v2 l2 (congrArg Obj.derived (newObj_obj _ _ _ _))
    have t2 : Ext D h h2 := e1.trans e2
    have u2 : h2.unit h1.objs.length = h.unit self := by
      rw [d2, newObj_unit]
      unfold Heap.unit
      rw [getD_prefix e1.dicts (v.unit self hi)]
    have m2 : h2.mags h1.objs.length = [1] := newObj_mags _ _ _ _
    rw [t2.table v hD, t2.globals, t2.table v v.globals, u2, m2] at a4
    have t3 : Ext D h h3 := t2.trans a2
    have d3 : h.dicts.length < h3.dicts.length := by
      have := e2.dicts.length_le
      have := a2.dicts.length_le
      omega
    have g3 : h3.dicts.getD h.dicts.length [] = newunit := by
      rw [getD_prefix (e2.dicts.trans a2.dicts) (by omega), get1]
    have eq : inunitM fuel self newunit h = ((siM fuel h1.objs.length).then fun q1 => (newObj [1] h.dicts.length D).then fun b =>
        (siM fuel b).then fun q2 => fun h' =>
          if !dictEq (h'.unit q1) (h'.unit q2) then (h', .error .unitError)
          else ((assign self fun x => x * (h'.mag q1 / h'.mag q2)).then fun _ => setObj self fun o => { o with unit := h.dicts.length }) h') h2 := by
      unfold inunitM
      rw [M.then]
      simp only [newDict, if_neg h0]
      rw [hd]
      rfl
    rw [eq, M.then, a1, tounit, inunit, if_neg h0]
    cases hs1 : si fuel (h.table D) (h.table h.globals) ⟨1, h.unit self⟩ with
    | error e =>
      rw [hs1] at a4
      dsimp only at a4
      subst a4
      exact ⟨h3, t3, a3, d3, g3, rfl⟩
    | ok q1 =>
      rw [hs1] at a4
      obtain ⟨i1, rfl, -, l3, m3, u3⟩ := a4
      dsimp only
      have e4 := newObj_ext D [(1 : K)] h.dicts.length D h3
      have v4 := newObj_valid a3 [(1 : K)] (d := h.dicts.length) (T := D) d3 (t3.good hD)
      set h4 := (newObj [(1 : K)] h.dicts.length D h3).1 with d4
      have l4 : h3.objs.length < h4.objs.length := by simp [d4, newObj]
      obtain ⟨h5, r2, b1, b2, b3, b4⟩ := siM_spec fuel D h4 h3.objs.length v4 l4 (congrArg Obj.derived (newObj_obj _ _ _ _))
      have t4 : Ext D h h4 := t3.trans e4
      have u4 : h4.unit h3.objs.length = newunit := by rw [d4, newObj_unit, g3]
      have m4 : h4.mags h3.objs.length = [1] := newObj_mags _ _ _ _
      rw [t4.table v hD, t4.globals, t4.table v v.globals, u4, m4] at b4
      have t5 : Ext D h h5 := t4.trans b2
      have t35 : Ext D h3 h5 := e4.trans b2
      have d5 : h.dicts.length < h5.dicts.length := d3.trans_le t35.dicts.length_le
      have g5 : h5.dicts.getD h.dicts.length [] = newunit := by rw [getD_prefix t35.dicts d3, g3]
      refine ⟨h5, t5, b3, d5, g5, ?_⟩
      have eq4 : newObj [(1 : K)] h.dicts.length D h3 = (h4, .ok h3.objs.length) := rfl
      rw [M.then, eq4]
      dsimp only
      rw [M.then, b1]
      cases hs2 : si fuel (h.table D) (h.table h.globals) ⟨1, newunit⟩ with
      | error e =>
        rw [hs2] at b4
        dsimp only at b4
        subst b4
        rfl
      | ok q2 =>
        rw [hs2] at b4
        obtain ⟨i2, rfl, -, l5, m5, u5⟩ := b4
        dsimp only
        have w1 : h5.unit i1 = q1.unit := by rw [t35.unit a3 l3, u3]
        have w2 : h5.mag i1 = q1.mag := by rw [Heap.mag, t35.mags a3 l3, m3]; simp
        have w3 : h5.mag i2 = q2.mag := by rw [Heap.mag, m5]; simp
        rw [w1, u5, w2, w3]
        by_cases hq : dictEq q1.unit q2.unit = true
        · simp only [hq, Bool.not_true, Bool.false_eq_true, if_false, one_mul]
          rfl
        · simp only [Bool.not_eq_true] at hq
          simp only [hq, Bool.not_false, if_true]

/-! ### What has changed -/

omit [RatPow K] in
theorem getD_modify {α : Type} (l : List α) (j : Nat) (f : α → α) {i : Nat} (hi : i < l.length) (d : α) :
    (l.modify j f).getD i d = if j = i then f (l.getD i d) else l.getD i d := by
  simp only [List.getD_eq_getElem?_getD, List.getElem?_modify, List.getElem?_eq_getElem hi]
  split <;> simp

omit [Field K] [RatPow K] in
theorem assign_valid {h : Heap K} (v : Valid h) (i : Nat) (f : K → K) : Valid (assign i f h).1 := by
  refine ⟨fun j hj => ?_, fun j hj p hp => ?_, v.unit, v.derived, v.globals⟩
  · show (h.obj j).buf < (h.bufs.modify _ _).length
    rw [List.length_modify]
    exact v.buf j hj
  · show p < ((h.bufs.modify _ _).getD (h.obj j).buf []).length
    rw [getD_modify _ _ _ (v.buf j hj)]
    split
    · rw [List.length_mapIdx]
      exact v.pos j hj p hp
    · exact v.pos j hj p hp

omit [RatPow K] in
theorem converted_valid {h : Heap K} (v : Valid h) {self d : Nat} (c : K) (hd : d < h.dicts.length) : Valid (converted h self d c) :=
  retag_valid (assign_valid v self _) hd

omit [RatPow K] in
theorem converted_unit {h : Heap K} {self d : Nat} (c : K) {i : Nat} (hi : i < h.objs.length) :
    (converted h self d c).unit i = if self = i then h.dicts.getD d [] else h.unit i := by
  unfold Heap.unit converted
  rw [setObj_obj _ _ (assign self _ h).1 _ hi]
  split <;> rfl

omit [RatPow K] in
theorem converted_mags {h : Heap K} (v : Valid h) {self d : Nat} (c : K) {i : Nat} (hi : i < h.objs.length) :
    (converted h self d c).mags i = (h.obj i).pos.map fun p =>
      if (h.obj self).buf = (h.obj i).buf ∧ p ∈ (h.obj self).pos then (h.bufs.getD (h.obj i).buf []).getD p 0 * c
      else (h.bufs.getD (h.obj i).buf []).getD p 0 := by
  have e : (converted h self d c).mags i = (h.obj i).pos.map fun p =>
      ((h.bufs.modify (h.obj self).buf fun b => b.mapIdx fun p x => if p ∈ (h.obj self).pos then x * c else x).getD (h.obj i).buf []).getD p 0 := by
    unfold Heap.mags converted
    rw [setObj_obj _ _ (assign self _ h).1 _ hi]
    split <;> rfl
  rw [e]
  apply List.map_congr_left
  intro p hp
  have hl := v.pos i hi p hp
  rw [getD_modify _ _ _ (v.buf i hi)]
  by_cases hb : (h.obj self).buf = (h.obj i).buf
  · rw [if_pos hb]
    simp only [hb, true_and]
    generalize h.bufs.getD (h.obj i).buf [] = b at hl ⊢
    simp only [List.getD_eq_getElem?_getD, List.getElem?_mapIdx, List.getElem?_eq_getElem hl, Option.map_some, Option.getD_some]
  · rw [if_neg hb, if_neg (fun x => hb x.1)]

omit [RatPow K] in
theorem converted_self {h : Heap K} (v : Valid h) {self d : Nat} (c : K) (hi : self < h.objs.length) :
    (converted h self d c).mags self = (h.mags self).map (· * c) := by
  rw [converted_mags v c hi]
  unfold Heap.mags
  rw [List.map_map]
  apply List.map_congr_left
  intro p hp
  rw [if_pos ⟨rfl, hp⟩]
  rfl

omit [RatPow K] in
theorem converted_other {h : Heap K} (v : Valid h) {self d : Nat} (c : K) {i : Nat} (hi : i < h.objs.length) (ho : ¬ Overlap h i self) :
    (converted h self d c).mags i = h.mags i := by
  rw [converted_mags v c hi]
  unfold Heap.mags
  apply List.map_congr_left
  intro p hp
  rw [if_neg]
  rintro ⟨a, b⟩
  exact ho ⟨a.symm, p, hp, b⟩

theorem tounit_unit {n : Nat} {L G : DTable K} {q q' : Q K} {u : UnitD} (h : tounit n L G q u = .ok q') : q'.unit = u := by
  unfold tounit inunit at h
  split at h
  · rename_i e
    split at e
    · cases e
      cases h
      rfl
    · split at e
      · cases e
      · split at e
        · cases e
        · split at e
          · cases e
          · cases e
            cases h
            rfl
  · cases h

end

section
variable [Field K] [LinearOrder K] [IsStrictOrderedRing K] [LawfulRatPow K]

theorem tounit_value {L G : DTable K} {v : Sym → K} (hg : GoodTables L G) (hv : Valuation L G v) {n : Nat} {u w : UnitD} (hu : Wf u) (hw : Wf w)
    (h1 : u ≠ []) (h2 : w ≠ []) {q : Q K} (h : tounit n L G ⟨1, u⟩ w = .ok q) : q.mag * value v w = value v u := by
  obtain ⟨r1, r2, a, b, c, rfl⟩ := (tounit_ok (q := ⟨1, u⟩) h1 h2).1 h
  have := ratio hg hv hu hw a b c
  have hp := value_pos (v := v) hv.pos w
  dsimp only
  rw [one_mul, ← this]
  field_simp

/-! ### Theorems -/

/-- Converting a quantity to SI units keeps its amounts, and all the quantities that exist; those that are not derived units of it are not modified
at all. -/
theorem C118_si {fuel self : Nat} {h h' : Heap K} {res : Res Nat} (v : Valid h) (hi : self < h.objs.length) (e : siM fuel self h = (h', res)) :
    Valid h' ∧ (∀ i < h.objs.length, (∀ w : Sym → K, amounts w h' i = amounts w h i) ∧ h'.unit i = h.unit i ∧
        (i ∉ refs (h.obj self).derived → i ∉ refs h.globals → h'.obj i = h.obj i)) ∧
      ∀ r, res = .ok r → (h.unit self ≠ [] → h.bufs.length ≤ (h'.obj r).buf) ∧
        ∀ w : Sym → K, GoodTables (h.table (h.obj self).derived) (h.table h.globals) → Valuation (h.table (h.obj self).derived) (h.table h.globals) w →
          Wf (h.unit self) → amounts w h' r = amounts w h self := by
  obtain ⟨h1, r1, a1, a2, a3, a4⟩ := siM_spec fuel _ h self v hi rfl
  rw [a1] at e
  injection e with e1 e2
  subst e1 e2
  have k := a2.keeps v a3
  refine ⟨a3, fun i hi => ⟨fun w => k.amounts hi w, k.unit i hi, fun n1 n2 => ?_⟩, fun r hr => ?_⟩
  · rcases a2.objs i hi with x | ⟨x, -⟩
    · exact x
    · rcases x with x | x
      · exact absurd x n1
      · exact absurd x n2
  · subst hr
    cases hs : si fuel (h.table (h.obj self).derived) (h.table h.globals) ⟨1, h.unit self⟩ with
    | error e =>
      rw [hs] at a4
      cases a4
    | ok q =>
      rw [hs] at a4
      obtain ⟨r', hr, b1, -, b3, b4⟩ := a4
      injection hr with hr
      subst hr
      refine ⟨fun hu => ?_, fun w hg hv hw => ?_⟩
      · rcases b1 with ⟨-, b1⟩ | ⟨-, b1⟩
        · exact absurd b1 hu
        · exact b1
      · have := si_value hg hv hw hs
        unfold amounts
        rw [b3, b4, this, List.map_map]
        apply List.map_congr_left
        intro x _
        simp only [Function.comp]
        ring

/-- A conversion in place keeps the amounts of the quantity, and of those that do not share elements with it; after an exception, nothing has
changed. -/
theorem C118_inunit_partial {fuel self : Nat} {newunit : UnitD} {h h' : Heap K} {res : Res Unit} (v : Valid h) (hi : self < h.objs.length)
    (e : inunitM fuel self newunit h = (h', res)) :
    Valid h' ∧ (∀ i < h.objs.length, (i ≠ self ∧ ¬ Overlap h i self) ∨ (∃ x, res = .error x) →
        h'.unit i = h.unit i ∧ ∀ w : Sym → K, amounts w h' i = amounts w h i) ∧
      (res = .ok () → h'.unit self = newunit ∧ ∀ w : Sym → K, GoodTables (h.table (h.obj self).derived) (h.table h.globals) →
        Valuation (h.table (h.obj self).derived) (h.table h.globals) w → Wf (h.unit self) → Wf newunit → h.unit self ≠ [] → newunit ≠ [] →
        amounts w h' self = amounts w h self) := by
  obtain ⟨hm, a1, a2, a3, a4, a5⟩ := inunitM_spec (fuel := fuel) (newunit := newunit) v hi rfl
  rw [e] at a5
  have hk := a1.keeps v a2
  cases ht : tounit fuel (h.table (h.obj self).derived) (h.table h.globals) ⟨1, h.unit self⟩ newunit with
  | error x =>
    rw [ht] at a5
    injection a5 with e1 e2
    subst e1 e2
    exact ⟨a2, fun i hi _ => ⟨hk.unit i hi, hk.amounts hi⟩, fun h => by cases h⟩
  | ok q =>
    rw [ht] at a5
    injection a5 with e1 e2
    subst e1 e2
    refine ⟨converted_valid a2 _ a3, fun i hi' ho => ?_, fun _ => ⟨?_, fun w hg hv w1 w2 n1 n2 => ?_⟩⟩
    · rcases ho with ⟨hne, ho⟩ | ⟨x, hx⟩
      · have ho' : ¬ Overlap hm i self := by
          unfold Overlap
          rw [(a1.fields hi').1, (a1.fields hi').2.1, (a1.fields hi).1, (a1.fields hi).2.1]
          exact ho
        have u : (converted hm self h.dicts.length q.mag).unit i = h.unit i := by
          rw [converted_unit _ (hi'.trans_le a1.len), if_neg (fun x => hne x.symm), hk.unit i hi']
        refine ⟨u, fun w => ?_⟩
        unfold amounts
        rw [u, converted_other a2 _ (hi'.trans_le a1.len) ho', hk.mags i hi']
      · cases hx
    · rw [converted_unit _ (hi.trans_le a1.len), if_pos rfl, a4]
    · unfold amounts
      rw [converted_unit _ (hi.trans_le a1.len), if_pos rfl, a4, converted_self a2 _ (hi.trans_le a1.len), hk.mags self hi, List.map_map,
        ← tounit_value hg hv w1 w2 n1 n2 ht]
      apply List.map_congr_left
      intro x _
      simp only [Function.comp]
      ring

/-- A conversion of a copy, in the memory. -/
theorem tounitM_spec {fuel self : Nat} {newunit : UnitD} {h : Heap K} (v : Valid h) (hi : self < h.objs.length) :
    ∃ h' res, tounitM fuel self newunit h = (h', res) ∧ Ext (h.obj self).derived h h' ∧ Valid h' ∧
      match tounit fuel (h.table (h.obj self).derived) (h.table h.globals) ⟨1, h.unit self⟩ newunit with
      | .error e => res = .error e
      | .ok q => res = .ok h.objs.length ∧ h.objs.length < h'.objs.length ∧ (h'.obj h.objs.length).buf = h.bufs.length ∧
          h'.mags h.objs.length = (h.mags self).map (· * q.mag) ∧ h'.unit h.objs.length = newunit := by
  set D := (h.obj self).derived with hD
  have gD : GoodTable h D := v.derived self hi
  have e1 := newObj_ext D (h.mags self) (h.obj self).unit D h
  have v1 := newObj_valid v (h.mags self) (v.unit self hi) gD
  set h1 := (newObj (h.mags self) (h.obj self).unit D h).1 with d1
  have l1 : h.objs.length < h1.objs.length := by simp [d1, newObj]
  have o1 : h1.obj h.objs.length = ⟨h.bufs.length, List.range (h.mags self).length, (h.obj self).unit, D⟩ := newObj_obj _ _ _ _
  have u1 : h1.unit h.objs.length = h.unit self := newObj_unit _ _ _ _
  have m1 : h1.mags h.objs.length = h.mags self := newObj_mags _ _ _ _
  obtain ⟨hm, a1, a2, a3, a4, a5⟩ := inunitM_spec (fuel := fuel) (newunit := newunit) (D := D) v1 l1 (by rw [o1])
  rw [e1.table v gD, e1.globals, e1.table v v.globals, u1] at a5
  have eq : tounitM fuel self newunit h = ((inunitM fuel h.objs.length newunit).then fun _ => ret h.objs.length) h1 := rfl
  rw [eq, M.then]
  have lm := l1.trans_le a1.len
  have em : Ext D h hm := e1.trans a1
  cases ht : tounit fuel (h.table D) (h.table h.globals) ⟨1, h.unit self⟩ newunit with
  | error x =>
    rw [ht] at a5
    dsimp only at a5
    rw [a5]
    exact ⟨hm, .error x, rfl, em, a2, rfl⟩
  | ok q =>
    rw [ht] at a5
    dsimp only at a5
    rw [a5]
    have bm : (hm.obj h.objs.length).buf = h.bufs.length := by rw [(a1.fields l1).1, o1]
    refine ⟨_, .ok h.objs.length, rfl, ?_, converted_valid a2 _ a3, rfl, ?_, ?_, ?_, ?_⟩
    · exact retag_ext (h0 := h) (h := (assign h.objs.length (fun x => x * q.mag) hm).1)
        ⟨prefix_modify em.bufs bm.ge _, em.dicts, em.len, em.globals, em.objs⟩ le_rfl
    · exact lm.trans_le (setObj_length _ _ _).ge
    · unfold converted
      rw [setObj_obj _ _ (assign _ _ hm).1 _ lm, if_pos rfl]
      exact bm
    · rw [converted_self a2 _ lm, a1.mags v1 l1, m1]
    · rw [converted_unit _ lm, if_pos rfl, a4]

/-- A conversion of a copy keeps the amounts, in a new buffer, and all the quantities that exist. -/
theorem C118_tounit {fuel self : Nat} {newunit : UnitD} {h h' : Heap K} {res : Res Nat} (v : Valid h) (hi : self < h.objs.length)
    (e : tounitM fuel self newunit h = (h', res)) :
    Valid h' ∧ (∀ i < h.objs.length, h'.unit i = h.unit i ∧ ∀ w : Sym → K, amounts w h' i = amounts w h i) ∧
      ∀ r, res = .ok r → h'.unit r = newunit ∧ (∀ i < h.objs.length, ¬ Overlap h' i r) ∧
        ∀ w : Sym → K, GoodTables (h.table (h.obj self).derived) (h.table h.globals) → Valuation (h.table (h.obj self).derived) (h.table h.globals) w →
          Wf (h.unit self) → Wf newunit → h.unit self ≠ [] → newunit ≠ [] → amounts w h' r = amounts w h self := by
  obtain ⟨h1, r1, a1, a2, a3, a4⟩ := tounitM_spec (fuel := fuel) (newunit := newunit) v hi
  rw [a1] at e
  injection e with e1 e2
  subst e1 e2
  have k := a2.keeps v a3
  refine ⟨a3, fun i hi => ⟨k.unit i hi, k.amounts hi⟩, fun r hr => ?_⟩
  subst hr
  cases ht : tounit fuel (h.table (h.obj self).derived) (h.table h.globals) ⟨1, h.unit self⟩ newunit with
  | error x =>
    rw [ht] at a4
    cases a4
  | ok q =>
    rw [ht] at a4
    obtain ⟨hr, -, b2, b3, b4⟩ := a4
    injection hr with hr
    subst hr
    refine ⟨b4, fun i hi' ho => ?_, fun w hg hv w1 w2 n1 n2 => ?_⟩
    · have := ho.1
      rw [b2, (a2.fields hi').1] at this
      exact absurd (v.buf i hi') (by omega)
    · unfold amounts
      rw [b3, b4, List.map_map, ← tounit_value hg hv w1 w2 n1 n2 ht]
      apply List.map_congr_left
      intro x _
      simp only [Function.comp]
      ring

omit [LinearOrder K] [IsStrictOrderedRing K] [LawfulRatPow K] in
theorem result_keeps {h : Heap K} (v : Valid h) {i : Nat} (hi : i < h.objs.length) (xs : List K) (u : UnitD) : Keeps h (result i xs u h).1 := by
  obtain ⟨h', e, f, -⟩ := result_spec v hi rfl xs u
  rw [e]
  exact f.ext.keeps v f.valid

omit [LinearOrder K] [IsStrictOrderedRing K] [LawfulRatPow K] in
theorem view_keeps {h : Heap K} (v : Valid h) {i : Nat} (hi : i < h.objs.length) (sel : List Nat) : Keeps h (view i sel h).1 := by
  have e : Ext [] h (view i sel h).1 :=
    ⟨List.prefix_refl _, List.prefix_refl _, by simp [view], rfl, fun _ hi => .inl (obj_append hi)⟩
  refine e.keeps v ?_
  have key : ∀ j < (view i sel h).1.objs.length, (j < h.objs.length ∧ (view i sel h).1.obj j = h.obj j) ∨
      (view i sel h).1.obj j = { h.obj i with pos := sel.filterMap fun p => (h.obj i).pos[p]? } := by
    intro j hj
    have hl : (view i sel h).1.objs.length = h.objs.length + 1 := by simp [view]
    rw [hl] at hj
    rcases Nat.lt_succ_iff_lt_or_eq.1 hj with hj | rfl
    · exact .inl ⟨hj, obj_append hj⟩
    · exact .inr obj_last
  refine ⟨fun j hj => ?_, fun j hj p hp => ?_, fun j hj => ?_, fun j hj => ?_, e.good v.globals⟩
  · rcases key j hj with ⟨a, b⟩ | b <;> rw [b]
    · exact v.buf j a
    · exact v.buf i hi
  · rcases key j hj with ⟨a, b⟩ | b <;> rw [b] at hp ⊢
    · exact v.pos j a p hp
    · obtain ⟨x, -, hx⟩ := List.mem_filterMap.1 hp
      exact v.pos i hi p (List.mem_of_getElem? hx)
  · rcases key j hj with ⟨a, b⟩ | b <;> rw [b]
    · exact v.unit j a
    · exact v.unit i hi
  · rcases key j hj with ⟨a, b⟩ | b <;> rw [b]
    · exact e.good (v.derived j a)
    · exact e.good (v.derived i hi)

theorem step_keeps {fuel : Nat} {h : Heap K} (v : Valid h) (op : Op K) : Keeps h (step fuel op h).1 := by
  unfold step
  by_cases ho : ∀ i ∈ op.args, i < h.objs.length
  swap
  · rw [if_pos ho]
    exact ⟨v, le_rfl, fun _ _ => rfl, fun _ _ => rfl⟩
  rw [if_neg (not_not.2 ho)]
  cases op with
  | create xs u =>
    have f := create_fresh [] v xs u (T := []) (fun r hr => by simp [refs] at hr)
    exact f.ext.keeps v f.valid
  | view i sel => exact view_keeps v (ho i (by simp [Op.args])) sel
  | copy i u =>
    have hi := ho i (by simp [Op.args])
    cases u with
    | none => exact (newObj_ext [] _ _ _ h).keeps v (newObj_valid v _ (v.unit i hi) (v.derived i hi))
    | some u =>
      have f := create_fresh [] v (h.mags i) u (v.derived i hi)
      exact f.ext.keeps v f.valid
  | mul i j =>
    dsimp only
    unfold mul
    split
    · exact result_keeps v (ho i (by simp [Op.args])) _ _
    · exact ⟨v, le_rfl, fun _ _ => rfl, fun _ _ => rfl⟩
  | div i j =>
    dsimp only
    unfold div
    split
    · exact result_keeps v (ho i (by simp [Op.args])) _ _
    · exact ⟨v, le_rfl, fun _ _ => rfl, fun _ _ => rfl⟩
  | pow i val => exact result_keeps v (ho i (by simp [Op.args])) _ _
  | si i =>
    obtain ⟨h', r, e, a, b, -⟩ := siM_spec fuel _ h i v (ho i (by simp [Op.args])) rfl
    dsimp only
    rw [e]
    exact a.keeps v b
  | tounit i u =>
    obtain ⟨h', r, e, a, b, -⟩ := tounitM_spec (fuel := fuel) (newunit := u) v (ho i (by simp [Op.args]))
    dsimp only
    rw [e]
    exact a.keeps v b

/-- Whatever a program does with quantities, views, copies, products, powers and conversions of copies, the quantities that exist keep their
amounts. -/
theorem C118_history (fuel : Nat) : ∀ (ops : List (Op K)) {h : Heap K}, Valid h → Valid (run fuel ops h) ∧
    ∀ i < h.objs.length, (run fuel ops h).unit i = h.unit i ∧ ∀ w : Sym → K, amounts w (run fuel ops h) i = amounts w h i := by
  suffices H : ∀ (ops : List (Op K)) {h : Heap K}, Valid h → Keeps h (run fuel ops h) from
    fun ops h v => ⟨(H ops v).valid, fun i hi => ⟨(H ops v).unit i hi, (H ops v).amounts hi⟩⟩
  intro ops
  induction ops with
  | nil => exact fun v => ⟨v, le_rfl, fun _ _ => rfl, fun _ _ => rfl⟩
  | cons op ops ih =>
    intro h v
    have a := step_keeps (fuel := fuel) v op
    exact a.trans (ih a.valid)

end
end Verif.Units.Mem
