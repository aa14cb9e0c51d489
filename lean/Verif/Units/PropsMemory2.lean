import Verif.Units.PropsMemory
import Verif.Units.Real
import Mathlib.Tactic

/-!
C118: operations that change the amounts of other quantities, and examples.
-/
namespace Verif.Units.Mem
open Verif.Py

/-- The unit made of one symbol. -/
def single (s : Sym) : UnitD := [(s, 1)]

section
variable {L G : DTable ℝ}

theorem si_undefined (n : Nat) {s : Sym} (h : define L G s 1 = none) : si (n + 1) L G ⟨1, single s⟩ = .ok ⟨1, single s⟩ := by
  rw [si_succ, if_neg (by simp [single])]
  simp [single, List.foldlM, siStep, h, mulInplace, lookup, mulUnit, bind, Except.bind, Except.map, pure, Except.pure]

theorem si_defined (n : Nat) {s t z : Sym} {x y : ℝ} {b : Bool} (h : define L G s 1 = some (⟨x, single t⟩, b))
    (h' : si n L G ⟨1, single t⟩ = .ok ⟨y, single z⟩) : si (n + 1) L G ⟨1, single s⟩ = .ok ⟨x * y, single z⟩ := by
  have e := si_scale n L G ⟨x, single t⟩
  dsimp only at e
  rw [h'] at e
  rw [si_succ, if_neg (by simp [single])]
  simp only [single, Except.map] at e
  cases b <;>
  simp [single, List.foldlM, siStep, h, e, lookup, mulUnit, mulQ, bind, Except.bind, Except.map, pure, Except.pure]

end

def km : Sym := "km".toList
def m : Sym := "m".toList
def foo : Sym := "foo".toList
def bar : Sym := "bar".toList

/-- The quantities `1000 m` (derived unit `km`), `q = [1, 2] km` and `q[:1]`. -/
noncomputable def demo : Heap ℝ :=
  ⟨[[1000], [1, 2]], [single m, single km], [⟨0, [0], 0, []⟩, ⟨1, [0, 1], 1, []⟩, ⟨1, [0], 1, []⟩], [(.sym km, false, some 0)]⟩

/-- The quantities `a = 3 m`, `b = 1 foo` where `foo` is `a`, and `c = 1 bar` where `bar` is `b`. -/
noncomputable def chain : Heap ℝ :=
  ⟨[[3], [1], [1]], [single m, single foo, single bar],
    [⟨0, [0], 0, []⟩, ⟨1, [0], 1, [(.sym foo, false, some 0)]⟩, ⟨2, [0], 2, [(.sym bar, false, some 1)]⟩], []⟩

theorem demo_valid : Valid demo := by
  refine ⟨fun i hi => ?_, fun i hi p hp => ?_, fun i hi => ?_, fun i hi => ?_, fun r hr => ?_⟩
  · have hi : i < 3 := hi
    interval_cases i <;> simp [demo, Heap.obj]
  · have hi : i < 3 := hi
    interval_cases i <;> simp [demo, Heap.obj] at hp ⊢ <;> omega
  · have hi : i < 3 := hi
    interval_cases i <;> simp [demo, Heap.obj]
  · have hi : i < 3 := hi
    interval_cases i <;> exact fun r hr => by simp [demo, Heap.obj, refs] at hr
  · have hr : r = 0 := by simpa [demo, refs] using hr
    subst hr
    simp [demo, Heap.obj]

theorem chain_valid : Valid chain := by
  refine ⟨fun i hi => ?_, fun i hi p hp => ?_, fun i hi => ?_, fun i hi => ?_, fun r hr => ?_⟩
  · have hi : i < 3 := hi
    interval_cases i <;> simp [chain, Heap.obj]
  · have hi : i < 3 := hi
    interval_cases i <;> simp [chain, Heap.obj] at hp ⊢ <;> omega
  · have hi : i < 3 := hi
    interval_cases i <;> simp [chain, Heap.obj]
  · have hi : i < 3 := hi
    interval_cases i <;> intro r hr <;> simp [chain, Heap.obj, refs] at hr <;> subst hr <;> simp [chain, Heap.obj]
  · simp [chain, refs] at hr

/-- The values of the symbols: a kilometre is 1000 metres. -/
noncomputable def metres (s : Sym) : ℝ := if s = km then 1000 else 1

theorem metres_km : metres km = 1000 := by simp [metres]

theorem metres_m : metres m = 1 := by
  have : m ≠ km := by decide
  simp [metres, this]

/-- The global table of the first example. -/
noncomputable def kmTable : DTable ℝ := [⟨.sym km, false, some ⟨1000, single m⟩⟩]

theorem demo_tables : demo.table [] = [] ∧ demo.table demo.globals = kmTable := by
  constructor
  · rfl
  · simp [Heap.table, demo, kmTable, Heap.mag, Heap.mags, Heap.unit, Heap.obj]

theorem kmTable_tounit (n : Nat) : tounit (n + 2) [] kmTable ⟨1, single km⟩ (single m) = .ok ⟨1000, single m⟩ := by
  have h1 : define [] kmTable m 1 = none := by
    have : km ≠ m := by decide
    simp [define, checkDu, kmTable, hasKey, getDu, this]
  have h2 : define [] kmTable km 1 = some (⟨1000, single m⟩, false) := by
    simp [define, checkDu, kmTable, hasKey, getDu]
  refine (tounit_ok (by simp [single]) (by simp [single])).2 ⟨_, _, si_defined (n + 1) h2 (si_undefined n h1), si_undefined (n + 1) h1, ?_, ?_⟩
  · simp [dictEq, single, lookup]
  · norm_num

/-- C118 does not hold for the conversion in place of a quantity that has a view: the view keeps its unit, with the magnitudes in the new one. -/
theorem C118_violation_view (n : Nat) : Valid demo ∧ ∃ h', inunitM (n + 2) 1 (single m) demo = (h', .ok ()) ∧
    amounts metres demo 2 = [1000] ∧ amounts metres h' 2 = [1000000] := by
  refine ⟨demo_valid, ?_⟩
  obtain ⟨hm, a1, a2, a3, a4, a5⟩ := inunitM_spec (fuel := n + 2) (self := 1) (newunit := single m) (D := []) demo_valid (by simp [demo]) rfl
  have l2 : 2 < demo.objs.length := by simp [demo]
  have l1 : 1 < demo.objs.length := by simp [demo]
  have u1 : demo.unit 1 = single km := rfl
  have u2 : demo.unit 2 = single km := rfl
  rw [demo_tables.1, demo_tables.2, u1, kmTable_tounit] at a5
  refine ⟨_, a5, ?_, ?_⟩
  · simp [amounts, u2, value, single, metres_km, rpow_real]
    simp [Heap.mags, demo, Heap.obj]
  · unfold amounts
    rw [converted_unit _ (l2.trans_le a1.len), if_neg (by decide), a1.unit demo_valid l2, u2, converted_mags a2 _ (l2.trans_le a1.len),
      (a1.fields l1).1, (a1.fields l1).2.1, (a1.fields l2).1, (a1.fields l2).2.1, getD_prefix a1.bufs (by simp [demo, Heap.obj])]
    simp [demo, Heap.obj, value, single, metres_km, rpow_real]
    norm_num

/-- C118 does not hold for `Quantity(q, unit, copy=False)`: the unit of `q` itself is replaced. -/
theorem C118_violation_construct : Valid demo ∧ ∃ h', sameAs 1 (some (single m)) demo = (h', .ok 1) ∧
    amounts metres demo 1 = [1000, 2000] ∧ amounts metres h' 1 = [1, 2] := by
  refine ⟨demo_valid, _, rfl, ?_, ?_⟩
  · simp [amounts, demo, Heap.unit, Heap.mags, Heap.obj, value, single, metres_km, rpow_real]
    norm_num
  · simp [amounts, demo, Heap.unit, Heap.mags, Heap.obj, value, single, metres_m, rpow_real, List.modify]

theorem chain_tables : chain.table [(.sym foo, false, some 0)] = [⟨.sym foo, false, some ⟨3, single m⟩⟩] ∧
    chain.table [(.sym bar, false, some 1)] = [⟨.sym bar, false, some ⟨1, single foo⟩⟩] ∧ chain.table chain.globals = [] := by
  refine ⟨?_, ?_, rfl⟩ <;> simp [Heap.table, chain, Heap.mag, Heap.mags, Heap.unit, Heap.obj]

/-- The derived units of `c` have been given to `b`. -/
noncomputable def linked : Heap ℝ :=
  ⟨[[3], [1], [1], [1], [1]], [single m, single foo, single bar, [], []],
    [⟨0, [0], 0, []⟩, ⟨1, [0], 1, [(.sym bar, false, some 1)]⟩, ⟨2, [0], 2, [(.sym bar, false, some 1)]⟩, ⟨3, [0], 3, []⟩, ⟨4, [0], 4, []⟩], []⟩

theorem linked_valid : Valid linked := by
  refine ⟨fun i hi => ?_, fun i hi p hp => ?_, fun i hi => ?_, fun i hi => ?_, fun r hr => ?_⟩
  · have hi : i < 5 := hi
    interval_cases i <;> simp [linked, Heap.obj]
  · have hi : i < 5 := hi
    interval_cases i <;> simp [linked, Heap.obj] at hp ⊢ <;> omega
  · have hi : i < 5 := hi
    interval_cases i <;> simp [linked, Heap.obj]
  · have hi : i < 5 := hi
    interval_cases i <;> intro r hr <;> simp [linked, Heap.obj, refs] at hr <;> subst hr <;> simp [linked, Heap.obj]
  · simp [linked, refs] at hr

theorem barTable_si (n : Nat) : si (n + 1) [⟨.sym bar, false, some ⟨1, single foo⟩⟩] [] (⟨1, single foo⟩ : Q ℝ) = .ok ⟨1, single foo⟩ := by
  refine si_undefined n ?_
  have : bar ≠ foo := by decide
  simp [define, checkDu, hasKey, getDu, this]

theorem fooTable_si (n : Nat) : si (n + 2) [⟨.sym foo, false, some ⟨3, single m⟩⟩] [] (⟨1, single foo⟩ : Q ℝ) = .ok ⟨3, single m⟩ := by
  have h1 : define [⟨.sym foo, false, some ⟨(3 : ℝ), single m⟩⟩] [] m 1 = none := by
    have : foo ≠ m := by decide
    simp [define, checkDu, hasKey, getDu, this]
  have h2 : define [⟨.sym foo, false, some ⟨(3 : ℝ), single m⟩⟩] [] foo 1 = some (⟨3, single m⟩, false) := by
    simp [define, checkDu, hasKey, getDu]
  have := si_defined (n + 1) h2 (si_undefined n h1)
  simpa using this

theorem chain_linked (n : Nat) : ∃ h2 r, siM (n + 2) 2 chain = (h2, .ok r) ∧ Valid h2 ∧ Ext [(.sym bar, false, some 1)] linked h2 := by
  have hl : linked.table (linked.obj 1).derived = [⟨.sym bar, false, some ⟨1, single foo⟩⟩] ∧ linked.table linked.globals = [] := by
    refine ⟨?_, rfl⟩
    simp [Heap.table, linked, Heap.mag, Heap.mags, Heap.unit, Heap.obj]
  obtain ⟨hA, res, a1, a2, a3, a4⟩ := siM_spec (n + 1) (K := ℝ) _ linked 1 linked_valid (by simp [linked]) rfl
  have u1 : linked.unit 1 = single foo := rfl
  rw [hl.1, hl.2, u1, barTable_si] at a4
  obtain ⟨rA, rfl, -, a5, a6, a7⟩ := a4
  have l2 : 2 < linked.objs.length := by simp [linked]
  have l3 : 3 < linked.objs.length := by simp [linked]
  have l4 : 4 < linked.objs.length := by simp [linked]
  have m1 : linked.mags 1 = [1] := by simp [Heap.mags, linked, Heap.obj]
  have m4 : linked.mags 4 = [1] := by simp [Heap.mags, linked, Heap.obj]
  rw [m1] at a6
  set D : RefTable := (linked.obj 1).derived with hD
  obtain ⟨hB, b1, b2, b3, b4⟩ := mul_spec (D := D) (i := 4) (j := rA) (a := ⟨1, []⟩) (b := ⟨1 * 1, single foo⟩) a3 (l4.trans_le a2.len)
    (by rw [a2.mags linked_valid l4, m4]) (by rw [a2.unit linked_valid l4]; rfl) a6 a7
  have l2B : 2 < hB.objs.length := (l2.trans_le a2.len).trans_le b2.ext.len
  obtain ⟨hC, c1, c2, c3⟩ := scale_spec (D := D) (i := 2) b2.valid l2B (hB.mag hA.objs.length)
  obtain ⟨hE, d1, d2, d3⟩ := scale_spec (D := D) c2.valid c2.lt (hB.mag 3)
  have e5 := newDict_ext D (mulUnit (hB.unit hA.objs.length) (hB.unit 3)) hE
  have v5 := newDict_valid d2.valid (mulUnit (hB.unit hA.objs.length) (hB.unit 3))
  have ext6 := a2.trans (b2.ext.trans (c2.ext.trans (d2.ext.trans e5)))
  have le : linked.objs.length ≤ hC.objs.length := a2.len.trans (b2.ext.len.trans c2.ext.len)
  refine ⟨_, hC.objs.length, ?_, retag_valid (j := hC.objs.length) v5 (d := hE.dicts.length) (by simp [newDict]), retag_ext ext6 le⟩
  rw [siM]
  dsimp only
  have hu : chain.unit 2 = [(bar, 1)] := rfl
  rw [hu]
  simp [loopM, M.then, create, newDict, newObj, defineM, checkDuM, getDuM, chain, Heap.obj, setObj, ret]
  unfold linked at a1
  rw [a1]
  dsimp only
  simp only [M.then, b1, ret, c1, d1]

/-- C118 does not hold for the derived units: after the conversion of `c`, `b` has lost its own derived units and is not 3 metres any more. -/
theorem C118_violation_derived (n : Nat) : Valid chain ∧
    (∃ h1 r, siM (n + 2) 1 chain = (h1, .ok r) ∧ h1.unit r = single m ∧ h1.mags r = [3]) ∧
    ∃ h2 r, siM (n + 2) 2 chain = (h2, .ok r) ∧ ∃ h3 r', siM (n + 2) 1 h2 = (h3, .ok r') ∧ h3.unit r' = single foo ∧ h3.mags r' = [1] := by
  refine ⟨chain_valid, ?_, ?_⟩
  · obtain ⟨h', res, a1, -, -, a4⟩ := siM_spec (n + 2) (K := ℝ) _ chain 1 chain_valid (by simp [chain]) rfl
    have u1 : chain.unit 1 = single foo := rfl
    have d1 : (chain.obj 1).derived = [(.sym foo, false, some 0)] := rfl
    rw [d1, chain_tables.1, chain_tables.2.2, u1, fooTable_si] at a4
    obtain ⟨r, rfl, -, -, b1, b2⟩ := a4
    refine ⟨h', r, a1, b2, ?_⟩
    rw [b1]
    simp [Heap.mags, chain, Heap.obj]
  · obtain ⟨h2, r, e1, v2, x2⟩ := chain_linked n
    have l1 : 1 < linked.objs.length := by simp [linked]
    have ho := x2.same l1 rfl
    refine ⟨h2, r, e1, ?_⟩
    obtain ⟨h3, res, a1, -, -, a4⟩ := siM_spec (n + 2) (K := ℝ) _ h2 1 v2 (l1.trans_le x2.len) rfl
    have u1 : linked.unit 1 = single foo := rfl
    have m1 : linked.mags 1 = [1] := by simp [Heap.mags, linked, Heap.obj]
    have t1 : linked.table (linked.obj 1).derived = [⟨.sym bar, false, some ⟨1, single foo⟩⟩] := by
      simp [Heap.table, linked, Heap.mag, Heap.mags, Heap.unit, Heap.obj]
    have t2 : linked.table linked.globals = [] := rfl
    rw [x2.unit linked_valid l1, u1, ho, x2.table linked_valid (linked_valid.derived 1 l1), x2.globals,
      x2.table linked_valid linked_valid.globals, t1, t2, barTable_si] at a4
    obtain ⟨r', rfl, -, -, b1, b2⟩ := a4
    refine ⟨h3, r', a1, b2, ?_⟩
    rw [b1, x2.mags linked_valid l1, m1]
    simp

/-! ### Examples -/

theorem kmTable_good : GoodTables [] kmTable := by
  refine ⟨fun e he => by simp at he, fun e he d hd => ?_, fun e he d hd => ?_⟩ <;>
  · simp only [kmTable, List.nil_append, List.mem_singleton] at he
    subst he
    simp only [Option.mem_def, Option.some.injEq] at hd
    subst hd
    simp [single, Wf]

theorem kmTable_valuation : Valuation [] kmTable metres := by
  refine ⟨fun s => ?_, fun e he => by simp at he, fun e he _ => ?_⟩
  · unfold metres
    split_ifs <;> norm_num
  · simp only [kmTable, List.mem_singleton] at he
    subst he
    simp [EntryOk, amount, value, single, metres_km, metres_m, rpow_real]

/-- `q.SI` is `[1000, 2000] m`, and `q` stays what it was. -/
example (n : Nat) : ∃ h' r, siM (n + 2) 1 demo = (h', .ok r) ∧ amounts metres h' r = amounts metres demo 1 ∧ h'.unit r = single m ∧
    h'.unit 1 = single km ∧ amounts metres h' 1 = amounts metres demo 1 := by
  have l1 : 1 < demo.objs.length := by simp [demo]
  obtain ⟨h', res, a1, -, -, a4⟩ := siM_spec (n + 2) (K := ℝ) _ demo 1 demo_valid l1 rfl
  have u1 : demo.unit 1 = single km := rfl
  have d1 : (demo.obj 1).derived = [] := rfl
  have h1 : define [] kmTable m 1 = none := by
    have : km ≠ m := by decide
    simp [define, checkDu, kmTable, hasKey, getDu, this]
  have h2 : define [] kmTable km 1 = some (⟨1000, single m⟩, false) := by
    simp [define, checkDu, kmTable, hasKey, getDu]
  rw [d1, demo_tables.1, demo_tables.2, u1, si_defined (n + 1) h2 (si_undefined n h1)] at a4
  obtain ⟨r, rfl, -, -, b1, b2⟩ := a4
  have c := C118_si demo_valid l1 a1
  have hw : Wf (demo.unit 1) := by simp [u1, single, Wf]
  refine ⟨h', r, a1, (c.2.2 r rfl).2 metres ?_ ?_ hw, b2, ((c.2.1 1 l1).2.1), (c.2.1 1 l1).1 metres⟩
  · rw [d1, demo_tables.1, demo_tables.2]
    exact kmTable_good
  · rw [d1, demo_tables.1, demo_tables.2]
    exact kmTable_valuation

/-- `q.inunit('m')`: the amounts of `q` are kept, and those of the quantity `1000 m`. -/
example (n : Nat) : ∃ h', inunitM (n + 2) 1 (single m) demo = (h', .ok ()) ∧ amounts metres h' 1 = amounts metres demo 1 ∧
    h'.unit 1 = single m ∧ amounts metres h' 0 = amounts metres demo 0 := by
  have l1 : 1 < demo.objs.length := by simp [demo]
  have l0 : 0 < demo.objs.length := by simp [demo]
  obtain ⟨hm, a1, a2, a3, a4, a5⟩ := inunitM_spec (fuel := n + 2) (self := 1) (newunit := single m) (D := []) demo_valid l1 rfl
  have u1 : demo.unit 1 = single km := rfl
  have d1 : (demo.obj 1).derived = [] := rfl
  rw [demo_tables.1, demo_tables.2, u1, kmTable_tounit] at a5
  have c := C118_inunit_partial demo_valid l1 a5
  have hw : ∀ s, Wf (single s) := fun s => by simp [single, Wf]
  refine ⟨_, a5, (c.2.2 rfl).2 metres ?_ ?_ (hw km) (hw m) (by simp [u1, single]) (by simp [single]), (c.2.2 rfl).1, (c.2.1 0 l0 (.inl ⟨by decide, ?_⟩)).2 metres⟩
  · rw [d1, demo_tables.1, demo_tables.2]
    exact kmTable_good
  · rw [d1, demo_tables.1, demo_tables.2]
    exact kmTable_valuation
  · rintro ⟨h, -⟩
    exact absurd h (by simp [demo, Heap.obj])

/-- `q.tounit('m')`. -/
example (n : Nat) : ∃ h' r, tounitM (n + 2) 1 (single m) demo = (h', .ok r) ∧ amounts metres h' r = amounts metres demo 1 ∧
    h'.unit r = single m ∧ amounts metres h' 2 = amounts metres demo 2 := by
  have l1 : 1 < demo.objs.length := by simp [demo]
  have l2 : 2 < demo.objs.length := by simp [demo]
  obtain ⟨h', res, a1, -, -, a4⟩ := tounitM_spec (fuel := n + 2) (newunit := single m) demo_valid l1
  have u1 : demo.unit 1 = single km := rfl
  have d1 : (demo.obj 1).derived = [] := rfl
  rw [d1, demo_tables.1, demo_tables.2, u1, kmTable_tounit] at a4
  obtain ⟨rfl, -⟩ := a4
  have c := C118_tounit demo_valid l1 a1
  have hw : ∀ s, Wf (single s) := fun s => by simp [single, Wf]
  have cr := c.2.2 _ rfl
  refine ⟨h', _, a1, cr.2.2 metres ?_ ?_ (hw km) (hw m) (by simp [u1, single]) (by simp [single]), cr.1, (c.2.1 2 l2).2 metres⟩
  · rw [d1, demo_tables.1, demo_tables.2]
    exact kmTable_good
  · rw [d1, demo_tables.1, demo_tables.2]
    exact kmTable_valuation

/-- A program: a slice, a product of it by itself, conversions of both, a division that fails. -/
example (fuel : Nat) (w : Sym → ℝ) : amounts w (run fuel [.view 1 [1], .mul 3 3, .tounit 4 [(m, 2)], .si 3, .div 1 0, .copy 1 (some (single m))] demo) 1 =
    amounts w demo 1 :=
  ((C118_history fuel _ demo_valid).2 1 (by simp [demo])).2 w

end Verif.Units.Mem
