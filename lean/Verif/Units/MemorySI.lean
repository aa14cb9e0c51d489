import Verif.Units.MemoryLemmas

/-!
The conversion to SI units in the memory computes the conversion of the amounts (Model.lean, `si`) and only adds to the memory.
-/
namespace Verif.Units.Mem
open Verif.Py

variable {K : Type} [Field K] [RatPow K]

/-- A scalar factor in the memory. -/
structure Holds (D : RefTable) (h : Heap K) (i : Nat) (q : Q K) : Prop where
  lt : i < h.objs.length
  derived : (h.obj i).derived = D
  mags : h.mags i = [q.mag]
  unit : h.unit i = q.unit

omit [RatPow K] in
theorem find_map (h : Heap K) (T : RefTable) (key : DKey) : ((h.table T).find? fun e => e.key = key) =
    (T.find? fun e => e.1 = key).map fun e => ⟨e.1, e.2.1, e.2.2.map fun i => ⟨h.mag i, h.unit i⟩⟩ := by
  unfold Heap.table
  rw [List.find?_map]
  rfl

omit [RatPow K] in
theorem getDuM_spec {D T : RefTable} {h : Heap K} {input : Nat} (key : DKey) (v : Valid h) (hi : input < h.objs.length)
    (hd : (h.obj input).derived = D) (hT : GoodTable h T) (hu : ∀ r ∈ refs T, Used h D r) :
    match getDu (h.table T) key with
    | none => getDuM input T key h = (h, .ok none)
    | some (q, b) => ∃ h' du, getDuM input T key h = (h', .ok (some (du, b))) ∧ Ext D h h' ∧ Valid h' ∧ Holds D h' du q := by
  unfold getDu getDuM
  rw [find_map]
  rcases hf : T.find? fun e => e.1 = key with _ | ⟨k, b, _ | du⟩
  · simp only [hf, Option.map_none]
  · simp only [hf, Option.map_some, Option.map_none]
  · have hr : du ∈ refs T := List.mem_filterMap.2 ⟨_, List.mem_of_find?_eq_some hf, rfl⟩
    have hD : GoodTable h D := hd ▸ v.derived input hi
    have e := link_ext (h := h) (hu du hr)
    have hl := (hT du hr).1
    simp only [hf, Option.map_some]
    refine ⟨_, du, ?_, e, link_valid v hD du, ?_, ?_, ?_, ?_⟩
    · rw [hd]
      rfl
    · exact hl.trans_le e.len
    · rw [setObj_obj _ _ _ _ hl, if_pos rfl]
    · rw [e.mags v hl, mags_single (hT du hr).2]
    · exact e.unit v hl

omit [RatPow K] in
theorem result_spec {D : RefTable} {h : Heap K} {i : Nat} (v : Valid h) (hi : i < h.objs.length) (hd : (h.obj i).derived = D) (xs : List K)
    (u : UnitD) : ∃ h', result i xs u h = (h', .ok h.objs.length) ∧ Fresh D D h h' h.objs.length ∧ h'.mags h.objs.length = xs ∧
      h'.unit h.objs.length = u := by
  unfold result
  rw [hd]
  exact ⟨_, rfl, create_fresh D v xs u (hd ▸ v.derived i hi), create_mags _ _ _ _, create_unit _ _ _ _⟩

/-- What `SI` does in the memory. -/
def SISpec (n : Nat) (SI : Nat → M K Nat) : Prop :=
  ∀ (D : RefTable) (h : Heap K) (i : Nat), Valid h → i < h.objs.length → (h.obj i).derived = D →
    ∃ h' res, SI i h = (h', res) ∧ Ext D h h' ∧ Valid h' ∧
      match si n (h.table D) (h.table h.globals) ⟨1, h.unit i⟩ with
      | .error e => res = .error e
      | .ok q => ∃ r, res = .ok r ∧ (r = i ∧ h.unit i = [] ∨ h.objs.length ≤ r ∧ h.bufs.length ≤ (h'.obj r).buf) ∧ r < h'.objs.length ∧
          h'.mags r = (h.mags i).map (· * q.mag) ∧ h'.unit r = q.unit

/-- `SI` of a scalar. -/
theorem SISpec.scalar {n : Nat} {SI : Nat → M K Nat} (hs : SISpec n SI) {D : RefTable} {h : Heap K} {i : Nat} {q : Q K} (v : Valid h)
    (hq : Holds D h i q) : ∃ h' res, SI i h = (h', res) ∧ Ext D h h' ∧ Valid h' ∧
      match si n (h.table D) (h.table h.globals) q with
      | .error e => res = .error e
      | .ok d => ∃ r, res = .ok r ∧ r < h'.objs.length ∧ h'.mags r = [d.mag] ∧ h'.unit r = d.unit := by
  obtain ⟨h', res, e1, e2, e3, e4⟩ := hs D h i v hq.lt hq.derived
  refine ⟨h', res, e1, e2, e3, ?_⟩
  rw [si_scale]
  rw [hq.unit] at e4
  cases hr : si n (h.table D) (h.table h.globals) ⟨1, q.unit⟩ with
  | error e =>
    rw [hr] at e4
    exact e4
  | ok d =>
    rw [hr] at e4
    obtain ⟨r, a, -, b, c, d'⟩ := e4
    refine ⟨r, a, b, ?_, d'⟩
    rw [c, hq.mags]
    rfl

/-- The result of the expansion of a derived unit. -/
def Expands (n : Nat) (L G : DTable K) (c : Option (Q K × Bool)) (h' : Heap K) (res : Res (Option (Nat × Bool))) : Prop :=
  match c with
  | none => res = .ok none
  | some (q, b) => match si n L G q with
    | .error e => res = .error e
    | .ok d => ∃ r, res = .ok (some (r, b)) ∧ r < h'.objs.length ∧ h'.mags r = [d.mag] ∧ h'.unit r = d.unit

/-- The expansion after the definition has been found. -/
theorem expand_spec {n : Nat} {SI : Nat → M K Nat} (hs : SISpec n SI) {D : RefTable} {h : Heap K} {i : Nat} {q : Q K} (b : Bool) (v : Valid h)
    (hq : Holds D h i q) : ∃ h' res, ((SI i).then fun d => ret (some (d, b))) h = (h', res) ∧ Ext D h h' ∧ Valid h' ∧
      Expands n (h.table D) (h.table h.globals) (some (q, b)) h' res := by
  obtain ⟨h', res, e1, e2, e3, e4⟩ := hs.scalar v hq
  unfold M.then Expands
  rw [e1]
  cases hr : si n (h.table D) (h.table h.globals) q with
  | error e =>
    rw [hr] at e4
    subst e4
    refine ⟨_, _, rfl, e2, e3, ?_⟩
    simp only [hr]
  | ok d =>
    rw [hr] at e4
    obtain ⟨r, rfl, b', c, d'⟩ := e4
    refine ⟨_, _, rfl, e2, e3, ?_⟩
    simp only [hr]
    exact ⟨r, rfl, b', c, d'⟩

omit [RatPow K] in
/-- `1 / du` and `du**val`. -/
theorem derive_spec {D : RefTable} {h : Heap K} {i : Nat} {q : Q K} (v : Valid h) (hq : Holds D h i q) (f : K → K) (u : UnitD) :
    ∃ h' j, result i ((h.mags i).map f) u h = (h', .ok j) ∧ Ext D h h' ∧ Valid h' ∧ Holds D h' j ⟨f q.mag, u⟩ := by
  obtain ⟨h', e1, e2, e3, e4⟩ := result_spec v hq.lt hq.derived ((h.mags i).map f) u
  refine ⟨h', _, e1, e2.ext, e2.valid, e2.lt, e2.derived, ?_, e4⟩
  rw [e3, hq.mags]
  rfl

omit [RatPow K] in
theorem table_any (h : Heap K) (T : RefTable) (key : DKey) : hasKey (h.table T) key = T.any fun e => e.1 = key := by
  unfold hasKey Heap.table
  rw [List.any_map]
  rfl

theorem checkDuM_spec {n : Nat} {SI : Nat → M K Nat} (hs : SISpec n SI) {D T : RefTable} {h : Heap K} {input : Nat} (key : Sym) (val : ℚ) (v : Valid h)
    (hi : input < h.objs.length) (hd : (h.obj input).derived = D) (hT : GoodTable h T) (hu : ∀ r ∈ refs T, Used h D r) :
    ∃ h' res, checkDuM SI input T key val h = (h', res) ∧ Ext D h h' ∧ Valid h' ∧
      Expands n (h.table D) (h.table h.globals) (checkDu (h.table T) key val) h' res := by
  have hD : GoodTable h D := hd ▸ v.derived input hi
  -- the three cases share the search and the expansion
  have main : ∀ (k : DKey) (g : Nat → M K Nat) (g' : Q K → Q K)
      (_ : ∀ {h : Heap K} {i : Nat} {q : Q K}, Valid h → Holds D h i q → ∃ h' j, g i h = (h', .ok j) ∧ Ext D h h' ∧ Valid h' ∧ Holds D h' j (g' q)),
      ∃ h' res, ((getDuM input T k).then fun
        | none => ret none
        | some (du, b) => (g du).then fun du => (SI du).then fun d => ret (some (d, b))) h = (h', res) ∧ Ext D h h' ∧ Valid h' ∧
        Expands n (h.table D) (h.table h.globals) ((getDu (h.table T) k).map fun x => (g' x.1, x.2)) h' res := by
    intro k g g' hg
    have e := getDuM_spec k v hi hd hT hu
    rcases hc : getDu (h.table T) k with _ | ⟨q, b⟩
    · rw [hc] at e
      refine ⟨h, .ok none, ?_, .refl _ _, v, rfl⟩
      unfold M.then
      rw [e]
      rfl
    · rw [hc] at e
      obtain ⟨h1, du, e1, e2, e3, e4⟩ := e
      obtain ⟨h2, j, f1, f2, f3, f4⟩ := hg e3 e4
      obtain ⟨h3, res, k1, k2, k3, k4⟩ := expand_spec hs b f3 f4
      refine ⟨h3, res, ?_, e2.trans (f2.trans k2), k3, ?_⟩
      · rw [M.then, e1]
        dsimp only
        rw [M.then, f1]
        exact k1
      · have t := e2.trans f2
        rw [t.table v hD, t.globals, t.table v v.globals] at k4
        exact k4
  unfold checkDuM checkDu
  have hlen : (h.table T).length = T.length := by simp [Heap.table]
  rw [hlen]
  by_cases h0 : T.length = 0
  · rw [if_pos h0, if_pos h0]
    exact ⟨h, .ok none, rfl, .refl _ _, v, rfl⟩
  rw [if_neg h0, if_neg h0, table_any, table_any]
  split
  · obtain ⟨h', res, a1, a2, a3, a4⟩ := main (.pow key val) ret id fun {h} {i} {q} v hq => ⟨h, i, rfl, .refl _ _, v, hq⟩
    refine ⟨h', res, a1, a2, a3, ?_⟩
    simpa using a4
  · split
    · exact main (.pow key (-val)) recip Verif.Units.recip fun {h} {i} {q} v hq => by
        obtain ⟨h', j, b1, b2, b3, b4⟩ := derive_spec v hq (fun x => 1 / x) (divUnit [] (h.unit i))
        rw [hq.unit] at b4
        exact ⟨h', j, b1, b2, b3, b4⟩
    · refine main (.sym key) (fun du => if val = 1 then ret du else if val = -1 then recip du else pow du val)
        (fun du => if val = 1 then du else if val = -1 then Verif.Units.recip du else powQ du val) fun {h} {i} {q} v hq => ?_
      by_cases h1 : val = 1
      · simp only [if_pos h1]
        exact ⟨h, i, rfl, .refl _ _, v, hq⟩
      · simp only [if_neg h1]
        by_cases h2 : val = -1
        · simp only [if_pos h2]
          obtain ⟨h', j, b1, b2, b3, b4⟩ := derive_spec v hq (fun x => 1 / x) (divUnit [] (h.unit i))
          rw [hq.unit] at b4
          exact ⟨h', j, b1, b2, b3, b4⟩
        · simp only [if_neg h2]
          obtain ⟨h', j, b1, b2, b3, b4⟩ := derive_spec v hq (fun x => RatPow.rpow x val) (powUnit (h.unit i) val)
          rw [hq.unit] at b4
          exact ⟨h', j, b1, b2, b3, b4⟩

theorem defineM_spec {n : Nat} {SI : Nat → M K Nat} (hs : SISpec n SI) {D : RefTable} {h : Heap K} {input : Nat} (key : Sym) (val : ℚ) (v : Valid h)
    (hi : input < h.objs.length) (hd : (h.obj input).derived = D) :
    ∃ h' res, defineM SI input key val h = (h', res) ∧ Ext D h h' ∧ Valid h' ∧
      Expands n (h.table D) (h.table h.globals) (define (h.table D) (h.table h.globals) key val) h' res := by
  have hD : GoodTable h D := hd ▸ v.derived input hi
  obtain ⟨h1, r1, a1, a2, a3, a4⟩ := checkDuM_spec hs key val v hi hd hD fun r hr => .inl hr
  unfold defineM define
  rw [hd, M.then, a1]
  rcases hc : checkDu (h.table D) key val with _ | ⟨q, b⟩
  · rw [hc] at a4
    replace a4 : r1 = .ok none := a4
    subst a4
    have hi1 := hi.trans_le a2.len
    obtain ⟨h2, r2, b1, b2, b3, b4⟩ := checkDuM_spec hs (T := h.globals) key val a3 hi1 ((congrArg Obj.derived (a2.same hi hd)).trans hd)
      (a2.good v.globals) (fun r hr => .inr (by rw [a2.globals]; exact hr))
    refine ⟨h2, r2, b1, a2.trans b2, b3, ?_⟩
    rw [a2.table v hD, a2.globals, a2.table v v.globals] at b4
    exact b4
  · rw [hc] at a4
    unfold Expands at a4 ⊢
    dsimp only at a4 ⊢
    cases hr : si n (h.table D) (h.table h.globals) q with
    | error e =>
      rw [hr] at a4
      dsimp only at a4
      subst a4
      exact ⟨h1, .error e, rfl, a2, a3, by simp only⟩
    | ok d =>
      rw [hr] at a4
      obtain ⟨r, rfl, b', c, d'⟩ := a4
      exact ⟨h1, _, rfl, a2, a3, ⟨r, rfl, b', c, d'⟩⟩

/-! ### The loop on the symbols -/

/-- The factors accumulated by the loop, since the memory `h0`. -/
structure Inv (D : RefTable) (h0 h : Heap K) (slow fast : Nat) (f : Q K × Q K) : Prop where
  ext : Ext D h0 h
  valid : Valid h
  slow_lt : slow < h.objs.length
  fast_lt : fast < h.objs.length
  own : h0.dicts.length ≤ (h.obj slow).unit
  diff : (h.obj slow).unit ≠ (h.obj fast).unit
  slow_mags : h.mags slow = [f.1.mag]
  slow_unit : h.unit slow = f.1.unit
  fast_mags : h.mags fast = [f.2.mag]
  fast_unit : h.unit fast = f.2.unit

omit [Field K] [RatPow K] in
theorem prefix_modify {α : Type} {l l' : List α} (h : l <+: l') {i : Nat} (hi : l.length ≤ i) (f : α → α) : l <+: l'.modify i f := by
  obtain ⟨t, rfl⟩ := h
  refine ⟨t.modify (i - l.length) f, ?_⟩
  apply List.ext_getElem?
  intro j
  rw [List.getElem?_modify]
  by_cases hj : j < l.length
  · have : i ≠ j := by omega
    rw [List.getElem?_append_left hj, List.getElem?_append_left hj]
    simp [this]
  · rw [List.getElem?_append_right (by omega), List.getElem?_append_right (by omega), List.getElem?_modify]
    have : i - l.length = j - l.length ↔ i = j := by omega
    simp only [this]

omit [RatPow K] in
theorem Inv.inplace {D : RefTable} {h0 h : Heap K} {slow fast : Nat} {f : Q K × Q K} (i : Inv D h0 h slow fast f) (key : Sym) (val : ℚ) :
    Inv D h0 (multiplyInplace slow key val h).1 slow fast ({ f.1 with unit := mulInplace f.1.unit key val }, f.2) := by
  have hl := i.valid.unit slow i.slow_lt
  refine ⟨⟨i.ext.bufs, prefix_modify i.ext.dicts i.own _, i.ext.len, i.ext.globals, i.ext.objs⟩,
    ⟨i.valid.buf, i.valid.pos, fun j hj => ?_, i.valid.derived, i.valid.globals⟩, i.slow_lt, i.fast_lt, i.own, i.diff, i.slow_mags, ?_,
    i.fast_mags, ?_⟩
  · show (h.obj j).unit < (h.dicts.modify (h.obj slow).unit fun u => mulInplace u key val).length
    rw [List.length_modify]
    exact i.valid.unit j hj
  · show (h.dicts.modify (h.obj slow).unit fun u => mulInplace u key val).getD (h.obj slow).unit [] = _
    simp only [List.getD_eq_getElem?_getD, List.getElem?_modify, if_pos, List.getElem?_eq_getElem hl]
    have := i.slow_unit
    unfold Heap.unit at this
    rw [List.getD_eq_getElem?_getD, List.getElem?_eq_getElem hl] at this
    simp only [Option.getD_some] at this
    simp [this]
  · show (h.dicts.modify (h.obj slow).unit fun u => mulInplace u key val).getD (h.obj fast).unit [] = _
    rw [List.getD_eq_getElem?_getD, List.getElem?_modify]
    simp only [if_neg i.diff]
    rw [← i.fast_unit]
    unfold Heap.unit
    rw [List.getD_eq_getElem?_getD]
    simp

omit [RatPow K] in
theorem Inv.later {D : RefTable} {h0 h h' : Heap K} {slow fast : Nat} {f : Q K × Q K} (i : Inv D h0 h slow fast f) (e : Ext D h h')
    (v : Valid h') : Inv D h0 h' slow fast f := by
  refine ⟨i.ext.trans e, v, i.slow_lt.trans_le e.len, i.fast_lt.trans_le e.len, ?_, ?_, ?_, ?_, ?_, ?_⟩
  · rw [(e.fields i.slow_lt).2.2]
    exact i.own
  · rw [(e.fields i.slow_lt).2.2, (e.fields i.fast_lt).2.2]
    exact i.diff
  · rw [e.mags i.valid i.slow_lt, i.slow_mags]
  · rw [e.unit i.valid i.slow_lt, i.slow_unit]
  · rw [e.mags i.valid i.fast_lt, i.fast_mags]
  · rw [e.unit i.valid i.fast_lt, i.fast_unit]

omit [RatPow K] in
theorem mul_spec {D : RefTable} {h : Heap K} {i j : Nat} (v : Valid h) (hi : i < h.objs.length) {a b : Q K}
    (ha : h.mags i = [a.mag]) (hau : h.unit i = a.unit) (hb : h.mags j = [b.mag]) (hbu : h.unit j = b.unit) :
    ∃ h', mul i j h = (h', .ok h.objs.length) ∧ Fresh D (h.obj i).derived h h' h.objs.length ∧ h'.mags h.objs.length = [(mulQ a b).mag] ∧
      h'.unit h.objs.length = (mulQ a b).unit := by
  unfold mul result
  rw [ha, hb, hau, hbu, if_pos (by rfl)]
  exact ⟨_, rfl, create_fresh D v _ _ (v.derived i hi), create_mags _ _ _ _, create_unit _ _ _ _⟩

theorem loop_spec {n : Nat} {SI : Nat → M K Nat} (hs : SISpec n SI) {D : RefTable} {h0 : Heap K} (v0 : Valid h0) {input : Nat}
    (hi : input < h0.objs.length) (hd : (h0.obj input).derived = D) : ∀ (u : UnitD) (h : Heap K) (slow fast : Nat) (f : Q K × Q K),
    Inv D h0 h slow fast f → ∃ h' res, loopM SI input u slow fast h = (h', res) ∧ Ext D h0 h' ∧ Valid h' ∧
      match u.foldlM (siStep n (h0.table D) (h0.table h0.globals)) f with
      | .error e => res = .error e
      | .ok f' => ∃ s t, res = .ok (s, t) ∧ Inv D h0 h' s t f'
  | [], h, slow, fast, f, i => ⟨h, .ok (slow, fast), rfl, i.ext, i.valid, slow, fast, rfl, i⟩
  | (key, val) :: u, h, slow, fast, f, i => by
    have hD : GoodTable h0 D := hd ▸ v0.derived input hi
    obtain ⟨h1, r1, a1, a2, a3, a4⟩ := defineM_spec hs key val i.valid (hi.trans_le i.ext.len) ((congrArg Obj.derived (i.ext.same hi hd)).trans hd)
    rw [i.ext.table v0 hD, i.ext.globals, i.ext.table v0 v0.globals] at a4
    have i1 := i.later a2 a3
    rw [loopM, M.then, a1, List.foldlM_cons]
    simp only [bind, Except.bind]
    unfold siStep
    dsimp only
    rcases hc : define (h0.table D) (h0.table h0.globals) key val with _ | ⟨q, b⟩
    · rw [hc] at a4
      replace a4 : r1 = .ok none := a4
      subst a4
      exact loop_spec hs v0 hi hd u _ slow fast _ (i1.inplace key val)
    · rw [hc] at a4
      unfold Expands at a4
      dsimp only at a4 ⊢
      cases hr : si n (h0.table D) (h0.table h0.globals) q with
      | error e =>
        rw [hr] at a4
        dsimp only at a4
        subst a4
        exact ⟨h1, .error e, rfl, i1.ext, a3, rfl⟩
      | ok d =>
        rw [hr] at a4
        obtain ⟨r, rfl, b1, b2, b3⟩ := a4
        cases b with
        | false =>
          obtain ⟨h2, c1, c2, c3, c4⟩ := mul_spec (D := D) a3 i1.slow_lt i1.slow_mags i1.slow_unit b2 b3
          have i2 := i1.later c2.ext c2.valid
          have hne : (h2.obj h1.objs.length).unit ≠ (h2.obj fast).unit := by
            have := a3.unit fast i1.fast_lt
            rw [(c2.ext.fields i1.fast_lt).2.2]
            have := c2.dict
            omega
          obtain ⟨h3, res, e1, e2⟩ := loop_spec hs v0 hi hd u h2 _ fast (mulQ f.1 d, f.2)
            ⟨i2.ext, c2.valid, c2.lt, i2.fast_lt, i1.ext.dicts.length_le.trans c2.dict, hne, c3, c4, i2.fast_mags, i2.fast_unit⟩
          refine ⟨h3, res, ?_, e2⟩
          dsimp only
          rw [M.then, c1]
          exact e1
        | true =>
          obtain ⟨h2, c1, c2, c3, c4⟩ := mul_spec (D := D) a3 i1.fast_lt i1.fast_mags i1.fast_unit b2 b3
          have i2 := i1.later c2.ext c2.valid
          have hne : (h2.obj slow).unit ≠ (h2.obj h1.objs.length).unit := by
            have := a3.unit slow i1.slow_lt
            rw [(c2.ext.fields i1.slow_lt).2.2]
            have := c2.dict
            omega
          obtain ⟨h3, res, e1, e2⟩ := loop_spec hs v0 hi hd u h2 slow _ (f.1, mulQ f.2 d)
            ⟨i2.ext, c2.valid, i2.slow_lt, c2.lt, i2.own, hne, i2.slow_mags, i2.slow_unit, c3, c4⟩
          refine ⟨h3, res, ?_, e2⟩
          dsimp only
          rw [M.then, c1]
          exact e1

omit [RatPow K] in
theorem scale_spec {D : RefTable} {h : Heap K} {i : Nat} (v : Valid h) (hi : i < h.objs.length) (x : K) :
    ∃ h', scale i x h = (h', .ok h.objs.length) ∧ Fresh D (h.obj i).derived h h' h.objs.length ∧ h'.mags h.objs.length = (h.mags i).map (· * x) := by
  unfold scale result
  exact ⟨_, rfl, create_fresh D v _ _ (v.derived i hi), create_mags _ _ _ _⟩

theorem siM_spec : ∀ n : Nat, SISpec n (siM n : Nat → M K Nat)
  | 0 => fun D h i v _ _ => ⟨h, .error .recursionError, rfl, .refl _ _, v, rfl⟩
  | n + 1 => fun D h i v hi hd => by
    rw [si_succ]
    by_cases hu : (h.unit i).length = 0
    · refine ⟨h, .ok i, ?_, .refl _ _, v, ?_⟩
      · exact if_pos hu
      · rw [if_pos hu]
        refine ⟨i, rfl, .inl ⟨rfl, List.length_eq_zero_iff.1 hu⟩, hi, by simp, rfl⟩
    · rw [if_neg hu]
      dsimp only
      have fr1 := create_fresh (K := K) D v [1] [] (T := []) (fun r hr => by simp [refs] at hr)
      have fr2 := create_fresh (K := K) D fr1.valid [1] [] (T := []) (fun r hr => by simp [refs] at hr)
      set h1 : Heap K := (create [1] [] [] h).1 with e1
      set h2 : Heap K := (create [1] [] [] h1).1 with e2
      have hne : (h2.obj h1.objs.length).unit ≠ (h2.obj h.objs.length).unit := by
        have a := fr2.dict
        have b := fr1.valid.unit _ fr1.lt
        rw [(fr2.ext.fields fr1.lt).2.2]
        omega
      have inv : Inv D h h2 h1.objs.length h.objs.length (⟨1, []⟩, ⟨1, []⟩) := by
        refine ⟨fr1.ext.trans fr2.ext, fr2.valid, fr2.lt, fr1.lt.trans_le fr2.ext.len, fr1.ext.dicts.length_le.trans fr2.dict, hne, ?_, ?_, ?_, ?_⟩
        · exact create_mags _ _ _ _
        · exact create_unit _ _ _ _
        · rw [fr2.ext.mags fr1.valid fr1.lt]
          exact create_mags _ _ _ _
        · rw [fr2.ext.unit fr1.valid fr1.lt]
          exact create_unit _ _ _ _
      obtain ⟨h3, res, a1, a2, a3, a4⟩ := loop_spec (siM_spec n) v hi hd (h.unit i) h2 _ _ _ inv
      have heq : siM (n + 1) i h = ((loopM (siM n) i (h.unit i) h1.objs.length h.objs.length).then fun (slow, fast) => fun h' =>
        ((scale i (h'.mag slow)).then fun r => (scale r (h'.mag fast)).then fun r =>
          (newDict (mulUnit (h'.unit slow) (h'.unit fast))).then fun d => (setObj r fun o => { o with unit := d }).then fun _ => ret r) h') h2 := by
        exact if_neg hu
      rw [heq, M.then, a1]
      cases hf : (h.unit i).foldlM (siStep n (h.table D) (h.table h.globals)) (⟨1, []⟩, ⟨1, []⟩) with
      | error e =>
        rw [hf] at a4
        dsimp only at a4
        subst a4
        exact ⟨h3, .error e, rfl, a2, a3, rfl⟩
      | ok f =>
        rw [hf] at a4
        obtain ⟨s, t, rfl, j⟩ := a4
        dsimp only
        have hi3 := hi.trans_le a2.len
        obtain ⟨h4, b1, b2, b3⟩ := scale_spec (D := D) a3 hi3 (h3.mag s)
        obtain ⟨h5, c1, c2, c3⟩ := scale_spec (D := D) b2.valid b2.lt (h3.mag t)
        have e5 := newDict_ext D (mulUnit (h3.unit s) (h3.unit t)) h5
        have v5 := newDict_valid c2.valid (mulUnit (h3.unit s) (h3.unit t))
        set h6 := (newDict (mulUnit (h3.unit s) (h3.unit t)) h5).1 with e6
        have ext6 : Ext D h h6 := a2.trans (b2.ext.trans (c2.ext.trans e5))
        have le4 : h.objs.length ≤ h4.objs.length := a2.len.trans b2.ext.len
        have hlt : h4.objs.length < h6.objs.length := c2.lt.trans_le e5.len
        refine ⟨(setObj h4.objs.length (fun o => { o with unit := h5.dicts.length }) h6).1, .ok h4.objs.length, ?_, retag_ext ext6 le4,
          retag_valid v5 (by simp [e6, newDict]), h4.objs.length, rfl, .inr ⟨le4, ?_⟩, ?_, ?_, ?_⟩
        · rw [M.then, b1]
          dsimp only
          rw [M.then, c1]
          rfl
        · rw [setObj_obj _ _ _ _ hlt, if_pos rfl]
          show h.bufs.length ≤ (h6.obj h4.objs.length).buf
          rw [(e5.fields c2.lt).1, c2.buf]
          exact a2.bufs.length_le.trans b2.ext.bufs.length_le
        · exact hlt.trans_le (setObj_length _ _ _).ge
        · have : (setObj h4.objs.length (fun o => { o with unit := h5.dicts.length }) h6).1.mags h4.objs.length = h6.mags h4.objs.length := by
            unfold Heap.mags
            rw [setObj_obj _ _ _ _ hlt, if_pos rfl]
            rfl
          rw [this, e5.mags c2.valid c2.lt, c3, b3, a2.mags v hi]
          have ms : h3.mag s = f.1.mag := by rw [Heap.mag, j.slow_mags]; rfl
          have mt : h3.mag t = f.2.mag := by rw [Heap.mag, j.fast_mags]; rfl
          simp only [ms, mt, List.map_map]
          apply List.map_congr_left
          intro x _
          simp only [Function.comp]
          ring
        · unfold Heap.unit
          rw [setObj_obj _ _ _ _ hlt, if_pos rfl]
          show h6.dicts.getD h5.dicts.length [] = _
          rw [j.slow_unit, j.fast_unit] at e6
          rw [e6]
          simp [newDict]

end Verif.Units.Mem
