import Verif.Pointing.Props

/-! Properties C73 to C76: masks, products with the transpose, coverage and rules of the legacy pointing matrices. -/
namespace Verif.Pointing
set_option linter.unusedSectionVars false
open Verif.Py Verif.Sparse Finset

variable {R : Type} [CommRing R] [DecidableEq R]

/-! ### C73 -/

theorem getMask_ok {P : PMat R} (hw : Wf P) (hv : Valid P P.shapeInput.prod) (o : List Bool) (ho : o.length = P.shapeInput.prod) :
    ∃ mask, P.getMask (some o) = .ok mask ∧ mask.length = P.shapeInput.prod ∧
      ∀ k : Nat, mask[k]? = some true ↔ (o[k]? = some true ∧ ∀ row ∈ P.rows, ∀ e ∈ seen row, e.value ≠ 0 → e.index ≠ (k : Int)) := by
  rw [PMat.getMask.eq_def]
  simp only
  rw [if_neg (by rw [PMat.npixels]; omega)]
  by_cases hs : P.size = 0
  · rw [if_pos hs]
    refine ⟨o, rfl, ho, fun k => ⟨fun h => ⟨h, fun row hr e he => ?_⟩, fun h => h.1⟩⟩
    exfalso
    rw [PMat.size, Nat.mul_eq_zero] at hs
    rcases hs with hs | hs
    · have := List.length_eq_zero_iff.1 hs
      simp [this] at hr
    · have : row = [] := List.length_eq_zero_iff.1 (by rw [hw _ hr, hs])
      simp [this, seen] at he
  · rw [if_neg hs]
    exact maskRows_ok P.rows o ho hv

/-- C73: the mask is true exactly for the pixels that no sample sees with a value different from zero; with an output argument, the pixels that
were already false stay false. -/
theorem C73_mask (P : PMat R) (hw : Wf P) (hv : Valid P P.shapeInput.prod) :
    (∃ mask, P.getMask none = .ok mask ∧ mask.length = P.shapeInput.prod ∧
      ∀ k : Nat, k < P.shapeInput.prod →
        (mask[k]? = some true ↔ ∀ row ∈ P.rows, ∀ e ∈ seen row, e.value ≠ 0 → e.index ≠ (k : Int))) ∧
    ∀ o : List Bool, o.length = P.shapeInput.prod → ∃ mask, P.getMask (some o) = .ok mask ∧ mask.length = P.shapeInput.prod ∧
      ∀ k : Nat, k < P.shapeInput.prod →
        (mask[k]? = some true ↔ o[k]? = some true ∧ ∀ row ∈ P.rows, ∀ e ∈ seen row, e.value ≠ 0 → e.index ≠ (k : Int)) := by
  constructor
  · obtain ⟨mask, h1, h2, h3⟩ := getMask_ok hw hv (List.replicate P.shapeInput.prod true) (by simp)
    refine ⟨mask, ?_, h2, fun k hk => ?_⟩
    · rw [← h1, PMat.getMask.eq_def, PMat.getMask.eq_def]
      simp only [List.length_replicate, PMat.npixels, ne_eq, not_true_eq_false, if_false]
    · rw [h3, List.getElem?_replicate, if_pos hk]
      simp
  · intro o ho
    obtain ⟨mask, h1, h2, h3⟩ := getMask_ok hw hv o ho
    exact ⟨mask, h1, h2, fun k _ => h3 k⟩

/-- C73: packing with this mask does not change the projection (two elements per sample or more, or zeros in the buffers). -/
theorem C73_pack_partial (P P' : PMat R) (hw : Wf P) (hv : Valid P P.shapeInput.prod) (mask : List Bool) (hmask : P.getMask none = .ok mask)
    (junk : Int) (hs : P.size ≠ 0) (h : P.pack junk mask = .ok P') (map garbage out : List R) (hm : map.length = P.shapeInput.prod)
    (hg : garbage.length = P.rows.length) (hl : out.length = P.rows.length) (contiguous : Bool)
    (ho : 2 ≤ P.npps ∨ ((∀ x ∈ out, x = 0) ∧ ∀ x ∈ garbage, x = 0)) :
    opDirect P' contiguous garbage (restrict mask map) out = opDirect P contiguous garbage map out := by
  obtain ⟨⟨mask', h1, h2, h3⟩, _⟩ := C73_mask P hw hv
  rw [hmask] at h1
  cases h1
  rw [C37_project_partial P P' _ hw hv mask h2 junk hs h map garbage out hm hg hl contiguous ho]
  have hz : (zeroed mask map).length = P.shapeInput.prod := by rw [zeroed]; simp; omega
  have hproj : ∀ row ∈ P.rows, project P.shapeInput.prod row (zeroed mask map) = project P.shapeInput.prod row map := by
    intro row hr
    refine Finset.sum_congr rfl fun k hk => ?_
    rw [zeroed_get mask map (by omega)]
    split_ifs with hmk
    · have := (h3 k (Finset.mem_range.1 hk)).1 hmk row hr
      have he : entry row k = 0 := by
        rw [entry]
        refine List.sum_eq_zero fun x hx => ?_
        obtain ⟨e, he, rfl⟩ := List.mem_map.1 hx
        split_ifs with hek
        · by_contra hc
          exact this e he hc hek
        · rfl
      rw [he, zero_mul, zero_mul]
    · rfl
  have hall : ∀ mp : List R, mp.length = P.shapeInput.prod → opDirect P contiguous garbage mp out =
      .ok (P.rows.map fun row => project P.shapeInput.prod row mp) := by
    intro mp hmp
    rcases ho with ho | ⟨a, b⟩
    · exact opDirect_overwrites hw hv (.inl ho) hmp hg hl contiguous
    · rw [(List.eq_replicate_iff (n := P.rows.length) (a := (0 : R))).2 ⟨hl, a⟩,
        (List.eq_replicate_iff (l := garbage) (n := P.rows.length) (a := (0 : R))).2 ⟨hg, b⟩]
      exact opDirect_zero hw hv hmp contiguous
  rw [hall _ hz, hall _ hm]
  congr 1
  exact List.map_congr_left hproj

/-- The hypotheses of C73. -/
example : sample.getMask none = .ok [false, false, false] ∧
    (⟨2, [[⟨1, 3⟩, ⟨-1, 0⟩], [⟨2, 0⟩, ⟨-1, 5⟩]], [3]⟩ : PMat Int).getMask none = .ok [true, false, true] ∧
    (⟨2, [[⟨1, 3⟩, ⟨-1, 0⟩], [⟨2, 0⟩, ⟨-1, 5⟩]], [3]⟩ : PMat Int).pack 0 [true, false, true] =
      .ok ⟨2, [[⟨0, 3⟩, ⟨-1, 0⟩], [⟨-1, 5⟩, ⟨-1, 0⟩]], [1]⟩ := by decide

/-- C73 fails for one element per sample and an output that does not contain zeros: after the packing, the samples that see a pixel with the value zero are not written. -/
theorem C73_violation_pack : ∃ (P P' : PMat Int) (mask : List Bool) (map out : List Int), Wf P ∧ Valid P P.shapeInput.prod ∧ P.getMask none = .ok mask ∧ P.pack 0 mask = .ok P' ∧
    opDirect P' true [0, 0] (restrict mask map) out = .ok [7, 12] ∧ opDirect P true [0, 0] map out = .ok [0, 12] :=
  ⟨⟨1, [[⟨0, 0⟩], [⟨1, 3⟩]], [2]⟩, ⟨1, [[⟨-1, 0⟩], [⟨0, 3⟩]], [1]⟩, [true, false], [5, 4], [7, 7], by unfold Wf; decide, by unfold Valid; decide, by decide, by decide,
    by decide, by decide⟩

/-! ### C74 -/

theorem ptpInner_adds {n : Nat} {i : Int} (h0 : 0 ≤ i) (h1 : i < n) (x : R) : ∀ row : List (Elem R), (∀ e ∈ row, EValid n e) →
    Adds (n * n) (ptpInner i x n row) (fun p => if i = ((p % n : Nat) : Int) then x * entry row (p / n) else 0)
  | [], _ => ((Adds.skip _).congr_fun fun _ _ => rfl).congr fun p _ => by simp [entry, seen]
  | e :: es, h => by
    by_cases hi : e.index = -1
    · refine ((Adds.skip _).congr_fun fun o _ => by rw [ptpInner, if_pos hi]).congr fun p _ => ?_
      rw [entry_cons, if_pos hi]
      simp
    · obtain ⟨g0, g1⟩ := (h e (List.mem_cons_self ..)).resolve_left hi
      have ih := ptpInner_adds h0 h1 x es fun a ha => h a (List.mem_cons_of_mem _ ha)
      obtain ⟨a, rfl⟩ := Int.eq_ofNat_of_zero_le h0
      obtain ⟨b, hb⟩ := Int.eq_ofNat_of_zero_le g0
      have hn : 0 < n := by omega
      have hlt : a + b * n < n * n := by
        have : (b + 1) * n ≤ n * n := Nat.mul_le_mul_right _ (by omega)
        rw [Nat.add_mul, Nat.one_mul] at this
        omega
      have hadd := (addI_adds (R := R) (N := n * n) (i := (a : Int) + e.index * n) (by rw [hb]; exact_mod_cast Nat.zero_le _)
        (by rw [hb]; exact_mod_cast hlt) (x * e.value)).seq ih
      refine (hadd.congr_fun fun o _ => by rw [ptpInner, if_neg hi, if_neg (by omega)]).congr fun p hp => ?_
      rw [entry_cons, if_neg hi, hb]
      have hdm := Nat.div_add_mod p n
      have hml := Nat.mod_lt p hn
      have hiff : (a : Int) + b * n = p ↔ (a = p % n ∧ b = p / n) := by
        constructor
        · intro hc
          have hc : a + b * n = p := by exact_mod_cast hc
          rw [← hc, Nat.add_mul_mod_self_right, Nat.mod_eq_of_lt (by omega), Nat.add_mul_div_right _ _ hn, Nat.div_eq_of_lt (by omega),
            Nat.zero_add]
          exact ⟨rfl, rfl⟩
        · rintro ⟨ha, hb⟩
          have : a + b * n = p := by rw [ha, hb, Nat.mul_comm]; omega
          exact_mod_cast this
      simp only [hiff, Nat.cast_inj]
      by_cases hp1 : a = p % n <;> by_cases hp2 : b = p / n <;> simp [hp1, hp2, mul_add]

theorem ptpRow_adds {n : Nat} (row : List (Elem R)) (hv : ∀ e ∈ row, EValid n e) : ∀ l : List (Elem R), (∀ e ∈ l, EValid n e) →
    Adds (n * n) (ptpRow n row l) (fun p => entry l (p % n) * entry row (p / n))
  | [], _ => ((Adds.skip _).congr_fun fun _ _ => rfl).congr fun p _ => by simp [entry, seen]
  | e :: es, h => by
    by_cases hi : e.index = -1
    · refine ((Adds.skip _).congr_fun fun o _ => by rw [ptpRow, if_pos hi]).congr fun p _ => ?_
      rw [entry_cons, if_pos hi, zero_mul]
    · obtain ⟨g0, g1⟩ := (h e (List.mem_cons_self ..)).resolve_left hi
      have ih := ptpRow_adds row hv es fun a ha => h a (List.mem_cons_of_mem _ ha)
      refine (((ptpInner_adds g0 g1 e.value row hv).seq ih).congr_fun fun o _ => by rw [ptpRow, if_neg hi]).congr fun p _ => ?_
      rw [entry_cons, if_neg hi, add_mul]
      congr 1
      split_ifs <;> simp

/-- C74 for the compiled kernel: it adds the product of the transpose by the matrix. -/
theorem C74_kernel_partial (P : PMat R) (n : Nat) (hv : Valid P n) (a : List R) (ha : a.length = n * n) :
    ∃ b, pmatrixPtp P.rows n a = .ok b ∧ b.length = n * n ∧ ∀ i j, i < n → j < n →
      b[i + j * n]? = a[i + j * n]?.map (· + (P.rows.map fun row => entry row i * entry row j).sum) := by
  obtain ⟨b, h1, h2, h3⟩ := Adds.foldList (N := n * n) (l := P.rows) (f := fun a row => ptpRow n row row a)
    (g := fun row p => entry row (p % n) * entry row (p / n)) (fun row hr => ptpRow_adds row (hv row hr) row (hv row hr)) a ha
  refine ⟨b, h1, h2, fun i j hi hj => ?_⟩
  rw [h3]
  dsimp only
  rw [Nat.add_mul_mod_self_right, Nat.mod_eq_of_lt hi, Nat.add_mul_div_right _ _ (by omega), Nat.div_eq_of_lt hi, Nat.zero_add]

/-- C74 fails: `get_pTp` raises for every matrix that is not empty. -/
theorem C74_violation_raises (P : PMat R) (hs : P.size ≠ 0) : P.getPTp = .error .valueError := by
  rw [PMat.getPTp, if_neg hs]

/-- Such a matrix. -/
example : sample.size ≠ 0 ∧ pmatrixPtp sample.rows 3 (List.replicate 9 0) = .ok [4, 0, 10, 0, 9, 0, 10, 0, 25] := by decide

theorem ptpOne_adds {n : Nat} (rows : List (List (Elem R))) (h : ∀ row ∈ rows, ∃ e, row = [e] ∧ 0 ≤ e.index ∧ e.index < n) :
    Adds n (ptpOne rows) (fun k => (rows.map fun row => entry row k * entry row k).sum) := by
  refine Adds.foldList fun row hr => ?_
  obtain ⟨e, rfl, h0, h1⟩ := h row hr
  refine ((addI_adds h0 h1 (e.value ^ 2)).congr_fun fun o _ => rfl).congr fun k _ => ?_
  rw [entry_cons, if_neg (show ¬ e.index = -1 by omega)]
  split_ifs <;> simp [entry, seen, sq]

/-- C74 for the rule, when the elements are present: the rule only applies for one element per sample, and the diagonal that replaces the
product of the transpose by the projection gives the same map. -/
theorem C74_rule_partial (P : PMat R) (hw : Wf P) (hv : ∀ row ∈ P.rows, ∀ e ∈ row, 0 ≤ e.index ∧ e.index < P.shapeInput.prod) :
    (P.npps ≠ 1 → P.rulePtp = .ok none) ∧
    (P.npps = 1 → ∃ d, P.rulePtp = .ok (some d) ∧ d.length = P.shapeInput.prod ∧
      ∀ (map garbage out m0 t m : List R) (contiguous : Bool), map.length = P.shapeInput.prod → garbage.length = P.rows.length →
        out.length = P.rows.length → m0.length = P.shapeInput.prod → opDirect P contiguous garbage map out = .ok t →
        opTranspose P .assign t m0 = .ok m → m = List.zipWith (· * ·) d map) := by
  constructor
  · intro h
    rw [PMat.rulePtp, if_pos h]
  · intro h1
    have hone : ∀ row ∈ P.rows, ∃ e, row = [e] ∧ 0 ≤ e.index ∧ e.index < (P.shapeInput.prod : Nat) := by
      intro row hr
      obtain ⟨e, rfl⟩ := List.length_eq_one_iff.1 (by rw [hw _ hr, h1])
      exact ⟨e, rfl, hv _ hr e (by simp)⟩
    have hV : Valid P P.shapeInput.prod := fun row hr e he => .inr (hv row hr e he)
    obtain ⟨d, a, b, c⟩ := ptpOne_adds P.rows hone (List.replicate P.npixels 0) (by simp [PMat.npixels])
    refine ⟨d, by rw [PMat.rulePtp, if_neg (by simp [h1]), a]; rfl, b, ?_⟩
    intro map garbage out m0 t m contiguous hm hg ho hm0 ht hm'
    have hov : Overwrites P := .inr ⟨h1, fun row hr e he => by have := (hv row hr e he).1; omega⟩
    rw [opDirect_overwrites hw hV hov hm hg ho contiguous] at ht
    cases ht
    obtain ⟨m1, e1, e2, e3⟩ := (C38_transpose P _ hw hV (P.rows.map fun row => project P.shapeInput.prod row map) m0 (by simp) hm0).1
    rw [hm'] at e1
    cases e1
    apply List.ext_getElem?
    intro k
    by_cases hk : k < P.shapeInput.prod
    · rw [e3 k hk, List.getElem?_zipWith, c, PMat.npixels, List.getElem?_replicate, if_pos hk, List.getElem?_eq_getElem (by omega)]
      simp only [Option.map_some, zero_add, Option.some.injEq]
      rw [List.zipWith_map_right]
      have : List.zipWith (fun row x => entry row k * project P.shapeInput.prod x map) P.rows P.rows =
          P.rows.map fun row => entry row k * project P.shapeInput.prod row map := by
        apply List.ext_getElem
        · simp
        · intro i _ _; simp
      rw [this, ← List.sum_map_mul_right]
      congr 1
      refine List.map_congr_left fun row hr => ?_
      obtain ⟨e, rfl, h0, h2⟩ := hone row hr
      rw [project_cons h0 h2, project_nil, add_zero, entry_cons, if_neg (by omega)]
      split_ifs with hek
      · have : e.index.toNat = k := by omega
        simp [entry, seen, this, mul_assoc]
        rw [List.getElem?_eq_getElem (by omega)]
        simp
      · simp [entry, seen]
    · rw [List.getElem?_eq_none (by omega), List.getElem?_eq_none (by rw [List.length_zipWith]; omega)]

/-- The hypotheses of C74 for the rule. -/
example : (⟨1, [[⟨0, 2⟩], [⟨1, 3⟩], [⟨0, 5⟩]], [2]⟩ : PMat Int).rulePtp = .ok (some [29, 9]) := by decide

/-- C74 fails with a missing element: the rule writes before the beginning of the map. -/
theorem C74_violation_missing : ∃ P : PMat Int, Wf P ∧ Valid P P.shapeInput.prod ∧ P.isvalid = true ∧ P.rulePtp = .error .outOfBounds :=
  ⟨⟨1, [[⟨0, 2⟩], [⟨-1, 0⟩]], [2]⟩, by unfold Wf; decide, by unfold Valid; decide, by decide, by decide⟩

/-! ### C75 -/

theorem backRow_eq (x : R) : ∀ (row : List (Elem R)) (m w m' w' : List R), transposeRow x row m = .ok m' → transposeRow 1 row w = .ok w' →
    backRow x row (m, w) = .ok (m', w')
  | [], m, w, m', w', h1, h2 => by cases h1; cases h2; rfl
  | e :: es, m, w, m', w', h1, h2 => by
    rw [transposeRow] at h1 h2
    rw [backRow]
    by_cases hi : e.index = -1
    · rw [if_pos hi] at h1 h2 ⊢
      cases h1; cases h2; rfl
    · rw [if_neg hi] at h1 h2 ⊢
      rw [mul_one] at h2
      cases ha : addI m e.index (e.value * x) with
      | error err => rw [ha] at h1; simp [Except.bind] at h1
      | ok m1 =>
        cases hb : addI w e.index e.value with
        | error err => rw [hb] at h2; simp [Except.bind] at h2
        | ok w1 =>
          rw [ha] at h1
          rw [hb] at h2
          exact backRow_eq x es m1 w1 m' w' h1 h2

/-- The two maps after a part of the samples. -/
theorem backprojection_ok {n : Nat} (mask : Option (List Bool)) : ∀ (l : List ((List (Elem R) × R) × Nat)), (∀ p ∈ l, ∀ e ∈ p.1.1, EValid n e) →
    ∀ m w : List R, m.length = n → w.length = n →
    ∃ m' w', l.foldlM (fun mw p => if (mask.bind fun m => m[p.2]?) = some true then .ok mw else backRow p.1.2 p.1.1 mw) (m, w) =
        (.ok (m', w') : Res (List R × List R)) ∧
      m'.length = n ∧ w'.length = n ∧
      (∀ k : Nat, m'[k]? = m[k]?.map (· + (l.map fun p => if (mask.bind fun m => m[p.2]?) = some true then 0 else entry p.1.1 k * p.1.2).sum)) ∧
      ∀ k : Nat, w'[k]? = w[k]?.map (· + (l.map fun p => if (mask.bind fun m => m[p.2]?) = some true then 0 else entry p.1.1 k).sum)
  | [], _, m, w, hm, hw => ⟨m, w, rfl, hm, hw, fun k => by simp, fun k => by simp⟩
  | p :: l, h, m, w, hm, hw => by
    rw [List.foldlM_cons]
    have hl : ∀ q ∈ l, ∀ e ∈ q.1.1, EValid n e := fun q hq => h q (List.mem_cons_of_mem _ hq)
    by_cases hp : (mask.bind fun m => m[p.2]?) = some true
    · obtain ⟨m', w', a, b, c, d, e⟩ := backprojection_ok mask l hl m w hm hw
      refine ⟨m', w', by rw [if_pos hp]; exact a, b, c, fun k => ?_, fun k => ?_⟩
      · rw [d, List.map_cons, List.sum_cons, if_pos hp, zero_add]
      · rw [e, List.map_cons, List.sum_cons, if_pos hp, zero_add]
    · obtain ⟨m1, a1, b1, c1⟩ := transposeRow_adds p.1.2 p.1.1 (h p (List.mem_cons_self ..)) m hm
      obtain ⟨w1, a2, b2, c2⟩ := transposeRow_adds 1 p.1.1 (h p (List.mem_cons_self ..)) w hw
      obtain ⟨m', w', a, b, c, d, e⟩ := backprojection_ok mask l hl m1 w1 b1 b2
      refine ⟨m', w', ?_, b, c, fun k => ?_, fun k => ?_⟩
      · rw [if_neg hp, backRow_eq _ _ _ _ _ _ a1 a2]
        exact a
      · rw [d, c1, List.map_cons, List.sum_cons, if_neg hp, Option.map_map]
        congr 1
        funext y
        simp [add_assoc]
      · rw [e, c2, List.map_cons, List.sum_cons, if_neg hp, Option.map_map]
        congr 1
        funext y
        simp [add_assoc]

/-- C75: without `mask` argument, the two maps are the transpose applied to the samples and to one, the samples that are masked by the
attribute of the input being ignored. -/
theorem C75_attribute (P : PMat R) (hw : Wf P) (hv : Valid P P.shapeInput.prod) (x : List R) (hx : x.length = P.rows.length)
    (mask : Option (List Bool)) (hm : ∀ m ∈ mask, m.length = P.rows.length) :
    ∃ m w, P.getPTx x ⟨none, mask⟩ = .ok (m, w) ∧ m.length = P.shapeInput.prod ∧ w.length = P.shapeInput.prod ∧
      ∀ k, k < P.shapeInput.prod →
        m[k]? = some (∑ i ∈ range P.rows.length, if (mask.bind fun m => m[i]?) = some true then 0 else entry (P.rows.getD i []) k * x.getD i 0) ∧
        w[k]? = some (∑ i ∈ range P.rows.length, if (mask.bind fun m => m[i]?) = some true then 0 else entry (P.rows.getD i []) k) := by
  have hsum : ∀ (f : (List (Elem R) × R) × Nat → R), (((P.rows.zip x).zipIdx).map f).sum =
      ∑ i ∈ range P.rows.length, f ((P.rows.getD i [], x.getD i 0), i) := by
    intro f
    have h1 : (P.rows.zip x).zipIdx.map f = (List.range P.rows.length).map fun i => f ((P.rows.getD i [], x.getD i 0), i) := by
      apply List.ext_getElem
      · simp; omega
      · intro i hi _
        have h2 : i < P.rows.length := by simp at hi; omega
        have h3 : i < x.length := by omega
        simp [List.getElem?_eq_getElem h2, List.getElem?_eq_getElem h3]
    rw [h1]
    clear h1
    induction P.rows.length with
    | zero => simp
    | succ n ih => rw [List.range_succ, List.map_append, List.sum_append, ih, Finset.sum_range_succ]; simp
  have hval : ∀ p ∈ (P.rows.zip x).zipIdx, ∀ e ∈ p.1.1, EValid P.shapeInput.prod e := by
    intro p hp
    have := (List.of_mem_zip (List.fst_mem_of_mem_zipIdx hp)).1
    exact hv _ this
  by_cases hs : P.size = 0
  · refine ⟨_, _, by rw [PMat.getPTx]; simp only; rw [if_pos hs], by simp [PMat.npixels], by simp [PMat.npixels], fun k hk => ?_⟩
    have hz : ∀ i, entry (P.rows.getD i []) k = 0 := by
      intro i
      rw [PMat.size, Nat.mul_eq_zero] at hs
      have : P.rows.getD i [] = [] := by
        rcases hs with hs | hs
        · rw [List.length_eq_zero_iff.1 hs]; rfl
        · rw [List.getD_eq_getElem?_getD]
          by_cases hi : i < P.rows.length
          · rw [List.getElem?_eq_getElem hi]
            exact List.length_eq_zero_iff.1 (by rw [Option.getD_some, hw _ (List.getElem_mem hi), hs])
          · rw [List.getElem?_eq_none (by omega)]; rfl
      rw [this]
      simp [entry, seen]
    simp only [hz, zero_mul, ite_self, Finset.sum_const_zero]
    simp [PMat.npixels, hk]
  · obtain ⟨m, w, a, b, c, d, e⟩ := backprojection_ok mask (P.rows.zip x).zipIdx hval (List.replicate P.npixels 0)
      (List.replicate P.npixels 0) (by simp [PMat.npixels]) (by simp [PMat.npixels])
    refine ⟨m, w, ?_, b, c, fun k hk => ⟨?_, ?_⟩⟩
    · rw [PMat.getPTx]
      simp only
      rw [if_neg hs]
      cases mask with
      | none => simp only; rw [if_neg (by omega)]; exact a
      | some mk => simp only; rw [if_neg (by have := hm mk rfl; omega)]; exact a
    · rw [d, hsum, PMat.npixels, List.getElem?_replicate, if_pos hk]
      simp
    · rw [e, hsum, PMat.npixels, List.getElem?_replicate, if_pos hk]
      simp

/-- The hypotheses of C75. -/
example : sample.getPTx [10, 100] ⟨none, none⟩ = .ok ([200, 30, 500], [2, 3, 5]) ∧
    sample.getPTx [10, 100] ⟨none, some [true, false]⟩ = .ok ([200, 0, 500], [2, 0, 5]) := by decide

/-- C75 fails for the `mask` argument: it raises ValueError whenever it has at least two elements. -/
theorem C75_violation_argument (P : PMat R) (hs : P.size ≠ 0) (x : List R) (mask : List Bool) (h : 2 ≤ mask.length)
    (attr : Option (List Bool)) : P.getPTx x ⟨some mask, attr⟩ = .error .valueError := by
  obtain ⟨a, l, rfl⟩ := List.exists_cons_of_length_pos (l := mask) (by omega)
  obtain ⟨b, l, rfl⟩ := List.exists_cons_of_length_pos (l := l) (by simp at h; omega)
  rw [PMat.getPTx]
  simp only
  rw [if_neg hs]

/-! ### C76 -/

/-- Multiplication of the values of a sample. -/
def scaleRow (c : R) (row : List (Elem R)) : List (Elem R) := row.map fun e => ⟨e.index, e.value * c⟩

theorem entry_scale (c : R) (row : List (Elem R)) (k : Nat) : entry (scaleRow c row) k = entry row k * c := by
  induction row with
  | nil => simp [scaleRow, entry, seen]
  | cons e es ih =>
    rw [scaleRow, List.map_cons, entry_cons, entry_cons]
    rw [scaleRow] at ih
    simp only
    rw [ih]
    split_ifs <;> simp [add_mul]

theorem project_scale (c : R) (n : Nat) (row : List (Elem R)) (map : List R) : project n (scaleRow c row) map = c * project n row map := by
  rw [project, project, Finset.mul_sum]
  refine Finset.sum_congr rfl fun k _ => ?_
  rw [entry_scale]
  ring

/-- A matrix whose samples have been multiplied. -/
theorem scaled_direct {P P' : PMat R} {n : Nat} (hw : Wf P) (hv : Valid P n) (ho : Overwrites P) (c : List R) (hc : c.length = P.rows.length)
    (hP : P' = { P with rows := List.zipWith (fun row x => scaleRow x row) P.rows c }) (contiguous : Bool) {map garbage out t : List R}
    (hm : map.length = n) (hg : garbage.length = P.rows.length) (hl : out.length = P.rows.length)
    (h : opDirect P contiguous garbage map out = .ok t) :
    opDirect P' contiguous garbage map out = .ok (List.zipWith (· * ·) c t) := by
  have hlen : P'.rows.length = P.rows.length := by rw [hP]; simp; omega
  have hmem : ∀ row' ∈ P'.rows, ∃ row ∈ P.rows, ∃ x, row' = scaleRow x row := by
    intro row' hr
    obtain ⟨i, hi, rfl⟩ := List.mem_iff_getElem.1 hr
    subst hP
    simp only [List.getElem_zipWith]
    exact ⟨_, List.getElem_mem _, _, rfl⟩
  have hnpps : P'.npps = P.npps := by rw [hP]
  have hw' : Wf P' := by
    intro row' hr
    obtain ⟨row, h1, x, rfl⟩ := hmem row' hr
    rw [hnpps, ← hw row h1, scaleRow, List.length_map]
  have hidx : ∀ row' ∈ P'.rows, ∀ e' ∈ row', ∃ row ∈ P.rows, ∃ e ∈ row, e'.index = e.index := by
    intro row' hr e' he
    obtain ⟨row, h1, x, rfl⟩ := hmem row' hr
    obtain ⟨e, he0, rfl⟩ := List.mem_map.1 he
    exact ⟨row, h1, e, he0, rfl⟩
  have hv' : Valid P' n := by
    intro row' hr e' he
    obtain ⟨row, h1, e, h2, h3⟩ := hidx row' hr e' he
    rw [h3]
    exact hv row h1 e h2
  have ho' : Overwrites P' := by
    rcases ho with ho | ⟨h1, ho⟩
    · exact .inl (by omega)
    · refine .inr ⟨by omega, fun row' hr e' he => ?_⟩
      obtain ⟨row, h1, e, h2, h3⟩ := hidx row' hr e' he
      rw [h3]
      exact ho row h1 e h2
  rw [opDirect_overwrites hw hv ho hm hg hl] at h
  cases h
  rw [opDirect_overwrites hw' hv' ho' hm (by omega) (by omega)]
  congr 1
  subst hP
  apply List.ext_getElem
  · simp; omega
  · intro i _ _
    simp [project_scale]

/-- C76: the homothety rule: the matrix that replaces the product of a homothety by a projection with one (present) element per sample gives the
same timeline; with more elements or for the other broadcastings there is no rule. -/
theorem C76_homothety (P : PMat R) (n : Nat) (hw : Wf P) (hv : Valid P n) (ho : Overwrites P) (shapeout : List Nat) (d : R) :
    (∀ dshape data, P.npps ≠ 1 → P.ruleDiagonal shapeout dshape data false = .ok none) ∧
    (∀ dshape data, P.ruleDiagonal shapeout dshape data true = .ok none) ∧
    (P.npps = 1 → ∃ P', P.ruleDiagonal shapeout [] [d] false = .ok (some P') ∧
      ∀ (contiguous : Bool) (map garbage out t : List R), map.length = n → garbage.length = P.rows.length → out.length = P.rows.length →
        opDirect P contiguous garbage map out = .ok t → opDirect P' contiguous garbage map out = .ok (t.map (d * ·))) := by
  refine ⟨fun dshape data h => by rw [PMat.ruleDiagonal, if_pos (.inl h)], fun dshape data => by rw [PMat.ruleDiagonal, if_pos (.inr rfl)], ?_⟩
  intro h1
  refine ⟨{ P with rows := P.rows.map (scaleRow d) }, ?_, ?_⟩
  · rw [PMat.ruleDiagonal, if_neg (by simp [h1])]
    simp [broadcastInto, scaleRow]
  · intro contiguous map garbage out t hm hg hl h
    have e1 : P.rows.map (scaleRow d) = List.zipWith (fun row x => scaleRow x row) P.rows (List.replicate P.rows.length d) := by
      apply List.ext_getElem
      · simp
      · intro i _ _; simp
    have htl : t.length = P.rows.length := by
      rw [opDirect_overwrites hw hv ho hm hg hl] at h
      cases h
      simp
    rw [e1, scaled_direct hw hv ho (List.replicate P.rows.length d) (by simp) rfl contiguous hm hg hl h]
    congr 1
    apply List.ext_getElem
    · simp [htl]
    · intro i _ _; simp

/-- C76 fails for the diagonal operators that are not homotheties: the rule raises ValueError whenever the last dimension is not one. -/
theorem C76_violation_diagonal (P : PMat R) (h1 : P.npps = 1) (shape : List Nat) (n : Nat) (hn : n ≠ 1) (data : List R) :
    P.ruleDiagonal (shape ++ [n]) (shape ++ [n]) data false = .error .valueError := by
  rw [PMat.ruleDiagonal, if_neg (by simp [h1])]
  simp [broadcastInto, hn]

/-- C76: `apply_mask` sets to zero the samples that are masked and keeps the other ones. -/
theorem C76_mask (P : PMat R) (n : Nat) (hw : Wf P) (hv : Valid P n) (ho : Overwrites P) (mask : List Bool) :
    (mask.length ≠ P.rows.length → P.applyMask mask = .error .valueError) ∧
    (mask.length = P.rows.length → ∃ P', P.applyMask mask = .ok P' ∧
      ∀ (contiguous : Bool) (map garbage out t : List R), map.length = n → garbage.length = P.rows.length → out.length = P.rows.length →
        opDirect P contiguous garbage map out = .ok t → opDirect P' contiguous garbage map out = .ok (zeroed mask t)) := by
  refine ⟨fun h => by rw [PMat.applyMask, if_pos h], fun hl => ?_⟩
  refine ⟨_, by rw [PMat.applyMask, if_neg (by simpa using hl)], ?_⟩
  intro contiguous map garbage out t hm hg hlo h
  have htl : t.length = P.rows.length := by
    rw [opDirect_overwrites hw hv ho hm hg hlo] at h
    cases h
    simp
  rw [scaled_direct hw hv ho (mask.map fun m => (1 : R) - if m then 1 else 0) (by simpa using hl) (by
    congr 1
    rw [List.zipWith_map_right]
    rfl) contiguous hm hg hlo h]
  congr 1
  rw [zeroed]
  apply List.ext_getElem
  · simp; omega
  · intro i _ _
    simp
    split_ifs <;> simp

/-- The hypotheses of C76. -/
example : (⟨1, [[⟨0, 2⟩], [⟨1, 3⟩]], [2]⟩ : PMat Int).ruleDiagonal [2] [] [5] false = .ok (some ⟨1, [[⟨0, 10⟩], [⟨1, 15⟩]], [2]⟩) ∧
    sample.applyMask [true, false] = .ok ⟨2, [[⟨1, 0⟩, ⟨-1, 0⟩], [⟨0, 2⟩, ⟨2, 5⟩]], [3]⟩ := by decide

end Verif.Pointing
