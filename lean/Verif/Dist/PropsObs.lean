import Verif.Dist.Model
import Mathlib.Tactic.Linarith
import Mathlib.Data.List.Nodup
import Mathlib.Data.List.Range

/-! Property C48: distribution of an observation. -/
namespace Verif.Dist
open Verif.Py

theorem lt_ceilDiv {g a b : Nat} (hb : 0 < b) (h : g < a) : g / b < ceilDiv a b := by
  rw [ceilDiv, Nat.div_lt_iff_lt_mul hb]
  have h1 := Nat.div_add_mod (a + b - 1) b
  have h2 := Nat.mod_lt (a + b - 1) hb
  rw [Nat.mul_comm] at h1
  omega

theorem le_ceilDiv_mul {a b : Nat} (hb : 0 < b) : a ≤ ceilDiv a b * b := by
  rw [ceilDiv]
  have h1 := Nat.div_add_mod (a + b - 1) b
  have h2 := Nat.mod_lt (a + b - 1) hb
  rw [Nat.mul_comm] at h1
  omega

theorem ceilDiv_self {a : Nat} (h : 0 < a) : ceilDiv a a = 1 := by
  rw [ceilDiv, show a + a - 1 = (a - 1) + a by omega, Nat.add_div_right _ h, Nat.div_eq_of_lt (by omega)]

theorem ceilDiv_le {a b : Nat} (hb : 0 < b) : ceilDiv a b ≤ a := by
  rw [ceilDiv]
  rcases Nat.eq_zero_or_pos a with rfl | ha
  · rw [Nat.div_eq_of_lt (by omega)]
  · have : a + b - 1 ≤ a * b := by
      obtain ⟨a, rfl⟩ : ∃ k, a = k + 1 := ⟨a - 1, by omega⟩
      have := Nat.le_mul_of_pos_right a hb
      rw [Nat.add_mul, Nat.one_mul]
      omega
    calc (a + b - 1) / b ≤ a * b / b := Nat.div_le_div_right this
      _ = a := Nat.mul_div_cancel _ hb

theorem ceilDiv_pos {a b : Nat} (hb : 0 < b) (ha : 0 < a) : 0 < ceilDiv a b := by
  rcases Nat.eq_zero_or_pos (ceilDiv a b) with h | h
  · have := le_ceilDiv_mul (a := a) hb
    rw [h] at this
    omega
  · exact h

/-- A configuration computed by the loop. -/
structure Config.Ok (nx ny : Nat) (c : Config) : Prop where
  x : 0 < c.xblocksize
  y : 0 < c.yblocksize
  nxBlock : c.nxBlock = ceilDiv nx c.xblocksize
  nyBlock : c.nyBlock = ceilDiv ny c.yblocksize

theorem tryBlock_ok {nx ny size bs : Nat} (hbs : 0 < bs) : ∀ (xs : List Nat) (last : Option Config), (∀ x ∈ xs, 1 ≤ x ∧ x ≤ bs) →
    (∀ c ∈ last, c.Ok nx ny) → ∀ c ∈ tryBlock nx ny size bs xs last, c.Ok nx ny
  | [], last, _, hl => hl
  | x :: xs, last, h, hl => by
    intro c hc
    have hx := h x (List.mem_cons_self ..)
    have h' : ∀ y ∈ xs, 1 ≤ y ∧ y ≤ bs := fun y hy => h y (List.mem_cons_of_mem _ hy)
    have hok : (⟨x, bs / x, ceilDiv nx x, ceilDiv ny (bs / x)⟩ : Config).Ok nx ny :=
      ⟨hx.1, Nat.div_pos hx.2 hx.1, rfl, rfl⟩
    rw [tryBlock] at hc
    split at hc
    · exact tryBlock_ok hbs xs last h' hl c hc
    · dsimp only at hc
      split at hc
      · simp only [Option.mem_def, Option.some.injEq] at hc
        subst hc
        exact hok
      · refine tryBlock_ok hbs xs _ h' ?_ c hc
        intro c' hc'
        simp only [Option.mem_def, Option.some.injEq] at hc'
        subst hc'
        exact hok

/-- The loop over the divisors finds a configuration if there is one. -/
theorem tryBlock_finds {nx ny size bs : Nat} : ∀ (xs : List Nat) (last : Option Config) (x : Nat), x ∈ xs → bs % x = 0 →
    ceilDiv nx x * ceilDiv ny (bs / x) ≤ size → ∃ c, tryBlock nx ny size bs xs last = some c ∧ c.nxBlock * c.nyBlock ≤ size
  | [], _, x, hx, _, _ => by simp at hx
  | x' :: xs, last, x, hx, hd, hs => by
    rw [tryBlock]
    by_cases h1 : bs % x' = 0
    · rw [if_neg (by omega)]
      dsimp only
      split
      · rename_i h2
        exact ⟨_, rfl, h2⟩
      · rename_i h2
        rcases List.mem_cons.1 hx with rfl | hx
        · exact absurd hs h2
        · exact tryBlock_finds xs _ x hx hd hs
    · rw [if_pos h1]
      rcases List.mem_cons.1 hx with rfl | hx
      · exact absurd hd h1
      · exact tryBlock_finds xs _ x hx hd hs

/-- The last iteration always sets the variables. -/
theorem tryBlock_some {nx ny size bs : Nat} (h : ∃ x ∈ xs, bs % x = 0) (last : Option Config) :
    ∃ c, tryBlock nx ny size bs xs last = some c := by
  induction xs generalizing last with
  | nil => obtain ⟨x, hx, _⟩ := h; simp at hx
  | cons x xs ih =>
    rw [tryBlock]
    by_cases h1 : bs % x = 0
    · rw [if_neg (by omega)]
      dsimp only
      split
      · exact ⟨_, rfl⟩
      · rename_i h2
        -- the variables are set
        have : ∀ (ys : List Nat) (c : Config), ∃ c', tryBlock nx ny size bs ys (some c) = some c' := by
          intro ys
          induction ys with
          | nil => exact fun c => ⟨c, rfl⟩
          | cons y ys ih =>
            intro c
            rw [tryBlock]
            split
            · exact ih c
            · dsimp only
              split
              · exact ⟨_, rfl⟩
              · exact ih _
        exact this xs _
    · rw [if_pos h1]
      obtain ⟨y, hy, hd⟩ := h
      rcases List.mem_cons.1 hy with rfl | hy
      · exact absurd hd h1
      · exact ih ⟨y, hy, hd⟩ _

theorem search_ok {nx ny size : Nat} (hnx : 0 < nx) (hny : 0 < ny) (hsize : 0 < size) : ∀ (fuel bs : Nat) (last : Option Config), 0 < bs →
    bs ≤ nx * ny → nx * ny < bs + fuel → (∀ c ∈ last, c.Ok nx ny) →
    ∃ c, search nx ny size fuel bs last = .ok c ∧ c.Ok nx ny ∧ c.nxBlock * c.nyBlock ≤ size
  | 0, bs, _, _, h1, h2, _ => by omega
  | fuel + 1, bs, last, h0, h1, h2, hl => by
    rw [search]
    have hdiv : ∀ x ∈ (List.range bs).map (· + 1), 1 ≤ x ∧ x ≤ bs := by
      intro x hx
      obtain ⟨k, hk, rfl⟩ := List.mem_map.1 hx
      have := List.mem_range.1 hk
      omega
    obtain ⟨c, hc⟩ := tryBlock_some (nx := nx) (ny := ny) (size := size) (bs := bs) (xs := (List.range bs).map (· + 1))
      ⟨bs, List.mem_map.2 ⟨bs - 1, List.mem_range.2 (by omega), by omega⟩, Nat.mod_self _⟩ last
    have hok : c.Ok nx ny := tryBlock_ok h0 _ last hdiv hl c (by rw [hc]; rfl)
    rw [hc]
    dsimp only
    split
    · rename_i h
      exact ⟨c, rfl, hok, h⟩
    · rename_i h
      rcases Nat.lt_or_ge bs (nx * ny) with hlt | hge
      · refine search_ok hnx hny hsize fuel (bs + 1) (some c) (by omega) (by omega) (by omega) ?_
        intro c' hc'
        simp only [Option.mem_def, Option.some.injEq] at hc'
        exact hc' ▸ hok
      · exfalso
        have hbs : bs = nx * ny := by omega
        obtain ⟨c', hc', hfit⟩ := tryBlock_finds (nx := nx) (ny := ny) (size := size) (bs := bs) ((List.range bs).map (· + 1)) last nx
          (List.mem_map.2 ⟨nx - 1, List.mem_range.2 (by
            have : nx ≤ bs := by rw [hbs]; exact Nat.le_mul_of_pos_right _ hny
            omega), by omega⟩) (by rw [hbs]; exact Nat.mul_mod_right _ _)
          (by rw [hbs, Nat.mul_div_cancel_left _ hnx, ceilDiv_self hnx, ceilDiv_self hny]; omega)
        rw [hc] at hc'
        cases hc'
        exact h hfit

theorem setTrue_get (ps : List Nat) (m : List Bool) (i : Nat) :
    (setTrue m ps)[i]? = if i ∈ ps ∧ i < m.length then some true else m[i]? := by
  induction ps generalizing m with
  | nil => simp [setTrue]
  | cons p ps ih =>
    rw [setTrue, List.foldl_cons]
    have := ih (m.set p true)
    rw [setTrue] at this
    rw [this, List.length_set, List.getElem?_set]
    simp only [List.mem_cons]
    by_cases h1 : i ∈ ps
    · by_cases h2 : i < m.length
      · simp [h1, h2]
      · simp [h2]
        intro h; omega
    · by_cases h2 : p = i
      · subst h2
        by_cases h3 : p < m.length <;> simp [h1, h3]
      · simp [h1, h2, Ne.symm h2]

theorem setTrue_length (ps : List Nat) (m : List Bool) : (setTrue m ps).length = m.length := by
  induction ps generalizing m with
  | nil => rfl
  | cons p ps ih =>
    rw [setTrue, List.foldl_cons]
    have := ih (m.set p true)
    rw [setTrue] at this
    rw [this, List.length_set]

theorem mem_goodPositions {m : List Bool} {i : Nat} : i ∈ goodPositions m ↔ m[i]? = some false := by
  rw [goodPositions, List.mem_filter, List.mem_range]
  constructor
  · intro h; simpa using h.2
  · intro h
    refine ⟨?_, by simpa using h⟩
    by_contra hc
    rw [List.getElem?_eq_none (by omega)] at h
    simp at h

theorem goodPositions_nodup (m : List Bool) : (goodPositions m).Nodup := List.nodup_range.filter _

/-- The detectors that are kept by a range of positions among the good ones. -/
theorem kept_iff {m : List Bool} {g i a b : Nat} (hg : (goodPositions m)[g]? = some i) :
    (setTrue (setTrue m ((goodPositions m).take a)) ((goodPositions m).drop b))[i]? = some false ↔ a ≤ g ∧ g < b := by
  have hi : m[i]? = some false := mem_goodPositions.1 (List.mem_of_getElem? hg)
  have hil : i < m.length := by
    by_contra hc
    rw [List.getElem?_eq_none (by omega)] at hi
    simp at hi
  have hgl : g < (goodPositions m).length := by
    by_contra hc
    rw [List.getElem?_eq_none (by omega)] at hg
    simp at hg
  have hgi : (goodPositions m)[g] = i := by rw [List.getElem?_eq_getElem hgl] at hg; simpa using hg
  have hinj : ∀ k (hk : k < (goodPositions m).length), (goodPositions m)[k] = i → k = g := by
    intro k hk h
    exact (goodPositions_nodup m).getElem_inj_iff.1 (h.trans hgi.symm)
  have htake : i ∈ (goodPositions m).take a ↔ g < a := by
    rw [List.mem_take_iff_getElem]
    constructor
    · rintro ⟨k, hk, h⟩
      have := hinj k (by omega) h
      omega
    · intro h
      exact ⟨g, by omega, hgi⟩
  have hdrop : i ∈ (goodPositions m).drop b ↔ b ≤ g := by
    rw [List.mem_drop_iff_getElem]
    constructor
    · rintro ⟨k, hk, h⟩
      have := hinj (b + k) (by omega) h
      omega
    · intro h
      refine ⟨g - b, by omega, ?_⟩
      simpa [show b + (g - b) = g by omega] using hgi
  rw [setTrue_get, setTrue_get, setTrue_length, hi]
  by_cases h1 : g < a
  · have : ¬ a ≤ g := by omega
    by_cases h2 : b ≤ g <;> simp [htake, hdrop, h1, h2, hil, this]
  · by_cases h2 : b ≤ g <;> simp [htake, hdrop, h1, h2, hil] <;> omega

/-- C48 when there is at least a detector and an observation, or one process: every process gets a mask and a part of the observations, and
each pair of a good detector and an observation belongs to exactly one process; the detectors that were removed stay so. -/
theorem C48_partition_partial {α : Type} (detectors : List Bool) (observations : List α) (hnodup : observations.Nodup) (size nthreads : Nat)
    (hs : 0 < size) (ht : 0 < nthreads) (hd : false ∈ detectors) (ho : observations ≠ []) :
    ∃ part : Nat → List Bool × List α, (∀ r, r < size → distribute detectors observations size r nthreads = .ok (part r)) ∧
      (∀ r, r < size → (part r).1.length = detectors.length ∧ (∀ i : Nat, detectors[i]? = some true → (part r).1[i]? = some true) ∧
        (part r).2 <:+: observations) ∧
      ∀ i : Nat, ∀ o, detectors[i]? = some false → o ∈ observations →
        ∃! r, r < size ∧ (part r).1[i]? = some false ∧ o ∈ (part r).2 := by
  by_cases h1 : size = 1
  · refine ⟨fun _ => (detectors, observations), fun r _ => by rw [distribute, if_pos h1], fun r _ => ⟨rfl, fun i h => h, List.infix_refl _⟩, ?_⟩
    intro i o hi ho'
    refine ⟨0, ⟨by omega, hi, ho'⟩, ?_⟩
    rintro r ⟨hr, _⟩
    omega
  have hnx : 0 < observations.length := List.length_pos_iff.2 ho
  have hng : 0 < (goodPositions detectors).length := by
    obtain ⟨i, hi, h⟩ := List.mem_iff_getElem.1 hd
    exact List.length_pos_of_mem (mem_goodPositions.2 (by rw [List.getElem?_eq_getElem hi, h]))
  have hny : 0 < ceilDiv (goodPositions detectors).length nthreads := ceilDiv_pos ht hng
  obtain ⟨c, hsearch, hok, hfit⟩ := search_ok hnx hny hs
    (observations.length * ceilDiv (goodPositions detectors).length nthreads + 1)
    (ceilDiv (observations.length * ceilDiv (goodPositions detectors).length nthreads) size) none
    (ceilDiv_pos hs (Nat.mul_pos hnx hny)) (ceilDiv_le hs) (by omega) (by simp)
  have hnyB : 0 < c.nyBlock := by rw [hok.nyBlock]; exact ceilDiv_pos hok.y hny
  have hdist : ∀ r, distribute detectors observations size r nthreads =
      .ok (setTrue (setTrue detectors ((goodPositions detectors).take (if c.nxBlock ≤ r / c.nyBlock then 0 else r % c.nyBlock * c.yblocksize * nthreads)))
          ((goodPositions detectors).drop (if c.nxBlock ≤ r / c.nyBlock then 0 else (r % c.nyBlock + 1) * c.yblocksize * nthreads)),
        (observations.take (if c.nxBlock ≤ r / c.nyBlock then 0 else (r / c.nyBlock + 1) * c.xblocksize)).drop
          (if c.nxBlock ≤ r / c.nyBlock then 0 else r / c.nyBlock * c.xblocksize)) := by
    intro r
    rw [distribute, if_neg h1]
    dsimp only
    rw [hsearch]
    rfl
  refine ⟨_, fun r _ => hdist r, ?_, ?_⟩
  · intro r _
    refine ⟨by simp [setTrue_length], ?_, (List.drop_suffix _ _).isInfix.trans (List.take_prefix _ _).isInfix⟩
    intro i hi
    simp only
    rw [setTrue_get, setTrue_get, hi]
    split_ifs <;> rfl
  · intro i o hi ho'
    obtain ⟨g, hg⟩ := List.mem_iff_getElem?.1 (mem_goodPositions.2 hi)
    obtain ⟨k, hk, hko⟩ := List.mem_iff_getElem.1 ho'
    have hgl : g < (goodPositions detectors).length := by
      by_contra hc
      rw [List.getElem?_eq_none (by omega)] at hg
      simp at hg
    have hyt : 0 < c.yblocksize * nthreads := Nat.mul_pos hok.y ht
    have hiy : g / (c.yblocksize * nthreads) < c.nyBlock := by
      rw [hok.nyBlock, Nat.mul_comm, ← Nat.div_div_eq_div_mul]
      exact lt_ceilDiv hok.y (lt_ceilDiv ht hgl)
    have hix : k / c.xblocksize < c.nxBlock := by
      rw [hok.nxBlock]
      exact lt_ceilDiv hok.x hk
    -- membership for a process that works
    have hdet : ∀ y, (y * c.yblocksize * nthreads ≤ g ∧ g < (y + 1) * c.yblocksize * nthreads) ↔ g / (c.yblocksize * nthreads) = y := by
      intro y
      rw [Nat.mul_assoc, Nat.mul_assoc, Nat.div_eq_iff hyt]
      rw [Nat.add_mul, Nat.one_mul]
      omega
    have hobs : ∀ x, o ∈ (observations.take ((x + 1) * c.xblocksize)).drop (x * c.xblocksize) ↔ k / c.xblocksize = x := by
      intro x
      rw [List.mem_drop_iff_getElem, Nat.div_eq_iff hok.x, Nat.add_mul, Nat.one_mul]
      constructor
      · rintro ⟨j, hj, h⟩
        rw [List.getElem_take] at h
        have := hnodup.getElem_inj_iff.1 (h.trans hko.symm)
        rw [List.length_take] at hj
        have hx := hok.x
        omega
      · intro h
        have hx := hok.x
        refine ⟨k - x * c.xblocksize, by rw [List.length_take]; omega, ?_⟩
        rw [List.getElem_take]
        simpa [show x * c.xblocksize + (k - x * c.xblocksize) = k by omega] using hko
    have hwork : ∀ r, ((setTrue (setTrue detectors ((goodPositions detectors).take (if c.nxBlock ≤ r / c.nyBlock then 0 else r % c.nyBlock * c.yblocksize * nthreads)))
          ((goodPositions detectors).drop (if c.nxBlock ≤ r / c.nyBlock then 0 else (r % c.nyBlock + 1) * c.yblocksize * nthreads)))[i]? = some false ∧
        o ∈ (observations.take (if c.nxBlock ≤ r / c.nyBlock then 0 else (r / c.nyBlock + 1) * c.xblocksize)).drop
          (if c.nxBlock ≤ r / c.nyBlock then 0 else r / c.nyBlock * c.xblocksize)) ↔
        (r % c.nyBlock = g / (c.yblocksize * nthreads) ∧ r / c.nyBlock = k / c.xblocksize) := by
      intro r
      by_cases hw : c.nxBlock ≤ r / c.nyBlock
      · simp only [if_pos hw, List.take_zero, List.drop_nil, List.not_mem_nil, and_false, false_iff]
        rintro ⟨_, h⟩
        omega
      · simp only [if_neg hw]
        rw [kept_iff hg, hdet, hobs]
        constructor
        · rintro ⟨h, h'⟩; exact ⟨h.symm, h'.symm⟩
        · rintro ⟨h, h'⟩; exact ⟨h.symm, h'.symm⟩
    refine ⟨k / c.xblocksize * c.nyBlock + g / (c.yblocksize * nthreads), ⟨?_, ?_⟩, ?_⟩
    · have : (k / c.xblocksize + 1) * c.nyBlock ≤ c.nxBlock * c.nyBlock := Nat.mul_le_mul_right _ hix
      rw [Nat.add_mul, Nat.one_mul] at this
      omega
    · refine (hwork _).2 ⟨?_, ?_⟩
      · rw [Nat.mul_comm, Nat.mul_add_mod, Nat.mod_eq_of_lt hiy]
      · rw [Nat.mul_comm, Nat.mul_add_div hnyB, Nat.div_eq_of_lt hiy, Nat.add_zero]
    · rintro r ⟨_, hr⟩
      obtain ⟨e1, e2⟩ := (hwork r).1 hr
      have := Nat.div_add_mod r c.nyBlock
      rw [e1, e2, Nat.mul_comm] at this
      exact this.symm

/-- The hypotheses of C48: three good detectors, four observations, two threads, three processes. -/
example : distribute [false, true, false, false] [10, 20, 30, 40] 3 0 2 = .ok ([false, true, false, false], [10, 20]) ∧
    distribute [false, true, false, false] [10, 20, 30, 40] 3 1 2 = .ok ([false, true, false, false], [30, 40]) ∧
    distribute [false, true, false, false] [10, 20, 30, 40] 3 2 2 = .ok ([true, true, true, true], ([] : List Nat)) := by decide

/-- C48 fails when there is no detector or no observation left: the variables of the loop are not set. -/
theorem C48_violation_empty {α : Type} (detectors : List Bool) (observations : List α) (size rank nthreads : Nat) (hs : 1 < size)
    (ht : 0 < nthreads) (h : false ∉ detectors ∨ observations = []) :
    distribute detectors observations size rank nthreads = .error .unboundLocalError := by
  have hz : observations.length * ceilDiv (goodPositions detectors).length nthreads = 0 := by
    rcases h with h | h
    · have : goodPositions detectors = [] := by
        rw [List.eq_nil_iff_forall_not_mem]
        intro i hi
        exact h (List.mem_of_getElem? (mem_goodPositions.1 hi))
      rw [this, ceilDiv, List.length_nil, Nat.div_eq_of_lt (by omega)]
      omega
    · simp [h]
  rw [distribute, if_neg (by omega)]
  dsimp only
  have h0 : ceilDiv 0 size = 0 := by rw [ceilDiv, Nat.div_eq_of_lt (by omega)]
  rw [hz, h0]
  rfl

end Verif.Dist
