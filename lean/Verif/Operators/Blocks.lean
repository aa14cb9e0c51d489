import Mathlib.Data.List.Basic
import Mathlib.Algebra.BigOperators.Group.List.Basic
import Mathlib.Tactic
import Verif.Py.Basic

/-! The class decorator `block_diagonal`, which partitions an operator (src/pysimulators/operators.py 65-230). -/

namespace Verif.Operators

open Verif.Py

set_option linter.unusedSectionVars false
set_option linter.unusedSimpArgs false

variable {α : Type}

/-! ### The model -/

/-- An argument: what `isscalarlike` accepts, or a sequence. -/
inductive Arg (α : Type) where
  | scalar (a : α)
  | seq (l : List α)
deriving DecidableEq

/-- `0 if isscalarlike(a) else len(a)`. -/
def Arg.len : Arg α → Nat
  | .scalar _ => 0
  | .seq l => l.length

/-- The values given by the caller: positional ones then keyed ones, each one with whether its name is one of the partition variables; the keywords
`partitionin`, `shapein` and `shapeout` are apart. -/
structure Call (α : Type) where
  args : List (Bool × Arg α)
  partitionin : Option (List Nat)
  shapein : Option (List Nat)
  shapeout : Option (List Nat)

/-- What a block receives; the lengths of a shape can be None. -/
structure BlockCall (α : Type) where
  args : List (Arg α)
  shapein : Option (List (Option Nat))
  shapeout : Option (List (Option Nat))

/-- The operator itself, or a block diagonal operator with its partition. -/
inductive Built (α : Type) where
  | original (c : Call α)
  | blocks (bs : List (BlockCall α)) (partition : List (Option Nat))

/-- The axis of the decorator: chunks along `axisin`, or a stack along `new_axisin`. -/
inductive Axis where
  | chunk (axisin : Int)
  | stack (newAxisin : Int)

/-- operators.py 167-181: the argument of the i-th block. -/
def dispatch (i : Nat) (a : Bool × Arg α) : Res (Arg α) :=
  match a with
  | (true, .seq l) =>
    match l[i]? with
    | some x => .ok (.scalar x)
    | none => .error .indexError
  | (_, a) => .ok a

/-- Assignment to an item of a list, with a possibly negative position. -/
def setItem {β : Type} (l : List β) (i : Int) (x : β) : Res (List β) :=
  let j := if i < 0 then i + l.length else i
  if 0 ≤ j ∧ j < l.length then .ok (l.set j.toNat x) else .error .indexError

/-- operators.py 184-190 `reshape`: the result of `np.delete` is not used. -/
def reshapeBlock (s : List Nat) (p : Option Nat) : Axis → Res (List (Option Nat))
  | .chunk a => setItem (s.map some) a p
  | .stack _ => .ok (s.map some)

/-- operators.py 192-199, for one shape. -/
def reshapeOpt (s : Option (List Nat)) (p : Option Nat) (axis : Axis) : Res (Option (List (Option Nat))) :=
  match s with
  | none => .ok none
  | some s => (reshapeBlock s p axis).map some

/-- operators.py 169-174: the lengths of the blocks: those given by the caller, else unknown for chunks, and one for a stack. -/
def lengths (axis : Axis) (c : Call α) (n : Nat) : List (Option Nat) :=
  match c.partitionin, axis with
  | some p, _ => p.map some
  | none, .chunk _ => List.replicate n none
  | none, .stack _ => List.replicate n (some 1)

/-- operators.py 113-216 `partition_init`. -/
def partitionInit (axis : Axis) (c : Call α) : Res (Built α) :=
  let n1 := (c.partitionin.getD []).length
  let ns := (c.args.filter fun a => a.1).map fun a => a.2.len
  let n2 := ns.foldl max 0
  if ns.any fun n => n != 0 && n != n2 then .error .valueError
  else
    let n := max n1 n2
    if n = 0 then .ok (.original c)
    else if n1 ≠ 0 ∧ n2 ≠ 0 ∧ n1 ≠ n2 then .error .valueError
    else
      let partition := lengths axis c n
      let n := partition.length
      ((List.range n).mapM fun i => do
        let args ← c.args.mapM (dispatch i)
        let p := (partition[i]?).getD none
        let si ← reshapeOpt c.shapein p axis
        let so ← reshapeOpt c.shapeout p axis
        .ok (⟨args, si, so⟩ : BlockCall α)).map fun bs => .blocks bs partition

/-! ### The properties -/

/-- The value that the i-th block must receive. -/
def Receives (i : Nat) (a : Bool × Arg α) (x : Arg α) : Prop :=
  match a with
  | (true, .seq l) => ∃ y, l[i]? = some y ∧ x = .scalar y
  | (_, a) => x = a

/-- All the sequences of partition variables have `n` elements, and so does the partition if it is given. -/
def Partition (c : Call α) (n : Nat) : Prop :=
  (∀ l, (true, Arg.seq l) ∈ c.args → l.length = n) ∧ (∀ p, c.partitionin = some p → p.length = n)

theorem foldl_max_le (l : List Nat) (a b : Nat) (ha : a ≤ b) (h : ∀ x ∈ l, x ≤ b) : l.foldl max a ≤ b := by
  induction l generalizing a with
  | nil => exact ha
  | cons x l ih => exact ih _ (max_le ha (h x (by simp))) fun y hy => h y (by simp [hy])

theorem le_foldl_max (l : List Nat) (a x : Nat) (h : x = a ∨ x ∈ l) : x ≤ l.foldl max a := by
  induction l generalizing a x with
  | nil => rcases h with rfl | h; exact le_rfl; simp at h
  | cons y l ih =>
    rw [List.foldl_cons]
    rcases h with rfl | h
    · exact (le_max_left _ y).trans (ih _ _ (.inl rfl))
    · rcases List.mem_cons.1 h with rfl | h
      · exact (le_max_right _ _).trans (ih _ _ (.inl rfl))
      · exact ih _ _ (.inr h)

theorem mapM_ok {β γ : Type} (f : β → Res γ) (l : List β) (g : β → γ) (h : ∀ x ∈ l, f x = .ok (g x)) : l.mapM f = .ok (l.map g) := by
  induction l with
  | nil => rfl
  | cons x l ih =>
    rw [List.mapM_cons, h x (by simp), ih fun y hy => h y (by simp [hy])]
    rfl

theorem mapM_length {β γ : Type} (f : β → Res γ) : ∀ (l : List β) (r : List γ), l.mapM f = .ok r →
    r.length = l.length ∧ ∀ (i : Nat) (x : β) (y : γ), l[i]? = some x → r[i]? = some y → f x = .ok y
  | [], r, h => by
    rw [List.mapM_nil] at h
    cases h
    simp
  | x :: l, r, h => by
    rw [List.mapM_cons] at h
    cases hx : f x with
    | error e => rw [hx] at h; cases h
    | ok y =>
      rw [hx] at h
      cases hl : l.mapM f with
      | error e => rw [hl] at h; cases h
      | ok r' =>
        rw [hl] at h
        cases h
        obtain ⟨h1, h2⟩ := mapM_length f l r' hl
        refine ⟨by simp [h1], fun i x' y' hx' hy' => ?_⟩
        cases i with
        | zero => simp at hx' hy'; subst hx' hy'; exact hx
        | succ i => exact h2 i x' y' (by simpa using hx') (by simpa using hy')

theorem dispatch_receives (i : Nat) (a : Bool × Arg α) (x : Arg α) (h : dispatch i a = .ok x) : Receives i a x := by
  rcases a with ⟨b, a⟩
  cases b <;> cases a with
  | scalar a => cases h; rfl
  | seq l => first
    | (cases h; rfl)
    | (simp only [dispatch] at h
       cases hl : l[i]? with
       | none => rw [hl] at h; cases h
       | some y => rw [hl] at h; cases h; exact ⟨y, hl, rfl⟩)

theorem partitionInit_eq {axis : Axis} {c : Call α} {n : Nat} (hn : 0 < n) (hp : Partition c n)
    (hex : (∃ p, c.partitionin = some p) ∨ ∃ l, (true, Arg.seq l) ∈ c.args) :
    (lengths axis c n).length = n ∧
    partitionInit axis c = ((List.range n).mapM fun i => do
        let args ← c.args.mapM (dispatch i)
        let p := ((lengths axis c n)[i]?).getD none
        let si ← reshapeOpt c.shapein p axis
        let so ← reshapeOpt c.shapeout p axis
        .ok (⟨args, si, so⟩ : BlockCall α)).map fun bs => .blocks bs (lengths axis c n) := by
  obtain ⟨h1, h2⟩ := hp
  set ns := (c.args.filter fun a => a.1).map fun a => a.2.len with hns
  have hmem : ∀ x ∈ ns, x = 0 ∨ x = n := by
    intro x hx
    obtain ⟨⟨b, a⟩, ha, rfl⟩ := List.mem_map.1 hx
    obtain ⟨ha, hb⟩ := List.mem_filter.1 ha
    obtain rfl : b = true := hb
    cases a with
    | scalar a => exact .inl rfl
    | seq l => exact .inr (h1 l ha)
  have hle : ns.foldl max 0 ≤ n := foldl_max_le _ _ _ (Nat.zero_le _) fun x hx => by rcases hmem x hx with rfl | rfl <;> omega
  have hge : ∀ x ∈ ns, x ≤ ns.foldl max 0 := fun x hx => le_foldl_max _ _ _ (.inr hx)
  have hany : (ns.any fun n => n != 0 && n != ns.foldl max 0) = false := by
    rw [List.any_eq_false]
    intro x hx
    rcases hmem x hx with rfl | rfl
    · simp
    · have := hge _ hx
      have : x = ns.foldl max 0 := by omega
      simp [← this]
  have hn2 : ns.foldl max 0 = 0 ∨ ns.foldl max 0 = n := by
    by_cases h : ∃ x ∈ ns, x = n
    · obtain ⟨x, hx, rfl⟩ := h
      have := hge _ hx
      right
      omega
    · left
      have : ns.foldl max 0 ≤ 0 := foldl_max_le _ _ _ le_rfl fun x hx => by
        rcases hmem x hx with rfl | rfl
        · exact le_rfl
        · exact absurd ⟨_, hx, rfl⟩ h
      omega
  have hn1 : (c.partitionin.getD []).length = 0 ∨ (c.partitionin.getD []).length = n := by
    cases hc : c.partitionin with
    | none => exact .inl rfl
    | some p => exact .inr (h2 p hc)
  have hmax : max (c.partitionin.getD []).length (ns.foldl max 0) = n := by
    rcases hex with ⟨p, hp⟩ | ⟨l, hl⟩
    · rw [hp, Option.getD_some, h2 p hp]
      omega
    · have : n ∈ ns := by
        rw [hns, List.mem_map]
        exact ⟨(true, .seq l), List.mem_filter.2 ⟨hl, rfl⟩, h1 l hl⟩
      have := hge _ this
      rcases hn1 with h | h <;> omega
  have hlen : (lengths axis c n).length = n := by
    unfold lengths
    cases hc : c.partitionin with
    | none => cases axis <;> simp
    | some p => simp [h2 p hc]
  refine ⟨hlen, ?_⟩
  rw [partitionInit]
  dsimp only
  rw [← hns, hany, hmax, if_neg (by simp), if_neg (by omega), if_neg (by omega)]
  rw [hlen]

theorem range_get {n i : Nat} (h : i < n) : (List.range n)[i]? = some i := by
  rw [List.getElem?_range h]

theorem lengths_some {axis : Axis} {c : Call α} {n : Nat} {p : List Nat} (h : c.partitionin = some p) : lengths axis c n = p.map some := by
  unfold lengths
  rw [h]

/-- What is known of each block, once the operator is built. -/
theorem partitionInit_blocks {axis : Axis} {c : Call α} {n : Nat} (hn : 0 < n) (hp : Partition c n)
    (hex : (∃ p, c.partitionin = some p) ∨ ∃ l, (true, Arg.seq l) ∈ c.args) {bs : List (BlockCall α)} {partition : List (Option Nat)}
    (h : partitionInit axis c = .ok (.blocks bs partition)) : partition = lengths axis c n ∧ bs.length = n ∧
    ∀ (i : Nat) (b : BlockCall α), bs[i]? = some b → c.args.mapM (dispatch i) = .ok b.args ∧
      reshapeOpt c.shapein (((lengths axis c n)[i]?).getD none) axis = .ok b.shapein ∧
      reshapeOpt c.shapeout (((lengths axis c n)[i]?).getD none) axis = .ok b.shapeout := by
  obtain ⟨-, he⟩ := partitionInit_eq (axis := axis) hn hp hex
  rw [he] at h
  generalize hr : ((List.range n).mapM _ : Res (List (BlockCall α))) = r at h
  cases r with
  | error e => cases h
  | ok r =>
    simp only [Except.map, Except.ok.injEq, Built.blocks.injEq] at h
    obtain ⟨rfl, rfl⟩ := h
    obtain ⟨h1, h2⟩ := mapM_length _ _ _ hr
    rw [List.length_range] at h1
    refine ⟨rfl, h1, fun i b hb => ?_⟩
    have hi : i < n := by rw [← h1]; exact (List.getElem?_eq_some_iff.1 hb).1
    have := h2 i i b (range_get hi) hb
    simp only [Bind.bind, Except.bind] at this
    cases ha : c.args.mapM (dispatch i) with
    | error e => rw [ha] at this; cases this
    | ok args =>
      rw [ha] at this
      cases hs : reshapeOpt c.shapein (((lengths axis c n)[i]?).getD none) axis with
      | error e => rw [hs] at this; cases this
      | ok si =>
        rw [hs] at this
        cases ho : reshapeOpt c.shapeout (((lengths axis c n)[i]?).getD none) axis with
        | error e => rw [ho] at this; cases this
        | ok so =>
          rw [ho] at this
          cases this
          exact ⟨rfl, rfl, rfl⟩

/-- C109: the number of blocks is that of the partition or of the sequences, their lengths are those of the partition (without partition, stacked
blocks have length one, and the lengths of chunks are not known), and each block receives its element of each sequence, and the other arguments
unchanged. -/
theorem C109_dispatch {axis : Axis} {c : Call α} {n : Nat} (hn : 0 < n) (hp : Partition c n)
    (hex : (∃ p, c.partitionin = some p) ∨ ∃ l, (true, Arg.seq l) ∈ c.args) {bs : List (BlockCall α)} {partition : List (Option Nat)}
    (h : partitionInit axis c = .ok (.blocks bs partition)) : bs.length = n ∧ partition.length = n ∧
      (∀ p, c.partitionin = some p → partition = p.map some) ∧
      (c.partitionin = none → ∀ m ∈ partition, (∀ a, axis = .chunk a → m = none) ∧ ∀ a, axis = .stack a → m = some 1) ∧
      ∀ (i : Nat) (b : BlockCall α), bs[i]? = some b → b.args.length = c.args.length ∧
        ∀ (j : Nat) (a : Bool × Arg α) (x : Arg α), c.args[j]? = some a → b.args[j]? = some x → Receives i a x := by
  obtain ⟨h1, h2, h3⟩ := partitionInit_blocks hn hp hex h
  refine ⟨h2, by rw [h1]; exact (partitionInit_eq hn hp hex).1, fun p hpp => by rw [h1, lengths_some hpp], fun hnone m hm => ?_, fun i b hb => ?_⟩
  · rw [h1] at hm
    unfold lengths at hm
    rw [hnone] at hm
    refine ⟨fun a ha => ?_, fun a ha => ?_⟩ <;>
    · subst ha
      exact List.eq_of_mem_replicate hm
  obtain ⟨h4, -, -⟩ := h3 i b hb
  obtain ⟨h5, h6⟩ := mapM_length _ _ _ h4
  exact ⟨h5, fun j a x ha hx => dispatch_receives i a x (h6 j a x ha hx)⟩

/-- The axis of the decorator is one of those of the shape. -/
def AxisFits (axis : Axis) (s : List Nat) : Prop :=
  match axis with
  | .chunk a => -(s.length : Int) ≤ a ∧ a < s.length
  | .stack _ => True

theorem reshape_ok {axis : Axis} {s : Option (List Nat)} (hs : ∀ l, s = some l → AxisFits axis l) (p : Option Nat) : ∃ r, reshapeOpt s p axis = .ok r := by
  cases s with
  | none => exact ⟨_, rfl⟩
  | some s =>
    have h := hs s rfl
    cases axis with
    | stack a => exact ⟨_, rfl⟩
    | chunk a =>
      obtain ⟨h1, h2⟩ := h
      refine ⟨some ((s.map some).set (if a < 0 then a + s.length else a).toNat p), ?_⟩
      simp only [reshapeOpt, reshapeBlock, setItem, List.length_map]
      rw [if_pos (by split <;> omega)]
      rfl

/-- C109: the partitioned operator is built as soon as there is a partition, or a sequence, all of them have the same length, and the axis is one of
those of the given shapes. -/
theorem C109_exists {axis : Axis} {c : Call α} {n : Nat} (hn : 0 < n) (hp : Partition c n)
    (hex : (∃ p, c.partitionin = some p) ∨ ∃ l, (true, Arg.seq l) ∈ c.args) (hin : ∀ s, c.shapein = some s → AxisFits axis s)
    (hout : ∀ s, c.shapeout = some s → AxisFits axis s) : ∃ bs partition, partitionInit axis c = .ok (.blocks bs partition) := by
  obtain ⟨-, he⟩ := partitionInit_eq (axis := axis) hn hp hex
  have hargs : ∀ i < n, ∃ r, c.args.mapM (dispatch i) = .ok r := by
    intro i hi
    have : ∀ a ∈ c.args, ∃ x, dispatch i a = .ok x := by
      rintro ⟨b, a⟩ ha
      cases b <;> cases a with
      | scalar a => exact ⟨_, rfl⟩
      | seq l => first
        | exact ⟨_, rfl⟩
        | (have hl := hp.1 l ha
           refine ⟨.scalar (l[i]'(by omega)), ?_⟩
           simp [dispatch, List.getElem?_eq_getElem (show i < l.length by omega)])
    have hne : Nonempty (Arg α) := ⟨.seq []⟩
    choose! g hg using this
    exact ⟨_, mapM_ok _ _ g hg⟩
  choose! args ha using hargs
  choose si hsi using reshape_ok (axis := axis) hin
  choose so hso using reshape_ok (axis := axis) hout
  rw [he, mapM_ok _ _ (fun i => ⟨args i, si (((lengths axis c n)[i]?).getD none), so (((lengths axis c n)[i]?).getD none)⟩)]
  · exact ⟨_, _, rfl⟩
  · intro i hi
    rw [List.mem_range] at hi
    simp only [Bind.bind, Except.bind, ha i hi, hsi, hso]

/-- C109: without partition and without sequence the operator is not partitioned. -/
theorem C109_original {axis : Axis} {c : Call α} (hp : c.partitionin = none) (hseq : ∀ l, (true, Arg.seq l) ∉ c.args) :
    partitionInit axis c = .ok (.original c) := by
  have h0 : ∀ x ∈ (c.args.filter fun a => a.1).map fun a => a.2.len, x = 0 := by
    intro x hx
    obtain ⟨⟨b, a⟩, ha, rfl⟩ := List.mem_map.1 hx
    obtain ⟨ha, hb⟩ := List.mem_filter.1 ha
    obtain rfl : b = true := hb
    cases a with
    | scalar a => rfl
    | seq l => exact absurd ha (hseq l)
  rw [partitionInit]
  dsimp only
  generalize (c.args.filter fun a => a.1).map (fun a => a.2.len) = ns at h0
  have h1 : (ns.any fun n => n != 0 && n != ns.foldl max 0) = false := by
    rw [List.any_eq_false]
    intro x hx
    simp [h0 x hx]
  have h2 : ns.foldl max 0 = 0 := Nat.le_zero.1 (foldl_max_le _ _ _ le_rfl fun x hx => (h0 x hx).le)
  rw [h1, if_neg (by simp), h2, hp, if_pos (by simp)]

/-- C109: sequences of different lengths, or whose length is not that of the partition, are rejected. -/
theorem C109_rejects {axis : Axis} {c : Call α} {l : List α} (hl : (true, Arg.seq l) ∈ c.args) (h0 : l ≠ [])
    (h : (∃ m, (true, Arg.seq m) ∈ c.args ∧ m ≠ [] ∧ m.length ≠ l.length) ∨ ∃ p, c.partitionin = some p ∧ p ≠ [] ∧ p.length ≠ l.length) :
    partitionInit axis c = .error .valueError := by
  rw [partitionInit]
  dsimp only
  have hmem : ∀ m, (true, Arg.seq m) ∈ c.args → m.length ∈ (c.args.filter fun a => a.1).map fun a => a.2.len := fun m hm =>
    List.mem_map.2 ⟨(true, .seq m), List.mem_filter.2 ⟨hm, rfl⟩, rfl⟩
  generalize (c.args.filter fun a => a.1).map (fun a => a.2.len) = ns at hmem
  have hl' := hmem l hl
  have hlpos : l.length ≠ 0 := by simpa using h0
  by_cases hany : (ns.any fun n => n != 0 && n != ns.foldl max 0) = true
  · rw [if_pos hany]
  · rw [if_neg hany]
    have hall : ∀ x ∈ ns, x ≠ 0 → x = ns.foldl max 0 := by
      intro x hx hx0
      by_contra hne
      exact hany (List.any_eq_true.2 ⟨x, hx, by simp [hx0, hne]⟩)
    have e := hall _ hl' hlpos
    rcases h with ⟨m, hm, hm0, hne⟩ | ⟨p, hp, hp0, hne⟩
    · have := hall _ (hmem m hm) (by simpa using hm0)
      omega
    · rw [hp, Option.getD_some]
      have : p.length ≠ 0 := by simpa using hp0
      rw [if_neg (by omega), if_pos (by omega)]

theorem setItem_spec {β : Type} {l r : List β} {a : Int} {x : β} (h : setItem l a x = .ok r) :
    ∃ k : Nat, k < l.length ∧ (k : Int) = (if a < 0 then a + l.length else a) ∧ r = l.set k x := by
  rw [setItem] at h
  generalize (if a < 0 then a + (l.length : Int) else a) = j at h ⊢
  split at h
  · rename_i hb
    cases h
    exact ⟨j.toNat, by omega, by omega, rfl⟩
  · cases h

/-- C109 (chunks): the blocks have the given shape, except along the axis of the partition where they have their own length. -/
theorem C109_chunk_shape {a : Int} {c : Call α} {n : Nat} (hn : 0 < n) (hp : Partition c n) {p : List Nat} (hpp : c.partitionin = some p) {s : List Nat}
    (hs : c.shapein = some s) {bs : List (BlockCall α)} {partition : List (Option Nat)}
    (h : partitionInit (.chunk a) c = .ok (.blocks bs partition)) :
    ∃ k : Nat, k < s.length ∧ (k : Int) = (if a < 0 then a + s.length else a) ∧
      ∀ (i : Nat) (b : BlockCall α), bs[i]? = some b → ∃ m, p[i]? = some m ∧ b.shapein = some ((s.set k m).map some) := by
  have hex : (∃ p, c.partitionin = some p) ∨ ∃ l, (true, Arg.seq l) ∈ c.args := .inl ⟨p, hpp⟩
  obtain ⟨h1, h2, h3⟩ := partitionInit_blocks hn hp hex h
  have key : ∀ (i : Nat) (b : BlockCall α), bs[i]? = some b → ∃ m k : Nat, p[i]? = some m ∧ k < s.length ∧ (k : Int) = (if a < 0 then a + s.length else a) ∧
      b.shapein = some ((s.set k m).map some) := by
    intro i b hb
    have hi : i < n := by rw [← h2]; exact (List.getElem?_eq_some_iff.1 hb).1
    have hpl := hp.2 p hpp
    obtain ⟨-, h4, -⟩ := h3 i b hb
    have hm : p[i]? = some (p[i]'(by omega)) := List.getElem?_eq_getElem _
    rw [hs, lengths_some hpp] at h4
    simp only [List.getElem?_map, hm, Option.map_some, Option.getD_some, reshapeOpt, reshapeBlock] at h4
    cases hset : setItem (s.map some) a (some (p[i]'(by omega))) with
    | error e => rw [hset] at h4; cases h4
    | ok r =>
      rw [hset] at h4
      simp only [Except.map, Except.ok.injEq] at h4
      obtain ⟨k, hk, hk', rfl⟩ := setItem_spec hset
      rw [List.length_map] at hk hk'
      exact ⟨_, k, hm, hk, hk', by rw [← h4, List.map_set]⟩
  obtain ⟨b0, hb0⟩ : ∃ b, bs[0]? = some b := ⟨bs[0]'(by omega), List.getElem?_eq_getElem _⟩
  obtain ⟨m0, k0, -, hk0, hk0', -⟩ := key 0 b0 hb0
  refine ⟨k0, hk0, hk0', fun i b hb => ?_⟩
  obtain ⟨m, k, hm, hk, hk', e⟩ := key i b hb
  have : k = k0 := by omega
  subst this
  exact ⟨m, hm, e⟩

/-- C109 is false for stacks: the axis of the stack is not removed from the shapes of the blocks, so that the blocks of an operator declared with a
shape are operators with this shape. -/
theorem C109_violation_stack {a : Int} {c : Call α} {n : Nat} (hn : 0 < n) (hp : Partition c n)
    (hex : (∃ p, c.partitionin = some p) ∨ ∃ l, (true, Arg.seq l) ∈ c.args) {s : List Nat} (hs : c.shapein = some s) (hout : c.shapeout = none) :
    ∃ bs partition, partitionInit (.stack a) c = .ok (.blocks bs partition) ∧ ∀ b ∈ bs, b.shapein = some (s.map some) := by
  obtain ⟨bs, partition, h⟩ := C109_exists (axis := .stack a) hn hp hex (fun _ _ => trivial) (by simp [hout])
  refine ⟨bs, partition, h, fun b hb => ?_⟩
  obtain ⟨i, hi⟩ := List.mem_iff_getElem?.1 hb
  obtain ⟨-, h4, -⟩ := (partitionInit_blocks hn hp hex h).2.2 i b hi
  rw [hs] at h4
  simp only [reshapeOpt, reshapeBlock, Except.map, Except.ok.injEq] at h4
  exact h4.symm

/-- C109 is false for the output shapes: they are partitioned like the input, even if they have another length along the axis. -/
theorem C109_violation_shapeout : ∃ bs partition,
    partitionInit (.chunk 0) (⟨[(true, .seq [10, 20])], some [1, 3], some [4], some [8]⟩ : Call Nat) = .ok (.blocks bs partition) ∧
    bs.map (fun b => b.shapeout) = [some [some 1], some [some 3]] := ⟨_, _, rfl, rfl⟩

example : ∃ bs partition, partitionInit (.chunk 0) (⟨[(false, .seq [1, 2, 3]), (true, .seq [10, 20]), (true, .scalar 5)], some [1, 3], some [4, 7], none⟩ : Call Nat)
      = .ok (.blocks bs partition) ∧ bs.map (fun b => b.args) = [[.seq [1, 2, 3], .scalar 10, .scalar 5], [.seq [1, 2, 3], .scalar 20, .scalar 5]] ∧
      bs.map (fun b => b.shapein) = [some [some 1, some 7], some [some 3, some 7]] := ⟨_, _, rfl, rfl, rfl⟩

example : Partition (⟨[(false, .seq [1, 2, 3]), (true, .seq [10, 20]), (true, .scalar 5)], some [1, 3], some [4, 7], none⟩ : Call Nat) 2 := by
  constructor
  · intro l hl
    simp at hl
    rw [hl]
    rfl
  · intro p hp
    simp at hp
    rw [← hp]
    rfl

example : partitionInit (.stack 0) (⟨[(true, .seq [1, 2]), (true, .seq [3])], none, none, none⟩ : Call Nat) = .error .valueError :=
  C109_rejects (l := [1, 2]) (by simp) (by simp) (.inl ⟨[3], by simp, by simp, by simp⟩)

example : partitionInit (.stack 0) (⟨[(true, .scalar 1), (false, .seq [3])], none, some [3], none⟩ : Call Nat) =
    .ok (.original ⟨[(true, .scalar 1), (false, .seq [3])], none, some [3], none⟩) := C109_original rfl (by simp)

end Verif.Operators
