import Verif.Wcs.Combine
import Verif.Wcs.PropsSphere
import Verif.PackedTable.Props

/-!
C148: the operators that convert the coordinates, and the scenes that are described by a FITS header: src/pysimulators/wcsutils.py 507-548 and 589-745,
src/pysimulators/packedtables/scenes.py 140-178.  The wrapper of `angle_lonlat` (wcsutils.py 35-66) is at the end (C89).

The memory is a function from the addresses to the numbers; an array of numpy has an address and, for each dimension, a length and a stride.
-/
namespace Verif.Wcs.Operators
open Verif.Py

variable {α : Type}

/-! ### The model of the operators -/

/-- An array of positions: the address of the first number, the first dimensions with their strides, and the stride of the last dimension, whose length is two. -/
structure Arr where
  offset : Int
  lead : List (Nat × Int)
  last : Int

/-- The addresses of the elements of an array in the C order. -/
def addrs : Int → List (Nat × Int) → List Int
  | o, [] => [o]
  | o, (n, s) :: l => (List.range n).flatMap fun (i : Nat) => addrs (o + i * s) l

/-- The condition of numpy for an array to be reshaped without a copy, for the dimensions that are merged: each of them (but those of length one) is the continuation of the next. -/
def mergeable : List (Nat × Int) → Bool
  | [] => true
  | [_] => true
  | (_, s) :: (m, t) :: l => (s == m * t) && mergeable ((m, t) :: l)

/-- wcsutils.py 707-709 and 742-744: `output.reshape((-1, 2))` is a view of the output. -/
def isView (a : Arr) : Bool := a.lead.any (·.1 = 0) || mergeable (a.lead.filter (·.1 ≠ 1))

/-- The assignment of positions to an array, `operation(output, positions)`: `op old new` is the number that is written. -/
def write (op : α → α → α) (last : Int) : (Int → α) → List (Int × α × α) → Int → α
  | mem, [] => mem
  | mem, (a, x, y) :: l => write op last (fun b => if b = a then op (mem a) x else if b = a + last then op (mem (a + last)) y else mem b) l

/-- wcsutils.py 706-710 and 741-745: `direct` of `WCSToPixelOperator` and `WCSToWorldOperator`.  The positions are converted in a new array, which is then assigned to the output
or to its copy. -/
def direct (f : α × α → α × α) (op : α → α → α) (mem : Int → α) (input output : Arr) : Int → α :=
  if isView output then
    write op output.last mem (List.zip (addrs output.offset output.lead) ((addrs input.offset input.lead).map fun a => f (mem a, mem (a + input.last))))
  else mem

/-- wcsutils.py 671-675 `validatein`. -/
def validatein (shape : List Nat) : Res Unit :=
  match shape.getLast? with
  | none => .error .valueError
  | some n => if n ≠ 2 then .error .valueError else .ok ()

/-- A world coordinate system: the transforms of astropy for the pixels counted from zero, between the pixels and the positions of type `W`. -/
structure Transforms (W : Type) where
  toWorld : ℝ × ℝ → W
  toPixel : W → ℝ × ℝ

/-- wcsutils.py 652-669 `_WCSOperator`: the world coordinate system and the origin of the pixels. -/
structure WcsOp (W : Type) where
  wcs : Transforms W
  origin : ℝ

/-- wcsutils.py 710 `wcs_world2pix(input, origin)`. -/
def WcsOp.pixel {W} (o : WcsOp W) (w : W) : ℝ × ℝ := ((o.wcs.toPixel w).1 + o.origin, (o.wcs.toPixel w).2 + o.origin)

/-- wcsutils.py 745 `wcs_pix2world(input, origin)`. -/
def WcsOp.world {W} (o : WcsOp W) (p : ℝ × ℝ) : W := o.wcs.toWorld (p.1 - o.origin, p.2 - o.origin)

/-- wcsutils.py 697-701 (and 732-736): the inverse of `WCSToPixelOperator` (of `WCSToWorldOperator`) has its world coordinate system and its origin.  For Kapteyn (617-620 and
639-642) the origin is one and is not an attribute. -/
def WcsOp.inverse {W} (o : WcsOp W) : WcsOp W := ⟨o.wcs, o.origin⟩

/-- wcsutils.py 526-544 `DistortionOperator.__init__`: the operator is given by its two interpolators; `interp xs vs` is the Clough-Tocher interpolator, whose value is NaN outside of
the convex hull of the points.  `dim` and `dim'` are the last dimensions. -/
def distortion (interp : List (ℝ × ℝ) → List ℝ → ℝ × ℝ → Option ℝ) (dim dim' : Nat) (xin xout : List (ℝ × ℝ)) : Res (ℝ × ℝ → Option ℝ × Option ℝ) :=
  if dim ≠ 2 then .error .valueError
  else if dim ≠ dim' ∨ xin.length ≠ xout.length then .error .valueError
  else .ok fun x => (interp xin (xout.map (·.1)) x, interp xin (xout.map (·.2)) x)

/-! ### The model of the scenes -/

/-- `To1dOperator(shape, order='f')` of pyoperators: the first index is the fastest. -/
def to1dF : List Int → List Int → Int
  | n :: ns, i :: is => i + n * to1dF ns is
  | _, _ => 0

/-- `ToNdOperator(shape, order='f')` of pyoperators, the inverse of `To1dOperator`. -/
def toNdF : List Int → Int → List Int
  | [], _ => []
  | [_], i => [i]
  | n :: ns, i => i % n :: toNdF ns (i / n)

/-- scenes.py 140-155 and 157-172: a scene described by a header. -/
structure GridScene (W : Type) where
  shape : List Int
  topixel : WcsOp W
  to1d : List Int

/-- scenes.py 157-172 `SceneGrid.fromfits`, and the check of the number of dimensions of 145-146. -/
noncomputable def fromfits {W} (wcs : Transforms W) (h : Header) : Res (GridScene W) :=
  (fitsheader2shape h).bind fun shape =>
    if shape.length ≠ 2 then .error .valueError else .ok ⟨shape, ⟨wcs, 0⟩, shape.reverse⟩

/-! ### Specification -/

/-- The indices of the first dimensions. -/
def Valid : List Nat → List (Nat × Int) → Prop
  | [], [] => True
  | i :: is, d :: ds => i < d.1 ∧ Valid is ds
  | _, _ => False

/-- The address of an element. -/
def address : Int → List Nat → List (Nat × Int) → Int
  | o, i :: is, d :: ds => address (o + i * d.2) is ds
  | o, _, _ => o

/-- No number is at two places of the array. -/
def NoOverlap (a : Arr) : Prop :=
  (∀ i j, Valid i a.lead → Valid j a.lead → address a.offset i a.lead = address a.offset j a.lead → i = j) ∧
  ∀ i j, Valid i a.lead → Valid j a.lead → address a.offset i a.lead ≠ address a.offset j a.lead + a.last

/-- The numbers of the position of indices `i` of an array. -/
def position (mem : Int → α) (a : Arr) (i : List Nat) : α × α := (mem (address a.offset i a.lead), mem (address a.offset i a.lead + a.last))

/-- The interpolators go through the points. -/
def Interpolates (interp : List (ℝ × ℝ) → List ℝ → ℝ × ℝ → Option ℝ) : Prop :=
  ∀ xs vs : List _, xs.Nodup → xs.length = vs.length → ∀ (k : Nat) (x : ℝ × ℝ) (v : ℝ), xs[k]? = some x → vs[k]? = some v → interp xs vs x = some v

/-! ### Lemmas -/

/-- The list of the indices in the C order. -/
def indices : List (Nat × Int) → List (List Nat)
  | [] => [[]]
  | (n, _) :: l => (List.range n).flatMap fun i => (indices l).map (i :: ·)

theorem mem_indices : ∀ {l : List (Nat × Int)} {i : List Nat}, i ∈ indices l ↔ Valid i l
  | [], i => by
    cases i <;> simp [indices, Valid]
  | (n, s) :: l, [] => by
    simp [indices, Valid]
  | (n, s) :: l, i :: is => by
    rw [indices, List.mem_flatMap]
    constructor
    · rintro ⟨j, hj, h⟩
      obtain ⟨k, hk, e⟩ := List.mem_map.1 h
      cases e
      exact ⟨List.mem_range.1 hj, mem_indices.1 hk⟩
    · rintro ⟨h1, h2⟩
      exact ⟨i, List.mem_range.2 h1, List.mem_map.2 ⟨is, mem_indices.2 h2, rfl⟩⟩

theorem addrs_eq : ∀ (l : List (Nat × Int)) (o : Int), addrs o l = (indices l).map fun i => address o i l
  | [], o => rfl
  | (n, s) :: l, o => by
    rw [addrs, indices, List.map_flatMap]
    congr 1
    funext i
    rw [addrs_eq l, List.map_map]
    rfl

/-- The indices depend on the lengths only. -/
theorem indices_lengths : ∀ {l l' : List (Nat × Int)}, l.map (·.1) = l'.map (·.1) → indices l = indices l'
  | [], [], _ => rfl
  | [], _ :: _, h => by cases h
  | _ :: _, [], h => by cases h
  | (n, s) :: l, (n', s') :: l', h => by
    rw [List.map_cons, List.map_cons] at h
    injection h with h1 h2
    dsimp only at h1
    rw [indices, indices, h1, indices_lengths h2]

theorem indices_nodup : ∀ l : List (Nat × Int), (indices l).Nodup
  | [] => by simp [indices]
  | (n, s) :: l => by
    rw [indices, List.nodup_flatMap]
    refine ⟨fun i _ => (indices_nodup l).map fun a b h => (List.cons.inj h).2, ?_⟩
    refine List.nodup_range.imp_of_mem ?_
    intro i j _ _ hij x hx hy
    obtain ⟨a, -, rfl⟩ := List.mem_map.1 hx
    obtain ⟨b, -, e⟩ := List.mem_map.1 hy
    exact hij (List.cons.inj e).1.symm

/-- The numbers that are not written do not change. -/
theorem write_other (op : α → α → α) (last : Int) : ∀ (l : List (Int × α × α)) (mem : Int → α) (b : Int), (∀ e ∈ l, b ≠ e.1 ∧ b ≠ e.1 + last) → write op last mem l b = mem b
  | [], _, _, _ => rfl
  | (a, x, y) :: l, mem, b, h => by
    rw [write, write_other op last l _ b fun e he => h e (by simp [he])]
    have := h (a, x, y) (by simp)
    simp [this.1, this.2]

/-- The numbers that are written. -/
theorem write_eq (op : α → α → α) (last : Int) : ∀ (l : List (Int × α × α)) (mem : Int → α), (l.map (·.1)).Nodup → (∀ e ∈ l, ∀ e' ∈ l, e.1 ≠ e'.1 + last) →
    ∀ e ∈ l, write op last mem l e.1 = op (mem e.1) e.2.1 ∧ write op last mem l (e.1 + last) = op (mem (e.1 + last)) e.2.2
  | [], _, _, _, e, he => by cases he
  | (a, x, y) :: l, mem, hn, hd, e, he => by
    rw [List.map_cons, List.nodup_cons] at hn
    rw [write]
    rcases List.mem_cons.1 he with rfl | he
    · have h0 : a ≠ a + last := hd (a, x, y) (by simp) (a, x, y) (by simp)
      constructor
      · rw [write_other]
        · simp
        · intro e' he'
          refine ⟨fun h => hn.1 (List.mem_map.2 ⟨e', he', h.symm⟩), hd (a, x, y) (by simp) e' (by simp [he'])⟩
      · rw [write_other]
        · have : ¬ a + last = a := fun h => h0 h.symm
          simp [this]
        · intro e' he'
          refine ⟨fun h => hd e' (by simp [he']) (a, x, y) (by simp) h.symm, fun h => hn.1 (List.mem_map.2 ⟨e', he', ?_⟩)⟩
          dsimp only at h ⊢
          omega
    · obtain ⟨h1, h2⟩ := write_eq op last l (fun b => if b = a then op (mem a) x else if b = a + last then op (mem (a + last)) y else mem b) hn.2
        (fun e he e' he' => hd e (by simp [he]) e' (by simp [he'])) e he
      have a1 : ¬ e.1 = a := fun h => hn.1 (List.mem_map.2 ⟨e, he, h⟩)
      have a2 : ¬ e.1 = a + last := hd e (by simp [he]) (a, x, y) (by simp)
      have a3 : ¬ e.1 + last = a := fun h => hd (a, x, y) (by simp) e (by simp [he]) h.symm
      have a4 : ¬ e.1 + last = a + last := fun h => a1 (by omega)
      rw [h1, h2]
      simp [a1, a2, a3, a4]

theorem zip_map_same {β γ δ : Type} (f : β → γ) (g : β → δ) (l : List β) : List.zip (l.map f) (l.map g) = l.map fun x => (f x, g x) := by
  induction l with
  | nil => rfl
  | cons a l ih => simp [ih]

/-! ### C148 -/

/-- C148: the operators convert each of the positions of an array, even if the output is the input or overlaps it, and write nothing else, as long as the output can be reshaped
without a copy. -/
theorem C148_direct_partial (f : α × α → α × α) (op : α → α → α) (mem : Int → α) {input output : Arr} (hs : input.lead.map (·.1) = output.lead.map (·.1)) (ho : NoOverlap output)
    (hv : isView output = true) :
    (∀ i, Valid i output.lead → position (direct f op mem input output) output i =
      (op (position mem output i).1 (f (position mem input i)).1, op (position mem output i).2 (f (position mem input i)).2)) ∧
    ∀ b, (∀ i, Valid i output.lead → b ≠ address output.offset i output.lead ∧ b ≠ address output.offset i output.lead + output.last) → direct f op mem input output b = mem b := by
  have hl : List.zip (addrs output.offset output.lead) ((addrs input.offset input.lead).map fun a => f (mem a, mem (a + input.last))) =
      (indices output.lead).map fun i => (address output.offset i output.lead, f (position mem input i)) := by
    rw [addrs_eq, addrs_eq, indices_lengths hs, List.map_map, zip_map_same]
    rfl
  have hd : direct f op mem input output = write op output.last mem ((indices output.lead).map fun i => (address output.offset i output.lead, f (position mem input i))) := by
    unfold direct
    rw [if_pos hv, hl]
  rw [hd]
  constructor
  · intro i hi
    have hm : (address output.offset i output.lead, f (position mem input i)) ∈ (indices output.lead).map fun i => (address output.offset i output.lead, f (position mem input i)) :=
      List.mem_map.2 ⟨i, mem_indices.2 hi, rfl⟩
    obtain ⟨h1, h2⟩ := write_eq op output.last _ mem (by
      rw [List.map_map]
      refine (indices_nodup output.lead).map_on ?_
      intro a ha b hb e
      exact ho.1 a b (mem_indices.1 ha) (mem_indices.1 hb) e) (by
      intro e he e' he'
      obtain ⟨a, ha, rfl⟩ := List.mem_map.1 he
      obtain ⟨b, hb, rfl⟩ := List.mem_map.1 he'
      exact ho.2 a b (mem_indices.1 ha) (mem_indices.1 hb)) _ hm
    exact Prod.ext h1 h2
  · intro b hb
    refine write_other _ _ _ _ _ fun e he => ?_
    obtain ⟨a, ha, rfl⟩ := List.mem_map.1 he
    exact hb a (mem_indices.1 ha)

/-- C148 fails for an output that cannot be reshaped without a copy, such as a part of a larger array: nothing is written. -/
theorem C148_violation_strided : ∃ output : Arr, output.lead.map (·.1) = [2, 2] ∧ NoOverlap output ∧ (∃ i, Valid i output.lead) ∧
    ∀ (α : Type) (f : α × α → α × α) (op : α → α → α) (mem : Int → α) (input : Arr), direct f op mem input output = mem := by
  refine ⟨⟨0, [(2, 6), (2, 2)], 1⟩, rfl, ⟨?_, ?_⟩, ⟨[0, 1], by simp [Valid]⟩, fun α f op mem input => if_neg (by decide)⟩
  · intro i j hi hj h
    match i, j, hi, hj, h with
    | [a, b], [c, d], hi, hj, h =>
      simp only [Valid] at hi hj
      simp only [address] at h
      have h1 : a = c := by omega
      have h2 : b = d := by omega
      rw [h1, h2]
    | [], _, hi, _, _ => exact absurd hi id
    | [_], _, hi, _, _ => exact absurd hi.2 id
    | _ :: _ :: _ :: _, _, hi, _, _ => exact absurd hi.2.2 id
    | [_, _], [], _, hj, _ => exact absurd hj id
    | [_, _], [_], _, hj, _ => exact absurd hj.2 id
    | [_, _], _ :: _ :: _ :: _, _, hj, _ => exact absurd hj.2.2 id
  · intro i j hi hj h
    match i, j, hi, hj, h with
    | [a, b], [c, d], hi, hj, h =>
      simp only [Valid] at hi hj
      simp only [address] at h
      omega
    | [], _, hi, _, _ => exact absurd hi id
    | [_], _, hi, _, _ => exact absurd hi.2 id
    | _ :: _ :: _ :: _, _, hi, _, _ => exact absurd hi.2.2 id
    | [_, _], [], _, hj, _ => exact absurd hj id
    | [_, _], [_], _, hj, _ => exact absurd hj.2 id
    | [_, _], _ :: _ :: _ :: _, _, hj, _ => exact absurd hj.2.2 id

/-- C148: the shapes that are accepted. -/
theorem C148_shapes (shape : List Nat) : validatein shape = .ok () ↔ ∃ lead, shape = lead ++ [2] := by
  unfold validatein
  rcases List.eq_nil_or_concat shape with rfl | ⟨l, a, rfl⟩
  · simp
  · rw [List.concat_eq_append, List.getLast?_concat]
    dsimp only
    constructor
    · intro h
      by_cases ha : a = 2
      · exact ⟨l, by rw [ha]⟩
      · rw [if_pos ha] at h; cases h
    · rintro ⟨lead, e⟩
      have := (List.append_inj' e rfl).2
      injection this with this
      rw [if_neg (by simp [this])]

/-- C148: the operators are the inverse of each other, whatever the origin of the pixels, where the transforms of the world coordinate system are. -/
theorem C148_inverse {W : Type} (o : WcsOp W) (D : Set (ℝ × ℝ)) (hw : ∀ p ∈ D, o.wcs.toPixel (o.wcs.toWorld p) = p) :
    (∀ p, (p.1 - o.origin, p.2 - o.origin) ∈ D → o.inverse.pixel (o.world p) = p) ∧ (∀ p ∈ D, o.inverse.world (o.pixel (o.wcs.toWorld p)) = o.wcs.toWorld p) ∧ o.inverse.inverse = o := by
  refine ⟨fun p hp => ?_, fun p hp => ?_, rfl⟩
  · unfold WcsOp.pixel WcsOp.world WcsOp.inverse
    dsimp only
    rw [hw _ hp]
    simp
  · unfold WcsOp.pixel WcsOp.world WcsOp.inverse
    dsimp only
    rw [hw _ hp]
    simp

/-- C148: the distortion goes through the points, and so does its inverse. -/
theorem C148_distortion_partial {interp : List (ℝ × ℝ) → List ℝ → ℝ × ℝ → Option ℝ} (hi : Interpolates interp) {xin xout : List (ℝ × ℝ)} (hl : xin.length = xout.length) (hn : xin.Nodup)
    (hn' : xout.Nodup) : ∃ d d', distortion interp 2 2 xin xout = .ok d ∧ distortion interp 2 2 xout xin = .ok d' ∧
      ∀ (k : Nat) x y, xin[k]? = some x → xout[k]? = some y → d x = (some y.1, some y.2) ∧ d' y = (some x.1, some x.2) := by
  refine ⟨_, _, by unfold distortion; rw [if_neg (by simp), if_neg (by simp [hl])], by unfold distortion; rw [if_neg (by simp), if_neg (by simp [hl])], fun k x y hx hy => ⟨?_, ?_⟩⟩
  · rw [hi xin (xout.map (·.1)) hn (by simp [hl]) k x y.1 hx (by simp [hy]), hi xin (xout.map (·.2)) hn (by simp [hl]) k x y.2 hx (by simp [hy])]
  · rw [hi xout (xin.map (·.1)) hn' (by simp [hl]) k y x.1 hy (by simp [hx]), hi xout (xin.map (·.2)) hn' (by simp [hl]) k y x.2 hy (by simp [hx])]

/-- C148 fails for the inverse of a distortion elsewhere: for an interpolator that goes through the points and is NaN outside of them, the inverse of the distortion of a point is not
this point. -/
theorem C148_violation_distortion : ∃ interp : List (ℝ × ℝ) → List ℝ → ℝ × ℝ → Option ℝ, Interpolates interp ∧ ∃ (xin xout : List (ℝ × ℝ)) (d : ℝ × ℝ → Option ℝ × Option ℝ) (x : ℝ × ℝ),
    xin.Nodup ∧ xout.Nodup ∧ distortion interp 2 2 xin xout = .ok d ∧ d x = (none, none) := by
  classical
  refine ⟨fun xs vs x => vs[xs.idxOf x]?, ?_, [(0, 0)], [(1, 1)], _, (5, 5), by simp, by simp, by unfold distortion; rw [if_neg (by simp), if_neg (by simp)], ?_⟩
  · intro xs vs hn hl k x v hx hv
    obtain ⟨hk, rfl⟩ := List.getElem?_eq_some_iff.1 hx
    dsimp only
    rw [hn.idxOf_getElem k hk]
    exact hv
  · simp

/-- C148: the pixels of a scene described by a header are numbered as the elements of the image: the position of the centre of the pixel of column x and row y has the number of
the element [y, x] of an array of the shape of the scene in the C order, whose row and column are y and x, and the inverse operators give the position of this number. -/
theorem C148_scene {W : Type} (wcs : Transforms W) {h : Header} {nx ny : Nat} (hh : fitsheader2shape h = .ok [(ny : Int), (nx : Int)]) :
    ∃ s, fromfits wcs h = .ok s ∧ s.shape = [(ny : Int), (nx : Int)] ∧ ∀ x y : Nat, x < nx → y < ny → wcs.toPixel (wcs.toWorld ((x : ℝ), (y : ℝ))) = ((x : ℝ), (y : ℝ)) →
      s.topixel.pixel (wcs.toWorld ((x : ℝ), (y : ℝ))) = ((x : ℝ), (y : ℝ)) ∧ to1dF s.to1d [x, y] = ((y * nx + x : Nat) : Int) ∧ (∀ b, Verif.PackedTable.column nx b (to1dF s.to1d [x, y]) = x + if b then 1 else 0) ∧
      (∀ b, Verif.PackedTable.row nx b (to1dF s.to1d [x, y]) = y + if b then 1 else 0) ∧ toNdF s.to1d (to1dF s.to1d [x, y]) = [(x : Int), (y : Int)] ∧
      s.topixel.inverse.world ((x : ℝ), (y : ℝ)) = wcs.toWorld ((x : ℝ), (y : ℝ)) := by
  refine ⟨⟨[(ny : Int), (nx : Int)], ⟨wcs, 0⟩, [(nx : Int), (ny : Int)]⟩, ?_, rfl, fun x y hx hy hw => ?_⟩
  · unfold fromfits
    rw [hh]
    rfl
  · have e : to1dF [(nx : Int), (ny : Int)] [(x : Int), (y : Int)] = ((y * nx + x : Nat) : Int) := by
      simp only [to1dF]
      push_cast
      ring
    have hn : (0 : Int) < nx := by omega
    have e1 : ((y * nx + x : Nat) : Int) % nx = x := by
      push_cast
      rw [Int.add_comm, Int.add_mul_emod_self_right, Int.emod_eq_of_lt (by omega) (by omega)]
    have e2 : ((y * nx + x : Nat) : Int) / nx = y := by
      push_cast
      rw [Int.add_comm, Int.add_mul_ediv_right _ _ (by omega), Int.ediv_eq_zero_of_lt (by omega) (by omega), Int.zero_add]
    refine ⟨?_, e, fun b => ?_, fun b => ?_, ?_, ?_⟩
    · unfold WcsOp.pixel
      rw [hw]
      simp
    · show Verif.PackedTable.column nx b (to1dF [(nx : Int), (ny : Int)] [(x : Int), (y : Int)]) = _
      rw [e]
      unfold Verif.PackedTable.column
      rw [Int.fmod_eq_emod_of_nonneg _ (by omega), e1]
    · show Verif.PackedTable.row nx b (to1dF [(nx : Int), (ny : Int)] [(x : Int), (y : Int)]) = _
      rw [e]
      unfold Verif.PackedTable.row
      rw [Int.fdiv_eq_ediv_of_nonneg _ (by omega), e2]
    · show toNdF [(nx : Int), (ny : Int)] (to1dF [(nx : Int), (ny : Int)] [(x : Int), (y : Int)]) = _
      rw [e, toNdF, toNdF, e1, e2]
      simp
    · unfold WcsOp.world WcsOp.inverse
      simp

/-- C148: a header that does not describe an image is refused. -/
theorem C148_dimensions {W : Type} (wcs : Transforms W) {h : Header} {shape : List Int} (hh : fitsheader2shape h = .ok shape) (hn : shape.length ≠ 2) : fromfits wcs h = .error .valueError := by
  unfold fromfits
  rw [hh]
  exact if_pos hn

/-- The gnomonic projections of C92, for the pixels counted from zero. -/
noncomputable def tan (t : Tan) : Transforms E3 := ⟨fun p => t.toVec (p.1 + 1) (p.2 + 1), fun v => ((t.toPix v).1 - 1, (t.toPix v).2 - 1)⟩

/-- C148: the transforms of the gnomonic projections are the inverse of each other, so that the operators are. -/
theorem C148_gnomonic {t : Tan} (hdet : t.c11 * t.c22 - t.c12 * t.c21 ≠ 0) (origin : ℝ) (p : ℝ × ℝ) :
    (⟨tan t, origin⟩ : WcsOp E3).inverse.pixel ((⟨tan t, origin⟩ : WcsOp E3).world p) = p := by
  refine (C148_inverse (⟨tan t, origin⟩ : WcsOp E3) Set.univ fun p _ => ?_).1 p (Set.mem_univ _)
  unfold tan
  dsimp only
  rw [toPix_toVec hdet]
  simp

/-! ### Examples -/

/-- In place, two positions. -/
example : NoOverlap ⟨4, [(2, 2)], 1⟩ ∧ isView ⟨4, [(2, 2)], 1⟩ = true ∧ Valid [1] [(2, 2)] := by
  refine ⟨⟨?_, ?_⟩, by decide, by simp [Valid]⟩
  · intro i j hi hj h
    match i, j, hi, hj, h with
    | [a], [b], hi, hj, h =>
      simp only [address] at h
      have : a = b := by omega
      rw [this]
    | [], _, hi, _, _ => exact absurd hi id
    | _ :: _ :: _, _, hi, _, _ => exact absurd hi.2 id
    | [_], [], _, hj, _ => exact absurd hj id
    | [_], _ :: _ :: _, _, hj, _ => exact absurd hj.2 id
  · intro i j hi hj h
    match i, j, hi, hj, h with
    | [a], [b], hi, hj, h =>
      simp only [address] at h
      omega
    | [], _, hi, _, _ => exact absurd hi id
    | _ :: _ :: _, _, hi, _, _ => exact absurd hi.2 id
    | [_], [], _, hj, _ => exact absurd hj id
    | [_], _ :: _ :: _, _, hj, _ => exact absurd hj.2 id

example : to1dF [3, 2] [2, 1] = 5 ∧ toNdF [3, 2] 5 = [2, 1] := by decide

example : fitsheader2shape [("NAXIS", .int 2), ("NAXIS1", .int 3), ("NAXIS2", .int 2)] = .ok [2, 3] := by rfl

/-! ### C89: the wrapper of `angle_lonlat` -/

/-- An array of numpy: its shape and its elements in the C order. -/
structure NArr where
  shape : List Nat
  data : List ℝ

/-- wcsutils.py 35-66 `angle_lonlat` for four arrays: they are made one-dimensional, f2py requires that the coordinates of a list of positions have the same length, and the result
is a number if all of them are. -/
noncomputable def angleLonlatPy (lon1 lat1 lon2 lat2 : NArr) : Res NArr :=
  if lon1.data.length ≠ lat1.data.length ∨ lon2.data.length ≠ lat2.data.length then .error .valueError
  else
    (angleLonlat (List.zip lon1.data lat1.data) (List.zip lon2.data lat2.data)).map fun l =>
      if lon1.shape = [] ∧ lat1.shape = [] ∧ lon2.shape = [] ∧ lat2.shape = [] then ⟨[], l.take 1⟩ else ⟨[l.length], l⟩

/-- C89 for the Python function: two positions, a position and a list of positions, or two lists of the same length. -/
theorem C89_python_partial : (∀ a b c d : ℝ, angleLonlatPy ⟨[], [a]⟩ ⟨[], [b]⟩ ⟨[], [c]⟩ ⟨[], [d]⟩ = .ok ⟨[], [angleOne a b c d]⟩) ∧
    (∀ (a b : ℝ) (lon lat : List ℝ), lon.length = lat.length → lon ≠ [] →
      angleLonlatPy ⟨[], [a]⟩ ⟨[], [b]⟩ ⟨[lon.length], lon⟩ ⟨[lat.length], lat⟩ = .ok ⟨[lon.length], List.zipWith (angleOne a b) lon lat⟩) ∧
    (∀ lon1 lat1 lon2 lat2 : List ℝ, lon1.length = lat1.length → lon1.length = lon2.length → lon1.length = lat2.length →
      ∃ l, angleLonlatPy ⟨[lon1.length], lon1⟩ ⟨[lat1.length], lat1⟩ ⟨[lon2.length], lon2⟩ ⟨[lat2.length], lat2⟩ = .ok ⟨[lon1.length], l⟩ ∧
        ∀ (k : Nat) a b c d, lon1[k]? = some a → lat1[k]? = some b → lon2[k]? = some c → lat2[k]? = some d → l[k]? = some (angleOne a b c d)) := by
  refine ⟨fun a b c d => ?_, fun a b lon lat hl hn => ?_, fun lon1 lat1 lon2 lat2 h1 h2 h3 => ?_⟩
  · unfold angleLonlatPy
    simp [angleLonlat, Except.map]
  · unfold angleLonlatPy
    have hz : List.zip lon lat ≠ [] := by
      intro h
      have := congrArg List.length h
      rw [List.length_zip, ← hl] at this
      simp at this
      exact hn this
    have : angleLonlat [(a, b)] (List.zip lon lat) = .ok ((List.zip lon lat).map fun q => angleOne a b q.1 q.2) := (C89_broadcast (a, b) hz).1
    rw [if_neg (by simp [hl])]
    show (angleLonlat [(a, b)] (List.zip lon lat)).map _ = _
    rw [this]
    have e : (List.zip lon lat).map (fun q => angleOne a b q.1 q.2) = List.zipWith (angleOne a b) lon lat := by
      rw [List.zip, List.map_zipWith]
    simp [Except.map, e, hl]
  · unfold angleLonlatPy
    rw [if_neg (by simp [← h1, ← h2, ← h3])]
    have hz : (List.zip lon1 lat1).length = (List.zip lon2 lat2).length := by
      simp [← h1, ← h2, ← h3]
    dsimp only
    rw [C89_arrays hz]
    refine ⟨List.zipWith (fun a b => angleOne a.1 a.2 b.1 b.2) (List.zip lon1 lat1) (List.zip lon2 lat2), by simp [Except.map, ← h1, ← h2, ← h3], ?_⟩
    intro k a b c d ha hb hc hd
    rw [List.getElem?_zipWith, List.getElem?_zip_eq_some (z := (a, b)) |>.2 ⟨ha, hb⟩, List.getElem?_zip_eq_some (z := (c, d)) |>.2 ⟨hc, hd⟩]

/-- C89 fails for arrays with several dimensions: the result has a single one, and the arrays are not broadcast. -/
theorem C89_violation_shape : (∃ l, angleLonlatPy ⟨[2, 2], [0, 0, 0, 0]⟩ ⟨[2, 2], [0, 0, 0, 0]⟩ ⟨[2, 2], [0, 0, 0, 0]⟩ ⟨[2, 2], [0, 0, 0, 0]⟩ = .ok ⟨[4], l⟩) ∧
    angleLonlatPy ⟨[2, 1], [0, 0]⟩ ⟨[2, 1], [0, 0]⟩ ⟨[1, 3], [0, 0, 0]⟩ ⟨[1, 3], [0, 0, 0]⟩ = .error .outOfBounds := by
  refine ⟨⟨List.replicate 4 (angleOne 0 0 0 0), ?_⟩, ?_⟩
  · unfold angleLonlatPy
    rw [if_neg (by simp)]
    simp [angleLonlat, Except.map, List.replicate]
  · unfold angleLonlatPy
    rw [if_neg (by simp)]
    rfl

end Verif.Wcs.Operators
