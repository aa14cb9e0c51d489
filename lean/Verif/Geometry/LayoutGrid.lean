import Verif.Geometry.PropsShapes
import Verif.Units.PropsQuantity
import Verif.PackedTable.Props

/-! C143: the grids of components and their units. -/
namespace Verif.Geometry
open Verif.Py Verif.Units Real

/-! ### The model -/

/-- The argument `shape`. -/
inductive ShapeArg where
  | tuple (dims : List Nat)
  | list (dims : List Nat)
  | other

/-- The arguments of `LayoutGrid` and `LayoutGridSquares` (layouts.py 208-219, 337-348) that define the positions; the radius and the vertices are among
the keywords.  The arrays have one unit; an array without unit has the empty one.  The derived units of the quantities are those of the
package. -/
structure GridArgs where
  shape : ShapeArg
  spacing : Q ℝ
  xreflection : Bool
  yreflection : Bool
  angle : ℝ
  origin : List ℝ × UnitD
  radius : Option (Q ℝ)
  /-- The vertices, one list per component in the order of the rows. -/
  vertex : Option (List (List (ℝ × ℝ)) × UnitD)

/-- A layout, before the components are packed. -/
structure Grid where
  spacing : Q ℝ
  origin : List (Q ℝ)
  radius : Option (Q ℝ)
  unit : UnitD
  /-- The centers, in the order of the rows. -/
  center : List (ℝ × ℝ)
  vertex : Option (List (List (ℝ × ℝ)))
  /-- The unit, after the call, of the array given by the caller as vertices. -/
  callerVertex : Option UnitD

/-- layouts.py 254-259, 390: the first unit that is not empty. -/
def gridUnit (spacing origin : UnitD) (radius : Option UnitD) : UnitD :=
  if spacing ≠ [] then spacing else if origin ≠ [] then origin else radius.getD []

/-- layouts.py 260-264, 391-393: `Quantity(x).tounit(unit)` if there is a unit. -/
noncomputable def convert (N : Nat) (G : DTable ℝ) (u : UnitD) (q : Q ℝ) : Res (Q ℝ) := if u = [] then .ok q else tounit N [] G q u

/-- The same for the two coordinates of an array. -/
noncomputable def convertAll (N : Nat) (G : DTable ℝ) (u : UnitD) : List (Q ℝ) → Res (List (Q ℝ))
  | [] => .ok []
  | q :: l => (convert N G u q).bind fun q' => (convertAll N G u l).map (q' :: ·)

/-- The same for an optional argument (layouts.py 263-264). -/
noncomputable def convertOpt (N : Nat) (G : DTable ℝ) (u : UnitD) : Option (Q ℝ) → Res (Option (Q ℝ))
  | none => .ok none
  | some q => (convert N G u q).map some

/-- layouts.py 247-252: the two dimensions, and whether the shape is a tuple. -/
def checkShape (shape : ShapeArg) (norigin : Nat) : Res (Nat × Nat × Bool) :=
  match shape with
  | .other => .error .typeError
  | .tuple [m, n] => if norigin ≠ 2 then .error .valueError else .ok (m, n, true)
  | .list [m, n] => if norigin ≠ 2 then .error .valueError else .ok (m, n, false)
  | _ => .error .valueError

/-- The two magnitudes of an origin. -/
def pair : List (Q ℝ) → ℝ × ℝ
  | [x, y] => (x.mag, y.mag)
  | _ => (0, 0)

/-- geometry.py 67-105 `create_grid` (the sum of the shape and of a tuple, line 101, fails if the shape is a list): the points in the order of the rows,
the array that is transposed being filled by the library. -/
noncomputable def gridPoints (istuple : Bool) (m n : Nat) (spacing : ℝ) (xrefl yrefl : Bool) (angle : ℝ) (center : ℝ × ℝ) : Res (List (ℝ × ℝ)) :=
  if istuple then .ok ((List.range (m * n)).map fun p => createGrid m n spacing xrefl yrefl angle center (p / n + 1) (p % n + 1))
  else .error .typeError

/-- geometry.py 108-156 `create_grid_squares`, the same. -/
noncomputable def gridSquares (shape : ShapeArg) (spacing ff : ℝ) (xrefl yrefl : Bool) (angle : ℝ) (center : ℝ × ℝ) :
    Res (List (List (ℝ × ℝ))) :=
  match shape with
  | .tuple [m, n] => .ok ((List.range (m * n)).map fun p => createGridSquares m n spacing ff xrefl yrefl angle center (p / n + 1) (p % n + 1))
  | .tuple _ => .error .valueError
  | _ => .error .typeError

/-- numpy.mean over the vertices of a component (layouts.py 67). -/
noncomputable def meanPoint (l : List (ℝ × ℝ)) : ℝ × ℝ := ((l.map Prod.fst).sum / l.length, (l.map Prod.snd).sum / l.length)

/-- layouts.py 265-280: the positions, once the lengths have been converted.  Line 280, `Quantity(vertex, unit, copy=False)`, changes the unit of
the array of the caller (quantities.py 459-472: the array itself, and its attribute `unit`). -/
noncomputable def gridBody (a : GridArgs) (istuple : Bool) (m n : Nat) (u : UnitD) (spacing : Q ℝ) (origin : List (Q ℝ)) (radius : Option (Q ℝ)) : Res Grid :=
  match a.vertex with
  | none => (gridPoints istuple m n spacing.mag a.xreflection a.yreflection a.angle (pair origin)).map fun c =>
      ⟨spacing, origin, radius, u, c, none, none⟩
  | some (v, vu) => .ok ⟨spacing, origin, radius, if u = [] then vu else u, v.map meanPoint, some v, some (if u = [] then vu else u)⟩

/-- layouts.py 208-291 `LayoutGrid.__init__` and 34-73 `Layout.__init__`, before the components are packed; `_z` is `None`. -/
noncomputable def layoutGrid (N : Nat) (G : DTable ℝ) (a : GridArgs) : Res Grid :=
  (checkShape a.shape a.origin.1.length).bind fun d =>
    let u := gridUnit a.spacing.unit a.origin.2 (a.radius.map (·.unit))
    (convert N G u a.spacing).bind fun spacing =>
      (convertAll N G u (a.origin.1.map fun x => ⟨x, a.origin.2⟩)).bind fun origin =>
        (convertOpt N G u a.radius).bind fun radius => gridBody a d.2.2 d.1 d.2.1 u spacing origin radius

/-- The unit of an array of quantities. -/
def unitOf (l : List (Q ℝ)) (default : UnitD) : UnitD := (l.head?.map (·.unit)).getD default

/-- layouts.py 337-416 `LayoutGridSquares.__init__`. -/
noncomputable def layoutGridSquares (N : Nat) (G : DTable ℝ) (a : GridArgs) (ff : ℝ) : Res Grid :=
  let u := gridUnit a.spacing.unit a.origin.2 none
  (convert N G u a.spacing).bind fun spacing =>
    (convertAll N G u (a.origin.1.map fun x => ⟨x, a.origin.2⟩)).bind fun origin =>
      (gridSquares a.shape spacing.mag ff a.xreflection a.yreflection a.angle (pair origin)).bind fun vertex =>
        layoutGrid N G { a with spacing := spacing, origin := (origin.map (·.mag), unitOf origin a.origin.2), vertex := some (vertex, u) }

/-! ### Specification -/

/-- The length meant by a number: in its own unit, or in the unit `u` if it has none. -/
noncomputable def length (v : Sym → ℝ) (u : UnitD) (q : Q ℝ) : ℝ := q.mag * value v (if q.unit = [] then u else q.unit)

/-- The place of the component of row `r` and column `c` (from 0), for a grid of `m` rows and `n` columns separated by `d`, before the rotation and
the translation: the columns increase along X and the rows along -Y, unless reflected. -/
noncomputable def cell (m n : Nat) (d : ℝ) (xrefl yrefl : Bool) (r c : Nat) : ℝ × ℝ :=
  ((if xrefl then -1 else 1) * (d * (c - (n - 1) / 2)), (if yrefl then 1 else -1) * (d * (r - (m - 1) / 2)))

/-- The place of a point of the grid after the rotation and the translation. -/
noncomputable def placed (angle : ℝ) (origin p : ℝ × ℝ) : ℝ × ℝ := (origin.1 + (rotSpec angle p).1, origin.2 + (rotSpec angle p).2)

/-- The corners of a square of half side `h`, counted from the one which is at the right and at the top before the reflections. -/
noncomputable def corners (xrefl yrefl : Bool) (h : ℝ) (p : ℝ × ℝ) : List (ℝ × ℝ) :=
  let x := if xrefl then -h else h
  let y := if yrefl then -h else h
  [(p.1 + x, p.2 + y), (p.1 - x, p.2 + y), (p.1 - x, p.2 - y), (p.1 + x, p.2 - y)]

/-- A position in a unit is a physical position. -/
def Is (v : Sym → ℝ) (u : UnitD) (p q : ℝ × ℝ) : Prop := p.1 * value v u = q.1 ∧ p.2 * value v u = q.2

/-! ### Lemmas -/

theorem createGrid_placed (m n : Nat) (d k : ℝ) (xrefl yrefl : Bool) (angle : ℝ) (o : ℝ × ℝ) (r c : Nat) :
    ((createGrid m n d xrefl yrefl angle o (r + 1) (c + 1)).1 * k, (createGrid m n d xrefl yrefl angle o (r + 1) (c + 1)).2 * k) =
      placed angle (o.1 * k, o.2 * k) (cell m n (d * k) xrefl yrefl r c) := by
  have e : deg2rad angle = angle * π / 180 := by rw [deg2rad]; ring
  rw [createGrid_eq, e]
  cases xrefl <;> cases yrefl <;> simp [placed, rotSpec, cell, sgn] <;> constructor <;> ring

theorem createGridSquares_placed (m n : Nat) (d ff k : ℝ) (xrefl yrefl : Bool) (angle : ℝ) (o : ℝ × ℝ) (r c : Nat) :
    (createGridSquares m n d ff xrefl yrefl angle o (r + 1) (c + 1)).map (fun p => (p.1 * k, p.2 * k)) =
      (corners xrefl yrefl (d * k * √ff / 2) (cell m n (d * k) xrefl yrefl r c)).map (placed angle (o.1 * k, o.2 * k)) := by
  have e : deg2rad angle = angle * π / 180 := by rw [deg2rad]; ring
  rw [createGridSquares_eq, e]
  cases xrefl <;> cases yrefl <;> simp [placed, rotSpec, cell, sgn, corners] <;>
    refine ⟨⟨?_, ?_⟩, ⟨?_, ?_⟩, ⟨?_, ?_⟩, ?_, ?_⟩ <;> ring

theorem convert_length {N : Nat} {G : DTable ℝ} {v : Sym → ℝ} (hg : GoodTables [] G) (hv : Valuation [] G v) {u : UnitD} {q q' : Q ℝ}
    (hu : Wf u) (hq : Wf q.unit) (he : u = [] → q.unit = []) (h : convert N G u q = .ok q') :
    q'.mag * value v u = length v u q ∧ q'.unit = u := by
  unfold convert at h
  unfold length
  split at h
  · rename_i hu'
    injection h with h
    subst h hu'
    rw [he rfl, if_pos rfl]
    exact ⟨rfl, rfl⟩
  · rename_i hu'
    by_cases hq' : q.unit = []
    · have : tounit N [] G q u = .ok ⟨q.mag, u⟩ := by
        unfold tounit inunit
        rw [if_pos (Or.inl (by rw [hq']; rfl))]
      rw [this] at h
      injection h with h
      rw [if_pos hq', ← h]
      exact ⟨rfl, rfl⟩
    · obtain ⟨e1, e2⟩ := C22_amount_partial hg hv hq hu hq' hu' h
      rw [if_neg hq']
      rw [amount, amount, e2] at e1
      exact ⟨e1, e2⟩

theorem convertAll_pair {N : Nat} {G : DTable ℝ} {v : Sym → ℝ} (hg : GoodTables [] G) (hv : Valuation [] G v) {u ou : UnitD} {x y : ℝ} {l : List (Q ℝ)}
    (hu : Wf u) (hq : Wf ou) (he : u = [] → ou = []) (h : convertAll N G u ([x, y].map fun x => ⟨x, ou⟩) = .ok l) :
    ∃ x' y', l = [⟨x', u⟩, ⟨y', u⟩] ∧ x' * value v u = length v u ⟨x, ou⟩ ∧ y' * value v u = length v u ⟨y, ou⟩ := by
  simp only [List.map, convertAll] at h
  obtain ⟨qx, h1, h⟩ := bind_eq_ok.1 h
  obtain ⟨l', h2, rfl⟩ := map_eq_ok.1 h
  obtain ⟨qy, h3, h⟩ := bind_eq_ok.1 h2
  obtain ⟨l'', h4, rfl⟩ := map_eq_ok.1 h
  injection h4 with h4
  subst h4
  obtain ⟨a1, a2⟩ := convert_length hg hv hu hq he h1
  obtain ⟨b1, b2⟩ := convert_length hg hv hu hq he h3
  refine ⟨qx.mag, qy.mag, ?_, a1, b1⟩
  cases qx
  cases qy
  simp only at a2 b2
  rw [a2, b2]

theorem gridUnit_empty {s o : UnitD} {r : Option UnitD} (h : gridUnit s o r = []) : s = [] ∧ o = [] ∧ ∀ u, r = some u → u = [] := by
  unfold gridUnit at h
  split at h
  · contradiction
  · split at h
    · contradiction
    · rename_i h1 h2
      refine ⟨not_not.1 h1, not_not.1 h2, fun u hu => ?_⟩
      rw [hu] at h
      exact h

theorem gridUnit_wf {s o : UnitD} {r : Option UnitD} (hs : Wf s) (ho : Wf o) (hr : ∀ u, r = some u → Wf u) : Wf (gridUnit s o r) := by
  unfold gridUnit
  split
  · exact hs
  · split
    · exact ho
    · cases r with
      | none => simp [Wf]
      | some u => exact hr u rfl

theorem layoutGrid_ok {N : Nat} {G : DTable ℝ} {a : GridArgs} {g : Grid} {m n : Nat} (hs : a.shape = .tuple [m, n])
    {x0 y0 : ℝ} {ou : UnitD} (ho : a.origin = ([x0, y0], ou)) (h : layoutGrid N G a = .ok g) {u : UnitD}
    (hu : u = gridUnit a.spacing.unit ou (a.radius.map (·.unit))) :
    ∃ spacing origin radius, convert N G u a.spacing = .ok spacing ∧ convertAll N G u ([x0, y0].map fun x => ⟨x, ou⟩) = .ok origin ∧
      convertOpt N G u a.radius = .ok radius ∧ gridBody a true m n u spacing origin radius = .ok g := by
  unfold layoutGrid checkShape at h
  rw [hs, ho] at h
  simp only [List.length_cons, List.length_nil, ne_eq, not_true_eq_false, if_false, Except.bind] at h
  rw [← hu] at h
  obtain ⟨sp, h1, h⟩ := bind_eq_ok.1 h
  obtain ⟨or, h2, h⟩ := bind_eq_ok.1 h
  obtain ⟨ra, h3, h⟩ := bind_eq_ok.1 h
  exact ⟨sp, or, ra, h1, h2, h3, h⟩

theorem range_cell {m n r c : Nat} (hr : r < m) (hc : c < n) : r * n + c < m * n ∧ (r * n + c) / n = r ∧ (r * n + c) % n = c := by
  refine ⟨?_, ?_, ?_⟩
  · have : (r + 1) * n ≤ m * n := Nat.mul_le_mul_right n hr
    rw [Nat.add_mul] at this
    omega
  · rw [Nat.mul_comm, Nat.mul_add_div (by omega), Nat.div_eq_of_lt hc]
    rfl
  · rw [Nat.mul_comm, Nat.mul_add_mod, Nat.mod_eq_of_lt hc]

theorem squares_inner {N : Nat} {G : DTable ℝ} {a : GridArgs} {g : Grid} {m n : Nat} (hs : a.shape = .tuple [m, n]) {sp : Q ℝ} {x y : ℝ} {u ou : UnitD}
    {vs : List (List (ℝ × ℝ))}
    (h : layoutGrid N G { a with
      spacing := sp
      origin := ([(⟨x, u⟩ : Q ℝ), ⟨y, u⟩].map (·.mag), unitOf [⟨x, u⟩, ⟨y, u⟩] ou)
      vertex := some (vs, u) } = .ok g) :
    ∃ (spacing : Q ℝ) (origin : List (Q ℝ)) (radius : Option (Q ℝ)),
      (⟨spacing, origin, radius, if gridUnit sp.unit u (a.radius.map (·.unit)) = [] then u else gridUnit sp.unit u (a.radius.map (·.unit)),
        vs.map meanPoint, some vs, some (if gridUnit sp.unit u (a.radius.map (·.unit)) = [] then u else gridUnit sp.unit u (a.radius.map (·.unit)))⟩ : Grid) = g := by
  obtain ⟨sp', or', ra', -, -, -, h5⟩ := layoutGrid_ok (x0 := x) (y0 := y) (ou := u) (by exact hs) rfl h rfl
  simp only [gridBody, Except.ok.injEq] at h5
  exact ⟨sp', or', ra', h5⟩

theorem forall₂_scale (v : Sym → ℝ) (u : UnitD) : ∀ (l : List (ℝ × ℝ)), List.Forall₂ (Is v u) l (l.map fun p => (p.1 * value v u, p.2 * value v u))
  | [] => .nil
  | _ :: l => .cons ⟨rfl, rfl⟩ (forall₂_scale v u l)

/-! ### Theorems -/

/-- C143, partial: the centers of a grid are at the documented places whatever the units of the spacing, origin and radius: the lengths without unit are in the
unit of the layout, which is the first one of these three.  Full statement: also for a shape given as a list, and with vertices given by
the caller; see the violations. -/
theorem C143_grid_partial {N : Nat} {G : DTable ℝ} {v : Sym → ℝ} (hg : GoodTables [] G) (hv : Valuation [] G v) {a : GridArgs} {g : Grid}
    {m n : Nat} (hs : a.shape = .tuple [m, n]) {x0 y0 : ℝ} {ou : UnitD} (ho : a.origin = ([x0, y0], ou)) (hvx : a.vertex = none)
    (w1 : Wf a.spacing.unit) (w2 : Wf ou) (w3 : ∀ q, a.radius = some q → Wf q.unit) (h : layoutGrid N G a = .ok g) :
    g.unit = gridUnit a.spacing.unit ou (a.radius.map (·.unit)) ∧ g.center.length = m * n ∧
    (∀ (r c : Nat), r < m → c < n → ∃ p, g.center[r * n + c]? = some p ∧
      Is v g.unit p (placed a.angle (length v g.unit ⟨x0, ou⟩, length v g.unit ⟨y0, ou⟩)
        (cell m n (length v g.unit a.spacing) a.xreflection a.yreflection r c))) ∧
    (∀ q, a.radius = some q → ∃ q', g.radius = some q' ∧ q'.unit = g.unit ∧ q'.mag * value v g.unit = length v g.unit q) := by
  obtain ⟨sp, or, ra, h1, h2, h3, h4⟩ := layoutGrid_ok hs ho h rfl
  have hempty := @gridUnit_empty a.spacing.unit ou (a.radius.map (·.unit))
  have hwf := @gridUnit_wf a.spacing.unit ou (a.radius.map (·.unit)) w1 w2 (fun u hu => by
    cases hr : a.radius with
    | none => rw [hr] at hu; cases hu
    | some q => rw [hr] at hu; injection hu with hu; rw [← hu]; exact w3 q hr)
  generalize gridUnit a.spacing.unit ou (a.radius.map (·.unit)) = u at *
  obtain ⟨e1, -⟩ := convert_length hg hv hwf w1 (fun e => (hempty e).1) h1
  obtain ⟨x', y', rfl, ex, ey⟩ := convertAll_pair hg hv hwf w2 (fun e => (hempty e).2.1) h2
  unfold gridBody at h4
  rw [hvx] at h4
  simp only [gridPoints, if_true, Except.map, Except.ok.injEq, pair] at h4
  subst h4
  refine ⟨rfl, by simp, fun r c hr hc => ?_, fun q hq => ?_⟩
  · obtain ⟨b1, b2, b3⟩ := range_cell hr hc
    refine ⟨createGrid m n sp.mag a.xreflection a.yreflection a.angle (x', y') (r + 1) (c + 1), ?_, ?_⟩
    · rw [List.getElem?_map, List.getElem?_range b1]
      simp only [Option.map_some, b2, b3]
    · have := createGrid_placed m n sp.mag (value v u) a.xreflection a.yreflection a.angle (x', y') r c
      rw [e1, ex, ey] at this
      rw [← this]
      exact ⟨rfl, rfl⟩
  · rw [hq] at h3
    unfold convertOpt at h3
    obtain ⟨q', e, rfl⟩ := map_eq_ok.1 h3
    obtain ⟨c1, c2⟩ := convert_length hg hv hwf (w3 q hq) (fun e => (hempty e).2.2 q.unit (by rw [hq]; rfl)) e
    exact ⟨q', rfl, c2, c1⟩

/-- C143, partial: the squares of a grid have their corners and centers at the documented places, whatever the units of the spacing and origin.  Full
statement: also for a shape given as a list. -/
theorem C143_squares_partial {N : Nat} {G : DTable ℝ} {v : Sym → ℝ} (hg : GoodTables [] G) (hv : Valuation [] G v) {a : GridArgs} {g : Grid}
    {m n : Nat} (hs : a.shape = .tuple [m, n]) {x0 y0 ff : ℝ} {ou : UnitD} (ho : a.origin = ([x0, y0], ou))
    (w1 : Wf a.spacing.unit) (w2 : Wf ou) (h : layoutGridSquares N G a ff = .ok g) :
    g.unit = gridUnit a.spacing.unit ou (a.radius.map (·.unit)) ∧
    ∃ vs, g.vertex = some vs ∧ vs.length = m * n ∧ g.center.length = m * n ∧
    ∀ (r c : Nat), r < m → c < n →
      let d := length v g.unit a.spacing
      let o := (length v g.unit ⟨x0, ou⟩, length v g.unit ⟨y0, ou⟩)
      let z := cell m n d a.xreflection a.yreflection r c
      (∃ l, vs[r * n + c]? = some l ∧ List.Forall₂ (Is v g.unit) l ((corners a.xreflection a.yreflection (d * √ff / 2) z).map (placed a.angle o))) ∧
      ∃ p, g.center[r * n + c]? = some p ∧ Is v g.unit p (placed a.angle o z) := by
  unfold layoutGridSquares at h
  rw [ho] at h
  obtain ⟨sp, h1, h⟩ := bind_eq_ok.1 h
  obtain ⟨or, h2, h⟩ := bind_eq_ok.1 h
  obtain ⟨vs, h3, h⟩ := bind_eq_ok.1 h
  have hwf : Wf (gridUnit a.spacing.unit ou none) := gridUnit_wf w1 w2 (fun u hu => by cases hu)
  obtain ⟨e1, e2⟩ := convert_length hg hv hwf w1 (fun e => (gridUnit_empty e).1) h1
  obtain ⟨x', y', rfl, ex, ey⟩ := convertAll_pair hg hv hwf w2 (fun e => (gridUnit_empty e).2.1) h2
  obtain ⟨sp', or', ra', h5⟩ := squares_inner hs h
  -- the unit of the layout
  have hunit : (if gridUnit sp.unit (gridUnit a.spacing.unit ou none) (a.radius.map (·.unit)) = [] then gridUnit a.spacing.unit ou none
      else gridUnit sp.unit (gridUnit a.spacing.unit ou none) (a.radius.map (·.unit))) = gridUnit a.spacing.unit ou (a.radius.map (·.unit)) := by
    rw [e2]
    unfold gridUnit
    by_cases h1 : a.spacing.unit = [] <;> by_cases h2 : ou = [] <;> simp [h1, h2]
  have key : sp.mag * value v (gridUnit a.spacing.unit ou (a.radius.map (·.unit))) = length v (gridUnit a.spacing.unit ou (a.radius.map (·.unit))) a.spacing ∧
      x' * value v (gridUnit a.spacing.unit ou (a.radius.map (·.unit))) = length v (gridUnit a.spacing.unit ou (a.radius.map (·.unit))) ⟨x0, ou⟩ ∧
      y' * value v (gridUnit a.spacing.unit ou (a.radius.map (·.unit))) = length v (gridUnit a.spacing.unit ou (a.radius.map (·.unit))) ⟨y0, ou⟩ := by
    by_cases hu : gridUnit a.spacing.unit ou none = []
    · obtain ⟨a1, a2, -⟩ := gridUnit_empty hu
      rw [hu] at h1 h2
      unfold convert at h1
      rw [if_pos rfl] at h1
      injection h1 with h1
      simp only [List.map, convertAll, convert, if_pos, Except.bind, Except.map, Except.ok.injEq, List.cons.injEq, Q.mk.injEq] at h2
      rw [← h1, ← h2.1.1, ← h2.2.1.1]
      unfold length
      rw [a1, a2]
      exact ⟨rfl, rfl, rfl⟩
    · have : gridUnit a.spacing.unit ou (a.radius.map (·.unit)) = gridUnit a.spacing.unit ou none := by
        unfold gridUnit at hu ⊢
        by_cases h1 : a.spacing.unit = [] <;> by_cases h2 : ou = [] <;> simp [h1, h2] at hu ⊢
      rw [this]
      exact ⟨e1, ex, ey⟩
  rw [hunit] at h5
  generalize gridUnit a.spacing.unit ou (a.radius.map (·.unit)) = u at *
  obtain ⟨k1, k2, k3⟩ := key
  have hvs : vs = (List.range (m * n)).map fun p => createGridSquares m n sp.mag ff a.xreflection a.yreflection a.angle (x', y') (p / n + 1) (p % n + 1) := by
    unfold gridSquares at h3
    rw [hs] at h3
    injection h3 with h3
    rw [← h3]
    rfl
  have hlen : vs.length = m * n := by rw [hvs, List.length_map, List.length_range]
  subst h5
  refine ⟨rfl, vs, rfl, hlen, by rw [List.length_map, hlen], fun r c hr hc => ?_⟩
  dsimp only
  obtain ⟨b1, b2, b3⟩ := range_cell hr hc
  have hget : vs[r * n + c]? = some (createGridSquares m n sp.mag ff a.xreflection a.yreflection a.angle (x', y') (r + 1) (c + 1)) := by
    rw [hvs, List.getElem?_map, List.getElem?_range b1]
    simp only [Option.map_some, b2, b3]
  refine ⟨⟨_, hget, ?_⟩, ?_⟩
  · have := createGridSquares_placed m n sp.mag ff (value v u) a.xreflection a.yreflection a.angle (x', y') r c
    rw [k1, k2, k3] at this
    rw [← this]
    exact forall₂_scale v u _
  · rw [List.getElem?_map, hget]
    refine ⟨_, rfl, ?_⟩
    obtain ⟨c1, c2, c3, c4, hc, hm⟩ := C44_consistent m n sp.mag ff a.xreflection a.yreflection a.angle (x', y') (r + 1) (c + 1)
    have hmean : meanPoint (createGridSquares m n sp.mag ff a.xreflection a.yreflection a.angle (x', y') (r + 1) (c + 1)) =
        createGrid m n sp.mag a.xreflection a.yreflection a.angle (x', y') (r + 1) (c + 1) := by
      rw [hc, ← hm]
      simp only [meanPoint, List.map, List.sum_cons, List.sum_nil, List.length_cons, List.length_nil]
      norm_num [add_assoc]
    rw [hmean]
    have := createGrid_placed m n sp.mag (value v u) a.xreflection a.yreflection a.angle (x', y') r c
    rw [k1, k2, k3] at this
    rw [← this]
    exact ⟨rfl, rfl⟩

/-- C143: the component of a layout that has the row `r` and the column `c` has the center of this cell of the grid, whatever the selection
and ordering of the components. -/
theorem C143_packed {α : Type} {t : Verif.PackedTable.Table} (ht : Verif.PackedTable.Reachable t) {m n : Nat} (hd : t.dims = [m, n]) (cells : List α)
    (hl : cells.length = m * n) (s : Bool) :
    ∃ index out, t.index = .ok index ∧ t.pack (.array t.dims cells) = .ok (.array [index.length] out) ∧
      ∀ (k : Nat) (i : Int), index[k]? = some i → ∃ r c : Nat, r < m ∧ c < n ∧ Verif.PackedTable.row n s i = r + (if s then 1 else 0) ∧
        Verif.PackedTable.column n s i = c + (if s then 1 else 0) ∧ out[k]? = cells[r * n + c]? := by
  obtain ⟨index, out, hi, -, ⟨sh, hp, rfl⟩, hpick⟩ := Verif.PackedTable.C01_pack_partial ht cells (by
    rw [hl, Verif.PackedTable.Table.size, hd]
    simp)
  refine ⟨index, out, hi, hp, fun k i hk => ?_⟩
  obtain ⟨h1, -⟩ := Verif.PackedTable.C17_row_column ht hd hi s
  obtain ⟨e, c0, c1, r0, r1⟩ := h1 i (List.mem_of_getElem? hk)
  obtain ⟨-, ho⟩ := hpick.2 k i hk
  refine ⟨(Verif.PackedTable.row n s i - (if s then 1 else 0)).toNat, (Verif.PackedTable.column n s i - (if s then 1 else 0)).toNat, ?_, ?_, ?_, ?_, ?_⟩
  · omega
  · omega
  · rw [Int.toNat_of_nonneg r0]
    split <;> simp
  · rw [Int.toNat_of_nonneg c0]
    split <;> simp
  · rw [ho]
    congr 1
    generalize Verif.PackedTable.row n s i - (if s then 1 else 0) = r at *
    generalize Verif.PackedTable.column n s i - (if s then 1 else 0) = c at *
    obtain ⟨r', rfl⟩ := Int.eq_ofNat_of_zero_le r0
    obtain ⟨c', rfl⟩ := Int.eq_ofNat_of_zero_le c0
    rw [e]
    simp only [Int.toNat_natCast]
    exact_mod_cast Int.toNat_natCast (r' * n + c')

/-- C143 does not hold for vertices given by the caller in another unit than the spacing: the numbers are kept with the unit of the spacing, and the
unit of the array of the caller is changed. -/
theorem C143_violation_vertex {N : Nat} {G : DTable ℝ} {a : GridArgs} {m n : Nat} (hs : a.shape = .tuple [m, n]) {x0 y0 : ℝ} (ho : a.origin = ([x0, y0], []))
    {l : List (List (ℝ × ℝ))} {vu : UnitD} (hvx : a.vertex = some (l, vu)) (hu : a.spacing.unit ≠ [])
    {g : Grid} (h : layoutGrid N G a = .ok g) :
    g.vertex = some l ∧ g.unit = a.spacing.unit ∧ g.callerVertex = some a.spacing.unit := by
  obtain ⟨sp, or, ra, -, -, -, h4⟩ := layoutGrid_ok hs ho h rfl
  have : gridUnit a.spacing.unit [] (a.radius.map (·.unit)) = a.spacing.unit := by
    unfold gridUnit
    rw [if_pos hu]
  rw [this] at h4
  unfold gridBody at h4
  rw [hvx] at h4
  simp only [Except.ok.injEq] at h4
  rw [← h4]
  simp [hu]

/-- C143 does not hold for a shape given as a list: it is accepted by the test of the type of the shape, then refused with `TypeError`. -/
theorem C143_violation_list {N : Nat} {G : DTable ℝ} (a : GridArgs) (m n : Nat) (hs : a.shape = .list [m, n]) (x0 y0 : ℝ) (ho : a.origin = ([x0, y0], []))
    (hu : a.spacing.unit = []) (hr : a.radius = none) (hvx : a.vertex = none) :
    checkShape a.shape 2 = .ok (m, n, false) ∧ layoutGrid N G a = .error .typeError := by
  refine ⟨by rw [hs]; rfl, ?_⟩
  unfold layoutGrid gridBody
  rw [hs, ho, hr, hvx, hu]
  rfl

/-- A grid of two rows and three columns separated by a metre, at two kilometres of the origin, of circles of radius five. -/
noncomputable def metres : GridArgs :=
  ⟨.tuple [2, 3], ⟨1, [("m".toList, 1)]⟩, false, false, 0, ([2, 0], [("km".toList, 1)]), some ⟨5, []⟩, none⟩

theorem convert_metre (x : ℝ) : convert 5 realTable [("m".toList, 1)] ⟨x, [("m".toList, 1)]⟩ = .ok ⟨x * (1 / 1), [("m".toList, 1)]⟩ := by
  have hm : si 5 [] realTable ⟨1, [("m".toList, 1)]⟩ = .ok ⟨1, [("m".toList, 1)]⟩ :=
    si_of_base (by simp [Wf]) (by
      intro p hp
      rw [List.mem_singleton.1 hp]
      rfl) 4
  unfold convert
  rw [if_neg (by simp)]
  exact (tounit_ok (by simp) (by simp)).2 ⟨_, _, hm, hm, by decide, rfl⟩

theorem convert_kilometre (x : ℝ) : ∃ r, convert 5 realTable [("m".toList, 1)] ⟨x, [("km".toList, 1)]⟩ = .ok r := by
  have hm : si 5 [] realTable ⟨1, [("m".toList, 1)]⟩ = .ok ⟨1, [("m".toList, 1)]⟩ :=
    si_of_base (by simp [Wf]) (by
      intro p hp
      rw [List.mem_singleton.1 hp]
      rfl) 4
  have e : si 5 [] realTable ⟨1, [("km".toList, 1)]⟩ =
      .ok ⟨1 * (1 * (1000 * 1 * 1)) * 1, mulUnit (mulUnit [] (mulUnit [("m".toList, 1)] [])) []⟩ := rfl
  unfold convert
  rw [if_neg (by simp)]
  exact ⟨_, (tounit_ok (by simp) (by simp)).2 ⟨_, _, e, hm, by decide, rfl⟩⟩

/-- The hypotheses are met; the first center is at 1999 m and 0.5 m. -/
example : ∃ g p, layoutGrid 5 realTable metres = .ok g ∧ g.center[0]? = some p ∧ Is realValue [("m".toList, 1)] p (1999, 1 / 2) := by
  obtain ⟨r1, h1⟩ := convert_kilometre 2
  obtain ⟨r2, h2⟩ := convert_kilometre 0
  have hg : ∃ g, layoutGrid 5 realTable metres = .ok g := by
    unfold layoutGrid
    simp only [metres, checkShape, List.length_cons, List.length_nil, ne_eq, not_true_eq_false, if_false, Except.bind, gridUnit, List.map,
      convertAll, convertOpt, Option.map_some, reduceCtorEq, not_false_eq_true, if_true]
    rw [convert_metre]
    simp only [h1, h2]
    have : convert 5 realTable [("m".toList, 1)] ⟨5, []⟩ = .ok ⟨5, [("m".toList, 1)]⟩ := by
      unfold convert tounit inunit
      simp
    rw [this]
    exact ⟨_, rfl⟩
  obtain ⟨g, hg⟩ := hg
  obtain ⟨hu, -, h, -⟩ := C143_grid_partial realTable_good realTable_valuation (a := metres) rfl rfl rfl (by simp [metres, Wf]) (by simp [Wf])
    (fun q hq => by
      injection hq with hq
      rw [← hq]
      simp [Wf]) hg
  obtain ⟨p, hp, hi⟩ := h 0 0 (by omega) (by omega)
  have hu' : g.unit = [("m".toList, 1)] := by rw [hu]; rfl
  rw [hu'] at hi
  refine ⟨g, p, hg, hp, ?_⟩
  have : placed metres.angle (length realValue [("m".toList, 1)] ⟨2, [("km".toList, 1)]⟩, length realValue [("m".toList, 1)] ⟨0, [("km".toList, 1)]⟩)
      (cell 2 3 (length realValue [("m".toList, 1)] metres.spacing) metres.xreflection metres.yreflection 0 0) = (1999, 1 / 2) := by
    have e1 : realValue ['m'] = 1 := realValue_m
    have e2 : realValue ['k', 'm'] = 1000 := realValue_km
    simp [placed, rotSpec, cell, metres, length, value, rpow_real]
    norm_num [e1, e2]
  rw [this] at hi
  exact hi

example : ∃ g, layoutGridSquares 5 realTable ⟨.tuple [1, 2], ⟨2, []⟩, true, false, 30, ([1, 1], []), none, none⟩ (1 / 4) = .ok g := by
  simp only [layoutGridSquares, gridUnit, ne_eq, not_true_eq_false, if_false, Option.getD_none, convert, if_true, Except.bind, convertAll, List.map,
    Except.map, gridSquares]
  exact ⟨_, rfl⟩

/-- Vertices given in kilometres, for a spacing in metres. -/
example : ∃ g, layoutGrid 5 realTable ⟨.tuple [1, 1], ⟨1, [("m".toList, 1)]⟩, false, false, 0, ([0, 0], []), none,
    some ([[(0, 0), (1, 0), (1, 1)]], [("km".toList, 1)])⟩ = .ok g := by
  have : convert 5 realTable [("m".toList, 1)] ⟨0, []⟩ = .ok ⟨0, [("m".toList, 1)]⟩ := by
    unfold convert tounit inunit
    simp
  unfold layoutGrid
  simp only [checkShape, List.length_cons, List.length_nil, ne_eq, not_true_eq_false, if_false, Except.bind, gridUnit, List.map,
    convertAll, convertOpt, Option.map_none, reduceCtorEq, not_false_eq_true, if_true]
  rw [convert_metre, this]
  exact ⟨_, rfl⟩

example : Verif.PackedTable.Reachable Verif.PackedTable.t23 ∧ Verif.PackedTable.t23.dims = [2, 3] := ⟨Verif.PackedTable.t23_reachable, rfl⟩

end Verif.Geometry
