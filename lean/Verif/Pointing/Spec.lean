import Verif.Pointing.Model
import Mathlib.Algebra.BigOperators.Ring.Finset

/-! Specification of the legacy pointing matrices: the dense matrix that they denote. -/
namespace Verif.Pointing
open Verif.Sparse Finset

variable {R : Type} [CommRing R] [DecidableEq R]

/-- All the samples have `npps` elements. -/
def Wf (P : PMat R) : Prop := ∀ row ∈ P.rows, row.length = P.npps

/-- The index of every element is -1 or a pixel of the map. -/
def Valid (P : PMat R) (n : Nat) : Prop := ∀ row ∈ P.rows, ∀ e ∈ row, e.index = -1 ∨ (0 ≤ e.index ∧ e.index < n)

/-- The elements of a sample that precede the first missing one. -/
def seen (row : List (Elem R)) : List (Elem R) := row.takeWhile fun e => e.index ≠ -1

/-- The entry of the dense matrix for a sample and the pixel `k`. -/
def entry (row : List (Elem R)) (k : Nat) : R := ((seen row).map fun e => if e.index = (k : Int) then e.value else 0).sum

/-- Scalar product. -/
def dot (a b : List R) : R := (List.zipWith (· * ·) a b).sum

/-- The dense product of a sample and a map of `n` pixels. -/
def project (n : Nat) (row : List (Elem R)) (map : List R) : R := ∑ k ∈ range n, entry row k * map.getD k 0

/-- The dense product of the transpose and a timeline, at the pixel `k`. -/
def backproject (rows : List (List (Elem R))) (t : List R) (k : Nat) : R :=
  (List.zipWith (fun row x => entry row k * x) rows t).sum

/-- The map on the pixels that are not masked. -/
def restrict {α} (mask : List Bool) (map : List α) : List α := (map.zip mask).filterMap fun p => if p.2 then none else some p.1

/-- The map set to zero on the masked pixels. -/
def zeroed (mask : List Bool) (map : List R) : List R := List.zipWith (fun x m => if m then 0 else x) map mask

/-- The number of pixels that are not masked before the pixel `k`. -/
def rank (mask : List Bool) (k : Nat) : Nat := (mask.take k).countP (· = false)

/-- The output does not matter: there are at least two elements per sample, or one that is present. -/
def Overwrites (P : PMat R) : Prop := 2 ≤ P.npps ∨ (P.npps = 1 ∧ ∀ row ∈ P.rows, ∀ e ∈ row, e.index ≠ -1)

/-- The position of a pixel in the flat (C order) map, from its indices. -/
def flatIndex (shape : List Nat) (idx : List Nat) : Nat := (shape.zip idx).foldl (fun p q => p * q.1 + q.2) 0

/-- The indices are in the map. -/
def InMap : List Nat → List Nat → Prop
  | [], [] => True
  | n :: ns, i :: is => i < n ∧ InMap ns is
  | _, _ => False

end Verif.Pointing
