import Verif.Data.Madmap
import Mathlib.Data.Nat.Digits.Defs
import Mathlib.Data.List.Sort

/-!
C149: the files of the MADMAP1 format: src/pysimulators/interfaces/madmap1.py 62-89 and 165-226.

The bytes are natural numbers lower than 256.  The conversion of the 32 and 64 bits of a floating point number to this number is a parameter.
-/
namespace Verif.Data.MadmapFiles
open Verif.Py Verif.Data

variable {K : Type}

/-! ### The model -/

/-- The number of little endian bytes. -/
def leNat : List Nat → Nat
  | [] => 0
  | b :: l => b + 256 * leNat l

/-- The data types '>i8' and '<i8' (madmap1.py 81, 180-182 and 205): the word of some bytes. -/
def word (big : Bool) (bytes : List Nat) : Nat := leNat (if big then bytes.reverse else bytes)

/-- The signed integer of a word. -/
def signed (bits : Nat) (w : Nat) : Int := if w < 2 ^ (bits - 1) then w else w - 2 ^ bits

/-- `np.fromfile(f, dtype, count)` for items of `size` bytes: all of them if the count is negative, and fewer than `count` at the end of the file. -/
def fromfile (size : Nat) (count : Int) (bytes : List Nat) : List (List Nat) :=
  (List.range (if count < 0 then bytes.length / size else min count.toNat (bytes.length / size))).map fun i => (bytes.drop (i * size)).take size

/-- madmap1.py 204-208 `_read_one_filter`. -/
def readOneFilter (flt : Nat → K) (big : Bool) (bytes : List Nat) : Res (Filter K) :=
  match (fromfile 8 3 bytes).map fun b => signed 64 (word big b) with
  | [first, last, ncorr] => .ok ⟨first, last, ((fromfile 8 (4 + ncorr) bytes).map fun b => flt (word big b)).drop 3⟩
  | _ => .error .valueError

/-- madmap1.py 80-82: the numbers at the beginning of the file of the time-ordered data: first, last, npixels_per_sample, npixels_in_map. -/
def readHeader (big : Bool) (bytes : List Nat) : Res (Int × Int × Int × Int) :=
  match (fromfile 8 4 bytes).map fun b => signed 64 (word big b) with
  | [a, b, c, d] => .ok (a, b, c, d)
  | _ => .error .valueError

/-- madmap1.py 183-186: a record, the value of a sample and the elements of its row of the pointing matrix. -/
def readRecord (flt8 flt4 : Nat → K) (big : Bool) (npps : Nat) (bytes : List Nat) : K × List (K × Int) :=
  (flt8 (word big (bytes.take 8)),
   (List.range npps).map fun i => (flt4 (word big ((bytes.drop (8 + 8 * i)).take 4)), signed 32 (word big ((bytes.drop (8 + 8 * i + 4)).take 4))))

/-- madmap1.py 187-188: the records of a block, from the position of the file. -/
def readRecords (flt8 flt4 : Nat → K) (big : Bool) (npps : Nat) (count : Nat) (bytes : List Nat) : List (K × List (K × Int)) :=
  (fromfile (8 + 8 * npps) count bytes).map (readRecord flt8 flt4 big npps)

/-- An item of a regular expression: a character or (`none`) any of them, possibly repeated. -/
structure Atom where
  char : Option Char
  plus : Bool

/-- madmap1.py 214: the name of the file is used as a regular expression.  Only the special characters `.` and `+` are modelled. -/
def parse : List Char → Option (List Atom)
  | [] => some []
  | '+' :: _ => none
  | c :: '+' :: l => (parse l).map (⟨if c = '.' then none else some c, true⟩ :: ·)
  | c :: l => (parse l).map (⟨if c = '.' then none else some c, false⟩ :: ·)

/-- The end of the regular expression, `\.[0-9]+$`. -/
def isTail : List Char → Bool
  | '.' :: ds => ds ≠ [] && ds.all fun c => '0' ≤ c && c ≤ '9'
  | _ => false

/-- `regex.match`. -/
def isMatch : List Atom → List Char → Bool
  | [], s => isTail s
  | _ :: _, [] => false
  | a :: as, x :: s => (a.char = none || a.char = some x) && (isMatch as s || (a.plus && isMatch (a :: as) s))
termination_by structural _ s => s

/-- madmap1.py 217 `int(f.suffix[1:])`: the number after the last dot. -/
def number (s : List Char) : Nat := ((s.reverse.takeWhile (· ≠ '.')).reverse).foldl (fun n c => 10 * n + (c.toNat - '0'.toNat)) 0

/-- madmap1.py 211-220 `_read_filters`: the names of the files, in their order, among those of the directory. -/
def filterFiles (filename : List Char) (directory : List (List Char)) : Res (List (List Char)) :=
  match parse filename with
  | none => .error .runtimeError
  | some as =>
    match (directory.filter (isMatch as)).insertionSort fun a b => number a ≤ number b with
    | [] => .error .keyError
    | l => .ok l

/-- madmap1.py 70-79: the mask of the map.  `isNaN` and `isInf` are those of numpy. -/
def mapMask [DecidableEq K] [Zero K] (isNaN isInf : K → Bool) (missing : Option K) (mask : List K) : List Bool :=
  match missing with
  | none => mask.map fun x => x ≠ 0
  | some m => mask.map fun x => if isNaN m then isNaN x else if isInf m then isInf x else x = m

/-- madmap1.py 83-87: the number of pixels of the file must be that of the mask. -/
def checkPixels (npixels : Int) (mask : List Bool) : Res Unit := if npixels ≠ (mask.count false : Nat) then .error .valueError else .ok ()

/-! ### Specification -/

/-- The little endian bytes of a word. -/
def leBytes : Nat → Nat → List Nat
  | 0, _ => []
  | k + 1, n => n % 256 :: leBytes k (n / 256)

/-- The bytes of a word in a file. -/
def bytesOf (big : Bool) (k n : Nat) : List Nat := if big then (leBytes k n).reverse else leBytes k n

/-- The word of a signed integer of `8 k` bits, in two's complement. -/
def wordOf (k : Nat) (n : Int) : Nat := (n % (2 ^ (8 * k) : Nat)).toNat

/-- The bytes of a filter: the first and the last samples, the number of correlations, and one coefficient more. -/
def filterBytes (big : Bool) (first last : Int) (data : List Nat) : List Nat :=
  bytesOf big 8 (wordOf 8 first) ++ bytesOf big 8 (wordOf 8 last) ++ bytesOf big 8 (data.length - 1) ++ data.flatMap (bytesOf big 8)

/-- The bytes of a record. -/
def recordBytes (big : Bool) (tod : Nat) (row : List (Nat × Int)) : List Nat := bytesOf big 8 tod ++ row.flatMap fun e => bytesOf big 4 e.1 ++ bytesOf big 4 (wordOf 4 e.2)

/-- The name of a file of filters: the given name followed by a dot and digits. -/
def IsFilterFile (filename s : List Char) : Prop := ∃ ds : List Char, ds ≠ [] ∧ (∀ c ∈ ds, '0' ≤ c ∧ c ≤ '9') ∧ s = filename ++ '.' :: ds

/-! ### Bytes -/

theorem leBytes_length (k n : Nat) : (leBytes k n).length = k := by
  induction k generalizing n with
  | zero => rfl
  | succ k ih => simp [leBytes, ih]

theorem bytesOf_length (big : Bool) (k n : Nat) : (bytesOf big k n).length = k := by
  unfold bytesOf
  split <;> simp [leBytes_length]

theorem leNat_leBytes {k n : Nat} (h : n < 256 ^ k) : leNat (leBytes k n) = n := by
  induction k generalizing n with
  | zero => simp at h; simp [leBytes, leNat, h]
  | succ k ih =>
    rw [leBytes, leNat, ih (by rw [Nat.div_lt_iff_lt_mul (by norm_num), ← Nat.pow_succ]; exact h)]
    exact Nat.mod_add_div n 256

theorem word_bytesOf (big : Bool) {k n : Nat} (h : n < 256 ^ k) : word big (bytesOf big k n) = n := by
  unfold word bytesOf
  cases big <;> simp [leNat_leBytes h]

theorem pow_256 (k : Nat) : 256 ^ k = 2 ^ (8 * k) := by
  rw [Nat.pow_mul]

theorem wordOf_lt (k : Nat) (n : Int) : wordOf k n < 256 ^ k := by
  rw [pow_256]
  unfold wordOf
  have h : (0 : Int) < (2 ^ (8 * k) : Nat) := by positivity
  have := Int.emod_nonneg n h.ne'
  have := Int.emod_lt_of_pos n h
  omega

theorem signed_wordOf {k : Nat} (hk : 0 < k) {n : Int} (h : -(2 ^ (8 * k - 1) : Nat) ≤ n ∧ n < (2 ^ (8 * k - 1) : Nat)) : signed (8 * k) (wordOf k n) = n := by
  have hp : (2 : Nat) ^ (8 * k) = 2 * 2 ^ (8 * k - 1) := by
    rw [← Nat.pow_succ']
    congr 1
    omega
  have hq : 0 < 2 ^ (8 * k - 1) := by positivity
  unfold signed wordOf
  rw [show ((2 : Int) ^ (8 * k)) = ((2 ^ (8 * k) : Nat) : Int) by push_cast; rfl]
  rw [hp] at *
  set q := 2 ^ (8 * k - 1)
  rcases lt_or_ge n 0 with hn | hn
  · have e : n % ((2 * q : Nat) : Int) = n + (2 * q : Nat) := by
      rw [← Int.add_emod_right]
      exact Int.emod_eq_of_lt (by omega) (by omega)
    rw [e, if_neg (by omega)]
    omega
  · rw [Int.emod_eq_of_lt hn (by omega), if_pos (by omega)]
    omega

/-! ### Items of a file -/

theorem fromfile_flatMap {α : Type} (size : Nat) (hs : 0 < size) (enc : α → List Nat) (he : ∀ x, (enc x).length = size) (l : List α) (rest : List Nat) (count : Nat) (hc : count ≤ l.length) :
    fromfile size count (l.flatMap enc ++ rest) = (l.take count).map enc := by
  have hlen : ∀ l : List α, (l.flatMap enc).length = l.length * size := by
    intro l
    induction l with
    | nil => simp
    | cons a l ih => rw [List.flatMap_cons, List.length_append, ih, he, List.length_cons]; ring
  have hq : count ≤ (l.flatMap enc ++ rest).length / size := by
    rw [Nat.le_div_iff_mul_le hs, List.length_append, hlen]
    have := Nat.mul_le_mul_right size hc
    omega
  unfold fromfile
  rw [if_neg (by omega), Int.toNat_natCast, Nat.min_eq_left hq]
  clear hq
  induction l generalizing count with
  | nil =>
    simp at hc
    subst hc
    rfl
  | cons a l ih =>
    cases count with
    | zero => rfl
    | succ c =>
      rw [List.range_succ_eq_map, List.map_cons, List.take_succ_cons, List.map_cons, List.map_map]
      congr 1
      · rw [Nat.zero_mul, List.drop_zero, List.flatMap_cons, List.append_assoc, List.take_left' (he a)]
      · rw [← ih c (by simpa using hc)]
        refine List.map_congr_left fun i _ => ?_
        simp only [Function.comp_apply]
        rw [List.flatMap_cons, List.append_assoc, Nat.succ_mul, Nat.add_comm (i * size), ← List.drop_drop, List.drop_left' (he a)]

/-! ### C149 -/

/-- C149: a filter is read as it was written, in both orders of the bytes. -/
theorem C149_filter (flt : Nat → K) (big : Bool) {first last : Int} {data : List Nat} (rest : List Nat) (h1 : -(2 ^ 63 : Nat) ≤ first ∧ first < (2 ^ 63 : Nat))
    (h2 : -(2 ^ 63 : Nat) ≤ last ∧ last < (2 ^ 63 : Nat)) (h3 : 0 < data.length) (h4 : data.length ≤ 2 ^ 63) (h5 : ∀ w ∈ data, w < 2 ^ 64) :
    readOneFilter flt big (filterBytes big first last data ++ rest) = .ok ⟨first, last, data.map flt⟩ := by
  have hall : filterBytes big first last data ++ rest = ([wordOf 8 first, wordOf 8 last, data.length - 1] ++ data).flatMap (bytesOf big 8) ++ rest := by
    simp [filterBytes, List.flatMap_cons]
  have hn : data.length - 1 < 256 ^ 8 := by norm_num; omega
  have a1 : fromfile 8 3 (filterBytes big first last data ++ rest) = [wordOf 8 first, wordOf 8 last, data.length - 1].map (bytesOf big 8) := by
    rw [hall]
    exact fromfile_flatMap 8 (by norm_num) (bytesOf big 8) (bytesOf_length big 8) ([wordOf 8 first, wordOf 8 last, data.length - 1] ++ data) rest 3 (by simp)
  have s1 : signed 64 (word big (bytesOf big 8 (wordOf 8 first))) = first := by
    rw [word_bytesOf big (wordOf_lt 8 first)]
    exact signed_wordOf (k := 8) (by norm_num) h1
  have s2 : signed 64 (word big (bytesOf big 8 (wordOf 8 last))) = last := by
    rw [word_bytesOf big (wordOf_lt 8 last)]
    exact signed_wordOf (k := 8) (by norm_num) h2
  have s3 : signed 64 (word big (bytesOf big 8 (data.length - 1))) = ((data.length - 1 : Nat) : Int) := by
    rw [word_bytesOf big hn]
    unfold signed
    rw [if_pos (by norm_num; omega)]
  unfold readOneFilter
  rw [a1]
  simp only [List.map_cons, List.map_nil]
  rw [s1, s2, s3]
  have a2 : fromfile 8 (4 + ((data.length - 1 : Nat) : Int)) (filterBytes big first last data ++ rest) = ([wordOf 8 first, wordOf 8 last, data.length - 1] ++ data).map (bytesOf big 8) := by
    rw [hall, show (4 + ((data.length - 1 : Nat) : Int)) = ((data.length + 3 : Nat) : Int) by omega,
      fromfile_flatMap 8 (by norm_num) (bytesOf big 8) (bytesOf_length big 8) _ rest (data.length + 3) (by simp), List.take_of_length_le (by simp)]
  rw [a2]
  congr 2
  rw [List.map_map, List.map_append, List.drop_left' (by simp)]
  refine List.map_congr_left fun w hw => ?_
  simp only [Function.comp_apply]
  rw [word_bytesOf big (by norm_num; have := h5 w hw; norm_num at this; omega)]

/-- C149: the beginning of the file of the time-ordered data. -/
theorem C149_header (big : Bool) (a b c d : Int) (rest : List Nat) (h : ∀ n ∈ [a, b, c, d], -(2 ^ 63 : Nat) ≤ n ∧ n < (2 ^ 63 : Nat)) :
    readHeader big ([a, b, c, d].flatMap (fun n => bytesOf big 8 (wordOf 8 n)) ++ rest) = .ok (a, b, c, d) := by
  have s : ∀ n ∈ [a, b, c, d], signed 64 (word big (bytesOf big 8 (wordOf 8 n))) = n := by
    intro n hn
    rw [word_bytesOf big (wordOf_lt 8 n)]
    exact signed_wordOf (k := 8) (by norm_num) (h n hn)
  have := fromfile_flatMap 8 (by norm_num) (fun n => bytesOf big 8 (wordOf 8 n)) (fun n => bytesOf_length big 8 _) [a, b, c, d] rest 4 (by simp)
  unfold readHeader
  rw [show (4 : Int) = ((4 : Nat) : Int) by rfl, this]
  simp only [List.take, List.map_cons, List.map_nil]
  rw [s a (by simp), s b (by simp), s c (by simp), s d (by simp)]

/-- C149: the records are read as they were written, whatever follows them. -/
theorem C149_records (flt8 flt4 : Nat → K) (big : Bool) (npps : Nat) (records : List (Nat × List (Nat × Int))) (rest : List Nat)
    (h : ∀ r ∈ records, r.1 < 2 ^ 64 ∧ r.2.length = npps ∧ ∀ e ∈ r.2, e.1 < 2 ^ 32 ∧ -(2 ^ 31 : Nat) ≤ e.2 ∧ e.2 < (2 ^ 31 : Nat)) :
    readRecords flt8 flt4 big npps records.length ((records.flatMap fun r => recordBytes big r.1 r.2) ++ rest) = records.map fun r => (flt8 r.1, r.2.map fun e => (flt4 e.1, e.2)) := by
  have hrow : ∀ row : List (Nat × Int), (row.flatMap fun e => bytesOf big 4 e.1 ++ bytesOf big 4 (wordOf 4 e.2)).length = 8 * row.length := by
    intro row
    induction row with
    | nil => rfl
    | cons e row ih => rw [List.flatMap_cons, List.length_append, ih, List.length_append, bytesOf_length, bytesOf_length, List.length_cons]; omega
  have key : ∀ records : List (Nat × List (Nat × Int)), (∀ r ∈ records, r.2.length = npps) →
      fromfile (8 + 8 * npps) records.length ((records.flatMap fun r => recordBytes big r.1 r.2) ++ rest) = records.map fun r => recordBytes big r.1 r.2 := by
    intro records hl
    let enc : {r : Nat × List (Nat × Int) // r.2.length = npps} → List Nat := fun r => recordBytes big r.1.1 r.1.2
    have := fromfile_flatMap (8 + 8 * npps) (by omega) enc (fun r => by
      show (recordBytes big r.1.1 r.1.2).length = _
      rw [recordBytes, List.length_append, bytesOf_length, hrow, r.2]) (records.attach.map fun r => ⟨r.1, hl r.1 r.2⟩) rest records.length (by simp)
    rw [List.take_of_length_le (by simp), List.flatMap_map, List.map_map] at this
    have e1 : (records.attach.flatMap fun r => enc ⟨r.1, hl r.1 r.2⟩) = records.flatMap fun r => recordBytes big r.1 r.2 := by
      have := List.flatMap_subtype (p := fun r => r ∈ records) (l := records.attach) (f := fun r => enc ⟨r.1, hl r.1 r.2⟩) (g := fun r => recordBytes big r.1 r.2) (fun x h => rfl)
      rw [this, List.unattach_attach]
    have e2 : records.attach.map (enc ∘ fun r => ⟨r.1, hl r.1 r.2⟩) = records.map fun r => recordBytes big r.1 r.2 := by
      have := List.map_subtype (p := fun r => r ∈ records) (l := records.attach) (f := enc ∘ fun r => ⟨r.1, hl r.1 r.2⟩) (g := fun r => recordBytes big r.1 r.2) (fun x h => rfl)
      rw [this, List.unattach_attach]
    rw [e1, e2] at this
    exact this
  unfold readRecords
  rw [key records fun r hr => (h r hr).2.1, List.map_map]
  refine List.map_congr_left fun r hr => ?_
  obtain ⟨hr1, hr2, hr3⟩ := h r hr
  simp only [Function.comp_apply]
  unfold readRecord recordBytes
  rw [List.take_left' (bytesOf_length big 8 _), word_bytesOf big (by norm_num; norm_num at hr1; omega)]
  congr 1
  have item : ∀ (row : List (Nat × Int)) (i : Nat) (hi : i < row.length), (∀ e ∈ row, e.1 < 2 ^ 32 ∧ -(2 ^ 31 : Nat) ≤ e.2 ∧ e.2 < (2 ^ 31 : Nat)) →
      word big (((row.flatMap fun e => bytesOf big 4 e.1 ++ bytesOf big 4 (wordOf 4 e.2)).drop (8 * i)).take 4) = row[i].1 ∧
      signed 32 (word big (((row.flatMap fun e => bytesOf big 4 e.1 ++ bytesOf big 4 (wordOf 4 e.2)).drop (8 * i + 4)).take 4)) = row[i].2 := by
    intro row
    induction row with
    | nil => intro i hi; simp at hi
    | cons e row ih =>
      intro i hi he
      have h8 : (bytesOf big 4 e.1 ++ bytesOf big 4 (wordOf 4 e.2)).length = 8 := by simp [bytesOf_length]
      cases i with
      | zero =>
        have := he e (by simp)
        rw [List.flatMap_cons, List.append_assoc, Nat.mul_zero, List.drop_zero, Nat.zero_add, List.take_left' (bytesOf_length big 4 _), List.drop_left' (bytesOf_length big 4 _),
          List.take_left' (bytesOf_length big 4 _), word_bytesOf big (by norm_num; have := this.1; norm_num at this; omega), word_bytesOf big (wordOf_lt 4 _)]
        exact ⟨rfl, signed_wordOf (k := 4) (by norm_num) this.2⟩
      | succ i =>
        have := ih i (by simpa using hi) (fun e' he' => he e' (by simp [he']))
        rw [List.flatMap_cons, show 8 * (i + 1) = 8 + 8 * i by ring, show 8 + 8 * i + 4 = 8 + (8 * i + 4) by ring, ← List.drop_drop, ← List.drop_drop, List.drop_left' h8]
        simpa using this
  apply List.ext_getElem
  · simp [hr2]
  · intro i hi1 hi2
    simp only [List.length_map] at hi2
    obtain ⟨i1, i2⟩ := item r.2 i hi2 hr3
    rw [List.getElem_map, List.getElem_map, List.getElem_range, ← List.drop_drop, List.drop_left' (bytesOf_length big 8 _), i1]
    rw [show 8 + 8 * i + 4 = 8 + (8 * i + 4) by ring, ← List.drop_drop, List.drop_left' (bytesOf_length big 8 _), i2]

/-! ### Names of the files -/

theorem isTail_iff (s : List Char) : isTail s = true ↔ ∃ ds : List Char, ds ≠ [] ∧ (∀ c ∈ ds, '0' ≤ c ∧ c ≤ '9') ∧ s = '.' :: ds := by
  constructor
  · intro h
    unfold isTail at h
    split at h
    · rename_i ds
      refine ⟨ds, ?_, ?_, rfl⟩
      · intro hd; subst hd; simp at h
      · intro c hc
        simp only [Bool.and_eq_true, List.all_eq_true] at h
        simpa using h.2 c hc
    · cases h
  · rintro ⟨ds, h1, h2, rfl⟩
    simp only [isTail, Bool.and_eq_true, List.all_eq_true]
    exact ⟨by simpa using h1, fun c hc => by simpa using h2 c hc⟩

theorem parse_plain : ∀ {l : List Char}, '+' ∉ l → parse l = some (l.map fun c => ⟨if c = '.' then none else some c, false⟩)
  | [], _ => rfl
  | [c], h => by
    rw [parse.eq_4]
    · simp [parse]
    · rintro rfl; simp at h
    · intro l' hl; cases hl
  | c :: d :: l, h => by
    rw [parse.eq_4]
    · rw [parse_plain (l := d :: l) (fun hm => h (by simp [hm]))]
      rfl
    · rintro rfl; simp at h
    · rintro l' hl
      injection hl with h1 h2
      subst h1
      simp at h

/-- A name without special characters. -/
theorem isMatch_plain : ∀ (l s : List Char), (∀ c ∈ l, c ≠ '.') → (isMatch (l.map fun c => ⟨if c = '.' then none else some c, false⟩) s = true ↔ IsFilterFile l s)
  | [], s, _ => by
    rw [List.map_nil, isMatch, isTail_iff]
    rfl
  | c :: l, [], _ => by
    rw [List.map_cons, isMatch]
    constructor
    · intro h; cases h
    · rintro ⟨ds, -, -, h⟩; simp at h
  | c :: l, x :: s, h => by
    have hc : c ≠ '.' := h c (by simp)
    rw [List.map_cons, isMatch]
    have ih := isMatch_plain l s fun d hd => h d (by simp [hd])
    simp only [if_neg hc, Bool.false_and, Bool.or_false, Bool.and_eq_true]
    rw [ih]
    constructor
    · rintro ⟨h1, ds, h2, h3, h4⟩
      have : c = x := by simpa using h1
      exact ⟨ds, h2, h3, by rw [this, h4]; rfl⟩
    · rintro ⟨ds, h2, h3, h4⟩
      rw [List.cons_append] at h4
      injection h4 with h5 h6
      exact ⟨by simp [h5], ds, h2, h3, h6⟩

/-- A name with dots: its files are matched. -/
theorem isMatch_dots : ∀ (l s : List Char), IsFilterFile l s → isMatch (l.map fun c => ⟨if c = '.' then none else some c, false⟩) s = true
  | [], s, h => by
    rw [List.map_nil, isMatch, isTail_iff]
    exact h
  | c :: l, [], h => by
    obtain ⟨ds, -, -, h⟩ := h
    simp at h
  | c :: l, x :: s, h => by
    obtain ⟨ds, h2, h3, h4⟩ := h
    rw [List.cons_append] at h4
    injection h4 with h5 h6
    have ih := isMatch_dots l s ⟨ds, h2, h3, h6⟩
    rw [List.map_cons, isMatch, ih, h5]
    by_cases hc : c = '.' <;> simp [hc]

/-- C149: the files of the filters are those of the directory with the given name and a number, in the order of the numbers, if the name has no special character. -/
theorem C149_files_partial {filename : List Char} {directory : List (List Char)} (hf : ∀ c ∈ filename, c ≠ '.' ∧ c ≠ '+') :
    (∀ files, filterFiles filename directory = .ok files → (∀ s, s ∈ files ↔ s ∈ directory ∧ IsFilterFile filename s) ∧ (directory.Nodup → files.Nodup) ∧
      files.Pairwise fun a b => number a ≤ number b) ∧
    (filterFiles filename directory = .error .keyError ↔ ∀ s ∈ directory, ¬ IsFilterFile filename s) ∧
    ((∃ s ∈ directory, IsFilterFile filename s) → ∃ files, filterFiles filename directory = .ok files) := by
  have hp := parse_plain (l := filename) fun h => (hf _ h).2 rfl
  set as : List Atom := filename.map fun c => ⟨if c = '.' then none else some c, false⟩
  have hm : ∀ s, isMatch as s = true ↔ IsFilterFile filename s := fun s => isMatch_plain filename s fun c hc => (hf c hc).1
  have hperm := List.perm_insertionSort (fun a b : List Char => number a ≤ number b) (directory.filter (isMatch as))
  have hmem : ∀ s, s ∈ (directory.filter (isMatch as)).insertionSort (fun a b => number a ≤ number b) ↔ s ∈ directory ∧ IsFilterFile filename s := by
    intro s
    rw [hperm.mem_iff, List.mem_filter, hm]
  have hsort : ((directory.filter (isMatch as)).insertionSort fun a b => number a ≤ number b).Pairwise fun a b => number a ≤ number b := by
    have : Std.Total (fun a b : List Char => number a ≤ number b) := ⟨fun a b => le_total _ _⟩
    have : IsTrans (List Char) (fun a b : List Char => number a ≤ number b) := ⟨fun a b c => le_trans⟩
    exact List.pairwise_insertionSort _ _
  unfold filterFiles
  rw [hp]
  dsimp only
  cases hl : (directory.filter (isMatch as)).insertionSort fun a b => number a ≤ number b with
  | nil =>
    rw [hl] at hmem
    have hno : ∀ s ∈ directory, ¬ IsFilterFile filename s := fun s hs hi => by simpa using (hmem s).2 ⟨hs, hi⟩
    exact ⟨fun files h => (nomatch h), ⟨fun _ => hno, fun _ => rfl⟩, fun ⟨s, hs, hi⟩ => absurd hi (hno s hs)⟩
  | cons a l =>
    rw [hl] at hmem hsort hperm
    have ha := (hmem a).1 (by simp)
    refine ⟨fun files h => ?_, ⟨fun h => (nomatch h), fun h => absurd ha.2 (h a ha.1)⟩, fun _ => ⟨_, rfl⟩⟩
    cases h
    exact ⟨hmem, fun hn => hperm.nodup_iff.2 (hn.filter _), hsort⟩

/-- C149: the number of a file is the decimal one of the digits after its last dot. -/
theorem C149_number (filename ds : List Char) (h : ∀ c ∈ ds, '0' ≤ c ∧ c ≤ '9') : number (filename ++ '.' :: ds) = Nat.ofDigits 10 (ds.reverse.map fun c => c.toNat - 48) := by
  have h1 : (filename ++ '.' :: ds).reverse.takeWhile (· ≠ '.') = ds.reverse := by
    rw [List.reverse_append, List.reverse_cons, List.append_assoc, List.takeWhile_append_of_pos]
    · simp
    · intro c hc
      have := h c (by simpa using hc)
      simp only [ne_eq, decide_not, Bool.not_eq_eq_eq_not, Bool.not_true, decide_eq_false_iff_not]
      rintro rfl
      exact absurd this.1 (by decide)
  unfold number
  rw [h1, List.reverse_reverse]
  clear h h1
  induction ds using List.reverseRecOn with
  | nil => rfl
  | append_singleton l c ih =>
    rw [List.foldl_append, ih, List.reverse_append]
    simp only [List.foldl_cons, List.foldl_nil, List.reverse_cons, List.reverse_nil, List.nil_append, List.cons_append, List.map_cons, Nat.ofDigits_cons]
    have : '0'.toNat = 48 := by decide
    rw [this]
    simp
    ring

/-- C149: if the name has dots its files are read, but they may not be the only ones. -/
theorem C149_dots_partial {filename : List Char} {directory files : List (List Char)} (hf : '+' ∉ filename) (h : filterFiles filename directory = .ok files) :
    ∀ s ∈ directory, IsFilterFile filename s → s ∈ files := by
  intro s hs hi
  unfold filterFiles at h
  rw [parse_plain hf] at h
  dsimp only at h
  have hmem : s ∈ (directory.filter (isMatch (filename.map fun c => ⟨if c = '.' then none else some c, false⟩))).insertionSort fun a b => number a ≤ number b := by
    rw [(List.perm_insertionSort _ _).mem_iff, List.mem_filter]
    exact ⟨hs, isMatch_dots _ _ hi⟩
  split at h
  · cases h
  · cases h
    exact hmem

/-- C149 fails if the name has a dot: other files are read. -/
theorem C149_violation_dot : ∃ (filename : List Char) (directory files : List (List Char)), filterFiles filename directory = .ok files ∧ ∃ s ∈ files, ¬ IsFilterFile filename s := by
  refine ⟨"inv.ntt".toList, ["inv_ntt.0".toList, "inv.ntt.1".toList], ["inv_ntt.0".toList, "inv.ntt.1".toList], by decide +kernel, "inv_ntt.0".toList, by simp, ?_⟩
  rintro ⟨ds, -, -, h⟩
  have := congrArg (fun l => l[3]?) h
  simp at this

/-- C149 fails if the name has another special character: its files are not found. -/
theorem C149_violation_plus : ∃ (filename s : List Char), IsFilterFile filename s ∧ filterFiles filename [s] = .error .keyError := by
  refine ⟨"a+b".toList, "a+b.0".toList, ⟨['0'], by simp, by decide, rfl⟩, by decide +kernel⟩

/-- C149 fails for a filter that is missing: the files are not required to have consecutive numbers. -/
theorem C149_violation_missing : ∃ files, filterFiles "f".toList ["f.0".toList, "f.2".toList] = .ok files ∧ files.map number = [0, 2] := by
  refine ⟨["f.0".toList, "f.2".toList], by decide +kernel, by decide +kernel⟩

/-- C149 fails for a truncated filter, which is accepted with fewer coefficients. -/
theorem C149_violation_truncated (flt : Nat → K) : ∃ bytes f, (fromfile 8 3 bytes).map (fun b => signed 64 (word false b)) = [0, 99, 5] ∧ readOneFilter flt false bytes = .ok f ∧ f.data.length = 1 := by
  refine ⟨bytesOf false 8 0 ++ bytesOf false 8 99 ++ bytesOf false 8 5 ++ bytesOf false 8 7, _, by decide +kernel, rfl, rfl⟩

/-- C149: the mask of the map is true for the missing values, and the number of the other pixels is that of the file. -/
theorem C149_mask_partial [DecidableEq K] [Zero K] (isNaN isInf : K → Bool) (mask : List K) :
    ((mapMask isNaN isInf none mask).map fun b => !b) = mask.map (fun x => decide (x = 0)) ∧
    (∀ m, isNaN m = false → isInf m = false → mapMask isNaN isInf (some m) mask = mask.map fun x => decide (x = m)) ∧
    (∀ m, isNaN m = true → mapMask isNaN isInf (some m) mask = mask.map isNaN) ∧
    ∀ (n : Int) missing, checkPixels n (mapMask isNaN isInf missing mask) = .ok () ↔ n = ((mapMask isNaN isInf missing mask).filter fun b => !b).length := by
  refine ⟨?_, fun m h1 h2 => ?_, fun m h1 => ?_, fun n missing => ?_⟩
  · simp [mapMask]
  · simp [mapMask, h1, h2]
  · simp [mapMask, h1]
  · unfold checkPixels
    have : ∀ l : List Bool, l.count false = (l.filter fun b => !b).length := by
      intro l
      rw [List.count_eq_countP, List.countP_eq_length_filter]
      congr 2
      funext b
      cases b <;> rfl
    rw [this]
    constructor
    · intro h
      by_contra hc
      rw [if_pos hc] at h
      cases h
    · intro h
      rw [if_neg (by simpa using h)]

/-- C149 fails for an infinite missing value: the pixels of the other infinity are also masked. -/
theorem C149_violation_infinite : ∃ (isNaN isInf : Int → Bool) (m x : Int), m ≠ x ∧ isInf m = true ∧ mapMask isNaN isInf (some m) [x] = [true] :=
  ⟨fun _ => false, fun x => x = 1000 || x = -1000, -1000, 1000, by decide, by decide, by decide⟩

/-! ### Examples -/

example : filterBytes true (-2) 3 [7] = [255, 255, 255, 255, 255, 255, 255, 254, 0, 0, 0, 0, 0, 0, 0, 3, 0, 0, 0, 0, 0, 0, 0, 0, 0, 0, 0, 0, 0, 0, 0, 7] := by decide +kernel

example : IsFilterFile "invntt".toList "invntt.12".toList ∧ number "invntt.12".toList = 12 := ⟨⟨['1', '2'], by simp, by decide, rfl⟩, by decide +kernel⟩

example : filterFiles "f".toList ["f.10".toList, "f.9".toList, "g.1".toList, "f.x".toList] = .ok ["f.9".toList, "f.10".toList] := by decide +kernel

example : readRecords id id false 1 1 (recordBytes false 5 [(6, -1)]) = [(5, [(6, -1)])] := by decide +kernel

end Verif.Data.MadmapFiles
