/-
The other functions on strings: /repo/src/flib/module_string.f90 78-447, and `str2fitsheader` of /repo/src/pysimulators/wcsutils.py.
-/
import Verif.Fits.Props
import Mathlib.Analysis.SpecialFunctions.Log.Base

namespace Verif.Fits
open Verif.Py

/-! ### The model -/

/-- The loop of `strcompress` (module_string.f90 86-91): the characters that remain, and the index J. -/
def compressLoop : Str → Nat → Str → Res Str
  | [], _, out => .ok out
  | c :: s, j, out => if c = ' ' then compressLoop s j out else do compressLoop s (j + 1) (← setCh out j c)

/-- `strcompress` (module_string.f90 78-93). -/
def strcompress (input : Str) : Res Str := compressLoop (trim input) 1 (List.replicate input.length ' ')

/-- The second loop of `strsplit` (module_string.f90 116-126): the characters that remain and their index, the index START, and OUTPUT(1:IOUTPUT-1).  The array
has `noutputs` elements of `len` characters. -/
def splitLoop (input : Str) (delimiter : Char) (len noutputs : Nat) : Str → Nat → Nat → List Str → Res (List Str)
  | [], _, start, out => do
    if out.length + 1 ≤ noutputs then return out ++ [pad len (← sub input start input.length)] else .error .outOfBounds
  | c :: s, i, start, out =>
    if c = delimiter then do
      if out.length + 1 ≤ noutputs then splitLoop input delimiter len noutputs s (i + 1) (i + 1) (out ++ [pad len (← sub input start (i - 1))])
      else .error .outOfBounds
    else splitLoop input delimiter len noutputs s (i + 1) start out

/-- `strsplit` (module_string.f90 99-128): the array is allocated for one string more than there are delimiters (107-114). -/
def strsplit (input : Str) (delimiter : Char) (len : Nat) : Res (List Str) :=
  splitLoop input delimiter len (input.foldl (fun n c => if c = delimiter then n + 1 else n) 1) input 1 1 []

/-- The assignment of a substring, s(k:k+len(t)-1) = t. -/
def setSub (s : Str) (k : Nat) (t : Str) : Res Str :=
  if t.length = 0 then .ok s
  else if 1 ≤ k ∧ k + t.length - 1 ≤ s.length then .ok (s.take (k - 1) ++ t ++ s.drop (k - 1 + t.length)) else .error .outOfBounds

/-- The loop of `strjoin_trim` (module_string.f90 291-295, 327-331). -/
def joinLoop : List Str → Nat → Str → Res Str
  | [], _, out => .ok out
  | s :: l, k, out => do joinLoop l (k + (trim s).length) (← setSub out k (trim s))

/-- `strjoin_trim` (module_string.f90 284-297), whose result has the length of `strjoin_trim_len` (303-312) and initially holds anything. -/
def strjoinTrim (input : List Str) (undefined : Nat → Char) : Res Str :=
  joinLoop input 1 ((List.range ((input.map fun s => (trim s).length).sum)).map undefined)

/-- The loop of `strjoin_opt` without trim (module_string.f90 333-336), from the element i. -/
def joinAllLoop (k : Nat) : List Str → Nat → Str → Res Str
  | [], _, out => .ok out
  | s :: l, i, out => do joinAllLoop k l (i + 1) (← setSub out ((i - 1) * k + 1) s)

/-- `strjoin_opt` (module_string.f90 318-339), whose length is that of `strjoin_opt_len` (345-359), for strings of k characters. -/
def strjoinOpt (input : List Str) (k : Nat) (dotrim : Bool) (undefined : Nat → Char) : Res Str :=
  if dotrim then strjoinTrim input undefined else joinAllLoop k input 1 ((List.range (input.length * k)).map undefined)

/-- The edit descriptor I. -/
def decimal (v : Int) : Str := (if v < 0 then ['-'] else []) ++ Nat.toDigits 10 v.natAbs

/-- `strinteger_int4_len` and `strinteger_int8_len` (module_string.f90 151-165, 203-217); `dble` is the conversion to double precision.  The absolute value of the
smallest integer is not representable. -/
noncomputable def strintegerLen (bits : Nat) (dble : Nat → ℝ) (input : Int) : Res Nat :=
  if input = 0 then .ok 1
  else if input.natAbs < 2 ^ (bits - 1) then
    let length := ⌊Real.logb 10 (dble input.natAbs)⌋.toNat + 1
    .ok (if input < 0 then length + 1 else length)
  else .error .valueError

/-- `strinteger_int4` and `strinteger_int8` (module_string.f90 134-145, 186-197). -/
noncomputable def strinteger (bits : Nat) (dble : Nat → ℝ) (input : Int) : Res Str := do
  let length ← strintegerLen bits dble input
  let string := List.replicate (80 - (decimal input).length) ' ' ++ decimal input
  return pad length (adjustl string)

/-- `write` in a string: it fails if the text does not fit. -/
def write (length : Nat) (text : Str) : Res Str := if text.length ≤ length then .ok (pad length text) else .error .valueError

/-- `strsection_int4_len` and `strsection_int8_len` (module_string.f90 394-403, 438-447). -/
noncomputable def strsectionLen (bits : Nat) (dble : Nat → ℝ) (first last : Int) : Res Nat := do
  let length := (← strinteger bits dble first).length + (← strinteger bits dble last).length + 1
  let length := if first = 0 then length - 1 else length
  return if last = 0 then length - 1 else length

/-- `strsection_int4` and `strsection_int8` (module_string.f90 365-387, 409-431). -/
noncomputable def strsection (bits : Nat) (dble : Nat → ℝ) (first last : Int) : Res Str := do
  let length ← strsectionLen bits dble first last
  if first = 0 ∧ last = 0 then return pad length [':']
  if first = 0 then write length (':' :: decimal last)
  else if last = 0 then write length (decimal first ++ [':'])
  else write length (decimal first ++ ':' :: decimal last)

/-- The loop of `str2fitsheader` (wcsutils.py 488-504), from the beginning of a line: the lines that are converted to cards.  The conversion of a line belongs to
the library pyfits. -/
def headerLines (string : Str) : List Str :=
  if _h : string = [] then []
  else if string.take 3 = "END".toList then []
  else string.take 80 :: headerLines (string.drop 80)
termination_by string.length
decreasing_by
  have := List.length_pos_of_ne_nil _h
  simp only [List.length_drop]; omega

/-! ### The properties -/

theorem compressLoop_spec : ∀ (s q : Str) (k : Nat), s.length ≤ k →
    compressLoop s (q.length + 1) (q ++ List.replicate k ' ') = .ok (q ++ s.filter (· ≠ ' ') ++ List.replicate (k - (s.filter (· ≠ ' ')).length) ' ') := by
  intro s
  induction s with
  | nil => intro q k _; simp [compressLoop]
  | cons c s ih =>
    intro q k hk
    simp only [List.length_cons] at hk
    by_cases hc : c = ' '
    · subst hc
      rw [compressLoop, if_pos rfl, ih q k (by omega)]
      simp
    · obtain ⟨k, rfl⟩ : ∃ k', k = k' + 1 := ⟨k - 1, by omega⟩
      rw [compressLoop, if_neg hc, List.replicate_succ, setCh_append]
      have := ih (q ++ [c]) k (by omega)
      rw [List.length_append, List.length_singleton] at this
      have e : q ++ c :: List.replicate k ' ' = q ++ [c] ++ List.replicate k ' ' := by simp
      simp only [bind, Except.bind, e]
      rw [this]
      have ef : (c :: s).filter (· ≠ ' ') = c :: s.filter (· ≠ ' ') := by rw [List.filter_cons_of_pos (by simpa using hc)]
      rw [ef]
      congr 1
      simp only [List.length_cons, Nat.add_sub_add_right]
      simp

theorem filter_trim (s : Str) : (trim s).filter (· ≠ ' ') = s.filter (· ≠ ' ') := by
  conv_rhs => rw [trim_spec s]
  rw [List.filter_append]
  have : (List.replicate (s.length - (trim s).length) ' ').filter (· ≠ ' ') = [] := by
    rw [List.filter_eq_nil_iff]
    intro c hc
    simp only [List.mem_replicate] at hc; simp [hc.2]
  rw [this, List.append_nil]

/-- The blanks are removed, and only them: the other characters are kept in order, and followed by blanks. -/
theorem C126_compress (input : Str) :
    strcompress input = .ok (input.filter (· ≠ ' ') ++ List.replicate (input.length - (input.filter (· ≠ ' ')).length) ' ') := by
  have := compressLoop_spec (trim input) [] input.length (trim_length_le input)
  simp only [List.nil_append, List.length_nil, filter_trim] at this
  exact this

example : strcompress "a b  c ".toList = .ok "abc    ".toList := C126_compress _

/-! #### Split -/

theorem count_foldl (d : Char) : ∀ (s : Str) (n : Nat), s.foldl (fun n c => if c = d then n + 1 else n) n = n + s.count d := by
  intro s
  induction s with
  | nil => intro n; rfl
  | cons c s ih =>
    intro n
    rw [List.foldl_cons, ih, List.count_cons]
    by_cases h : c = d
    · rw [if_pos h, if_pos (by simpa using h)]; omega
    · simp [h]

/-- The pieces between the delimiters. -/
def pieces (d : Char) : Str → List Str
  | [] => [[]]
  | c :: s => if c = d then [] :: pieces d s else (pieces d s).modifyHead (c :: ·)

theorem pieces_ne (d : Char) (s : Str) : pieces d s ≠ [] := by
  induction s with
  | nil => simp [pieces]
  | cons c s ih =>
    rw [pieces]
    split_ifs
    · simp
    · cases h : pieces d s with
      | nil => exact absurd h ih
      | cons a l => simp

theorem splitLoop_spec (d : Char) (len n : Nat) : ∀ (s p q : Str) (out : List Str), out.length + s.count d + 1 ≤ n →
    splitLoop (p ++ q ++ s) d len n s (p.length + q.length + 1) (p.length + 1) out = .ok (out ++ ((pieces d s).modifyHead (q ++ ·)).map (pad len)) := by
  intro s
  induction s with
  | nil =>
    intro p q out h
    simp only [List.count_nil] at h
    rw [splitLoop, if_pos (by omega)]
    have := sub_suffix p q
    rw [List.append_nil, this]
    simp [pieces]
  | cons c s ih =>
    intro p q out h
    by_cases hc : c = d
    · subst hc
      rw [List.count_cons_self] at h
      rw [splitLoop, if_pos rfl, if_pos (by omega), show p.length + q.length + 1 - 1 = p.length + q.length by omega, sub_middle]
      have := ih (p ++ q ++ [c]) [] (out ++ [pad len q]) (by simp only [List.length_append, List.length_singleton]; omega)
      simp only [List.length_append, List.length_cons, List.length_nil, List.append_nil, Nat.add_zero, List.append_assoc, List.singleton_append] at this
      simp only [bind, Except.bind, List.append_assoc]
      rw [show p.length + q.length + 1 + 1 = p.length + (q.length + (0 + 1)) + 1 by omega, this, pieces, if_pos rfl]
      cases hp : pieces c s with
      | nil => exact absurd hp (pieces_ne c s)
      | cons a l => simp
    · rw [List.count_cons_of_ne (by simpa using hc)] at h
      rw [splitLoop, if_neg hc]
      have := ih p (q ++ [c]) out h
      simp only [List.length_append, List.length_cons, List.length_nil, List.append_assoc, List.singleton_append] at this
      rw [List.append_assoc, show p.length + q.length + 1 + 1 = p.length + (q.length + (0 + 1)) + 1 by omega, this, pieces, if_neg hc]
      cases hp : pieces d s with
      | nil => exact absurd hp (pieces_ne d s)
      | cons a l => simp

theorem pieces_delimiter (d : Char) (s : Str) : ∀ w ∈ pieces d s, d ∉ w := by
  induction s with
  | nil => simp [pieces]
  | cons c s ih =>
    rw [pieces]
    split_ifs with hc
    · intro w hw
      rcases List.mem_cons.1 hw with rfl | hw
      · simp
      · exact ih w hw
    · cases hp : pieces d s with
      | nil => simp
      | cons a l =>
        rw [hp] at ih
        intro w hw
        rw [List.modifyHead_cons, List.mem_cons] at hw
        rcases hw with rfl | hw
        · rw [List.mem_cons, not_or]
          exact ⟨fun e => hc e.symm, ih a (by simp)⟩
        · exact ih w (by simp [hw])

theorem pieces_join (d : Char) (s : Str) : [d].intercalate (pieces d s) = s := by
  induction s with
  | nil => simp [pieces]
  | cons c s ih =>
    rw [pieces]
    cases hp : pieces d s with
    | nil => exact absurd hp (pieces_ne d s)
    | cons a l =>
      rw [hp] at ih
      split_ifs with hc
      · subst hc
        rw [List.intercalate, List.intersperse_cons_cons] 
        rw [List.intercalate] at ih
        simp [ih]
      · rw [List.modifyHead_cons]
        cases l with
        | nil => simp [List.intercalate] at ih ⊢; exact ih
        | cons b l =>
          rw [List.intercalate, List.intersperse_cons_cons] at ih ⊢
          simp at ih ⊢; exact ih

/-- The string is split at each delimiter: the pieces have no delimiter and give the string if they are joined by the delimiter; there are no others. -/
theorem C126_split (input : Str) (d : Char) (len : Nat) :
    ∃ w : List Str, strsplit input d len = .ok (w.map (pad len)) ∧ [d].intercalate w = input ∧ (∀ x ∈ w, d ∉ x) ∧ w.length = input.count d + 1 := by
  have h := splitLoop_spec d len (1 + input.count d) input [] [] [] (by simp [Nat.add_comm])
  rw [strsplit, count_foldl]
  simp only [List.nil_append, List.length_nil, Nat.zero_add] at h
  have hm : (pieces d input).modifyHead (fun x => x) = pieces d input := by cases pieces d input <;> simp
  rw [hm] at h
  refine ⟨pieces d input, h, pieces_join d input, pieces_delimiter d input, ?_⟩
  clear h hm
  induction input with
  | nil => simp [pieces]
  | cons c s ih =>
    rw [pieces]
    split_ifs with hc
    · subst hc; rw [List.length_cons, ih, List.count_cons_self]
    · rw [List.length_modifyHead, ih, List.count_cons_of_ne (by simpa using hc)]

example : strsplit "a,,bcd".toList ',' 2 = .ok ["a ".toList, "  ".toList, "bc".toList] := by decide

/-! #### Join -/

theorem setSub_append {q r t : Str} (h : t.length ≤ r.length) : setSub (q ++ r) (q.length + 1) t = .ok (q ++ t ++ r.drop t.length) := by
  rw [setSub]
  by_cases h0 : t.length = 0
  · rw [if_pos h0, List.eq_nil_of_length_eq_zero h0]; simp
  · rw [if_neg h0, if_pos ⟨by omega, by rw [List.length_append]; omega⟩]
    congr 1
    rw [Nat.add_sub_cancel, List.take_left, List.drop_append, List.drop_eq_nil_of_le (by omega), List.nil_append]
    simp

theorem joinLoop_spec : ∀ (l : List Str) (q r : Str), (l.map fun s => (trim s).length).sum ≤ r.length →
    joinLoop l (q.length + 1) (q ++ r) = .ok (q ++ (l.map trim).flatten ++ r.drop (l.map fun s => (trim s).length).sum) := by
  intro l
  induction l with
  | nil => intro q r _; simp [joinLoop]
  | cons s l ih =>
    intro q r h
    rw [List.map_cons, List.sum_cons] at h
    rw [joinLoop, setSub_append (by omega)]
    have := ih (q ++ trim s) (r.drop (trim s).length) (by rw [List.length_drop]; omega)
    rw [List.length_append] at this
    simp only [bind, Except.bind]
    rw [show q.length + 1 + (trim s).length = q.length + (trim s).length + 1 by omega, this]
    simp

theorem joinAllLoop_spec (k : Nat) : ∀ (l : List Str) (i : Nat) (q r : Str), 1 ≤ i → q.length = (i - 1) * k → (∀ s ∈ l, s.length = k) → l.length * k = r.length →
    joinAllLoop k l i (q ++ r) = .ok (q ++ l.flatten) := by
  intro l
  induction l with
  | nil =>
    intro i q r _ _ _ h
    simp only [List.length_nil, Nat.zero_mul] at h
    simp [joinAllLoop, List.eq_nil_of_length_eq_zero h.symm]
  | cons s l ih =>
    intro i q r hi hq hl h
    have hs : s.length = k := hl s (by simp)
    rw [List.length_cons, Nat.add_mul, Nat.one_mul] at h
    rw [joinAllLoop, ← hq, setSub_append (by omega)]
    have := ih (i + 1) (q ++ s) (r.drop s.length) (by omega) (by
      obtain ⟨j, rfl⟩ : ∃ j, i = j + 1 := ⟨i - 1, by omega⟩
      rw [List.length_append, hq, hs]; simp [Nat.add_mul]) (fun t ht => hl t (by simp [ht])) (by rw [List.length_drop]; omega)
    simp only [bind, Except.bind]
    rw [this]
    simp

/-- The strings are joined without their last blanks, or with them, and nothing of what the result held remains. -/
theorem C126_join (input : List Str) (k : Nat) (h : ∀ s ∈ input, s.length = k) (undefined : Nat → Char) :
    strjoinTrim input undefined = .ok (input.map trim).flatten ∧ strjoinOpt input k true undefined = .ok (input.map trim).flatten ∧
    strjoinOpt input k false undefined = .ok input.flatten := by
  have h1 : strjoinTrim input undefined = .ok (input.map trim).flatten := by
    have := joinLoop_spec input [] ((List.range ((input.map fun s => (trim s).length).sum)).map undefined) (by simp)
    rw [strjoinTrim]
    simp only [List.length_nil, List.nil_append, Nat.zero_add] at this
    rw [this, List.drop_eq_nil_of_le (by simp), List.append_nil]
  refine ⟨h1, by rw [strjoinOpt, if_pos rfl, h1], ?_⟩
  have := joinAllLoop_spec k input 1 [] ((List.range (input.length * k)).map undefined) (le_refl _) (by simp) h (by simp)
  rw [strjoinOpt, if_neg (by simp)]
  simpa using this

example : strjoinTrim ["ab ".toList, "   ".toList, " c ".toList] (fun _ => '?') = .ok "ab c".toList := by decide

/-! #### Integers -/

theorem decimal_text (v : Int) : decimal v = (numeral v).text := by
  rw [decimal, Numeral.text, numeral]
  by_cases h : v < 0 <;> simp [h]

theorem toDigits_length {n : Nat} (hn : n ≠ 0) : (Nat.toDigits 10 n).length = Nat.log 10 n + 1 := by
  have h0 : 0 < (Nat.toDigits 10 n).length := Nat.length_toDigits_pos
  have h1 : n < 10 ^ (Nat.toDigits 10 n).length := (Nat.length_toDigits_le_iff (by omega) h0).1 (le_refl _)
  have h2 : 10 ^ ((Nat.toDigits 10 n).length - 1) ≤ n := by
    by_cases h : (Nat.toDigits 10 n).length - 1 = 0
    · rw [h]; omega
    · by_contra hcon
      have := (Nat.length_toDigits_le_iff (b := 10) (by omega) (by omega : 0 < (Nat.toDigits 10 n).length - 1)).2 (by omega : n < _)
      omega
  have := Nat.log_eq_of_pow_le_of_lt_pow h2 (by rwa [Nat.sub_add_cancel h0])
  omega

theorem floor_log (n : Nat) : ⌊Real.logb 10 (n : ℝ)⌋.toNat = Nat.log 10 n := by
  have := @Real.floor_logb_natCast 10 (n : ℝ) (by positivity)
  rw [Nat.cast_ofNat] at this
  rw [this, Int.log_natCast]; rfl

/-- The numbers of double precision, without limits on the exponent. -/
def Double (x : ℝ) : Prop := ∃ m e : ℤ, |m| < 2 ^ 53 ∧ x = m * (2 : ℝ) ^ e

/-- The conversion of an integer to double precision: the nearest number. -/
def RoundsTo (n : Nat) (x : ℝ) : Prop := Double x ∧ ∀ y, Double y → |x - n| ≤ |y - n|

theorem double_small {n : Nat} (h : n ≤ 2 ^ 53) : Double n := by
  rcases Nat.lt_or_eq_of_le h with h | h
  · exact ⟨n, 0, by rw [abs_of_nonneg (by positivity)]; exact_mod_cast h, by simp⟩
  · exact ⟨1, 53, by norm_num, by rw [h]; norm_num⟩

theorem rounds_small {n : Nat} (h : n ≤ 2 ^ 53) {x : ℝ} : RoundsTo n x ↔ x = n := by
  constructor
  · rintro ⟨_, hx⟩
    have := hx n (double_small h)
    rw [sub_self, abs_zero] at this
    have := abs_eq_zero.1 (le_antisymm this (abs_nonneg _))
    linarith
  · rintro rfl
    exact ⟨double_small h, fun y _ => by rw [sub_self, abs_zero]; positivity⟩

theorem pad_decimal (v : Int) (n : Nat) : pad n (adjustl (List.replicate (80 - (decimal v).length) ' ' ++ decimal v)) = pad n (decimal v) := by
  have h : (decimal v).head? ≠ some ' ' := by
    have := (text_head (numeral v) 0).1
    rw [← decimal_text] at this
    simpa using this
  rw [adjustl_blanks h, pad_blanks]

theorem strintegerLen_spec (bits : Nat) (dble : Nat → ℝ) {v : Int} (hv : v.natAbs < 2 ^ (bits - 1)) (hd : dble v.natAbs = v.natAbs) :
    strintegerLen bits dble v = .ok (decimal v).length := by
  rw [strintegerLen]
  by_cases h0 : v = 0
  · subst h0; rw [if_pos rfl]; rfl
  · rw [if_neg h0, if_pos hv, hd, floor_log]
    have := toDigits_length (n := v.natAbs) (by omega)
    by_cases hneg : v < 0
    · simp only [hneg, if_true, decimal, List.length_append, this, List.length_singleton]
      congr 1; omega
    · simp only [hneg, if_false, decimal, List.length_append, this, List.length_nil]
      congr 1; omega

theorem strinteger_spec (bits : Nat) (dble : Nat → ℝ) {v : Int} (hv : v.natAbs < 2 ^ (bits - 1)) (hd : dble v.natAbs = v.natAbs) :
    strinteger bits dble v = .ok (decimal v) := by
  rw [strinteger, strintegerLen_spec bits dble hv hd]
  simp only [bind, Except.bind]
  rw [pad_decimal, pad_self]; rfl

/-- The text of an integer has no blanks and nothing is missing, if the integer is exact in double precision and is not the smallest one:
see `C126_violation_minimum`, `C126_violation_int8`. -/
theorem C126_integer_partial (bits : Nat) (dble : Nat → ℝ) {v : Int} (hv : v.natAbs < 2 ^ (bits - 1)) (h53 : v.natAbs ≤ 2 ^ 53)
    (hd : RoundsTo v.natAbs (dble v.natAbs)) : strinteger bits dble v = .ok (numeral v).text := by
  rw [strinteger_spec bits dble hv ((rounds_small h53).1 hd), decimal_text]

/-- The integers of 32 bits are exact. -/
theorem C126_integer (dble : Nat → ℝ) {v : Int} (hv : v.natAbs < 2 ^ 31) (hd : RoundsTo v.natAbs (dble v.natAbs)) :
    strinteger 32 dble v = .ok (numeral v).text := C126_integer_partial 32 dble hv (by omega) hd

example : strinteger 32 (fun n => n) (-120) = .ok "-120".toList := C126_integer _ (by norm_num) ((rounds_small (by norm_num)).2 rfl)

/-- The absolute value of the smallest integer is not an integer of 32 bits. -/
theorem C126_violation_minimum (dble : Nat → ℝ) : strinteger 32 dble (-2 ^ 31) = .error .valueError := by
  rw [strinteger, strintegerLen, if_neg (by norm_num), if_neg (by decide)]
  rfl

/-- A double between 10^18 - 2 and 10^18 is 10^18. -/
theorem double_large {x : ℝ} (hx : Double x) (h1 : (10 : ℝ) ^ 18 - 2 ≤ x) (h2 : x ≤ 10 ^ 18) : x = 10 ^ 18 := by
  obtain ⟨m, e, hm, rfl⟩ := hx
  have hpos : (0 : ℝ) < 2 ^ e := by positivity
  have hm' : (m : ℝ) < 2 ^ 53 := by
    have : m < 2 ^ 53 := lt_of_le_of_lt (le_abs_self m) hm
    exact_mod_cast this
  have he : 7 ≤ e := by
    by_contra hcon
    have h3 : (2 : ℝ) ^ e ≤ 2 ^ (6 : ℤ) := zpow_le_zpow_right₀ (by norm_num) (by omega)
    have h4 : (m : ℝ) * 2 ^ e ≤ 2 ^ 53 * 2 ^ (6 : ℤ) := by
      refine le_trans (mul_le_mul_of_nonneg_right hm'.le hpos.le) (mul_le_mul_of_nonneg_left h3 (by positivity))
    norm_num at h4 h1
    linarith
  obtain ⟨k, rfl⟩ : ∃ k : ℕ, e = 7 + (k : ℤ) := ⟨(e - 7).toNat, by omega⟩
  have hint : (m : ℝ) * (2 : ℝ) ^ (7 + (k : ℤ)) = ((128 * (m * 2 ^ k) : ℤ) : ℝ) := by
    rw [zpow_add₀ (by norm_num), zpow_natCast]; push_cast; norm_num; ring
  rw [hint] at h1 h2 ⊢
  have h1' : (10 : ℤ) ^ 18 - 2 ≤ 128 * (m * 2 ^ k) := by exact_mod_cast h1
  have h2' : 128 * (m * 2 ^ k) ≤ (10 : ℤ) ^ 18 := by exact_mod_cast h2
  generalize m * 2 ^ k = t at *
  have : (128 : ℤ) * t = 10 ^ 18 := by norm_num at h1' h2' ⊢; omega
  exact_mod_cast this

theorem rounds_large {x : ℝ} : RoundsTo (10 ^ 18 - 1) x ↔ x = 10 ^ 18 := by
  have hd : Double (10 ^ 18) := ⟨5 ^ 18, 18, by norm_num, by norm_num⟩
  have hn : (((10 ^ 18 - 1 : ℕ)) : ℝ) = 10 ^ 18 - 1 := by norm_num
  constructor
  · rintro ⟨hx, hy⟩
    have := hy _ hd
    rw [hn] at this
    rw [show ((10 : ℝ) ^ 18 - (10 ^ 18 - 1)) = 1 by ring, abs_one, abs_le] at this
    exact double_large hx (by linarith) (by linarith)
  · rintro rfl
    refine ⟨hd, fun y hy => ?_⟩
    rw [hn, show ((10 : ℝ) ^ 18 - (10 ^ 18 - 1)) = 1 by ring, abs_one]
    by_contra hcon
    rw [not_le, abs_lt] at hcon
    have := double_large hy (by linarith) (by linarith)
    rw [this] at hcon
    linarith [hcon.2]

/-- The integer of 18 digits 9 is rounded to 10^18: its text has a blank at the end. -/
theorem C126_violation_int8 (dble : Nat → ℝ) (hd : RoundsTo (10 ^ 18 - 1) (dble (10 ^ 18 - 1))) :
    strinteger 64 dble (10 ^ 18 - 1) = .ok ((numeral (10 ^ 18 - 1)).text ++ [' ']) := by
  have e : ((10 : ℤ) ^ 18 - 1).natAbs = 10 ^ 18 - 1 := by norm_num
  have hl : strintegerLen 64 dble (10 ^ 18 - 1) = .ok 19 := by
    rw [strintegerLen, if_neg (by norm_num), if_pos (by norm_num), e, rounds_large.1 hd]
    have : ⌊Real.logb 10 ((10 : ℝ) ^ 18)⌋ = 18 := by
      rw [Real.logb_pow, Real.logb_self_eq_one (by norm_num)]
      norm_num
    rw [this]
    dsimp only
    rw [if_neg (by norm_num)]
    rfl
  rw [strinteger, hl]
  simp only [bind, Except.bind]
  rw [pad_decimal, decimal_text]
  have hlen : (numeral (10 ^ 18 - 1)).text.length = 18 := by
    rw [← decimal_text, decimal, if_neg (by norm_num), List.nil_append, e, toDigits_length (by norm_num)]
    rw [Nat.log_eq_of_pow_le_of_lt_pow (m := 17) (by norm_num) (by norm_num)]
  rw [pad_of_le (by rw [hlen]; omega), hlen]
  rfl

/-- The text of a section is first:last, where zero is omitted. -/
theorem C126_section_partial (bits : Nat) (dble : Nat → ℝ) {first last : Int} (h1 : first.natAbs < 2 ^ (bits - 1)) (h2 : last.natAbs < 2 ^ (bits - 1))
    (h3 : first.natAbs ≤ 2 ^ 53) (h4 : last.natAbs ≤ 2 ^ 53) (hd1 : RoundsTo first.natAbs (dble first.natAbs)) (hd2 : RoundsTo last.natAbs (dble last.natAbs)) :
    strsection bits dble first last = .ok ((if first = 0 then [] else (numeral first).text) ++ ':' :: (if last = 0 then [] else (numeral last).text)) := by
  have e1 := strinteger_spec bits dble h1 ((rounds_small h3).1 hd1)
  have e2 := strinteger_spec bits dble h2 ((rounds_small h4).1 hd2)
  have hz : (decimal 0).length = 1 := rfl
  simp only [strsection, strsectionLen, e1, e2, bind, Except.bind, pure, Except.pure, ← decimal_text]
  by_cases hf : first = 0 <;> by_cases hl : last = 0
  · subst hf hl; simp only [and_self, if_true, hz]; rfl
  · subst hf
    simp only [true_and, hl, if_true, if_false, hz, write]
    rw [if_pos (by rw [List.length_cons]; omega)]
    congr 1
    rw [show 1 + (decimal last).length + 1 - 1 = (':' :: decimal last).length by rw [List.length_cons]; omega, pad_self]; rfl
  · subst hl
    simp only [and_true, hf, if_true, if_false, hz, write]
    rw [if_pos (by rw [List.length_append, List.length_singleton]; omega)]
    congr 1
    rw [show (decimal first).length + 1 + 1 - 1 = (decimal first ++ [':']).length by simp, pad_self]
  · simp only [hf, hl, and_self, if_false, write]
    rw [if_pos (by rw [List.length_append, List.length_cons]; omega)]
    congr 1
    rw [show (decimal first).length + (decimal last).length + 1 = (decimal first ++ ':' :: decimal last).length by
      rw [List.length_append, List.length_cons]; omega, pad_self]

example : strsection 32 (fun n => n) 0 (-7) = .ok ":-7".toList :=
  C126_section_partial 32 _ (by norm_num) (by norm_num) (by norm_num) (by norm_num) ((rounds_small (by norm_num)).2 rfl) ((rounds_small (by norm_num)).2 rfl)

/-! #### The lines of a header -/

/-- The lines of a header are its cards until the card END, if no card begins with END: see `C127_violation_end`. -/
theorem C127_lines_partial (cards : List Str) (h : Cards cards) (hend : ∀ c ∈ cards, c.take 3 ≠ "END".toList) (rest : Str) :
    headerLines (cards.flatten ++ ("END".toList ++ rest)) = cards ∧ headerLines cards.flatten = cards := by
  induction cards with
  | nil =>
    constructor
    · rw [headerLines, dif_neg (by simp), if_pos (by simp)]
    · rw [headerLines]; simp
  | cons c cards ih =>
    obtain ⟨ih1, ih2⟩ := ih (fun d hd => h d (by simp [hd])) fun d hd => hend d (by simp [hd])
    have hc : c.length = 80 := h c (by simp)
    have key : ∀ r : Str, headerLines (c ++ r) = c :: headerLines r := by
      intro r
      rw [headerLines, dif_neg (by intro e; have := congrArg List.length e; simp [hc] at this), if_neg, List.take_append_of_le_length (by omega),
        List.take_of_length_le (by omega), List.drop_append_of_le_length (by omega), List.drop_eq_nil_of_le (by omega), List.nil_append]
      rw [List.take_append_of_le_length (by omega)]
      exact hend c (by simp)
    rw [List.flatten_cons]
    exact ⟨by rw [List.append_assoc, key, ih1], by rw [key, ih2]⟩

example : headerLines ((["NAXIS   = 2", "BITPIX  = 8"].map fun s => pad 80 s.toList).flatten ++ ("END".toList ++ List.replicate 77 ' ')) =
    ["NAXIS   = 2", "BITPIX  = 8"].map fun s => pad 80 s.toList := by
  refine (C127_lines_partial _ ?_ ?_ _).1
  · intro c hc
    obtain ⟨s, _, rfl⟩ := List.mem_map.1 hc
    exact pad_length _ _
  · decide

/-- The cards that follow a keyword that begins with END are lost. -/
theorem C127_violation_end : headerLines (pad 80 "ENDTIME = 3".toList ++ pad 80 "NAXIS   = 2".toList ++ pad 80 "END".toList) = [] := by
  rw [headerLines, dif_neg (by simp [pad]), if_pos (by decide)]

end Verif.Fits
