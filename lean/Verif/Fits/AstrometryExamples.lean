/-
Cases of the astrometry read from the text of a header, and what is not true.
-/
import Verif.Fits.Astrometry
import Verif.Fits.Examples

namespace Verif.Fits
open Verif.Py

/-- The list of the characters of a literal. -/
macro "chars!" s:str : term => do
  let cs := (s.getString.toList.map Lean.Syntax.mkCharLit).toArray
  `(([$cs,*] : Str))

/-- A conversion to reals which knows the integers only. -/
noncomputable def realOfInt (s : Str) : Option ℝ := (readI20 64 s).map fun n => (n : ℝ)

def axes : List Str :=
  [pad 80 (chars! "SIMPLE  =                    T / conforms to the standard"),
   pad 80 (chars! "NAXIS   =                    2"),
   pad 80 (chars! "NAXIS1  =                   50 / pixels"),
   pad 80 (chars! "NAXIS2  =                   40"),
   pad 80 (chars! "CRPIX1  =                   25"),
   pad 80 (chars! "CRPIX2  =                   20"),
   pad 80 (chars! "CRVAL1  =                 3600 / right ascension"),
   pad 80 (chars! "CRVAL2  =                   60")]

def matrix : List Str :=
  [pad 80 (chars! "CD1_1   =                   -1"),
   pad 80 (chars! "CD1_2   =                    0"),
   pad 80 (chars! "CD2_1   =                    0"),
   pad 80 (chars! "CD2_2   =                    2")]

/-- A header with a matrix, types which have an extension, and units which are not degrees. -/
def headerSip : List Str := axes ++ matrix ++
  [pad 80 (chars! "CTYPE1  = 'RA---TAN-SIP'"),
   pad 80 (chars! "CTYPE2  = 'DEC--TAN-SIP'"),
   pad 80 (chars! "CUNIT1  = 'arcsec  '"),
   pad 80 (chars! "END")]

/-- A header with a matrix. -/
def headerCd : List Str := axes ++ matrix ++
  [pad 80 (chars! "CTYPE1  = 'ra---TAN'           / gnomonic"),
   pad 80 (chars! "CTYPE2  = 'DEC--TAN'"),
   pad 80 (chars! "CUNIT1  = 'arcsec  '"),
   pad 80 (chars! "END")]

/-- A header with scales. -/
def headerScales : List Str := axes ++
  [pad 80 (chars! "CDELT1  =                   -1"),
   pad 80 (chars! "CDELT2  =                    2"),
   pad 80 (chars! "CTYPE1  = 'ra---TAN'           / gnomonic"),
   pad 80 (chars! "CTYPE2  = 'DEC--TAN'"),
   pad 80 (chars! "END")]

/-- A header whose matrix is not complete. -/
def headerPart : List Str := axes ++ matrix.take 3 ++
  [pad 80 (chars! "CTYPE1  = 'RA---TAN'"),
   pad 80 (chars! "CTYPE2  = 'DEC--TAN'"),
   pad 80 (chars! "END")]

theorem cards_of {cards : List Str} (h : (cards.all fun c => c.length == 80) = true) : Cards cards := by
  intro c hc
  have := List.all_eq_true.1 h c hc
  simpa using this

/-- The names are compared. -/
def test' (keyword card : Str) : Bool := decide (trim ((card.take 8).map Char.toLower) = trim (keyword.map Char.toLower))

theorem test'_iff {keyword card : Str} : test' keyword card = true ↔ Named keyword card := by
  rw [test', decide_eq_true_iff, Named, sameName_iff]

theorem has_of {cards : List Str} (hc : Cards cards) {keyword : Str} (hk : keyword.length ≤ 71) (hz : NoZ keyword) {c field : Str}
    (h : cards.find? (test' keyword) = some c) (hf : c.drop 10 = field) : Has cards keyword field := by
  obtain ⟨ht, pre, post, e, hp⟩ := List.find?_eq_some_iff_append.1 h
  refine ⟨hc, hk, hz, pre, c, post, e, ?_, test'_iff.1 ht, hf⟩
  intro d hd hn
  rw [← test'_iff] at hn
  have := hp d hd
  rw [hn] at this
  simp at this

theorem missing_of {cards : List Str} {keyword : Str} (h : cards.find? (test' keyword) = none) :
    Missing cards keyword := by
  intro c hc hn
  rw [← test'_iff] at hn
  exact List.find?_eq_none.1 h c hc hn

theorem int_of {cards : List Str} (hc : Cards cards) {keyword : Str} (hk : keyword.length ≤ 71) (hz : NoZ keyword) {c : Str} {v : Int}
    (h : cards.find? (test' keyword) = some c) (hr : InRange 32 v) (b k : Nat) (o : Option Str)
    (hf : c.drop 10 = List.replicate b ' ' ++ ((numeral v).text ++ List.replicate k ' ') ++ tailOf o) : IntCard cards keyword v :=
  ⟨hr, b, k, o, has_of hc hk hz h hf⟩

theorem real_of {cards : List Str} (hc : Cards cards) {keyword : Str} (hk : keyword.length ≤ 71) (hz : NoZ keyword) {c : Str}
    (h : cards.find? (test' keyword) = some c) (b : Nat) (v : Str) (o : Option Str) {n : Int} (hf : c.drop 10 = List.replicate b ' ' ++ v ++ tailOf o)
    (h1 : v.head? ≠ some ' ' ∧ v.head? ≠ some '\'' ∧ '/' ∉ v) (h2 : readI20 64 (v ++ List.replicate (70 - v.length) ' ') = some n) {x : ℝ} (hx : x = n) :
    RealCard realOfInt cards keyword x :=
  ⟨b, v, o, has_of hc hk hz h hf, h1.1, h1.2.1, h1.2.2, by rw [realOfInt, h2, hx]; rfl⟩

theorem str_of {cards : List Str} (hc : Cards cards) {keyword : Str} (hk : keyword.length ≤ 71) (hz : NoZ keyword) {c : Str} {s : Str}
    (h : cards.find? (test' keyword) = some c) (b : Nat) (t : Str) (o : Option Str)
    (hf : c.drop 10 = List.replicate b ' ' ++ '\'' :: escape s ++ '\'' :: t ++ tailOf o) (h1 : t.head? ≠ some '\'') (h2 : '/' ∉ t) : StrCard cards keyword s :=
  ⟨b, t, o, has_of hc hk hz h hf, h1, h2⟩

theorem headerSip_says : Says realOfInt headerSip 50 40 25 20 3600 60 (chars! "RA---TAN-SIP") (chars! "DEC--TAN-SIP") (some (-1)) (some (0)) (some (0)) (some (2)) none none none := by
  have hc : Cards headerSip := cards_of (by decide +kernel)
  exact {
    wf := hc
    naxis1 := int_of hc (by decide +kernel) ⟨by decide +kernel, by decide +kernel⟩ (c := pad 80 (chars! "NAXIS1  =                   50 / pixels")) (by decide +kernel) (by decide +kernel) 18 1 (some (pad 48 (chars! " pixels"))) (by decide +kernel)
    naxis2 := int_of hc (by decide +kernel) ⟨by decide +kernel, by decide +kernel⟩ (c := pad 80 (chars! "NAXIS2  =                   40")) (by decide +kernel) (by decide +kernel) 18 50 none (by decide +kernel)
    crpix1 := real_of hc (by decide +kernel) ⟨by decide +kernel, by decide +kernel⟩ (c := pad 80 (chars! "CRPIX1  =                   25")) (by decide +kernel) 18 (pad 52 (chars! "25")) none (n := 25) (by decide +kernel) (by decide +kernel) (by decide +kernel) (by norm_num)
    crpix2 := real_of hc (by decide +kernel) ⟨by decide +kernel, by decide +kernel⟩ (c := pad 80 (chars! "CRPIX2  =                   20")) (by decide +kernel) 18 (pad 52 (chars! "20")) none (n := 20) (by decide +kernel) (by decide +kernel) (by decide +kernel) (by norm_num)
    crval1 := real_of hc (by decide +kernel) ⟨by decide +kernel, by decide +kernel⟩ (c := pad 80 (chars! "CRVAL1  =                 3600 / right ascension")) (by decide +kernel) 16 (pad 5 (chars! "3600")) (some (pad 48 (chars! " right ascension"))) (n := 3600) (by decide +kernel) (by decide +kernel) (by decide +kernel) (by norm_num)
    crval2 := real_of hc (by decide +kernel) ⟨by decide +kernel, by decide +kernel⟩ (c := pad 80 (chars! "CRVAL2  =                   60")) (by decide +kernel) 18 (pad 52 (chars! "60")) none (n := 60) (by decide +kernel) (by decide +kernel) (by decide +kernel) (by norm_num)
    cd11 := real_of hc (by decide +kernel) ⟨by decide +kernel, by decide +kernel⟩ (c := pad 80 (chars! "CD1_1   =                   -1")) (by decide +kernel) 18 (pad 52 (chars! "-1")) none (n := -1) (by decide +kernel) (by decide +kernel) (by decide +kernel) (by norm_num)
    cd12 := real_of hc (by decide +kernel) ⟨by decide +kernel, by decide +kernel⟩ (c := pad 80 (chars! "CD1_2   =                    0")) (by decide +kernel) 19 (pad 51 (chars! "0")) none (n := 0) (by decide +kernel) (by decide +kernel) (by decide +kernel) (by norm_num)
    cd21 := real_of hc (by decide +kernel) ⟨by decide +kernel, by decide +kernel⟩ (c := pad 80 (chars! "CD2_1   =                    0")) (by decide +kernel) 19 (pad 51 (chars! "0")) none (n := 0) (by decide +kernel) (by decide +kernel) (by decide +kernel) (by norm_num)
    cd22 := real_of hc (by decide +kernel) ⟨by decide +kernel, by decide +kernel⟩ (c := pad 80 (chars! "CD2_2   =                    2")) (by decide +kernel) 19 (pad 51 (chars! "2")) none (n := 2) (by decide +kernel) (by decide +kernel) (by decide +kernel) (by norm_num)
    ctype1 := str_of hc (by decide +kernel) ⟨by decide +kernel, by decide +kernel⟩ (c := pad 80 (chars! "CTYPE1  = 'RA---TAN-SIP'")) (s := chars! "RA---TAN-SIP") (by decide +kernel) 0 (pad 56 []) none (by decide +kernel) (by decide +kernel) (by decide +kernel)
    ctype2 := str_of hc (by decide +kernel) ⟨by decide +kernel, by decide +kernel⟩ (c := pad 80 (chars! "CTYPE2  = 'DEC--TAN-SIP'")) (s := chars! "DEC--TAN-SIP") (by decide +kernel) 0 (pad 56 []) none (by decide +kernel) (by decide +kernel) (by decide +kernel)
    cunit1 := .inr ⟨_, str_of hc (by decide +kernel) ⟨by decide +kernel, by decide +kernel⟩ (c := pad 80 (chars! "CUNIT1  = 'arcsec  '")) (s := chars! "arcsec  ") (by decide +kernel) 0 (pad 60 []) none (by decide +kernel) (by decide +kernel) (by decide +kernel)⟩
    cunit2 := .inl (missing_of (by decide +kernel))
    cdelt1 := missing_of (by decide +kernel)
    cdelt2 := missing_of (by decide +kernel)
    crota2 := missing_of (by decide +kernel) }

theorem headerCd_says : Says realOfInt headerCd 50 40 25 20 3600 60 (chars! "ra---TAN") (chars! "DEC--TAN") (some (-1)) (some (0)) (some (0)) (some (2)) none none none := by
  have hc : Cards headerCd := cards_of (by decide +kernel)
  exact {
    wf := hc
    naxis1 := int_of hc (by decide +kernel) ⟨by decide +kernel, by decide +kernel⟩ (c := pad 80 (chars! "NAXIS1  =                   50 / pixels")) (by decide +kernel) (by decide +kernel) 18 1 (some (pad 48 (chars! " pixels"))) (by decide +kernel)
    naxis2 := int_of hc (by decide +kernel) ⟨by decide +kernel, by decide +kernel⟩ (c := pad 80 (chars! "NAXIS2  =                   40")) (by decide +kernel) (by decide +kernel) 18 50 none (by decide +kernel)
    crpix1 := real_of hc (by decide +kernel) ⟨by decide +kernel, by decide +kernel⟩ (c := pad 80 (chars! "CRPIX1  =                   25")) (by decide +kernel) 18 (pad 52 (chars! "25")) none (n := 25) (by decide +kernel) (by decide +kernel) (by decide +kernel) (by norm_num)
    crpix2 := real_of hc (by decide +kernel) ⟨by decide +kernel, by decide +kernel⟩ (c := pad 80 (chars! "CRPIX2  =                   20")) (by decide +kernel) 18 (pad 52 (chars! "20")) none (n := 20) (by decide +kernel) (by decide +kernel) (by decide +kernel) (by norm_num)
    crval1 := real_of hc (by decide +kernel) ⟨by decide +kernel, by decide +kernel⟩ (c := pad 80 (chars! "CRVAL1  =                 3600 / right ascension")) (by decide +kernel) 16 (pad 5 (chars! "3600")) (some (pad 48 (chars! " right ascension"))) (n := 3600) (by decide +kernel) (by decide +kernel) (by decide +kernel) (by norm_num)
    crval2 := real_of hc (by decide +kernel) ⟨by decide +kernel, by decide +kernel⟩ (c := pad 80 (chars! "CRVAL2  =                   60")) (by decide +kernel) 18 (pad 52 (chars! "60")) none (n := 60) (by decide +kernel) (by decide +kernel) (by decide +kernel) (by norm_num)
    cd11 := real_of hc (by decide +kernel) ⟨by decide +kernel, by decide +kernel⟩ (c := pad 80 (chars! "CD1_1   =                   -1")) (by decide +kernel) 18 (pad 52 (chars! "-1")) none (n := -1) (by decide +kernel) (by decide +kernel) (by decide +kernel) (by norm_num)
    cd12 := real_of hc (by decide +kernel) ⟨by decide +kernel, by decide +kernel⟩ (c := pad 80 (chars! "CD1_2   =                    0")) (by decide +kernel) 19 (pad 51 (chars! "0")) none (n := 0) (by decide +kernel) (by decide +kernel) (by decide +kernel) (by norm_num)
    cd21 := real_of hc (by decide +kernel) ⟨by decide +kernel, by decide +kernel⟩ (c := pad 80 (chars! "CD2_1   =                    0")) (by decide +kernel) 19 (pad 51 (chars! "0")) none (n := 0) (by decide +kernel) (by decide +kernel) (by decide +kernel) (by norm_num)
    cd22 := real_of hc (by decide +kernel) ⟨by decide +kernel, by decide +kernel⟩ (c := pad 80 (chars! "CD2_2   =                    2")) (by decide +kernel) 19 (pad 51 (chars! "2")) none (n := 2) (by decide +kernel) (by decide +kernel) (by decide +kernel) (by norm_num)
    ctype1 := str_of hc (by decide +kernel) ⟨by decide +kernel, by decide +kernel⟩ (c := pad 80 (chars! "CTYPE1  = 'ra---TAN'           / gnomonic")) (s := chars! "ra---TAN") (by decide +kernel) 0 (pad 11 []) (some (pad 48 (chars! " gnomonic"))) (by decide +kernel) (by decide +kernel) (by decide +kernel)
    ctype2 := str_of hc (by decide +kernel) ⟨by decide +kernel, by decide +kernel⟩ (c := pad 80 (chars! "CTYPE2  = 'DEC--TAN'")) (s := chars! "DEC--TAN") (by decide +kernel) 0 (pad 60 []) none (by decide +kernel) (by decide +kernel) (by decide +kernel)
    cunit1 := .inr ⟨_, str_of hc (by decide +kernel) ⟨by decide +kernel, by decide +kernel⟩ (c := pad 80 (chars! "CUNIT1  = 'arcsec  '")) (s := chars! "arcsec  ") (by decide +kernel) 0 (pad 60 []) none (by decide +kernel) (by decide +kernel) (by decide +kernel)⟩
    cunit2 := .inl (missing_of (by decide +kernel))
    cdelt1 := missing_of (by decide +kernel)
    cdelt2 := missing_of (by decide +kernel)
    crota2 := missing_of (by decide +kernel) }

theorem headerScales_says : Says realOfInt headerScales 50 40 25 20 3600 60 (chars! "ra---TAN") (chars! "DEC--TAN") none none none none (some (-1)) (some (2)) none := by
  have hc : Cards headerScales := cards_of (by decide +kernel)
  exact {
    wf := hc
    naxis1 := int_of hc (by decide +kernel) ⟨by decide +kernel, by decide +kernel⟩ (c := pad 80 (chars! "NAXIS1  =                   50 / pixels")) (by decide +kernel) (by decide +kernel) 18 1 (some (pad 48 (chars! " pixels"))) (by decide +kernel)
    naxis2 := int_of hc (by decide +kernel) ⟨by decide +kernel, by decide +kernel⟩ (c := pad 80 (chars! "NAXIS2  =                   40")) (by decide +kernel) (by decide +kernel) 18 50 none (by decide +kernel)
    crpix1 := real_of hc (by decide +kernel) ⟨by decide +kernel, by decide +kernel⟩ (c := pad 80 (chars! "CRPIX1  =                   25")) (by decide +kernel) 18 (pad 52 (chars! "25")) none (n := 25) (by decide +kernel) (by decide +kernel) (by decide +kernel) (by norm_num)
    crpix2 := real_of hc (by decide +kernel) ⟨by decide +kernel, by decide +kernel⟩ (c := pad 80 (chars! "CRPIX2  =                   20")) (by decide +kernel) 18 (pad 52 (chars! "20")) none (n := 20) (by decide +kernel) (by decide +kernel) (by decide +kernel) (by norm_num)
    crval1 := real_of hc (by decide +kernel) ⟨by decide +kernel, by decide +kernel⟩ (c := pad 80 (chars! "CRVAL1  =                 3600 / right ascension")) (by decide +kernel) 16 (pad 5 (chars! "3600")) (some (pad 48 (chars! " right ascension"))) (n := 3600) (by decide +kernel) (by decide +kernel) (by decide +kernel) (by norm_num)
    crval2 := real_of hc (by decide +kernel) ⟨by decide +kernel, by decide +kernel⟩ (c := pad 80 (chars! "CRVAL2  =                   60")) (by decide +kernel) 18 (pad 52 (chars! "60")) none (n := 60) (by decide +kernel) (by decide +kernel) (by decide +kernel) (by norm_num)
    cd11 := missing_of (by decide +kernel)
    cd12 := missing_of (by decide +kernel)
    cd21 := missing_of (by decide +kernel)
    cd22 := missing_of (by decide +kernel)
    ctype1 := str_of hc (by decide +kernel) ⟨by decide +kernel, by decide +kernel⟩ (c := pad 80 (chars! "CTYPE1  = 'ra---TAN'           / gnomonic")) (s := chars! "ra---TAN") (by decide +kernel) 0 (pad 11 []) (some (pad 48 (chars! " gnomonic"))) (by decide +kernel) (by decide +kernel) (by decide +kernel)
    ctype2 := str_of hc (by decide +kernel) ⟨by decide +kernel, by decide +kernel⟩ (c := pad 80 (chars! "CTYPE2  = 'DEC--TAN'")) (s := chars! "DEC--TAN") (by decide +kernel) 0 (pad 60 []) none (by decide +kernel) (by decide +kernel) (by decide +kernel)
    cunit1 := .inl (missing_of (by decide +kernel))
    cunit2 := .inl (missing_of (by decide +kernel))
    cdelt1 := real_of hc (by decide +kernel) ⟨by decide +kernel, by decide +kernel⟩ (c := pad 80 (chars! "CDELT1  =                   -1")) (by decide +kernel) 18 (pad 52 (chars! "-1")) none (n := -1) (by decide +kernel) (by decide +kernel) (by decide +kernel) (by norm_num)
    cdelt2 := real_of hc (by decide +kernel) ⟨by decide +kernel, by decide +kernel⟩ (c := pad 80 (chars! "CDELT2  =                    2")) (by decide +kernel) 19 (pad 51 (chars! "2")) none (n := 2) (by decide +kernel) (by decide +kernel) (by decide +kernel) (by norm_num)
    crota2 := missing_of (by decide +kernel) }

theorem headerPart_says : Says realOfInt headerPart 50 40 25 20 3600 60 (chars! "RA---TAN") (chars! "DEC--TAN") (some (-1)) (some (0)) (some (0)) none none none none := by
  have hc : Cards headerPart := cards_of (by decide +kernel)
  exact {
    wf := hc
    naxis1 := int_of hc (by decide +kernel) ⟨by decide +kernel, by decide +kernel⟩ (c := pad 80 (chars! "NAXIS1  =                   50 / pixels")) (by decide +kernel) (by decide +kernel) 18 1 (some (pad 48 (chars! " pixels"))) (by decide +kernel)
    naxis2 := int_of hc (by decide +kernel) ⟨by decide +kernel, by decide +kernel⟩ (c := pad 80 (chars! "NAXIS2  =                   40")) (by decide +kernel) (by decide +kernel) 18 50 none (by decide +kernel)
    crpix1 := real_of hc (by decide +kernel) ⟨by decide +kernel, by decide +kernel⟩ (c := pad 80 (chars! "CRPIX1  =                   25")) (by decide +kernel) 18 (pad 52 (chars! "25")) none (n := 25) (by decide +kernel) (by decide +kernel) (by decide +kernel) (by norm_num)
    crpix2 := real_of hc (by decide +kernel) ⟨by decide +kernel, by decide +kernel⟩ (c := pad 80 (chars! "CRPIX2  =                   20")) (by decide +kernel) 18 (pad 52 (chars! "20")) none (n := 20) (by decide +kernel) (by decide +kernel) (by decide +kernel) (by norm_num)
    crval1 := real_of hc (by decide +kernel) ⟨by decide +kernel, by decide +kernel⟩ (c := pad 80 (chars! "CRVAL1  =                 3600 / right ascension")) (by decide +kernel) 16 (pad 5 (chars! "3600")) (some (pad 48 (chars! " right ascension"))) (n := 3600) (by decide +kernel) (by decide +kernel) (by decide +kernel) (by norm_num)
    crval2 := real_of hc (by decide +kernel) ⟨by decide +kernel, by decide +kernel⟩ (c := pad 80 (chars! "CRVAL2  =                   60")) (by decide +kernel) 18 (pad 52 (chars! "60")) none (n := 60) (by decide +kernel) (by decide +kernel) (by decide +kernel) (by norm_num)
    cd11 := real_of hc (by decide +kernel) ⟨by decide +kernel, by decide +kernel⟩ (c := pad 80 (chars! "CD1_1   =                   -1")) (by decide +kernel) 18 (pad 52 (chars! "-1")) none (n := -1) (by decide +kernel) (by decide +kernel) (by decide +kernel) (by norm_num)
    cd12 := real_of hc (by decide +kernel) ⟨by decide +kernel, by decide +kernel⟩ (c := pad 80 (chars! "CD1_2   =                    0")) (by decide +kernel) 19 (pad 51 (chars! "0")) none (n := 0) (by decide +kernel) (by decide +kernel) (by decide +kernel) (by norm_num)
    cd21 := real_of hc (by decide +kernel) ⟨by decide +kernel, by decide +kernel⟩ (c := pad 80 (chars! "CD2_1   =                    0")) (by decide +kernel) 19 (pad 51 (chars! "0")) none (n := 0) (by decide +kernel) (by decide +kernel) (by decide +kernel) (by norm_num)
    cd22 := missing_of (by decide +kernel)
    ctype1 := str_of hc (by decide +kernel) ⟨by decide +kernel, by decide +kernel⟩ (c := pad 80 (chars! "CTYPE1  = 'RA---TAN'")) (s := chars! "RA---TAN") (by decide +kernel) 0 (pad 60 []) none (by decide +kernel) (by decide +kernel) (by decide +kernel)
    ctype2 := str_of hc (by decide +kernel) ⟨by decide +kernel, by decide +kernel⟩ (c := pad 80 (chars! "CTYPE2  = 'DEC--TAN'")) (s := chars! "DEC--TAN") (by decide +kernel) 0 (pad 60 []) none (by decide +kernel) (by decide +kernel) (by decide +kernel)
    cunit1 := .inl (missing_of (by decide +kernel))
    cunit2 := .inl (missing_of (by decide +kernel))
    cdelt1 := missing_of (by decide +kernel)
    cdelt2 := missing_of (by decide +kernel)
    crota2 := missing_of (by decide +kernel) }

/-- The hypotheses of `C128_matrix_partial` are met. -/
example (buffer : Str) (hb : buffer.length = 70) : ∃ m, initAstrometryText realOfInt headerCd.flatten buffer = .ok (.ok m) ∧ m.rotate (-3) 4 = (27, 21) := by
  obtain ⟨m, hm, ha⟩ := C128_matrix_partial headerCd_says ((sameName_iff _ _).2 (by decide +kernel)) ((sameName_iff _ _).2 (by decide +kernel)) (by norm_num) buffer hb
  exact ⟨m, hm, (ha.pixel _ _ _ _).2 (by norm_num)⟩

/-- The hypotheses of `C128_scales_partial` are met. -/
example (buffer : Str) (hb : buffer.length = 70) : ∃ m, initAstrometryText realOfInt headerScales.flatten buffer = .ok (.ok m) ∧ m.rotate (-3) 4 = (27, 21) := by
  obtain ⟨m, hm, ha⟩ := C128_scales_partial headerScales_says ((sameName_iff _ _).2 (by decide +kernel)) ((sameName_iff _ _).2 (by decide +kernel)) (by norm_num) (by norm_num) buffer hb
  exact ⟨m, hm, (ha.pixel _ _ _ _).2 (by norm_num)⟩

/-- The hypotheses of `C128_refused` are met. -/
example (buffer : Str) (hb : buffer.length = 70) : initAstrometryText realOfInt headerPart.flatten buffer = .ok (.error 1) :=
  C128_refused headerPart_says buffer hb (.inl ⟨by simp, -1, by norm_num⟩)

/-- The hypotheses of `C128_missing`, `C128_bounds` and `C123_bounds_partial` are met. -/
example (buffer : Str) (hb : buffer.length = 70) : ∃ s, s ≠ 0 ∧ initAstrometryText realOfInt axes.flatten buffer = .ok (.error s) :=
  C128_missing realOfInt (cards_of (by decide +kernel)) (by simp [axes]) (keyword := "CTYPE1") (by simp) (missing_of (by decide +kernel)) buffer hb

/-- The units are ignored: the longitude is 3600 arcseconds, which is one degree, and it is read as 3600 degrees. -/
theorem C128_violation_unit (buffer : Str) (hb : buffer.length = 70) :
    StrCard headerCd "CUNIT1".toList "arcsec  ".toList ∧ RealCard realOfInt headerCd "CRVAL1".toList 3600 ∧
    ∃ m, initAstrometryText realOfInt headerCd.flatten buffer = .ok (.ok m) ∧ m.lambda0 = 3600 * (Real.pi / 180) := by
  obtain ⟨m, hm, ha⟩ := C128_matrix_partial headerCd_says ((sameName_iff _ _).2 (by decide +kernel)) ((sameName_iff _ _).2 (by decide +kernel)) (by norm_num) buffer hb
  have hc : Cards headerCd := cards_of (by decide +kernel)
  refine ⟨?_, headerCd_says.crval1, m, hm, by rw [ha.longitude]; ring⟩
  exact str_of hc (by decide +kernel) ⟨by decide +kernel, by decide +kernel⟩ (c := pad 80 (chars! "CUNIT1  = 'arcsec  '")) (s := chars! "arcsec  ") (by decide +kernel) 0 (pad 60 []) none (by decide +kernel) (by decide +kernel) (by decide +kernel)

/-- A projection which has distortions is read as if it had none. -/
theorem C128_violation_type (buffer : Str) (hb : buffer.length = 70) :
    StrCard headerSip "CTYPE1".toList "RA---TAN-SIP".toList ∧ ¬SameName "RA---TAN-SIP".toList "RA---TAN".toList ∧
    ∃ m, initAstrometryText realOfInt headerSip.flatten buffer = .ok (.ok m) ∧ m.rotate (-3) 4 = (27, 21) := by
  refine ⟨headerSip_says.ctype1, by rw [sameName_iff]; decide +kernel, _, ?_, (isAstrometry (nx := 50) (ny := 40) (p1 := 25) (p2 := 20) (v1 := 3600) (v2 := 60)
    (c11 := -1) (c12 := 0) (c21 := 0) (c22 := 2) (by norm_num)).pixel _ _ _ _ |>.2 (by norm_num)⟩
  rw [init_reads headerSip_says buffer hb]
  have h1 : SameName (List.take 8 (chars! "RA---TAN-SIP")) "RA---TAN".toList := (sameName_iff _ _).2 (by decide +kernel)
  have h2 : SameName (List.take 8 (chars! "DEC--TAN-SIP")) "DEC--TAN".toList := (sameName_iff _ _).2 (by decide +kernel)
  rw [if_neg (by simp), if_neg (by simp)]
  dsimp only
  rw [if_pos ⟨h1, h2⟩]
  rfl

end Verif.Fits
