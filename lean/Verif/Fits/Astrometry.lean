/-
The astrometry read from the text of a header (/repo/src/flib/module_wcs.f90 37-156).
-/
import Verif.Fits.Safe
import Verif.Wcs.PropsScale

namespace Verif.Fits
open Verif.Py

/-! ### The model -/

/-- `call ft_read_keyword(..., status)` followed by `if (status /= 0) return`. -/
def orStop {α β : Type} (r : Res (Read α)) (k : Read α → Res (Except Nat β)) : Res (Except Nat β) := do
  let v ← r
  if v.status ≠ 0 then return .error v.status
  k v

/-- The matrix read from CDELT1, CDELT2 and CROTA2 (module_wcs.f90 117-144). -/
noncomputable def readCrota (real : Str → Option ℝ) (header : Str) : Res (Except Nat (ℝ × ℝ × ℝ × ℝ)) :=
  orStop (readReal real header "cdelt1".toList true) fun cdelt1 =>
    if cdelt1.found = false then .ok (.error 1) else
      orStop (readReal real header "cdelt2".toList true) fun cdelt2 =>
        if cdelt2.found = false then .ok (.error 1) else
          orStop (readReal real header "crota2".toList true) fun crota2 =>
            .ok (.ok (Wcs.cdOfCrota cdelt1.value cdelt2.value (if crota2.found = false then 0 else crota2.value)))

/-- The units and the matrix (module_wcs.f90 93-144). -/
noncomputable def readMatrix (real : Str → Option ℝ) (header buffer : Str) (c11 c21 c12 c22 : Read ℝ) : Res (Except Nat (ℝ × ℝ × ℝ × ℝ)) :=
  orStop (readCharacter header "cunit1".toList true buffer) fun u1 =>
    orStop (readCharacter header "cunit2".toList true u1.value) fun _ =>
      let hasCd := c11.found.toNat + c21.found.toNat + c12.found.toNat + c22.found.toNat
      if hasCd ≠ 0 ∧ hasCd ≠ 4 then .ok (.error 1)
      else if hasCd = 0 then readCrota real header
      else .ok (.ok (c11.value, c12.value, c21.value, c22.value))

/-- The projection (module_wcs.f90 146-154). -/
noncomputable def project (nx ny : Int) (crpix1 crpix2 crval1 crval2 : ℝ) (cd : ℝ × ℝ × ℝ × ℝ) (ctype1 ctype2 : Str) : Res (Except Nat Wcs.Astrometry) :=
  if same ctype1 "RA---TAN".toList && same ctype2 "DEC--TAN".toList then .ok (.ok (Wcs.initProjection nx ny crpix1 crpix2 crval1 crval2 cd))
  else .ok (.error 1)

/-- `init_astrometry` (module_wcs.f90 37-156) for the text of a header, where `buffer` is what the variable of this name holds at the beginning and `real` is
the list directed conversion: the status if it is not zero, or the astrometry. -/
noncomputable def initAstrometryText (real : Str → Option ℝ) (header buffer : Str) : Res (Except Nat Wcs.Astrometry) :=
  orStop (readInt 32 header "naxis1".toList false) fun nx =>
  orStop (readInt 32 header "naxis2".toList false) fun ny =>
  orStop (readReal real header "crpix1".toList false) fun p1 =>
  orStop (readReal real header "crpix2".toList false) fun p2 =>
  orStop (readReal real header "crval1".toList false) fun v1 =>
  orStop (readReal real header "crval2".toList false) fun v2 =>
  orStop (readReal real header "cd1_1".toList true) fun c11 =>
  orStop (readReal real header "cd2_1".toList true) fun c21 =>
  orStop (readReal real header "cd1_2".toList true) fun c12 =>
  orStop (readReal real header "cd2_2".toList true) fun c22 =>
  orStop (readCharacter header "ctype1".toList false buffer) fun b1 => do
    let t1 ← sub b1.value 1 8
    orStop (readCharacter header "ctype2".toList false b1.value) fun b2 => do
      let t2 ← sub b2.value 1 8
      match ← readMatrix real header b2.value c11 c21 c12 c22 with
      | .error status => return .error status
      | .ok cd => project nx.value ny.value p1.value p2.value v1.value v2.value cd (strupcase t1) (strupcase t2)

/-! ### The specification -/

/-- No card has this name. -/
def Missing (cards : List Str) (keyword : Str) : Prop := ∀ c ∈ cards, ¬Named keyword c

/-- The first card of this name has an integer. -/
def IntCard (cards : List Str) (keyword : Str) (v : Int) : Prop :=
  InRange 32 v ∧ ∃ b k o, Has cards keyword (List.replicate b ' ' ++ ((numeral v).text ++ List.replicate k ' ') ++ tailOf o)

/-- The first card of this name has the text of a real. -/
def RealCard (real : Str → Option ℝ) (cards : List Str) (keyword : Str) (x : ℝ) : Prop :=
  ∃ b v o, Has cards keyword (List.replicate b ' ' ++ v ++ tailOf o) ∧ v.head? ≠ some ' ' ∧ v.head? ≠ some '\'' ∧ '/' ∉ v ∧
    real (v ++ List.replicate (70 - v.length) ' ') = some x

/-- The first card of this name has a string between quotes. -/
def StrCard (cards : List Str) (keyword : Str) (s : Str) : Prop :=
  ∃ b t o, Has cards keyword (List.replicate b ' ' ++ '\'' :: escape s ++ '\'' :: t ++ tailOf o) ∧ t.head? ≠ some '\'' ∧ '/' ∉ t

/-- The header has an optional real, or not. -/
def OptCard (real : Str → Option ℝ) (cards : List Str) (keyword : Str) : Option ℝ → Prop
  | none => Missing cards keyword
  | some x => RealCard real cards keyword x

/-- The header may have a unit. -/
def UnitCard (cards : List Str) (keyword : Str) : Prop := Missing cards keyword ∨ ∃ s, StrCard cards keyword s

/-- What the header says: the size of the map, the reference pixel and its coordinates, the types of the axes, the matrix and its alternative. -/
structure Says (real : Str → Option ℝ) (cards : List Str) (nx ny : Int) (p1 p2 v1 v2 : ℝ) (s1 s2 : Str) (c11 c12 c21 c22 d1 d2 r2 : Option ℝ) : Prop where
  wf : Cards cards
  naxis1 : IntCard cards "NAXIS1".toList nx
  naxis2 : IntCard cards "NAXIS2".toList ny
  crpix1 : RealCard real cards "CRPIX1".toList p1
  crpix2 : RealCard real cards "CRPIX2".toList p2
  crval1 : RealCard real cards "CRVAL1".toList v1
  crval2 : RealCard real cards "CRVAL2".toList v2
  cd11 : OptCard real cards "CD1_1".toList c11
  cd12 : OptCard real cards "CD1_2".toList c12
  cd21 : OptCard real cards "CD2_1".toList c21
  cd22 : OptCard real cards "CD2_2".toList c22
  ctype1 : StrCard cards "CTYPE1".toList s1
  ctype2 : StrCard cards "CTYPE2".toList s2
  cunit1 : UnitCard cards "CUNIT1".toList
  cunit2 : UnitCard cards "CUNIT2".toList
  cdelt1 : OptCard real cards "CDELT1".toList d1
  cdelt2 : OptCard real cards "CDELT2".toList d2
  crota2 : OptCard real cards "CROTA2".toList r2

/-! ### The properties -/

theorem named_lower {a b c : Str} (h : a.map Char.toLower = b.map Char.toLower) : Named a c ↔ Named b c := by
  unfold Named
  rw [sameName_iff, sameName_iff, h]

theorem missing_lower {cards : List Str} {a b : Str} (h : a.map Char.toLower = b.map Char.toLower) (hm : Missing cards a) : Missing cards b :=
  fun c hc hn => hm c hc ((named_lower h).2 hn)

theorem has_lower {cards : List Str} {a b f : Str} (h : a.map Char.toLower = b.map Char.toLower) (hb : NoZ b) (hh : Has cards a f) : Has cards b f := by
  obtain ⟨pre, c, post, e1, e2, e3, e4⟩ := hh.first
  exact ⟨hh.wf, by have := congrArg List.length h; simp only [List.length_map] at this; rw [← this]; exact hh.length, hb,
    pre, c, post, e1, fun d hd hn => e2 d hd ((named_lower h).2 hn), (named_lower h).1 e3, e4⟩

theorem orStop_ok {α β : Type} {v : Read α} {k : Read α → Res (Except Nat β)} (h : v.status = 0) : orStop (.ok v) k = k v := by
  unfold orStop
  simp only [bind, Except.bind]
  rw [if_neg (by simpa using h)]

theorem int_card {cards : List Str} {a b : Str} {v : Int} (h : IntCard cards a v) (hl : a.map Char.toLower = b.map Char.toLower) (hb : NoZ b) (present : Bool) :
    ∃ c, readInt 32 cards.flatten b present = .ok ⟨v, true, c, 0⟩ := by
  obtain ⟨hr, s, k, o, hh⟩ := h
  exact ⟨_, C125_integer 32 (.inl rfl) hr (has_lower hl hb hh) present⟩

theorem real_card {real : Str → Option ℝ} {cards : List Str} {a b : Str} {x : ℝ} (h : RealCard real cards a x) (hl : a.map Char.toLower = b.map Char.toLower)
    (hb : NoZ b) (present : Bool) : ∃ c, readReal real cards.flatten b present = .ok ⟨x, true, c, 0⟩ := by
  obtain ⟨s, v, o, hh, h1, h2, h3, h4⟩ := h
  have := C125_real real (has_lower hl hb hh) h1 h2 h3 present
  rw [h4] at this
  exact ⟨_, this⟩

theorem str_card {cards : List Str} {a b s : Str} (h : StrCard cards a s) (hl : a.map Char.toLower = b.map Char.toLower) (hb : NoZ b) (present : Bool)
    (old : Str) (ho : old.length = 70) : ∃ c, readCharacter cards.flatten b present old = .ok ⟨s ++ List.replicate (70 - s.length) ' ', true, c, 0⟩ := by
  obtain ⟨k, t, o, hh, h1, h2⟩ := h
  have := C124_string (has_lower hl hb hh) h1 h2 present old (by omega)
  rw [ho] at this
  exact ⟨_, this⟩

theorem str_card_length {cards : List Str} {a s : Str} (h : StrCard cards a s) : s.length ≤ 70 := by
  obtain ⟨k, t, o, hh, -, -⟩ := h
  obtain ⟨pre, c, post, e1, _, _, e4⟩ := hh.first
  have := hh.wf c (by rw [e1]; simp)
  have e5 := congrArg List.length e4
  rw [List.length_drop, this] at e5
  simp only [List.length_append, List.length_cons] at e5
  have := escape_length s
  omega

theorem missing_key {cards : List Str} (hc : Cards cards) (hne : cards ≠ []) {a b : Str} (h : Missing cards a) (hl : a.map Char.toLower = b.map Char.toLower)
    (hb : NoZ b) (hlen : b.length ≤ 71) (mustExist : Bool) :
    getKeyword cards.flatten b mustExist = .ok ⟨List.replicate 70 ' ', false, List.replicate 72 ' ', if mustExist then 202 else 0⟩ :=
  (C123_find_partial b hlen hb cards hc hne mustExist).1 (missing_lower hl h)

theorem opt_card {real : Str → Option ℝ} {cards : List Str} (hc : Cards cards) (hne : cards ≠ []) {a b : Str} {x : Option ℝ} (h : OptCard real cards a x)
    (hl : a.map Char.toLower = b.map Char.toLower) (hb : NoZ b) (hlen : b.length ≤ 71) :
    ∃ c, readReal real cards.flatten b true = .ok ⟨x.getD 0, x.isSome, c, 0⟩ := by
  cases x with
  | none =>
    refine ⟨List.replicate 72 ' ', ?_⟩
    unfold readReal
    rw [Bool.not_true, missing_key hc hne h hl hb hlen]
    simp [bind, Except.bind, pure, Except.pure]
  | some x => exact real_card h hl hb true

theorem unit_card {cards : List Str} (hc : Cards cards) (hne : cards ≠ []) {a b : Str} (h : UnitCard cards a)
    (hl : a.map Char.toLower = b.map Char.toLower) (hb : NoZ b) (hlen : b.length ≤ 71) (old : Str) (ho : old.length = 70) :
    ∃ v f c, readCharacter cards.flatten b true old = .ok ⟨v, f, c, 0⟩ ∧ v.length = 70 := by
  rcases h with h | ⟨s, h⟩
  · refine ⟨old, false, List.replicate 72 ' ', ?_, ho⟩
    unfold readCharacter
    rw [Bool.not_true, missing_key hc hne h hl hb hlen]
    simp [bind, Except.bind, pure, Except.pure]
  · obtain ⟨c, e⟩ := str_card h hl hb true old ho
    refine ⟨_, _, c, e, ?_⟩
    have := str_card_length h
    simp; omega

theorem lower_upper {x : Char} (hx : x ∈ "RAD-TNEC".toList) (c : Char) : upChar c = x ↔ c.toLower = x.toLower := by
  by_cases hz : c = 'Z'
  · subst hz
    revert x
    decide
  · rw [← lowChar_eq hz, lowChar]
    split_ifs with hc
    · obtain ⟨h1, h2⟩ := hc
      rw [← Char.ofNat_toNat c]
      generalize c.toNat = n at *
      clear hz
      revert x
      interval_cases n <;> decide
    · rw [upChar]
      split_ifs with hd
      · obtain ⟨h1, h2⟩ := hd
        rw [← Char.ofNat_toNat c]
        generalize c.toNat = n at *
        clear hz hc
        revert x
        interval_cases n <;> decide
      · constructor
        · rintro rfl
          rw [Char.toLower, dif_neg]
          rintro ⟨g1, g2⟩
          have g3 : ('A'.val.toNat) ≤ c.val.toNat := g1
          have g4 : c.val.toNat ≤ ('Z'.val.toNat) := g2
          have e1 : ('A'.val.toNat) = 65 := rfl
          have e2 : ('Z'.val.toNat) = 90 := rfl
          have e3 : c.val.toNat = c.toNat := rfl
          have : c.toNat ≠ 90 := fun e => hz (by rw [← Char.ofNat_toNat c, e])
          omega
        · intro h
          have h3 : x.toLower = x := by
            have : x.toLower = 'r' ∨ x.toLower = 'a' ∨ x.toLower = 'd' ∨ x.toLower = 't' ∨ x.toLower = 'n' ∨ x.toLower = 'e' ∨ x.toLower = 'c' ∨ x = '-' := by
              clear h; revert x; decide
            rcases this with e | e | e | e | e | e | e | e
            all_goals first
              | (rw [e]; decide)
              | (exfalso; rw [e] at h; subst h; exact hd (by decide))
          rw [h, h3]

theorem map_lower_upper : ∀ (X w : Str), (∀ x ∈ X, x ∈ "RAD-TNEC".toList) → (w.map upChar = X ↔ w.map Char.toLower = X.map Char.toLower)
  | [], w, _ => by simp
  | x :: X, [], _ => by simp
  | x :: X, c :: w, hX => by
    simp only [List.map_cons, List.cons.injEq]
    rw [lower_upper (hX x (by simp)) c, map_lower_upper X w fun y hy => hX y (by simp [hy])]

theorem type_card {X s : Str} (hX : ∀ x ∈ X, x ∈ "RAD-TNEC".toList) (hs : s.length ≤ 70) :
    ∃ t, sub (s ++ List.replicate (70 - s.length) ' ') 1 8 = .ok t ∧ (same (strupcase t) X = true ↔ SameName (s.take 8) X) := by
  have hb : ' ' ∉ X := fun e => absurd (hX _ e) (by decide)
  have hbl : trim X = X := trim_eq_self fun e => hb (List.mem_of_getLast? e)
  refine ⟨s.take 8 ++ List.replicate (8 - s.length) ' ', ?_, ?_⟩
  · rw [sub, if_neg (by omega), if_pos ⟨by omega, by simp; omega⟩]
    simp only [Nat.sub_self, List.drop_zero, Nat.add_sub_cancel, List.take_append, List.take_replicate]
    rw [Nat.min_eq_left (by omega)]
  · rw [sameName_iff, trim_map toLower_blank, trim_map toLower_blank, hbl, same, decide_eq_true_iff, strupcase, trim_map upChar_blank, trim_blanks, hbl,
      map_lower_upper X _ hX]

theorem replicate_length {s : Str} (h : s.length ≤ 70) : (s ++ List.replicate (70 - s.length) ' ').length = 70 := by
  simp; omega

theorem says_ne {real : Str → Option ℝ} {cards : List Str} {nx ny : Int} {p1 p2 v1 v2 : ℝ} {s1 s2 : Str} {c11 c12 c21 c22 d1 d2 r2 : Option ℝ}
    (h : Says real cards nx ny p1 p2 v1 v2 s1 s2 c11 c12 c21 c22 d1 d2 r2) : cards ≠ [] := by
  obtain ⟨_, _, _, _, hh⟩ := h.naxis1
  obtain ⟨pre, c, post, e1, -⟩ := hh.first
  rw [e1]; simp

open Classical in
/-- What is read before the matrix. -/
theorem init_reads {real : Str → Option ℝ} {cards : List Str} {nx ny : Int} {p1 p2 v1 v2 : ℝ} {s1 s2 : Str} {c11 c12 c21 c22 d1 d2 r2 : Option ℝ}
    (h : Says real cards nx ny p1 p2 v1 v2 s1 s2 c11 c12 c21 c22 d1 d2 r2) (buffer : Str) (hb : buffer.length = 70) :
    initAstrometryText real cards.flatten buffer =
      match (if c11.isSome.toNat + c21.isSome.toNat + c12.isSome.toNat + c22.isSome.toNat ≠ 0 ∧
          c11.isSome.toNat + c21.isSome.toNat + c12.isSome.toNat + c22.isSome.toNat ≠ 4 then .error 1
        else if c11.isSome.toNat + c21.isSome.toNat + c12.isSome.toNat + c22.isSome.toNat = 0 then
          (match d1, d2 with | some d1, some d2 => .ok (Wcs.cdOfCrota d1 d2 (r2.getD 0)) | _, _ => .error 1)
        else .ok (c11.getD 0, c12.getD 0, c21.getD 0, c22.getD 0) : Except Nat (ℝ × ℝ × ℝ × ℝ)) with
      | .error status => .ok (.error status)
      | .ok cd => if SameName (s1.take 8) "RA---TAN".toList ∧ SameName (s2.take 8) "DEC--TAN".toList then
          .ok (.ok (Wcs.initProjection nx ny p1 p2 v1 v2 cd)) else .ok (.error 1) := by
  have hne := says_ne h
  obtain ⟨_, e1⟩ := int_card (b := "naxis1".toList) h.naxis1 (by decide) ⟨by decide, by decide⟩ false
  obtain ⟨_, e2⟩ := int_card (b := "naxis2".toList) h.naxis2 (by decide) ⟨by decide, by decide⟩ false
  obtain ⟨_, e3⟩ := real_card (b := "crpix1".toList) h.crpix1 (by decide) ⟨by decide, by decide⟩ false
  obtain ⟨_, e4⟩ := real_card (b := "crpix2".toList) h.crpix2 (by decide) ⟨by decide, by decide⟩ false
  obtain ⟨_, e5⟩ := real_card (b := "crval1".toList) h.crval1 (by decide) ⟨by decide, by decide⟩ false
  obtain ⟨_, e6⟩ := real_card (b := "crval2".toList) h.crval2 (by decide) ⟨by decide, by decide⟩ false
  obtain ⟨_, e7⟩ := opt_card h.wf hne (b := "cd1_1".toList) h.cd11 (by decide) ⟨by decide, by decide⟩ (by decide)
  obtain ⟨_, e8⟩ := opt_card h.wf hne (b := "cd2_1".toList) h.cd21 (by decide) ⟨by decide, by decide⟩ (by decide)
  obtain ⟨_, e9⟩ := opt_card h.wf hne (b := "cd1_2".toList) h.cd12 (by decide) ⟨by decide, by decide⟩ (by decide)
  obtain ⟨_, e10⟩ := opt_card h.wf hne (b := "cd2_2".toList) h.cd22 (by decide) ⟨by decide, by decide⟩ (by decide)
  obtain ⟨_, e15⟩ := opt_card h.wf hne (b := "cdelt1".toList) h.cdelt1 (by decide) ⟨by decide, by decide⟩ (by decide)
  obtain ⟨_, e16⟩ := opt_card h.wf hne (b := "cdelt2".toList) h.cdelt2 (by decide) ⟨by decide, by decide⟩ (by decide)
  obtain ⟨_, e17⟩ := opt_card h.wf hne (b := "crota2".toList) h.crota2 (by decide) ⟨by decide, by decide⟩ (by decide)
  have l1 := str_card_length h.ctype1
  have l2 := str_card_length h.ctype2
  obtain ⟨_, e11⟩ := str_card (b := "ctype1".toList) h.ctype1 (by decide) ⟨by decide, by decide⟩ false buffer hb
  obtain ⟨_, e12⟩ := str_card (b := "ctype2".toList) h.ctype2 (by decide) ⟨by decide, by decide⟩ false _ (replicate_length l1)
  obtain ⟨t1, ht1, ht1'⟩ := type_card (X := "RA---TAN".toList) (by decide) l1
  obtain ⟨t2, ht2, ht2'⟩ := type_card (X := "DEC--TAN".toList) (by decide) l2
  obtain ⟨u1, _, _, e13, lu⟩ := unit_card h.wf hne (b := "cunit1".toList) h.cunit1 (by decide) ⟨by decide, by decide⟩ (by decide) _ (replicate_length l2)
  obtain ⟨u2, _, _, e14, -⟩ := unit_card h.wf hne (b := "cunit2".toList) h.cunit2 (by decide) ⟨by decide, by decide⟩ (by decide) u1 lu
  have hp : ∀ cd, project nx ny p1 p2 v1 v2 cd (strupcase t1) (strupcase t2) = if SameName (s1.take 8) "RA---TAN".toList ∧ SameName (s2.take 8) "DEC--TAN".toList then
          .ok (.ok (Wcs.initProjection nx ny p1 p2 v1 v2 cd)) else .ok (.error 1) := by
    intro cd
    unfold project
    simp only [Bool.and_eq_true, ht1', ht2']
  unfold initAstrometryText
  rw [e1, orStop_ok rfl, e2, orStop_ok rfl, e3, orStop_ok rfl, e4, orStop_ok rfl, e5, orStop_ok rfl, e6, orStop_ok rfl, e7, orStop_ok rfl, e8, orStop_ok rfl,
    e9, orStop_ok rfl, e10, orStop_ok rfl, e11, orStop_ok rfl]
  simp only [bind, Except.bind]
  rw [ht1]
  dsimp only
  rw [e12, orStop_ok rfl, ht2]
  dsimp only
  simp only [hp]
  unfold readMatrix
  rw [e13, orStop_ok rfl, e14, orStop_ok rfl]
  dsimp only
  by_cases g1 : c11.isSome.toNat + c21.isSome.toNat + c12.isSome.toNat + c22.isSome.toNat ≠ 0 ∧ c11.isSome.toNat + c21.isSome.toNat + c12.isSome.toNat + c22.isSome.toNat ≠ 4
  · rw [if_pos g1, if_pos g1]; rfl
  rw [if_neg g1, if_neg g1]
  by_cases g2 : c11.isSome.toNat + c21.isSome.toNat + c12.isSome.toNat + c22.isSome.toNat = 0
  · rw [if_pos g2, if_pos g2]
    unfold readCrota
    rw [e15, orStop_ok rfl]
    cases d1 with
    | none => rfl
    | some d1 =>
      dsimp only
      rw [if_neg (by simp), e16, orStop_ok rfl]
      cases d2 with
      | none => rfl
      | some d2 =>
        dsimp only
        rw [if_neg (by simp), e17, orStop_ok rfl]
        cases r2 <;> rfl
  · rw [if_neg g2, if_neg g2]

theorem sameName_take {s X : Str} (h8 : X.length = 8) (hX : X.getLast? ≠ some ' ') (h : SameName s X) : SameName (s.take 8) X := by
  rw [sameName_iff, trim_map toLower_blank, trim_map toLower_blank, trim_eq_self hX] at h ⊢
  have hlen : (trim s).length = 8 := by have := congrArg List.length h; simpa [h8] using this
  have e : s.take 8 = trim s := by
    conv_lhs => rw [trim_spec s]
    rw [← hlen, List.take_left]
  rw [e]
  have : trim (trim s) = trim s := by
    conv_rhs => rw [trim_spec s]
    rw [trim_blanks]
  rw [this, h]

/-- What an astrometry has to be: its size, the direction of its reference, and the pixel (x, y), counted from zero, of the plane coordinates (xsi, eta). -/
structure IsAstrometry (m : Wcs.Astrometry) (nx ny : Int) (p1 p2 v1 v2 c11 c12 c21 c22 : ℝ) : Prop where
  nx : m.nx = nx
  ny : m.ny = ny
  longitude : m.lambda0 = v1 * Real.pi / 180
  cosine : m.cosphi1 = Real.cos (v2 * Real.pi / 180)
  sine : m.sinphi1 = Real.sin (v2 * Real.pi / 180)
  pixel : ∀ xsi eta x y : ℝ, m.rotate xsi eta = (x, y) ↔
    c11 * (x - (p1 - 1)) + c12 * (y - (p2 - 1)) = xsi ∧ c21 * (x - (p1 - 1)) + c22 * (y - (p2 - 1)) = eta

theorem isAstrometry {nx ny : Int} {p1 p2 v1 v2 c11 c12 c21 c22 : ℝ} (hdet : c11 * c22 - c12 * c21 ≠ 0) :
    IsAstrometry (Wcs.initProjection nx ny p1 p2 v1 v2 (c11, c12, c21, c22)) nx ny p1 p2 v1 v2 c11 c12 c21 c22 where
  nx := rfl
  ny := rfl
  longitude := by dsimp only [Wcs.initProjection, Wcs.deg2rad]; ring
  cosine := by dsimp only [Wcs.initProjection, Wcs.deg2rad]; ring_nf
  sine := by dsimp only [Wcs.initProjection, Wcs.deg2rad]; ring_nf
  pixel := by
    intro xsi eta x y
    dsimp only [Wcs.initProjection, Wcs.Astrometry.rotate]
    have hdet' : c11 * c22 - c21 * c12 ≠ 0 := by rwa [mul_comm c21]
    obtain ⟨D, hD⟩ : ∃ D, D = c11 * c22 - c21 * c12 := ⟨_, rfl⟩
    rw [← hD] at hdet' ⊢
    rw [Prod.mk.injEq]
    constructor
    · rintro ⟨rfl, rfl⟩
      constructor <;> field_simp <;> rw [hD] <;> ring
    · rintro ⟨rfl, rfl⟩
      constructor <;> field_simp <;> rw [hD] <;> ring

/-- C128: the astrometry of a header that has a matrix, whatever the order of its cards, their comments, the case of the types and what the other
cards hold.  The units of the axes are ignored (`C128_violation_unit`) and so is what follows the eighth character of the types (`C128_violation_type`). -/
theorem C128_matrix_partial {real : Str → Option ℝ} {cards : List Str} {nx ny : Int} {p1 p2 v1 v2 c11 c12 c21 c22 : ℝ} {s1 s2 : Str} {d1 d2 r2 : Option ℝ}
    (h : Says real cards nx ny p1 p2 v1 v2 s1 s2 (some c11) (some c12) (some c21) (some c22) d1 d2 r2)
    (h1 : SameName s1 "RA---TAN".toList) (h2 : SameName s2 "DEC--TAN".toList) (hdet : c11 * c22 - c12 * c21 ≠ 0) (buffer : Str) (hb : buffer.length = 70) :
    ∃ m, initAstrometryText real cards.flatten buffer = .ok (.ok m) ∧ IsAstrometry m nx ny p1 p2 v1 v2 c11 c12 c21 c22 := by
  refine ⟨_, ?_, isAstrometry hdet⟩
  rw [init_reads h buffer hb]
  simp only [Option.isSome_some, Bool.toNat_true, Option.getD_some]
  norm_num
  exact fun hn => absurd (sameName_take (by decide) (by decide) h2) (hn (sameName_take (by decide) (by decide) h1))

/-- C128: the astrometry of a header that has scales and an angle instead of a matrix. -/
theorem C128_scales_partial {real : Str → Option ℝ} {cards : List Str} {nx ny : Int} {p1 p2 v1 v2 d1 d2 : ℝ} {s1 s2 : Str} {r2 : Option ℝ}
    (h : Says real cards nx ny p1 p2 v1 v2 s1 s2 none none none none (some d1) (some d2) r2)
    (h1 : SameName s1 "RA---TAN".toList) (h2 : SameName s2 "DEC--TAN".toList) (hd1 : d1 ≠ 0) (hd2 : d2 ≠ 0) (buffer : Str) (hb : buffer.length = 70) :
    ∃ m, initAstrometryText real cards.flatten buffer = .ok (.ok m) ∧
      let r := r2.getD 0 * Real.pi / 180
      IsAstrometry m nx ny p1 p2 v1 v2 (Real.cos r * d1) (Real.sin r * d2) (-Real.sin r * d1) (Real.cos r * d2) := by
  have hdet : Real.cos (r2.getD 0 * Real.pi / 180) * d1 * (Real.cos (r2.getD 0 * Real.pi / 180) * d2) -
      Real.sin (r2.getD 0 * Real.pi / 180) * d2 * (-Real.sin (r2.getD 0 * Real.pi / 180) * d1) ≠ 0 := by
    have e := Real.cos_sq_add_sin_sq (r2.getD 0 * Real.pi / 180)
    have : Real.cos (r2.getD 0 * Real.pi / 180) * d1 * (Real.cos (r2.getD 0 * Real.pi / 180) * d2) -
      Real.sin (r2.getD 0 * Real.pi / 180) * d2 * (-Real.sin (r2.getD 0 * Real.pi / 180) * d1) = d1 * d2 := by linear_combination d1 * d2 * e
    rw [this]; exact mul_ne_zero hd1 hd2
  refine ⟨_, ?_, isAstrometry hdet⟩
  rw [init_reads h buffer hb]
  have er : Wcs.deg2rad (r2.getD 0) = r2.getD 0 * Real.pi / 180 := by unfold Wcs.deg2rad; ring
  simp only [Option.isSome_none, Bool.toNat_false, Wcs.cdOfCrota, er]
  norm_num
  exact fun hn => absurd (sameName_take (by decide) (by decide) h2) (hn (sameName_take (by decide) (by decide) h1))

/-- C128: the program stops if the matrix is not complete, if there is neither a matrix nor scales, or if the types are not those of the gnomonic projection. -/
theorem C128_refused {real : Str → Option ℝ} {cards : List Str} {nx ny : Int} {p1 p2 v1 v2 : ℝ} {s1 s2 : Str} {c11 c12 c21 c22 d1 d2 r2 : Option ℝ}
    (h : Says real cards nx ny p1 p2 v1 v2 s1 s2 c11 c12 c21 c22 d1 d2 r2) (buffer : Str) (hb : buffer.length = 70)
    (hr : (none ∈ [c11, c12, c21, c22] ∧ ∃ x, some x ∈ [c11, c12, c21, c22]) ∨ (none ∈ [c11, c12, c21, c22] ∧ none ∈ [d1, d2]) ∨
      ¬SameName (s1.take 8) "RA---TAN".toList ∨ ¬SameName (s2.take 8) "DEC--TAN".toList) :
    initAstrometryText real cards.flatten buffer = .ok (.error 1) := by
  classical
  rw [init_reads h buffer hb]
  rcases hr with ⟨ha, x, hx⟩ | ⟨ha, hd⟩ | ht | ht
  · cases c11 <;> cases c12 <;> cases c21 <;> cases c22 <;> simp_all
  · rcases d1 with _ | d1 <;> rcases d2 with _ | d2 <;> cases c11 <;> cases c12 <;> cases c21 <;> cases c22 <;> simp_all
  · split
    · rename_i st hst
      revert hst
      split_ifs
      · intro e; cases e; rfl
      · intro e; split at e <;> cases e; rfl
      · intro e; cases e
    · rw [if_neg fun hn => ht hn.1]
  · split
    · rename_i st hst
      revert hst
      split_ifs
      · intro e; cases e; rfl
      · intro e; split at e <;> cases e; rfl
      · intro e; cases e
    · rw [if_neg fun hn => ht hn.2]

/-! ### Keywords that are missing -/

theorem orStop_total {α β : Type} {r : Res (Read α)} {k : Read α → Res (Except Nat β)} (hr : ∃ v, r = .ok v) (hk : ∀ v, r = .ok v → ∃ y, k v = .ok y) :
    ∃ y, orStop r k = .ok y := by
  obtain ⟨v, hv⟩ := hr
  unfold orStop
  rw [hv]
  simp only [bind, Except.bind]
  split_ifs
  · exact ⟨_, rfl⟩
  · exact hk v hv

theorem orStop_fails {α β : Type} {r : Res (Read α)} {k : Read α → Res (Except Nat β)} (hr : ∃ v, r = .ok v)
    (hk : ∀ v, r = .ok v → ∃ s, s ≠ 0 ∧ k v = .ok (.error s)) : ∃ s, s ≠ 0 ∧ orStop r k = .ok (.error s) := by
  obtain ⟨v, hv⟩ := hr
  unfold orStop
  rw [hv]
  simp only [bind, Except.bind]
  split_ifs with h
  · exact ⟨_, h, rfl⟩
  · exact hk v hv

theorem int_missing {cards : List Str} (hc : Cards cards) (hne : cards ≠ []) {a b : Str} (h : Missing cards a) (hl : a.map Char.toLower = b.map Char.toLower)
    (hb : NoZ b) (hlen : b.length ≤ 71) {β : Type} (k : Read Int → Res (Except Nat β)) :
    ∃ s, s ≠ 0 ∧ orStop (readInt 32 cards.flatten b false) k = .ok (.error s) := by
  refine ⟨202, by decide, ?_⟩
  unfold orStop readInt
  rw [Bool.not_false, missing_key hc hne h hl hb hlen]
  simp [bind, Except.bind, pure, Except.pure]

theorem real_missing (real : Str → Option ℝ) {cards : List Str} (hc : Cards cards) (hne : cards ≠ []) {a b : Str} (h : Missing cards a)
    (hl : a.map Char.toLower = b.map Char.toLower) (hb : NoZ b) (hlen : b.length ≤ 71) {β : Type} (k : Read ℝ → Res (Except Nat β)) :
    ∃ s, s ≠ 0 ∧ orStop (readReal real cards.flatten b false) k = .ok (.error s) := by
  refine ⟨202, by decide, ?_⟩
  unfold orStop readReal
  rw [Bool.not_false, missing_key hc hne h hl hb hlen]
  simp [bind, Except.bind, pure, Except.pure]

theorem str_missing {cards : List Str} (hc : Cards cards) (hne : cards ≠ []) {a b : Str} (h : Missing cards a)
    (hl : a.map Char.toLower = b.map Char.toLower) (hb : NoZ b) (hlen : b.length ≤ 71) (old : Str) {β : Type} (k : Read Str → Res (Except Nat β)) :
    ∃ s, s ≠ 0 ∧ orStop (readCharacter cards.flatten b false old) k = .ok (.error s) := by
  refine ⟨202, by decide, ?_⟩
  unfold orStop readCharacter
  rw [Bool.not_false, missing_key hc hne h hl hb hlen]
  simp [bind, Except.bind, pure, Except.pure]

/-- C128: the program stops if one of the keywords that are not optional is missing, whatever the other cards. -/
theorem C128_missing (real : Str → Option ℝ) {cards : List Str} (hc : Cards cards) (hne : cards ≠ []) {keyword : String}
    (hk : keyword ∈ ["NAXIS1", "NAXIS2", "CRPIX1", "CRPIX2", "CRVAL1", "CRVAL2", "CTYPE1", "CTYPE2"]) (h : Missing cards keyword.toList)
    (buffer : Str) (hb : buffer.length = 70) : ∃ s, s ≠ 0 ∧ initAstrometryText real cards.flatten buffer = .ok (.error s) := by
  have ti : ∀ k p, ∃ v, readInt 32 cards.flatten k p = .ok v := fun k p => (C123_bounds_partial real 32 hc hne k p buffer (by omega)).2.1
  have tr : ∀ k p, ∃ v, readReal real cards.flatten k p = .ok v := fun k p => (C123_bounds_partial real 32 hc hne k p buffer (by omega)).2.2.1
  have tc : ∀ k p, ∃ v, readCharacter cards.flatten k p buffer = .ok v := fun k p => by
    obtain ⟨v, hv, -⟩ := (C123_bounds_partial real 32 hc hne k p buffer (by omega)).2.2.2
    exact ⟨v, hv⟩
  unfold initAstrometryText
  simp only [List.mem_cons, List.not_mem_nil, or_false] at hk
  rcases hk with rfl | rfl | rfl | rfl | rfl | rfl | rfl | rfl
  · exact int_missing hc hne h (by decide) ⟨by decide, by decide⟩ (by decide) _
  · refine orStop_fails (ti _ _) fun _ _ => ?_
    exact int_missing hc hne h (by decide) ⟨by decide, by decide⟩ (by decide) _
  · iterate 2 refine orStop_fails (ti _ _) fun _ _ => ?_
    exact real_missing real hc hne h (by decide) ⟨by decide, by decide⟩ (by decide) _
  · iterate 2 refine orStop_fails (ti _ _) fun _ _ => ?_
    iterate 1 refine orStop_fails (tr _ _) fun _ _ => ?_
    exact real_missing real hc hne h (by decide) ⟨by decide, by decide⟩ (by decide) _
  · iterate 2 refine orStop_fails (ti _ _) fun _ _ => ?_
    iterate 2 refine orStop_fails (tr _ _) fun _ _ => ?_
    exact real_missing real hc hne h (by decide) ⟨by decide, by decide⟩ (by decide) _
  · iterate 2 refine orStop_fails (ti _ _) fun _ _ => ?_
    iterate 3 refine orStop_fails (tr _ _) fun _ _ => ?_
    exact real_missing real hc hne h (by decide) ⟨by decide, by decide⟩ (by decide) _
  · iterate 2 refine orStop_fails (ti _ _) fun _ _ => ?_
    iterate 8 refine orStop_fails (tr _ _) fun _ _ => ?_
    exact str_missing hc hne h (by decide) ⟨by decide, by decide⟩ (by decide) _ _
  · iterate 2 refine orStop_fails (ti _ _) fun _ _ => ?_
    iterate 8 refine orStop_fails (tr _ _) fun _ _ => ?_
    refine orStop_fails (tc _ _) fun b1 hb1 => ?_
    obtain ⟨v, hv, hl⟩ := (C123_bounds_partial real 32 hc hne "ctype1".toList false buffer (by omega)).2.2.2
    rw [hv, Except.ok.injEq] at hb1
    subst hb1
    obtain ⟨t, ht, -⟩ := sub_ok (s := v.value) (i := 1) (j := 8) (by omega)
    simp only [bind, Except.bind]
    rw [ht]
    exact str_missing hc hne h (by decide) ⟨by decide, by decide⟩ (by decide) _ _

/-- C128: whatever the cards of a header that is not empty, the program does not read or write out of bounds: it returns an error or an astrometry. -/
theorem C128_bounds (real : Str → Option ℝ) {cards : List Str} (hc : Cards cards) (hne : cards ≠ []) (buffer : Str) (hb : buffer.length = 70) :
    ∃ y, initAstrometryText real cards.flatten buffer = .ok y := by
  have ti : ∀ k p, ∃ v, readInt 32 cards.flatten k p = .ok v := fun k p => (C123_bounds_partial real 32 hc hne k p buffer (by omega)).2.1
  have tr : ∀ k p, ∃ v, readReal real cards.flatten k p = .ok v := fun k p => (C123_bounds_partial real 32 hc hne k p buffer (by omega)).2.2.1
  have tc : ∀ (old : Str), old.length = 70 → ∀ k p, ∃ v, readCharacter cards.flatten k p old = .ok v ∧ v.value.length = 70 := fun old ho k p => by
    obtain ⟨v, hv, hl⟩ := (C123_bounds_partial real 32 hc hne k p old (by omega)).2.2.2
    exact ⟨v, hv, by omega⟩
  unfold initAstrometryText
  iterate 2 refine orStop_total (ti _ _) fun _ _ => ?_
  iterate 8 refine orStop_total (tr _ _) fun _ _ => ?_
  obtain ⟨b1, h1, l1⟩ := tc buffer hb "ctype1".toList false
  refine orStop_total ⟨b1, h1⟩ fun v hv => ?_
  rw [h1] at hv
  cases hv
  obtain ⟨t1, ht1, -⟩ := sub_ok (s := b1.value) (i := 1) (j := 8) (by omega)
  simp only [bind, Except.bind]
  rw [ht1]
  obtain ⟨b2, h2, l2⟩ := tc b1.value l1 "ctype2".toList false
  refine orStop_total ⟨b2, h2⟩ fun v hv => ?_
  rw [h2] at hv
  cases hv
  obtain ⟨t2, ht2, -⟩ := sub_ok (s := b2.value) (i := 1) (j := 8) (by omega)
  rw [ht2]
  dsimp only
  have hm : ∀ (c11 c21 c12 c22 : Read ℝ), ∃ y, readMatrix real cards.flatten b2.value c11 c21 c12 c22 = .ok y := by
    intro c11 c21 c12 c22
    unfold readMatrix
    obtain ⟨u1, g1, lu⟩ := tc b2.value l2 "cunit1".toList true
    refine orStop_total ⟨u1, g1⟩ fun v hv => ?_
    rw [g1] at hv
    cases hv
    obtain ⟨u2, g2, -⟩ := tc u1.value lu "cunit2".toList true
    refine orStop_total ⟨u2, g2⟩ fun v hv => ?_
    dsimp only
    split_ifs
    · exact ⟨_, rfl⟩
    · unfold readCrota
      refine orStop_total (tr _ _) fun _ _ => ?_
      split_ifs
      · exact ⟨_, rfl⟩
      refine orStop_total (tr _ _) fun _ _ => ?_
      split_ifs
      · exact ⟨_, rfl⟩
      exact orStop_total (tr _ _) fun _ _ => ⟨_, rfl⟩
    · exact ⟨_, rfl⟩
  rename_i c11 _ c21 _ c12 _ c22 _
  obtain ⟨y, hy⟩ := hm c11 c21 c12 c22
  rw [hy]
  cases y with
  | error s => exact ⟨_, rfl⟩
  | ok cd =>
    dsimp only
    unfold project
    split_ifs <;> exact ⟨_, rfl⟩
