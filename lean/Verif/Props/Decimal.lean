import Verif.SpecDecimal
import Verif.Lemmas.Pack
import Verif.Lemmas.Num

/-!
# C47: what numbers in a file are read as
-/

namespace Docx

set_option linter.unusedSectionVars false

variable [GoEnv]

theorem digits_val {ds : List Char} {n : Nat} (h : Digits ds n) : parseDigits? ds = some n := by
  obtain ⟨h1, h2, h3⟩ := h
  have : digitsVal? 0 ds = some n := (digitsVal_iff ds 0 n).2 ⟨h2, h3⟩
  cases ds with
  | nil => exact absurd rfl h1
  | cons c cs => exact this

theorem digits_head {ds : List Char} {n : Nat} (h : Digits ds n) :
    ∃ c cs, ds = c :: cs ∧ c ≠ '-' ∧ c ≠ '+' ∧ c ≠ '\n' ∧ isFmtSpace c = false := by
  obtain ⟨h1, h2, _⟩ := h
  cases ds with
  | nil => exact absurd rfl h1
  | cons c cs =>
    have h := h2 c (by simp)
    have h3 : 48 ≤ c.toNat ∧ c.toNat ≤ 57 := ⟨h.1, h.2⟩
    refine ⟨c, cs, rfl, ?_, ?_, ?_, ?_⟩
    · rintro rfl; revert h3; decide
    · rintro rfl; revert h3; decide
    · rintro rfl; revert h3; decide
    · simp only [isFmtSpace, Bool.or_eq_false_iff, Bool.and_eq_false_iff, decide_eq_false_iff_not, beq_eq_false_iff_ne]
      omega

theorem atoi_decimal {s : String} {i : Int} (h : Decimal s.toList i) :
    atoi? s = if -(2 ^ 63) ≤ i ∧ i < 2 ^ 63 then some (Int64.ofInt i) else none := by
  obtain ⟨ds, n, hd, h⟩ := h
  have hv := digits_val hd
  unfold atoi?
  rcases h with ⟨h, rfl⟩ | ⟨h, rfl⟩ | ⟨h, rfl⟩
  · rw [h]
    obtain ⟨c, cs, rfl, h1, h2, _⟩ := digits_head hd
    split
    · rename_i h; exact absurd (List.cons.inj h).1 h1
    · rename_i h; exact absurd (List.cons.inj h).1 h2
    · simp [hv, inRange]
  · rw [h]; simp [hv, inRange]
  · rw [h]; simp [hv, inRange]

theorem takeDigits_stop {ds : List Char} (h : ∀ c ∈ ds, '0' ≤ c ∧ c ≤ '9') (rest : List Char)
    (hr : ∀ c r, rest = c :: r → ¬ ('0' ≤ c ∧ c ≤ '9')) : takeDigits (ds ++ rest) = ds := by
  have hd : ∀ c, (digitVal? c).isSome = true ↔ ('0' ≤ c ∧ c ≤ '9') := by
    intro c
    constructor
    · intro h
      obtain ⟨d, h⟩ := Option.isSome_iff_exists.1 h
      exact ((digitVal_iff c d).1 h).1
    · intro h; rw [(digitVal_iff c _).2 ⟨h, rfl⟩]; rfl
  induction ds with
  | nil =>
    cases rest with
    | nil => rfl
    | cons c r =>
      rw [List.nil_append, takeDigits, if_neg]
      rw [hd]; exact hr c r rfl
  | cons c cs ih =>
    rw [List.cons_append, takeDigits, if_pos ((hd c).2 (h c (by simp))), ih (fun c hc => h c (by simp [hc]))]

/-- `fmt.Sscanf` reads the number at the beginning. -/
theorem sscan_decimal {cs rest : List Char} {i : Int} (h : Decimal cs i)
    (hr : ∀ c r, rest = c :: r → ¬ ('0' ≤ c ∧ c ≤ '9')) :
    sscanD (cs ++ rest) = if -(2 ^ 63) ≤ i ∧ i < 2 ^ 63 then .ok (Int64.ofInt i) else .error .strconv := by
  obtain ⟨ds, n, hd, h⟩ := h
  have hv := digits_val hd
  have ht := takeDigits_stop hd.2.1 rest hr
  obtain ⟨c, l, rfl, h1, h2, h3, h4⟩ := digits_head hd
  rcases h with ⟨rfl, rfl⟩ | ⟨rfl, rfl⟩ | ⟨rfl, rfl⟩
  · rw [List.cons_append, sscanD, if_neg h3, h4]
    simp only [Bool.false_eq_true, if_false, if_neg h1, if_neg h2, sscanNum]
    rw [List.cons_append] at ht
    rw [ht, hv]
    simp [inRange]
  · rw [List.cons_append, sscanD, if_neg (by decide), if_neg (by decide), if_neg (by decide), if_pos rfl,
      List.cons_append, sscanNum.eq_def]
    rw [List.cons_append] at ht
    simp only [ht, hv]
    simp [inRange]
  · rw [List.cons_append, sscanD, if_neg (by decide), if_neg (by decide), if_pos rfl,
      List.cons_append, sscanNum.eq_def]
    rw [List.cons_append] at ht
    simp only [ht, hv]
    simp [inRange]

/-- **C47, what is read.** An integer in the file that fits into 64 bits is read as its value, also with
a sign or with leading zeros. -/
theorem C47_read (s : String) (i : Int) (h : Decimal s.toList i) (h1 : -(2 ^ 63) ≤ i) (h2 : i < 2 ^ 63) :
    (getInt s).1.toInt = i ∧ (getInt s).2 = none := by
  have : getInt s = (Int64.ofInt i, none) := by
    unfold getInt
    rw [atoi_decimal h, if_pos ⟨h1, h2⟩]
  rw [this]
  exact ⟨Int64.toInt_ofInt_of_le h1 h2, rfl⟩

/-- **C47, numbers that do not fit.** An integer that does not fit into 64 bits is never read modulo
2^64: it is read as a floating-point number, and if that fails it is an error. -/
theorem C47_too_large (s : String) (i : Int) (h : Decimal s.toList i) (h1 : i < -(2 ^ 63) ∨ 2 ^ 63 ≤ i) :
    (∃ v, GoEnv.parseFloat s = some v ∧ getInt s = (v, none)) ∨ (GoEnv.parseFloat s = none ∧ (getInt s).2 ≠ none) := by
  have ha : atoi? s = none := by rw [atoi_decimal h, if_neg (by omega)]
  unfold getInt
  rw [ha]
  cases hf : GoEnv.parseFloat s with
  | some v => exact .inl ⟨v, rfl, rfl⟩
  | none =>
    have := sscan_decimal (rest := []) h (by intro c r hc; cases hc)
    rw [List.append_nil, if_neg (by omega)] at this
    rw [this]
    exact .inr ⟨rfl, by simp⟩

/-- **C47, numbers with a unit.** A number with something else after it, such as `12pt`, is read as the
number, if it is not a floating-point number as a whole. -/
theorem C47_unit (s : String) (cs : List Char) (i : Int) (c : Char) (rest : List Char) (hs : s.toList = cs ++ c :: rest)
    (hd : Decimal cs i) (hc : ¬ ('0' ≤ c ∧ c ≤ '9')) (hf : GoEnv.parseFloat s = none) (h1 : -(2 ^ 63) ≤ i)
    (h2 : i < 2 ^ 63) : (getInt s).1.toInt = i ∧ (getInt s).2 = none := by
  have hsc := sscan_decimal (rest := c :: rest) hd (by intro c' r h; cases h; exact hc)
  rw [if_pos ⟨h1, h2⟩, ← hs] at hsc
  have hbad : ∀ ds : List Char, parseDigits? (ds ++ c :: rest) = none := by
    intro ds
    have : digitsVal? 0 (ds ++ c :: rest) = none := by
      cases e : digitsVal? 0 (ds ++ c :: rest) with
      | none => rfl
      | some n => exact absurd (((digitsVal_iff _ _ _).1 e).1 c (by simp)) hc
    unfold parseDigits?
    split
    · rfl
    · exact this
  have ha : atoi? s = none := by
    obtain ⟨ds, n, hd, h⟩ := hd
    obtain ⟨d, l, rfl, k1, k2, _⟩ := digits_head hd
    unfold atoi?
    rcases h with ⟨rfl, rfl⟩ | ⟨rfl, rfl⟩ | ⟨rfl, rfl⟩
    · rw [hs]
      have := hbad (d :: l)
      rw [List.cons_append] at this ⊢
      split
      · rename_i h; exact absurd (List.cons.inj h).1 k1
      · rename_i h; exact absurd (List.cons.inj h).1 k2
      · simp [this]
    · rw [hs]; have := hbad (d :: l); rw [List.cons_append] at this; simp [this]
    · rw [hs]; have := hbad (d :: l); rw [List.cons_append] at this; simp [this]
  have : getInt s = (Int64.ofInt i, none) := by
    unfold getInt
    rw [ha, hf]
    simp [hsc]
  rw [this]
  exact ⟨Int64.toInt_ofInt_of_le h1 h2, rfl⟩

theorem gap_space {c : Char} (h : c.toNat ∈ gaps) :
    isFmtSpace c = true ∧ c ≠ '\n' ∧ c ≠ '-' ∧ c ≠ '+' ∧ ¬ ('0' ≤ c ∧ c ≤ '9') := by
  have h1 : isFmtSpace c = true := by
    unfold isFmtSpace
    have : ∀ n ∈ gaps, ((9 ≤ n && n ≤ 13) || n == 32 || n == 0x85 || n == 0xa0 || n == 0x1680 ||
      (0x2000 ≤ n && n ≤ 0x200a) || n == 0x2028 || n == 0x2029 || n == 0x202f || n == 0x205f || n == 0x3000) = true := by
      decide
    exact this _ h
  have ne : ∀ d : Char, d.toNat ∉ gaps → c ≠ d := fun d hd e => hd (e ▸ h)
  refine ⟨h1, ne _ (by decide), ne _ (by decide), ne _ (by decide), fun hd => ?_⟩
  have k1 : 48 ≤ c.toNat := hd.1
  have k2 : c.toNat ≤ 57 := hd.2
  have : ∀ n ∈ gaps, ¬ (48 ≤ n ∧ n ≤ 57) := by decide
  exact this _ h ⟨k1, k2⟩

/-- A gap is skipped, and only a gap. -/
theorem space_gap {c : Char} (h : isFmtSpace c = true) (hn : c ≠ '\n') : c.toNat ∈ gaps := by
  unfold isFmtSpace at h
  have h10 : c.toNat ≠ 10 := fun e => hn (by
    have := Char.ofNat_toNat c
    rw [e] at this
    exact this.symm)
  generalize c.toNat = n at h h10
  simp only [Bool.or_eq_true, Bool.and_eq_true, decide_eq_true_eq, beq_iff_eq] at h
  simp only [gaps, List.mem_cons, List.not_mem_nil, or_false]
  omega

theorem sscan_gaps : ∀ (bl cs : List Char), (∀ c ∈ bl, c.toNat ∈ gaps) → sscanD (bl ++ cs) = sscanD cs
  | [], _, _ => rfl
  | c :: bl, cs, h => by
    obtain ⟨h1, h2, _⟩ := gap_space (h c (by simp))
    rw [List.cons_append, sscanD, if_neg h2, if_pos h1, sscan_gaps bl cs fun c hc => h c (by simp [hc])]

theorem parseDigits_bad {cs : List Char} {c : Char} (hc : c ∈ cs) (hd : ¬ ('0' ≤ c ∧ c ≤ '9')) : parseDigits? cs = none := by
  have : digitsVal? 0 cs = none := by
    cases e : digitsVal? 0 cs with
    | none => rfl
    | some n => exact absurd (((digitsVal_iff _ _ _).1 e).1 c hc) hd
  unfold parseDigits?
  split
  · rfl
  · exact this

/-- A string that begins with something that is neither digit nor sign is no integer. -/
theorem atoi_bad {s : String} {c : Char} {cs : List Char} (hs : s.toList = c :: cs) (h1 : c ≠ '-') (h2 : c ≠ '+')
    (hd : ¬ ('0' ≤ c ∧ c ≤ '9')) : atoi? s = none := by
  unfold atoi?
  rw [hs]
  have := parseDigits_bad (cs := c :: cs) (by simp) hd
  split
  · rename_i h; exact absurd (List.cons.inj h).1 h1
  · rename_i h; exact absurd (List.cons.inj h).1 h2
  · simp [this]

/-- **C47, blanks.** A number after blanks is read as the number, whatever comes after it, if the string is not a
floating-point number as a whole. -/
theorem C47_blanks (s : String) (bl cs rest : List Char) (i : Int) (hs : s.toList = bl ++ cs ++ rest) (hbl : bl ≠ [])
    (hb : ∀ c ∈ bl, c.toNat ∈ gaps) (hd : Decimal cs i) (hr : ∀ c r, rest = c :: r → ¬ ('0' ≤ c ∧ c ≤ '9'))
    (hf : GoEnv.parseFloat s = none) (h1 : -(2 ^ 63) ≤ i) (h2 : i < 2 ^ 63) :
    (getInt s).1.toInt = i ∧ (getInt s).2 = none := by
  have hsc := sscan_decimal (rest := rest) hd hr
  rw [if_pos ⟨h1, h2⟩, ← sscan_gaps bl _ hb, ← List.append_assoc, ← hs] at hsc
  have ha : atoi? s = none := by
    cases bl with
    | nil => exact absurd rfl hbl
    | cons c bl =>
      obtain ⟨_, _, k3, k4, k5⟩ := gap_space (hb c (by simp))
      exact atoi_bad (by rw [hs, List.cons_append, List.cons_append]) k3 k4 k5
  have : getInt s = (Int64.ofInt i, none) := by
    unfold getInt
    rw [ha, hf]
    simp [hsc]
  rw [this]
  exact ⟨Int64.toInt_ofInt_of_le h1 h2, rfl⟩

/-- **C47, no number.** A string in which the first character after blanks is not a digit or a sign is reported,
if it is not a floating-point number; so is an empty one and one with a line feed before the number. -/
theorem C47_no_number (s : String) (bl rest : List Char) (hs : s.toList = bl ++ rest) (hb : ∀ c ∈ bl, c.toNat ∈ gaps)
    (hr : ∀ c r, rest = c :: r → c.toNat ∉ gaps ∧ c ≠ '-' ∧ c ≠ '+' ∧ ¬ ('0' ≤ c ∧ c ≤ '9'))
    (hf : GoEnv.parseFloat s = none) : (getInt s).2 ≠ none := by
  have hsc : ∃ e, sscanD s.toList = .error e := by
    rw [hs, sscan_gaps bl _ hb]
    cases rest with
    | nil => exact ⟨_, rfl⟩
    | cons c r =>
      obtain ⟨k1, k2, k3, k4⟩ := hr c r rfl
      rw [sscanD]
      by_cases hn : c = '\n'
      · exact ⟨_, by rw [if_pos hn]⟩
      · have : isFmtSpace c = false := by
          cases hsp : isFmtSpace c with
          | false => rfl
          | true => exact absurd (space_gap hsp hn) k1
        rw [if_neg hn, this]
        simp only [Bool.false_eq_true, if_false, if_neg k2, if_neg k3, sscanNum]
        have : takeDigits (c :: r) = [] := by
          have := takeDigits_stop (ds := []) (by simp) (c :: r) (by intro c' r' h; cases h; exact k4)
          simpa using this
        rw [this]
        exact ⟨_, rfl⟩
  have ha : atoi? s = none := by
    cases bl with
    | nil =>
      cases rest with
      | nil => unfold atoi?; rw [hs]; rfl
      | cons c r =>
        obtain ⟨k1, k2, k3, k4⟩ := hr c r rfl
        exact atoi_bad hs k2 k3 k4
    | cons c bl =>
      obtain ⟨_, _, k3, k4, k5⟩ := gap_space (hb c (by simp))
      exact atoi_bad (by rw [hs, List.cons_append]) k3 k4 k5
  obtain ⟨e, he⟩ := hsc
  unfold getInt
  rw [ha, hf, he]
  simp

/-- Signs and leading zeros -/
example : (getInt "+007").1.toInt = 7 ∧ (getInt "-0").1.toInt = 0 :=
  ⟨(C47_read "+007" 7 ⟨"007".toList, 7, by unfold Digits; decide, .inr (.inl ⟨by decide, rfl⟩)⟩ (by decide) (by decide)).1,
    (C47_read "-0" 0 ⟨"0".toList, 0, by unfold Digits; decide, .inr (.inr ⟨by decide, rfl⟩)⟩ (by decide) (by decide)).1⟩

/-- The smallest number that does not fit -/
example : Decimal "9223372036854775808".toList 9223372036854775808 ∧ (2 : Int) ^ 63 ≤ 9223372036854775808 :=
  ⟨⟨_, 9223372036854775808, by unfold Digits; decide, .inl ⟨rfl, rfl⟩⟩, by decide⟩

example (h : GoEnv.parseFloat "12pt" = none) : (getInt "12pt").1.toInt = 12 :=
  (C47_unit "12pt" "12".toList 12 'p' ['t'] (by decide) ⟨_, 12, by unfold Digits; decide, .inl ⟨rfl, rfl⟩⟩
    (by decide) h (by decide) (by decide)).1

example (h : GoEnv.parseFloat " \t12pt" = none) : (getInt " \t12pt").1.toInt = 12 :=
  (C47_blanks " \t12pt" " \t".toList "12".toList "pt".toList 12 (by decide) (by decide) (by decide)
    ⟨_, 12, by unfold Digits; decide, .inl ⟨rfl, rfl⟩⟩ (by intro c r h; cases h; decide) h (by decide) (by decide)).1

example (h : GoEnv.parseFloat " auto" = none) : (getInt " auto").2 ≠ none :=
  C47_no_number " auto" [' '] "auto".toList (by decide) (by decide) (by intro c r h; cases h; decide) h

end Docx
