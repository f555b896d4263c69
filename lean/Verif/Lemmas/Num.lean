import Verif.Go

/-! # Lemmas about decimal numbers -/

namespace Docx

theorem digitVal_digitChar : ∀ {d : Nat}, d < 10 → digitVal? (digitChar d) = some d := by
  decide

theorem digitsVal_append (xs ys : List Char) (acc : Nat) :
    digitsVal? acc (xs ++ ys) = (digitsVal? acc xs).bind fun a => digitsVal? a ys := by
  induction xs generalizing acc with
  | nil => rfl
  | cons x xs ih =>
    simp only [List.cons_append, digitsVal?]
    cases digitVal? x with
    | none => rfl
    | some d => exact ih _

theorem natRepF_val : ∀ (f n : Nat), n ≤ f → digitsVal? 0 (natRepF f n) = some n := by
  intro f
  induction f with
  | zero =>
    intro n h
    have : n = 0 := by omega
    subst this; decide
  | succ f ih =>
    intro n h
    unfold natRepF
    split
    · rename_i hn
      simp [digitsVal?, digitVal_digitChar hn]
    · rename_i hn
      rw [digitsVal_append, ih (n / 10) (by omega)]
      simp only [Option.bind_some, digitsVal?, digitVal_digitChar (Nat.mod_lt n (by decide : 0 < 10))]
      congr 1; omega

theorem natRep_val (n : Nat) : digitsVal? 0 (natRep n) = some n := natRepF_val n n (Nat.le_refl n)

theorem natRepF_ne_nil (f n : Nat) : natRepF f n ≠ [] := by
  cases f with
  | zero => simp [natRepF]
  | succ f => unfold natRepF; split <;> simp

theorem natRep_ne_nil (n : Nat) : natRep n ≠ [] := natRepF_ne_nil n n

theorem isDigit_digitChar : ∀ {d : Nat}, d < 10 →
    (48 ≤ (digitChar d).toNat ∧ (digitChar d).toNat ≤ 57) := by decide

theorem natRepF_digits : ∀ (f n : Nat), ∀ c ∈ natRepF f n, 48 ≤ c.toNat ∧ c.toNat ≤ 57 := by
  intro f
  induction f with
  | zero =>
    intro n c h
    simp only [natRepF, List.mem_singleton] at h
    subst h; exact isDigit_digitChar (Nat.mod_lt n (by decide : 0 < 10))
  | succ f ih =>
    intro n c h
    unfold natRepF at h
    split at h
    · rename_i hn
      simp only [List.mem_singleton] at h
      subst h; exact isDigit_digitChar hn
    · rcases List.mem_append.1 h with h | h
      · exact ih _ c h
      · simp only [List.mem_singleton] at h
        subst h; exact isDigit_digitChar (Nat.mod_lt n (by decide : 0 < 10))

theorem natRep_digits (n : Nat) : ∀ c ∈ natRep n, 48 ≤ c.toNat ∧ c.toNat ≤ 57 := natRepF_digits n n

theorem natRep_cons (n : Nat) : ∃ c cs, natRep n = c :: cs ∧ c ≠ '-' ∧ c ≠ '+' := by
  cases h : natRep n with
  | nil => exact absurd h (natRep_ne_nil n)
  | cons c cs =>
    have := natRep_digits n c (by rw [h]; simp)
    refine ⟨c, cs, rfl, ?_, ?_⟩ <;> rintro rfl <;> revert this <;> decide

theorem natRep_inj {a b : Nat} (h : natRep a = natRep b) : a = b := by
  have := natRep_val a
  rw [h, natRep_val b] at this
  exact (Option.some.inj this).symm

theorem intRep_inj {a b : Int} (h : intRep a = intRep b) : a = b := by
  unfold intRep at h
  obtain ⟨c, cs, hc, hm, _⟩ := natRep_cons a.natAbs
  obtain ⟨c', cs', hc', hm', _⟩ := natRep_cons b.natAbs
  split at h <;> split at h
  · have := natRep_inj (List.cons.inj h).2; omega
  · rw [hc'] at h; exact absurd (List.cons.inj h).1.symm hm'
  · rw [hc] at h; exact absurd (List.cons.inj h).1 hm
  · have := natRep_inj h; omega

theorem itoa_inj {a b : Int64} (h : itoa a = itoa b) : a = b := by
  unfold itoa at h
  have := intRep_inj (by simpa using congrArg String.toList h)
  exact Int64.toInt_inj.1 this

theorem toInt_inRange (n : Int64) : inRange n.toInt = true := by
  have h1 := n.le_toInt
  have h2 := n.toInt_lt
  simp only [inRange, decide_eq_true_eq]
  omega

theorem atoi_itoa (n : Int64) : atoi? (itoa n) = some n := by
  unfold atoi? itoa
  simp only [String.toList_ofList]
  obtain ⟨c, cs, hc, hm, hp⟩ := natRep_cons n.toInt.natAbs
  have hv := natRep_val n.toInt.natAbs
  have hr := toInt_inRange n
  by_cases hneg : n.toInt < 0
  · have e : intRep n.toInt = '-' :: c :: cs := by rw [intRep, if_pos hneg, hc]
    rw [hc] at hv
    rw [e]
    have : -(n.toInt.natAbs : Int) = n.toInt := by omega
    simp only [parseDigits?, hv, if_true, this, hr]
    simp
  · have e : intRep n.toInt = c :: cs := by rw [intRep, if_neg hneg, hc]
    rw [hc] at hv
    rw [e]
    split
    · rename_i h; exact absurd (List.cons.inj h).1 hm
    · rename_i h; exact absurd (List.cons.inj h).1 hp
    · have : (n.toInt.natAbs : Int) = n.toInt := by omega
      simp only [parseDigits?, hv, Bool.false_eq_true, if_false, this, hr, if_true]
      simp

theorem toInt_toInt64 (n : UInt64) : n.toInt64.toInt = (n.toNat : Int).bmod (2 ^ 64) := by
  show n.toBitVec.toInt = _
  rw [BitVec.toInt_eq_toNat_bmod]; rfl

theorem parseUint_natRep (n : Nat) (h : n < 2 ^ 64) :
    parseUint? (String.ofList (natRep n)) = some (UInt64.ofNat n) := by
  unfold parseUint?
  obtain ⟨c, cs, hc, _, _⟩ := natRep_cons n
  have hv := natRep_val n
  rw [String.toList_ofList]
  rw [hc] at hv ⊢
  simp [hv, h]

theorem parseUint_itoa_nonneg (n : UInt64) (h : n.toNat < 2 ^ 63) :
    parseUint? (itoa n.toInt64) = some n := by
  have hi : n.toInt64.toInt = n.toNat := by
    rw [toInt_toInt64]; exact Int.bmod_eq_of_le (by omega) (by omega)
  have : itoa n.toInt64 = String.ofList (natRep n.toNat) := by
    unfold itoa intRep
    rw [hi, if_neg (by omega)]
    simp
  rw [this, parseUint_natRep _ (by omega)]
  simp

theorem parseUint_itoa_neg (n : UInt64) (h : 2 ^ 63 ≤ n.toNat) : parseUint? (itoa n.toInt64) = none := by
  have h2 := n.toNat_lt
  have hi : n.toInt64.toInt = (n.toNat : Int) - 2 ^ 64 := by
    rw [toInt_toInt64]
    rw [Int.bmod_def]
    omega
  have : ∃ cs, itoa n.toInt64 = String.ofList ('-' :: cs) := by
    refine ⟨natRep n.toInt64.toInt.natAbs, ?_⟩
    unfold itoa intRep
    rw [if_pos (by omega)]
  obtain ⟨cs, hcs⟩ := this
  rw [hcs]
  unfold parseUint?
  simp only [String.toList_ofList]
  have : digitVal? '-' = none := by decide
  simp [digitsVal?, this]

end Docx
