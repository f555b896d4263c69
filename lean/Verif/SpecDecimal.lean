/-!
# Decimal numbers

What a string of digits stands for, with or without a sign.
-/

namespace Docx

/-- `ds` is a number in decimal digits (perhaps with leading zeros), and its value is `n`. -/
def Digits (ds : List Char) (n : Nat) : Prop :=
  ds ≠ [] ∧ (∀ c ∈ ds, '0' ≤ c ∧ c ≤ '9') ∧ n = ds.foldl (fun a c => a * 10 + (c.toNat - 48)) 0

/-- `cs` is an integer in decimal digits, with or without a sign, and its value is `i`. -/
def Decimal (cs : List Char) (i : Int) : Prop :=
  ∃ ds n, Digits ds n ∧
    ((cs = ds ∧ i = n) ∨ (cs = '+' :: ds ∧ i = n) ∨ (cs = '-' :: ds ∧ i = -(n : Int)))

/-- The code points of blanks other than the line feed (Unicode `White_Space`) -/
def gaps : List Nat :=
  [0x09, 0x0B, 0x0C, 0x0D, 0x20, 0x85, 0xA0, 0x1680, 0x2000, 0x2001, 0x2002, 0x2003, 0x2004, 0x2005, 0x2006, 0x2007,
   0x2008, 0x2009, 0x200A, 0x2028, 0x2029, 0x202F, 0x205F, 0x3000]

end Docx
