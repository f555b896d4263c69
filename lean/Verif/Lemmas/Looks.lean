import Verif.Lemmas.XmlYields
import Verif.Lemmas.XmlKept

/-!
# The numbers of `tblLook` after parsing

They are a byte minus `'0'`, modulo 256: not negative.  So saving writes a digit first, and what is read
back is that digit.
-/

namespace Docx

set_option linter.unusedSectionVars false

variable [GoEnv]

/-- No number is negative -/
def posLook (l : TblLook) : Prop :=
  ¬ l.firstRow < 0 ∧ ¬ l.lastRow < 0 ∧ ¬ l.firstCol < 0 ∧ ¬ l.lastCol < 0 ∧ ¬ l.noHBand < 0 ∧ ¬ l.noVBand < 0

def posPr (p : TblPr) : Prop := ∀ l, p.look = some l → posLook l

def posItem : BItem → Prop
  | .table t => ∀ pr, t.props = some pr → posPr pr
  | _ => True

def posBody (items : List BItem) : Prop := ∀ i ∈ items, posItem i

omit [GoEnv] in
theorem lookVal_pos (v : String) : ¬ lookVal v < 0 := by
  unfold lookVal
  split
  · decide
  · rename_i c cs _
    have h : (leadByte c + 208) % 256 < 256 := Nat.mod_lt _ (by decide)
    generalize (leadByte c + 208) % 256 = n at h
    intro hn
    rw [Int64.lt_iff_toInt_lt, Int64.toInt_ofNat_of_lt (by omega)] at hn
    simp at hn
    omega

theorem unTblLook_pos (as : List Attr) : Yields posLook (unTblLook as) := by
  have h0 : posLook {} := by refine ⟨?_, ?_, ?_, ?_, ?_, ?_⟩ <;> decide
  have ha : posLook (attrs lookAttr {} as).1 := by
    refine attrs_yields ?_ as _ h0
    intro s l v hs
    obtain ⟨h1, h2, h3, h4, h5, h6⟩ := hs
    have hv := lookVal_pos v
    unfold lookAttr
    split
    · exact ⟨h1, h2, h3, h4, h5, h6⟩
    · split
      · exact ⟨h1, h2, h3, h4, h5, h6⟩
      · exact ⟨hv, h2, h3, h4, h5, h6⟩
      · exact ⟨h1, hv, h3, h4, h5, h6⟩
      · exact ⟨h1, h2, hv, h4, h5, h6⟩
      · exact ⟨h1, h2, h3, hv, h5, h6⟩
      · exact ⟨h1, h2, h3, h4, hv, h6⟩
      · exact ⟨h1, h2, h3, h4, h5, hv⟩
      · exact ⟨h1, h2, h3, h4, h5, h6⟩
  intro d
  unfold unTblLook leaf
  split
  · rename_i heq; rw [heq] at ha; exact ha
  · rename_i heq; rw [heq] at ha
    split <;> exact ha

theorem unTblPr_pos : Yields posPr unTblPr := by
  refine loop_yields ?_ (fun _ h => by cases h)
  intro s l as d hs
  unfold tblPrStep
  split
  · exact hs
  · exact hs
  · exact hs
  · exact hs
  · exact sub_yields (unTblLook_pos as) (Q := posPr) (fun v hv l hl => by cases hl; exact hv) d
  · exact hs
  · exact hs

theorem unTable_pos (p : Decs) (file : Option DocId) : Yields (fun t => posItem (.table t)) (unTable p file) := by
  refine loop_yields (P := fun t => posItem (.table t)) ?_ (fun _ h => by cases h)
  intro s l as d hs
  unfold tableStep
  split
  · exact hs
  · exact sub_yields unTblPr_pos (Q := fun t => posItem (.table t)) (fun v hv pr h => by cases h; exact hv) d
  · exact hs
  · exact hs

omit [GoEnv] in
theorem posBody_append {s : List BItem} {i : BItem} (hs : posBody s) (hi : posItem i) : posBody (s ++ [i]) := by
  intro q hq
  rcases List.mem_append.1 hq with h | h
  · exact hs q h
  · rw [List.mem_singleton.1 h]; exact hi

theorem unBody_pos (p : Decs) (file : Option DocId) {s : List BItem} (hs : posBody s) :
    Yields posBody (unBody p file s) := by
  refine loop_yields ?_ hs
  intro s l as d hs
  unfold bodyStep
  split
  · exact sub_yields (any_yields _) (Q := posBody) (fun v _ => posBody_append (i := .para v) hs trivial) d
  · exact sub_yields (unTable_pos p file) (Q := posBody) (fun v hv => posBody_append hs hv) d
  · exact sub_yields (any_yields _) (Q := posBody) (fun v _ => posBody_append (i := .sect v) hs trivial) d
  · exact hs

theorem decodeDocument_pos (file : Option DocId) {s : List BItem} (hs : posBody s) (toks : List Tok) :
    posBody (decodeDocument file s toks).val := by
  rw [decodeDocument_eq]
  refine rootN_yields (fun _ => decodeElement_yields (loop_yields ?_ hs)) hs _ _
  intro s l as d hs
  unfold documentStep
  split
  · exact sub_yields (unBody_pos _ file hs) (Q := posBody) (fun v hv => hv) d
  · exact hs

omit [GoEnv] in
/-- Read back once, the numbers are digits. -/
theorem looksOk_once (file : Option DocId) {items : List BItem} (h : posBody items) :
    looksOk (normBody file items) := by
  intro i hi t pr l he hp hl
  simp only [normBody, List.mem_map] at hi
  obtain ⟨j, hm, hj⟩ := hi
  cases j with
  | para p => simp only [normItem] at hj; rw [← hj] at he; cases he
  | sect s => simp only [normItem] at hj; rw [← hj] at he; cases he
  | table t0 =>
    simp only [normItem] at hj
    rw [← hj] at he
    simp only [BItem.table.injEq] at he
    subst he
    simp only [normTable, Option.map_eq_some_iff] at hp
    obtain ⟨pr0, hp0, rfl⟩ := hp
    simp only [normTblPr, Option.map_eq_some_iff] at hl
    obtain ⟨l0, hl0, rfl⟩ := hl
    obtain ⟨h1, h2, h3, h4, h5, h6⟩ := h _ hm pr0 hp0 l0 hl0
    exact ⟨normLookInt_range _ h1, normLookInt_range _ h2, normLookInt_range _ h3, normLookInt_range _ h4,
      normLookInt_range _ h5, normLookInt_range _ h6⟩

omit [GoEnv] in
/-- Digits are not negative. -/
theorem posBody_of_looksOk {items : List BItem} (h : looksOk items) : posBody items := by
  intro i hi
  cases i with
  | para p => trivial
  | sect s => trivial
  | table t =>
    intro pr hp l hl
    obtain ⟨h1, h2, h3, h4, h5, h6⟩ := h _ hi t pr l rfl hp hl
    have key : ∀ n : Int64, digit n → ¬ n < 0 := fun n hn => by
      rw [Int64.lt_iff_toInt_lt]
      have := Int64.le_iff_toInt_le.1 hn.1
      omega
    exact ⟨key _ h1, key _ h2, key _ h3, key _ h4, key _ h5, key _ h6⟩

end Docx
