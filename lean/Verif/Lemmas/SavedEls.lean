import Verif.SpecKept
import Verif.Lemmas.SaveRead

/-!
# The elements of a saved document

Lemmas for C70: all elements written for a parsed document are `AsSaved`.
-/

namespace Docx

set_option linter.unusedSectionVars false

section
variable [GoEnv]

/-- All elements of these trees are plain. -/
def Plains (ns : List Node) : Prop := ∀ e ∈ elsL (fun l => l != "drawing") ns, AsSaved e

theorem elsL_append (o : String → Bool) (a b : List Node) : elsL o (a ++ b) = elsL o a ++ elsL o b := by
  induction a with
  | nil => simp [elsL]
  | cons n a ih => simp [elsL, ih]

theorem Plains.nil : Plains [] := by intro e h; simp [elsL] at h

theorem Plains.append {a b : List Node} (ha : Plains a) (hb : Plains b) : Plains (a ++ b) := by
  intro e h
  rw [elsL_append] at h
  rcases List.mem_append.1 h with h | h
  · exact ha e h
  · exact hb e h

theorem Plains.cons {n : Node} {ns : List Node} (h : Plains [n]) (hs : Plains ns) : Plains (n :: ns) :=
  Plains.append (a := [n]) h hs

theorem Plains.map {α : Type} {f : α → Node} {l : List α} (h : ∀ a ∈ l, Plains [f a]) :
    Plains (l.map f) := by
  induction l with
  | nil => exact .nil
  | cons a l ih =>
    exact .cons (h a (List.mem_cons_self ..)) (ih fun b hb => h b (List.mem_cons_of_mem _ hb))

theorem Plains.optN {α : Type} {f : α → Node} {o : Option α} (h : ∀ a, o = some a → Plains [f a]) :
    Plains (optN f o) := by
  cases o with
  | none => exact .nil
  | some a => exact h a rfl

theorem Plains.elem {p l : String} {as : List Attr} {ks : List Node} (h : AsSaved ⟨l, as, ks⟩)
    (hk : Plains ks) : Plains [el p l as ks] := by
  intro e he
  simp only [el, elsL, els, List.append_nil] at he
  rcases List.mem_cons.1 he with he | he
  · subst he; exact h
  · split at he
    · exact hk e he
    · cases he

/-- Attributes that are in the list, with no zeros where there must be none -/
def GoodAttrs (l : String) (ns : List String) (as : List Attr) : Prop :=
  ∀ a ∈ as, a.name.loc ∈ ns ∧ (a.name.loc ∈ zeroLost l → number a.val ≠ 0)

theorem GoodAttrs.append {l : String} {ns : List String} {a b : List Attr} (ha : GoodAttrs l ns a)
    (hb : GoodAttrs l ns b) : GoodAttrs l ns (a ++ b) := by
  intro x hx
  rcases List.mem_append.1 hx with h | h
  · exact ha x h
  · exact hb x h

theorem GoodAttrs.nil {l : String} {ns : List String} : GoodAttrs l ns [] := fun _ h => by cases h

theorem GoodAttrs.strA {l : String} {ns : List String} {p n : String} (v : String) (h : n ∈ ns)
    (hz : n ∉ zeroLost l) : GoodAttrs l ns (strA p n v) := by
  intro x hx
  simp only [Docx.strA, List.mem_singleton] at hx
  subst hx
  exact ⟨h, fun hm => absurd hm hz⟩

theorem GoodAttrs.strO {l : String} {ns : List String} {p n : String} (v : String) (h : n ∈ ns)
    (hz : n ∉ zeroLost l) : GoodAttrs l ns (strO p n v) := by
  unfold Docx.strO
  split
  · exact .nil
  · exact .strA v h hz

theorem GoodAttrs.intA {l : String} {ns : List String} {p n : String} (v : Int64) (h : n ∈ ns)
    (hz : n ∉ zeroLost l) : GoodAttrs l ns (intA p n v) := .strA _ h hz

theorem GoodAttrs.intO {l : String} {ns : List String} {p n : String} (v : Int64) (h : n ∈ ns) :
    GoodAttrs l ns (intO p n v) := by
  unfold Docx.intO
  split
  · exact .nil
  · rename_i hv
    intro x hx
    simp only [List.mem_singleton] at hx
    subst hx
    refine ⟨h, fun _ => ?_⟩
    show (getInt (itoa v)).1 ≠ 0
    rw [getInt_itoa]
    exact hv

theorem attrLast?_mem {n : String} {as : List Attr} (h : ∃ a ∈ as, a.name.loc = n) :
    attrLast? n as ≠ none := by
  obtain ⟨a, ha, rfl⟩ := h
  unfold attrLast?
  intro h
  rw [Option.map_eq_none_iff, List.getLast?_eq_none_iff, List.filter_eq_nil_iff] at h
  exact h a ha (by simp)

theorem mem_of_lookup {α : Type} {l : String} {v : α} : ∀ {xs : List (String × α)},
    xs.lookup l = some v → (l, v) ∈ xs
  | [], h => by cases h
  | (k, w) :: xs, h => by
    rw [List.lookup_cons] at h
    by_cases hk : l = k
    · subst hk
      simp at h
      rw [h]
      exact List.mem_cons_self ..
    · have hb : (l == k) = false := by simpa using hk
      rw [hb] at h
      exact List.mem_cons_of_mem _ (mem_of_lookup h)

theorem plain {l : String} {as : List Attr} {ks : List Node} {ns : List String}
    (hv : vocabulary.lookup l = some ns) (hg : GoodAttrs l ns as)
    (ha : ∀ n ∈ always l, ∃ a ∈ as, a.name.loc = n) (hl : l ≠ "hyperlink") : AsSaved ⟨l, as, ks⟩ where
  known := ⟨ns, mem_of_lookup hv, fun a h => (hg a h).1⟩
  always := fun n h => attrLast?_mem (ha n h)
  zeros := fun a h => (hg a h).2
  link := fun h => absurd h hl

/-- Closes the goals about attributes -/
macro "attrs" : tactic => `(tactic| (
  repeat' first
    | with_reducible refine GoodAttrs.append ?_ ?_
    | with_reducible exact GoodAttrs.intA _ (by decide) (by decide)
    | with_reducible exact GoodAttrs.intO _ (by decide)
    | with_reducible exact GoodAttrs.strA _ (by decide) (by decide)
    | with_reducible exact GoodAttrs.strO _ (by decide) (by decide)
    | with_reducible exact GoodAttrs.nil))

/-- Proves that an element is plain if its children are -/
macro "plainEl" : tactic => `(tactic|
  refine Plains.elem (plain rfl (by attrs) (by simp [Docx.always, strA, intA]) (by decide)) ?_)

theorem plains_shade (s : Shade) : Plains [mShade s] := by unfold mShade; plainEl; exact .nil
theorem plains_spacing (s : Spacing) : Plains [mSpacing s] := by unfold mSpacing; plainEl; exact .nil
theorem plains_ind (s : Ind) : Plains [mInd s] := by unfold mInd; plainEl; exact .nil
theorem plains_tab (s : Tab) : Plains [mTab s] := by unfold mTab; plainEl; exact .nil
theorem plains_fonts (s : RunFonts) : Plains [mRunFonts s] := by unfold mRunFonts; plainEl; exact .nil
theorem plains_tblpPr (s : TblpPr) : Plains [mTblpPr s] := by unfold mTblpPr; plainEl; exact .nil
theorem plains_tblW (s : Width) : Plains [mWidth "tblW" s] := by unfold mWidth; plainEl; exact .nil
theorem plains_tcW (s : Width) : Plains [mWidth "tcW" s] := by unfold mWidth; plainEl; exact .nil
theorem plains_look (s : TblLook) : Plains [mLook s] := by unfold mLook; plainEl; exact .nil
theorem plains_br (b : Br) : Plains [mBr b] := by unfold mBr; plainEl; exact .nil

theorem plains_text (t : Text) : Plains [mText t] := by
  unfold mText
  plainEl
  unfold textN
  split
  · exact .nil
  · intro e h; simp [elsL, els] at h

theorem plains_tabs (ts : List Tab) : Plains [mTabs ts] := by
  unfold mTabs
  plainEl
  exact .map fun t _ => plains_tab t

theorem plains_valN {l : String} {o : Option String} (h : vocabulary.lookup l = some ["val"])
    (ha : always l = ["val"]) (hz : "val" ∉ zeroLost l) (hl : l ≠ "hyperlink") : Plains (valN l o) := by
  cases o with
  | none => exact .nil
  | some v =>
    refine Plains.elem (plain h (.strA _ (by simp) hz) ?_ hl) .nil
    rw [ha]
    simp [strA]

theorem plains_valO {l : String} {o : Option String} (h : vocabulary.lookup l = some ["val"])
    (ha : always l = []) (hz : "val" ∉ zeroLost l) (hl : l ≠ "hyperlink") : Plains (valO l o) := by
  cases o with
  | none => exact .nil
  | some v =>
    refine Plains.elem (plain h (.strO _ (by simp) hz) ?_ hl) .nil
    rw [ha]
    simp

theorem plains_valI {l : String} {o : Option Int64} (h : vocabulary.lookup l = some ["val"])
    (ha : always l = ["val"]) (hz : "val" ∉ zeroLost l) (hl : l ≠ "hyperlink") : Plains (valI l o) := by
  cases o with
  | none => exact .nil
  | some v =>
    refine Plains.elem (plain h (.intA _ (by simp) hz) ?_ hl) .nil
    rw [ha]
    simp [intA]

theorem plains_flagN {b : Bool} {p l : String} (h : vocabulary.lookup l = some [])
    (ha : always l = []) (hl : l ≠ "hyperlink") : Plains (flagN b p l) := by
  unfold flagN
  split
  · refine Plains.elem (plain h .nil ?_ hl) .nil
    rw [ha]
    simp
  · exact .nil

/-- Splits the goals about lists of elements -/
macro "parts" : tactic => `(tactic| (
  repeat' first
    | with_reducible refine Plains.append ?_ ?_
    | with_reducible exact plains_valN rfl rfl (by decide) (by decide)
    | with_reducible exact plains_valO rfl rfl (by decide) (by decide)
    | with_reducible exact plains_valI rfl rfl (by decide) (by decide)
    | with_reducible exact plains_flagN rfl rfl (by decide)))

theorem plains_rpr (r : RPr) : Plains [mRPr r] := by
  unfold mRPr
  plainEl
  parts
  · exact .optN fun _ _ => plains_fonts _
  · exact .optN fun _ _ => plains_spacing _
  · exact .optN fun _ _ => plains_shade _

theorem plains_ppr {p : PPr} (h : p.numPr = none) : Plains [mPPr p] := by
  unfold mPPr
  plainEl
  parts
  · exact .optN fun _ _ => plains_tabs _
  · exact .optN fun _ _ => plains_spacing _
  · rw [h]; exact .nil
  · exact .optN fun _ _ => plains_ind _
  · exact .optN fun _ _ => plains_shade _
  · exact .optN fun _ _ => plains_rpr _

theorem plains_rchild (c : RChild) : Plains [mRChild c] := by
  cases c with
  | text t => rw [mRChild]; exact plains_text t
  | tab t => rw [mRChild]; exact plains_tab t
  | br b => rw [mRChild]; exact plains_br b
  | drawing d =>
    cases d with
    | mk i a =>
      rw [mRChild, mDrawing]
      intro e he
      simp only [el, elsL, els, List.append_nil] at he
      rcases List.mem_cons.1 he with he | he
      · subst he
        exact plain rfl .nil (by simp [Docx.always]) (by decide)
      · cases he

theorem plains_rchildren (cs : List RChild) : Plains (mRChildren cs) := by
  induction cs with
  | nil => rw [mRChildren]; exact .nil
  | cons c cs ih => rw [mRChildren]; exact .cons (plains_rchild c) ih

theorem plains_run (r : Run) : Plains [mRun r] := by
  cases r with
  | mk space rpr instr children =>
    rw [mRun]
    plainEl
    parts
    · exact .optN fun _ _ => plains_rpr _
    · split
      · exact .nil
      · plainEl
        intro e h; simp [elsL, els] at h
    · exact plains_rchildren _

theorem plains_pchild (c : PChild) : Plains [mPChild c] := by
  cases c with
  | run r => rw [mPChild]; exact plains_run r
  | rpr f => rw [mPChild]; exact plains_rpr f
  | link h =>
    cases h with
    | mk id run =>
      rw [mPChild, mLink]
      refine Plains.elem ⟨⟨["id"], by simp [vocabulary], by simp [strA]⟩, ?_, ?_, fun _ => ?_⟩ (plains_run run)
      · intro n hn
        refine attrLast?_mem ?_
        simp [Docx.always] at hn
        simp [strA, hn]
      · intro a _ h
        simp [zeroLost] at h
      · exact ⟨⟨"w", "r"⟩, (mRun run).as, (mRun run).kids, congrArg (fun x => [x]) (mRun_elem run), rfl⟩

theorem plains_pchildren (cs : List PChild) : Plains (mPChildren cs) := by
  induction cs with
  | nil => rw [mPChildren]; exact .nil
  | cons c cs ih => rw [mPChildren]; exact .cons (plains_pchild c) ih

theorem plains_para {p : Para} (h : keptPPr p.props) : Plains [mPara p] := by
  cases p with
  | mk props children file =>
    rw [mPara]
    plainEl
    parts
    · exact .optN fun x hx => plains_ppr (h x hx)
    · exact plains_pchildren _

theorem plains_borders {l : String} (b : Borders) (hv : vocabulary.lookup l = some []) (ha : always l = [])
    (hl : l ≠ "hyperlink") : Plains [mBorders l b] := by
  refine Plains.elem (plain hv .nil (by simp [ha]) hl) ?_
  parts
  all_goals
    refine Plains.optN fun b _ => ?_
    unfold mBorder
    plainEl
    exact .nil

theorem plains_tblPr (t : TblPr) : Plains [mTblPr t] := by
  unfold mTblPr
  plainEl
  parts
  · exact .optN fun _ _ => plains_tblpPr _
  · exact .optN fun _ _ => plains_tblW _
  · exact .optN fun _ _ => plains_borders _ rfl rfl (by decide)
  · exact .optN fun _ _ => plains_look _

theorem plains_grid (g : List (Option Int64)) : Plains [mGrid g] := by
  unfold mGrid
  plainEl
  induction g with
  | nil => exact .nil
  | cons o g ih =>
    rw [List.flatMap_cons]
    refine .append (.optN fun n _ => ?_) ih
    plainEl
    exact .nil

theorem plains_trPr (t : TrPr) : Plains [mTrPr t] := by
  unfold mTrPr
  plainEl
  parts
  refine .optN fun n _ => ?_
  plainEl
  exact .nil

theorem plains_tcPr (t : TcPr) : Plains [mTcPr t] := by
  unfold mTcPr
  plainEl
  parts
  · exact .optN fun _ _ => plains_tcW _
  · exact .optN fun _ _ => plains_borders _ rfl rfl (by decide)
  · exact .optN fun _ _ => plains_shade _

theorem plains_sect (s : SectPr) : Plains [mSect s] := by
  unfold mSect
  plainEl
  parts
  all_goals
    refine Plains.optN fun b _ => ?_
    first | unfold mPgSz | unfold mPgMar | unfold mCols | unfold mDocGrid
    plainEl
    exact .nil

theorem plains_table {file : Option DocId} {t : Table} (h : keptTable file t) : Plains [mTable t] := by
  unfold mTable
  plainEl
  parts
  · exact .optN fun _ _ => plains_tblPr _
  · exact .optN fun _ _ => plains_grid _
  · refine .map fun r hr => ?_
    unfold mRow
    plainEl
    parts
    · exact .optN fun _ _ => plains_trPr _
    · refine .map fun c hc => ?_
      unfold mCell
      plainEl
      parts
      · exact .optN fun _ _ => plains_tcPr _
      · refine .map fun p hp => plains_para ?_
        have := (h.2 r hr c hc).1 p hp
        cases p
        exact this.1

theorem plains_item {file : Option DocId} {i : BItem} (h : keptItem file i) : Plains [mItem i] := by
  cases i with
  | para p =>
    refine plains_para (p := p) ?_
    cases p
    exact h.1
  | table t => exact plains_table h
  | sect s => exact plains_sect s

theorem plains_document {file : Option DocId} {items : List BItem} (h : keptBody file items) :
    Plains [mDocument items] := by
  unfold mDocument
  refine Plains.elem (plain rfl ?_ (by simp [Docx.always]) (by decide)) ?_
  · intro a ha
    simp only [docAttrs, List.mem_cons, List.not_mem_nil, or_false] at ha
    rcases ha with rfl | rfl | rfl | rfl | rfl | rfl <;> exact ⟨by simp, fun h => by simp [zeroLost] at h⟩
  · plainEl
    exact .map fun i hi => plains_item (h i hi)

end

end Docx
