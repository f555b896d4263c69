import Verif.SpecOoxml
import Verif.Marshal
import Verif.Api
import Verif.Props.Build

/-!
# C61: calls write the WordprocessingML they stand for
-/

set_option linter.unusedSectionVars false

namespace Docx

/-! ## Children with a name -/

theorem flt_of {q l : String} {ns : List Node} (h : ∀ n ∈ ns, ∃ as ks, n = .elem ⟨"w", l⟩ as ks) :
    ns.filter (isW q) = (if l = q then ns else []) ∧
    (ns.filter fun n => !isW q n) = if l = q then [] else ns := by
  have h1 : ∀ n ∈ ns, isW q n = decide (l = q) := by
    intro n hn
    obtain ⟨as, ks, rfl⟩ := h n hn
    simp only [isW]
    by_cases e : l = q <;> simp [e]
  by_cases e : l = q
  · rw [if_pos e, if_pos e]
    refine ⟨List.filter_eq_self.2 fun n hn => ?_, List.filter_eq_nil_iff.2 fun n hn => ?_⟩ <;>
      simp [h1 n hn, e]
  · rw [if_neg e, if_neg e]
    refine ⟨List.filter_eq_nil_iff.2 fun n hn => ?_, List.filter_eq_self.2 fun n hn => ?_⟩ <;>
      simp [h1 n hn, e]

section
variable (q l : String)

theorem tag_flagN (b : Bool) : ∀ n ∈ flagN b "w" l, ∃ as ks, n = .elem ⟨"w", l⟩ as ks := by
  intro n hn; unfold flagN at hn; split at hn
  · rw [List.mem_singleton.1 hn]; exact ⟨_, _, rfl⟩
  · cases hn
theorem tag_valN (o : Option String) : ∀ n ∈ valN l o, ∃ as ks, n = .elem ⟨"w", l⟩ as ks := by
  intro n hn; cases o with
  | none => cases hn
  | some v => rw [List.mem_singleton.1 hn]; exact ⟨_, _, rfl⟩
theorem tag_valO (o : Option String) : ∀ n ∈ valO l o, ∃ as ks, n = .elem ⟨"w", l⟩ as ks := by
  intro n hn; cases o with
  | none => cases hn
  | some v => rw [List.mem_singleton.1 hn]; exact ⟨_, _, rfl⟩
theorem tag_valI (o : Option Int64) : ∀ n ∈ valI l o, ∃ as ks, n = .elem ⟨"w", l⟩ as ks := by
  intro n hn; cases o with
  | none => cases hn
  | some v => rw [List.mem_singleton.1 hn]; exact ⟨_, _, rfl⟩
theorem tag_optN {α : Type} (m : α → Node) (hm : ∀ a, ∃ as ks, m a = .elem ⟨"w", l⟩ as ks) (o : Option α) :
    ∀ n ∈ optN m o, ∃ as ks, n = .elem ⟨"w", l⟩ as ks := by
  intro n hn; cases o with
  | none => cases hn
  | some v => rw [List.mem_singleton.1 hn]; exact hm v

theorem yes_flagN (b : Bool) : (flagN b "w" l).filter (isW q) = if l = q then flagN b "w" l else [] :=
  (flt_of (tag_flagN l b)).1
theorem no_flagN (b : Bool) : ((flagN b "w" l).filter fun n => !isW q n) = if l = q then [] else flagN b "w" l :=
  (flt_of (tag_flagN l b)).2
theorem yes_valN (o) : (valN l o).filter (isW q) = if l = q then valN l o else [] := (flt_of (tag_valN l o)).1
theorem no_valN (o) : ((valN l o).filter fun n => !isW q n) = if l = q then [] else valN l o :=
  (flt_of (tag_valN l o)).2
theorem yes_valO (o) : (valO l o).filter (isW q) = if l = q then valO l o else [] := (flt_of (tag_valO l o)).1
theorem no_valO (o) : ((valO l o).filter fun n => !isW q n) = if l = q then [] else valO l o :=
  (flt_of (tag_valO l o)).2
theorem yes_valI (o) : (valI l o).filter (isW q) = if l = q then valI l o else [] := (flt_of (tag_valI l o)).1
theorem no_valI (o) : ((valI l o).filter fun n => !isW q n) = if l = q then [] else valI l o :=
  (flt_of (tag_valI l o)).2
end

section
variable (q : String)
theorem yes_fonts (o) : (optN mRunFonts o).filter (isW q) = if "rFonts" = q then optN mRunFonts o else [] :=
  (flt_of (tag_optN _ _ (fun _ => ⟨_, _, rfl⟩) o)).1
theorem no_fonts (o) : ((optN mRunFonts o).filter fun n => !isW q n) = if "rFonts" = q then [] else optN mRunFonts o :=
  (flt_of (tag_optN _ _ (fun _ => ⟨_, _, rfl⟩) o)).2
theorem yes_spacing (o) : (optN mSpacing o).filter (isW q) = if "spacing" = q then optN mSpacing o else [] :=
  (flt_of (tag_optN _ _ (fun _ => ⟨_, _, rfl⟩) o)).1
theorem no_spacing (o) : ((optN mSpacing o).filter fun n => !isW q n) = if "spacing" = q then [] else optN mSpacing o :=
  (flt_of (tag_optN _ _ (fun _ => ⟨_, _, rfl⟩) o)).2
theorem yes_shade (o) : (optN mShade o).filter (isW q) = if "shd" = q then optN mShade o else [] :=
  (flt_of (tag_optN _ _ (fun _ => ⟨_, _, rfl⟩) o)).1
theorem no_shade (o) : ((optN mShade o).filter fun n => !isW q n) = if "shd" = q then [] else optN mShade o :=
  (flt_of (tag_optN _ _ (fun _ => ⟨_, _, rfl⟩) o)).2
theorem yes_tabs (o) : (optN mTabs o).filter (isW q) = if "tabs" = q then optN mTabs o else [] :=
  (flt_of (tag_optN _ _ (fun _ => ⟨_, _, rfl⟩) o)).1
theorem no_tabs (o) : ((optN mTabs o).filter fun n => !isW q n) = if "tabs" = q then [] else optN mTabs o :=
  (flt_of (tag_optN _ _ (fun _ => ⟨_, _, rfl⟩) o)).2
theorem yes_numPr (o) : (optN mNumPr o).filter (isW q) = if "numPr" = q then optN mNumPr o else [] :=
  (flt_of (tag_optN _ _ (fun _ => ⟨_, _, rfl⟩) o)).1
theorem no_numPr (o) : ((optN mNumPr o).filter fun n => !isW q n) = if "numPr" = q then [] else optN mNumPr o :=
  (flt_of (tag_optN _ _ (fun _ => ⟨_, _, rfl⟩) o)).2
theorem yes_ind (o) : (optN mInd o).filter (isW q) = if "ind" = q then optN mInd o else [] :=
  (flt_of (tag_optN _ _ (fun _ => ⟨_, _, rfl⟩) o)).1
theorem no_ind (o) : ((optN mInd o).filter fun n => !isW q n) = if "ind" = q then [] else optN mInd o :=
  (flt_of (tag_optN _ _ (fun _ => ⟨_, _, rfl⟩) o)).2
theorem yes_rpr (o) : (optN mRPr o).filter (isW q) = if "rPr" = q then optN mRPr o else [] :=
  (flt_of (tag_optN _ _ (fun _ => ⟨_, _, rfl⟩) o)).1
theorem no_rpr (o) : ((optN mRPr o).filter fun n => !isW q n) = if "rPr" = q then [] else optN mRPr o :=
  (flt_of (tag_optN _ _ (fun _ => ⟨_, _, rfl⟩) o)).2
theorem yes_tblpPr (o) : (optN mTblpPr o).filter (isW q) = if "tblpPr" = q then optN mTblpPr o else [] :=
  (flt_of (tag_optN _ _ (fun _ => ⟨_, _, rfl⟩) o)).1
theorem no_tblpPr (o) : ((optN mTblpPr o).filter fun n => !isW q n) = if "tblpPr" = q then [] else optN mTblpPr o :=
  (flt_of (tag_optN _ _ (fun _ => ⟨_, _, rfl⟩) o)).2
theorem yes_width (l : String) (o) : (optN (mWidth l) o).filter (isW q) = if l = q then optN (mWidth l) o else [] :=
  (flt_of (tag_optN _ _ (fun _ => ⟨_, _, rfl⟩) o)).1
theorem no_width (l : String) (o) : ((optN (mWidth l) o).filter fun n => !isW q n) = if l = q then [] else optN (mWidth l) o :=
  (flt_of (tag_optN _ _ (fun _ => ⟨_, _, rfl⟩) o)).2
theorem yes_borders (l : String) (o) :
    (optN (mBorders l) o).filter (isW q) = if l = q then optN (mBorders l) o else [] :=
  (flt_of (tag_optN _ _ (fun _ => ⟨_, _, rfl⟩) o)).1
theorem no_borders (l : String) (o) :
    ((optN (mBorders l) o).filter fun n => !isW q n) = if l = q then [] else optN (mBorders l) o :=
  (flt_of (tag_optN _ _ (fun _ => ⟨_, _, rfl⟩) o)).2
theorem yes_look (o) : (optN mLook o).filter (isW q) = if "tblLook" = q then optN mLook o else [] :=
  (flt_of (tag_optN _ _ (fun _ => ⟨_, _, rfl⟩) o)).1
theorem no_look (o) : ((optN mLook o).filter fun n => !isW q n) = if "tblLook" = q then [] else optN mLook o :=
  (flt_of (tag_optN _ _ (fun _ => ⟨_, _, rfl⟩) o)).2
end

/-- The children of a `w:rPr` -/
def rprKids (r : RPr) : List Node :=
  optN mRunFonts r.fonts ++ flagN r.bold "w" "b" ++ flagN r.iCs "w" "iCs" ++
    flagN r.italic "w" "i" ++ valO "highlight" r.highlight ++ valN "color" r.color ++
    valN "sz" r.size ++ valN "szCs" r.sizeCs ++ optN mSpacing r.spacing ++
    valN "rStyle" r.runStyle ++ valN "pStyle" r.style ++ optN mShade r.shade ++
    valI "kern" r.kern ++ valO "u" r.underline ++ valN "vertAlign" r.vertAlign ++
    valN "strike" r.strike

theorem mRPr_kids (r : RPr) : mRPr r = wEl "rPr" [] (rprKids r) := rfl

/-- One property of a run, as the setters set it -/
def RSetter.put (s : RSetter) (p : RPr) : RPr :=
  match s with
  | .color v => { p with color := some v }
  | .size v => { p with size := some v }
  | .sizeCs v => { p with sizeCs := some v }
  | .shade a b c => { p with shade := some { val := a, color := b, fill := c } }
  | .spacing n => { p with spacing := some { line := n } }
  | .bold => { p with bold := true }
  | .italic => { p with italic := true }
  | .underline v => { p with underline := some v }
  | .highlight v => { p with highlight := some v }
  | .strike v => { p with strike := some (if v then "true" else "false") }
  | .font a b c d => { p with fonts := some ⟨a, b, c, d⟩ }

theorem apply_put {s : RSetter} {r r' : Run} (h : s.apply r = .ok r') :
    ∃ p, r.rpr = some p ∧ r' = { r with rpr := some (s.put p) } := by
  cases hp : r.rpr with
  | none => cases s <;> simp [RSetter.apply, Run.setColor, Run.setSize, Run.setSizeCs, Run.setShade, Run.setSpacing,
      Run.setBold, Run.setItalic, Run.setUnderline, Run.setHighlight, Run.setStrike, Run.setFont, Run.setProp, hp] at h
  | some p =>
    refine ⟨p, rfl, ?_⟩
    cases s <;> simp only [RSetter.apply, Run.setColor, Run.setSize, Run.setSizeCs, Run.setShade, Run.setSpacing,
      Run.setBold, Run.setItalic, Run.setUnderline, Run.setHighlight, Run.setStrike, Run.setFont, Run.setProp, hp,
      Res.ok.injEq] at h <;> exact h.symm

theorem given_strO (as : List (String × String)) :
    (given as).map (fun a => (⟨⟨"w", a.1⟩, a.2⟩ : Attr)) = as.flatMap fun a => strO "w" a.1 a.2 := by
  induction as with
  | nil => rfl
  | cons a as ih =>
    unfold given at *
    rw [List.filter_cons, List.flatMap_cons, ← ih]
    by_cases h : a.2 = "" <;> simp [strO, h]

theorem put_sets (s : RSetter) (p : RPr) : Sets (rprKids p) (rprKids (s.put p)) s.tag (wEl s.tag s.attrs) := by
  unfold Sets rprKids
  simp only [List.filter_append, yes_flagN, no_flagN, yes_valN, no_valN, yes_valO, no_valO, yes_valI, no_valI,
    yes_fonts, no_fonts, yes_spacing, no_spacing, yes_shade, no_shade]
  refine ⟨?_, ?_⟩
  · cases s <;> simp [RSetter.put, RSetter.tag, RSetter.attrs, wEl, given_strO, valN, valO, optN, flagN, el, mShade,
      mSpacing, mRunFonts, strA, intO, strO]
    split <;> simp_all
  · cases s <;> simp [RSetter.put, RSetter.tag]

/-- C61, runs: a formatting call on a run changes the saved `w:r` in exactly one place: its `w:rPr` has the
element of the call, with the values given, once, and everything else is as before. -/
theorem C61_run (s : RSetter) (r r' : Run) (h : s.apply r = .ok r') :
    SetsIn "r" "rPr" (mRun r) (mRun r') fun old new => Sets old new s.tag (wEl s.tag s.attrs) := by
  obtain ⟨p, hp, rfl⟩ := apply_put h
  rcases r with ⟨sp, rp, ins, cs⟩
  obtain rfl : rp = some p := hp
  exact ⟨_, _, _, by simp only [mRun, optN, mRPr_kids, List.cons_append, List.nil_append]; rfl, .inr ⟨_, by
    simp only [mRun, optN, mRPr_kids, List.cons_append, List.nil_append]; rfl, put_sets s p⟩⟩

/-! ## Paragraphs -/

/-- The children of a `w:pPr` -/
def pprKids (p : PPr) : List Node :=
  optN mTabs p.tabs ++ optN mSpacing p.spacing ++ optN mNumPr p.numPr ++
    optN mInd p.ind ++ valN "jc" p.jc ++ optN mShade p.shade ++ valI "kern" p.kern ++
    valN "pStyle" p.style ++ valN "textAlignment" p.textAlignment ++
    valI "adjustRightInd" p.adjustRightInd ++ valI "snapToGrid" p.snapToGrid ++
    valI "kinsoku" p.kinsoku ++ valI "overflowPunct" p.overflowPunct ++ optN mRPr p.rpr

theorem mPPr_kids (p : PPr) : mPPr p = wEl "pPr" [] (pprKids p) := rfl

theorem para_setsIn {p : Para} {pp : PPr} {R : List Node → List Node → Prop}
    (h : R (pprKids p.ensureProps) (pprKids pp)) :
    SetsIn "p" "pPr" (mPara p) (mPara { p with props := some pp }) R := by
  rcases p with ⟨props, cs, f⟩
  refine ⟨_, _, _, by simp only [mPara, optN, mPPr_kids, List.cons_append, List.nil_append]; rfl, ?_⟩
  cases props with
  | none => exact .inl ⟨by simp only [mPara, optN, List.nil_append]; rfl, h⟩
  | some q => exact .inr ⟨_, by simp only [mPara, optN, mPPr_kids, List.cons_append, List.nil_append]; rfl, h⟩

/-- C61, paragraphs: `Justification` sets `w:jc` in the `w:pPr` of the saved `w:p` and nothing else. -/
theorem C61_justification (p : Para) (v : String) :
    SetsIn "p" "pPr" (mPara p) (mPara (p.justification v)) fun old new =>
      Sets old new "jc" (wEl "jc" [("val", v)]) := by
  refine para_setsIn ?_
  unfold Sets pprKids
  simp only [List.filter_append, yes_valN, no_valN, yes_valI, no_valI, yes_tabs, no_tabs, yes_spacing, no_spacing,
    yes_numPr, no_numPr, yes_ind, no_ind, yes_shade, no_shade, yes_rpr, no_rpr]
  exact ⟨by simp [valN, wEl, el, strA], by simp⟩

/-- C61, paragraphs: `Style` sets `w:pStyle` in the `w:pPr` of the saved `w:p` and nothing else. -/
theorem C61_style (p : Para) (v : String) :
    SetsIn "p" "pPr" (mPara p) (mPara (p.setStyle v)) fun old new =>
      Sets old new "pStyle" (wEl "pStyle" [("val", v)]) := by
  refine para_setsIn ?_
  unfold Sets pprKids
  simp only [List.filter_append, yes_valN, no_valN, yes_valI, no_valI, yes_tabs, no_tabs, yes_spacing, no_spacing,
    yes_numPr, no_numPr, yes_ind, no_ind, yes_shade, no_shade, yes_rpr, no_rpr]
  exact ⟨by simp [valN, wEl, el, strA], by simp⟩

/-- C61, paragraphs: `NumPr` sets `w:numPr` in the `w:pPr` of the saved `w:p`, with the number and the
level given; besides that it only makes an empty `w:rPr` if there is none. -/
theorem C61_numPr (p : Para) (id lvl : String) :
    SetsIn "p" "pPr" (mPara p) (mPara (p.setNumPr id lvl)) fun old new =>
      ∃ mid, Sets old mid "numPr" (wEl "numPr" [] [wEl "numId" [("val", id)], wEl "ilvl" [("val", lvl)]]) ∧
        new = mid ++ if old.any (isW "rPr") then [] else [wEl "rPr" []] := by
  refine para_setsIn ?_
  refine ⟨pprKids { p.ensureProps with numPr := some { numId := some id, ilvl := some lvl } }, ?_, ?_⟩
  · unfold Sets pprKids
    simp only [List.filter_append, yes_valN, no_valN, yes_valI, no_valI, yes_tabs, no_tabs, yes_spacing, no_spacing,
      yes_numPr, no_numPr, yes_ind, no_ind, yes_shade, no_shade, yes_rpr, no_rpr]
    exact ⟨by simp [valN, wEl, el, strA, optN, mNumPr], by simp⟩
  · have h : (pprKids p.ensureProps).any (isW "rPr") = p.ensureProps.rpr.isSome := by
      rw [Bool.eq_iff_iff, List.any_eq_true]
      have : (pprKids p.ensureProps).filter (isW "rPr") = optN mRPr p.ensureProps.rpr := by
        unfold pprKids
        simp only [List.filter_append, yes_valN, yes_valI, yes_tabs, yes_spacing, yes_numPr, yes_ind, yes_shade,
          yes_rpr]
        simp
      constructor
      · rintro ⟨x, hx, hw⟩
        have := this ▸ List.mem_filter.2 ⟨hx, hw⟩
        cases hr : p.ensureProps.rpr with
        | none => rw [hr] at this; cases this
        | some r => rfl
      · intro hs
        obtain ⟨r, hr⟩ := Option.isSome_iff_exists.1 hs
        have hm : mRPr r ∈ (pprKids p.ensureProps).filter (isW "rPr") := by rw [this, hr]; exact List.mem_singleton.2 rfl
        exact ⟨_, (List.mem_filter.1 hm).1, (List.mem_filter.1 hm).2⟩
    rw [h]
    unfold pprKids
    cases hr : p.ensureProps.rpr with
    | none =>
      have : mRPr {} = wEl "rPr" [] := rfl
      simp [optN, this]
    | some r => simp [optN]

/-- The paragraph mark: one property of the `w:rPr` in the `w:pPr` -/
theorem mark_sets (pp : PPr) (s : RSetter) :
    SetsKid "rPr" (fun old new => Sets old new s.tag (wEl s.tag s.attrs)) (pprKids pp)
      (pprKids { pp with rpr := some (s.put (pp.rpr.getD {})) }) := by
  refine ⟨rprKids (s.put (pp.rpr.getD {})), ?_, ?_⟩
  · unfold Sets pprKids
    simp only [List.filter_append, yes_valN, no_valN, yes_valI, no_valI, yes_tabs, no_tabs, yes_spacing, no_spacing,
      yes_numPr, no_numPr, yes_ind, no_ind, yes_shade, no_shade, yes_rpr, no_rpr]
    exact ⟨by simp [optN, mRPr_kids], by simp⟩
  · have : (pprKids pp).filter (isW "rPr") = optN mRPr pp.rpr := by
      unfold pprKids
      simp only [List.filter_append, yes_valN, yes_valI, yes_tabs, yes_spacing, yes_numPr, yes_ind, yes_shade,
        yes_rpr]
      simp
    rw [this]
    cases pp.rpr with
    | none => exact .inl ⟨rfl, put_sets s {}⟩
    | some r => exact .inr ⟨_, rfl, put_sets s r⟩

/-- C61, paragraphs: `NumFont` and `NumSize` set `w:rFonts` and `w:sz` in the `w:rPr` of the `w:pPr` and
nothing else. -/
theorem C61_mark (p : Para) (a e h t v : String) :
    SetsIn "p" "pPr" (mPara p) (mPara (p.numFont a e h t)) (SetsKid "rPr" fun old new =>
      Sets old new "rFonts" (wEl "rFonts" (given [("ascii", a), ("eastAsia", e), ("hAnsi", h), ("hint", t)]))) ∧
    SetsIn "p" "pPr" (mPara p) (mPara (p.numSize v)) (SetsKid "rPr" fun old new =>
      Sets old new "sz" (wEl "sz" [("val", v)])) :=
  ⟨para_setsIn (mark_sets _ (.font a e h t)), para_setsIn (mark_sets _ (.size v))⟩

/-! ## Tables -/

/-- The children of a `w:tblPr` -/
def tblKids (t : TblPr) : List Node :=
  optN mTblpPr t.position ++ valN "tblStyle" t.style ++
    optN (mWidth "tblW") t.width ++ valN "jc" t.jc ++ optN (mBorders "tblBorders") t.borders ++
    optN mLook t.look

/-- The children of a `w:trPr` -/
def trKids (t : TrPr) : List Node :=
  optN (fun h => el "w" "trHeight" (strO "w" "hRule" h.rule ++ intA "w" "val" h.val) [])
    t.height ++ valN "jc" t.jc

/-- The children of a `w:tcPr` -/
def tcKids (t : TcPr) : List Node :=
  optN (mWidth "tcW") t.width ++ valO "vMerge" t.vMerge ++
    valI "gridSpan" t.gridSpan ++ optN (mBorders "tcBorders") t.borders ++ optN mShade t.shade ++
    valN "vAlign" t.vAlign

/-- C61, tables: `Justification` of tables and rows sets `w:jc` in `w:tblPr` and `w:trPr`, `Shade` of
cells sets `w:shd` in `w:tcPr`, and nothing else. -/
theorem C61_table (t t' : Table) (v : String) (h : t.justification v = .ok t') :
    SetsIn "tbl" "tblPr" (mTable t) (mTable t') fun old new => Sets old new "jc" (wEl "jc" [("val", v)]) := by
  unfold Table.justification at h
  split at h
  · cases h
  · rename_i p hp
    rcases t with ⟨pp, g, rs⟩
    obtain rfl : pp = some p := hp
    simp only [Res.ok.injEq] at h; subst h
    refine ⟨[], optN mGrid g ++ rs.map mRow, tblKids { p with jc := some v }, rfl, .inr ⟨tblKids p, rfl, ?_⟩⟩
    unfold Sets tblKids
    simp only [List.filter_append, yes_valN, no_valN, yes_tblpPr, no_tblpPr, yes_width, no_width, yes_borders,
      no_borders, yes_look, no_look]
    exact ⟨by simp [valN, wEl, el, strA], by simp⟩

/-- The same for rows -/
theorem C61_row (t t' : Row) (v : String) (h : t.justification v = .ok t') :
    SetsIn "tr" "trPr" (mRow t) (mRow t') fun old new => Sets old new "jc" (wEl "jc" [("val", v)]) := by
  unfold Row.justification at h
  split at h
  · cases h
  · rename_i p hp
    rcases t with ⟨pp, cs⟩
    obtain rfl : pp = some p := hp
    simp only [Res.ok.injEq] at h; subst h
    refine ⟨[], cs.map mCell, trKids { p with jc := some v }, rfl, .inr ⟨trKids p, rfl, ?_⟩⟩
    unfold Sets trKids
    have h := fun (h : Option RowHeight) => flt_of (q := "jc") (tag_optN "trHeight"
      (fun h : RowHeight => el "w" "trHeight" (strO "w" "hRule" h.rule ++ intA "w" "val" h.val) [])
      (fun _ => ⟨_, _, rfl⟩) h)
    simp only [List.filter_append, yes_valN, no_valN]
    constructor
    · rw [(h _).1]; simp [valN, wEl, el, strA]
    · rw [(h _).2]; simp

/-- The same for cells -/
theorem C61_cell (t t' : Cell) (v c f : String) (h : t.setShade v c f = .ok t') :
    SetsIn "tc" "tcPr" (mCell t) (mCell t') fun old new =>
      Sets old new "shd" (wEl "shd" (given [("val", v), ("color", c), ("fill", f)])) := by
  unfold Cell.setShade at h
  split at h
  · cases h
  · rename_i p hp
    rcases t with ⟨pp, cs, fl⟩
    obtain rfl : pp = some p := hp
    simp only [Res.ok.injEq] at h; subst h
    refine ⟨[], cs.map mPara, tcKids { p with shade := some { val := v, color := c, fill := f } }, rfl,
      .inr ⟨tcKids p, rfl, ?_⟩⟩
    unfold Sets tcKids
    simp only [List.filter_append, yes_valN, no_valN, yes_valO, no_valO, yes_valI, no_valI, yes_width, no_width,
      yes_borders, no_borders, yes_shade, no_shade]
    exact ⟨by simp [optN, mShade, wEl, el, given_strO, strO], by simp⟩

/-! ## Texts -/

theorem tabPieces_succ (ks : List (List Char)) : ∀ n, tabPieces (n + 1) ks = tabPieces 1 ks := by
  induction ks with
  | nil => intro n; rfl
  | cons k ks ih =>
    intro n
    rw [tabPieces, tabPieces, ih (n + 1), ih 1]
    simp

theorem linePieces_succ (ks : List (List Char)) : ∀ n, linePieces (n + 1) ks = linePieces 1 ks := by
  induction ks with
  | nil => intro n; rfl
  | cons k ks ih =>
    intro n
    rw [linePieces, linePieces, ih (n + 1), ih 1]
    simp

theorem splitOn_ne (c : Char) (cs : List Char) : ∃ x xs, splitOn c cs = x :: xs := by
  cases cs with
  | nil => exact ⟨_, _, rfl⟩
  | cons a cs =>
    rw [splitOn]
    split
    · exact ⟨_, _, rfl⟩
    · split <;> exact ⟨_, _, rfl⟩

theorem splitOn_pre {c : Char} : ∀ {a : List Char} (_ : ∀ x ∈ a, x ≠ c) {b x xs}, splitOn c b = x :: xs →
    splitOn c (a ++ b) = (a ++ x) :: xs
  | [], _, _, _, _, h => h
  | y :: a, ha, b, x, xs, h => by
    have ih := splitOn_pre (a := a) (fun z hz => ha z (List.mem_cons_of_mem _ hz)) h
    rw [List.cons_append, splitOn, if_neg (ha y List.mem_cons_self), ih]
    rfl

theorem mt_text (k : List Char) (h : k ≠ []) :
    mRChild (.text { text := String.ofList k }) = wEl "t" [] [.text (String.ofList k)] := by
  have : String.ofList k ≠ "" := by
    intro e
    apply h
    have := congrArg String.toList e
    simpa using this
  simp [mRChild, mText, textN, this, strO, wEl, el]

theorem flush_pieces (k : List Char) :
    (if k.reverse = [] then [] else [RChild.text { text := String.ofList k.reverse }]).map mRChild =
      textXml.flushXml k := by
  unfold textXml.flushXml
  by_cases h : k = []
  · simp [h]
  · rw [if_neg (by simpa using h), if_neg h]
    simp only [List.map_cons, List.map_nil]
    rw [mt_text _ (by simpa using h)]

theorem tabPieces_cons (x : List Char) (xs : List (List Char)) :
    (tabPieces 1 (x :: xs)).map mRChild = wEl "tab" [] :: (tabPieces 0 (x :: xs)).map mRChild := by
  rw [tabPieces, tabPieces]
  simp [mRChild, mTab, wEl, el, strO, intO, tabPieces_succ xs 1]

theorem textXml_eq : ∀ (cs acc : List Char) (l : List Char) (ls : List (List Char)),
    (∀ c ∈ acc, c ≠ '\t') → splitOn '\n' cs = l :: ls →
    textXml acc cs = (tabPieces 0 (splitOn '\t' (acc.reverse ++ l)) ++ linePieces 1 ls).map mRChild
  | [], acc, l, ls, ha, h => by
    simp only [splitOn, List.cons.injEq] at h
    obtain ⟨rfl, rfl⟩ := h
    rw [splitOn_pre (b := []) (by simpa using ha) rfl]
    simp only [List.append_nil, tabPieces, linePieces, textXml]
    rw [← flush_pieces]
    simp
  | c :: cs, acc, l, ls, ha, h => by
    obtain ⟨x, xs, hx⟩ := splitOn_ne '\n' cs
    rw [splitOn] at h
    rw [textXml]
    by_cases hn : c = '\n'
    · rw [if_pos hn] at h
      simp only [List.cons.injEq] at h
      obtain ⟨rfl, rfl⟩ := h
      have ih := textXml_eq cs [] x xs (by simp) hx
      rw [if_neg (by rw [hn]; decide), if_pos hn, ih, hx, splitOn_pre (b := []) (by simpa using ha) rfl]
      simp only [List.append_nil, tabPieces, linePieces, linePieces_succ xs 1, List.map_append, ← flush_pieces,
        List.reverse_nil, List.nil_append]
      simp [mRChild, mBr, wEl, el, strO]
    · rw [if_neg hn, hx] at h
      simp only [List.cons.injEq] at h
      obtain ⟨rfl, rfl⟩ := h
      by_cases ht : c = '\t'
      · subst ht
        have ih := textXml_eq cs [] x xs (by simp) hx
        rw [if_pos rfl, ih]
        obtain ⟨y, ys, hy⟩ := splitOn_ne '\t' x
        have : splitOn '\t' ('\t' :: x) = [] :: y :: ys := by rw [splitOn, if_pos rfl, hy]
        rw [splitOn_pre (by simpa using ha) this]
        simp only [List.append_nil, List.reverse_nil, List.nil_append, hy]
        have e : tabPieces 0 (acc.reverse :: y :: ys) = (if acc.reverse = [] then [] else
            [RChild.text { text := String.ofList acc.reverse }]) ++ tabPieces 1 (y :: ys) := by
          rw [tabPieces]; simp
        rw [e]
        simp only [List.map_append, tabPieces_cons, ← flush_pieces]
        simp
      · have ih := textXml_eq cs (c :: acc) x xs (by
          intro d hd
          rcases List.mem_cons.1 hd with rfl | hd
          · exact ht
          · exact ha d hd) hx
        rw [if_neg ht, if_neg hn, ih]
        simp

theorem mRChildren_map : ∀ cs : List RChild, mRChildren cs = cs.map mRChild
  | [] => rfl
  | c :: cs => by rw [mRChildren, mRChildren_map cs]; rfl

theorem mPChildren_append : ∀ a b : List PChild, mPChildren (a ++ b) = mPChildren a ++ mPChildren b
  | [], b => by rw [mPChildren]; rfl
  | c :: a, b => by rw [List.cons_append, mPChildren, mPChildren, mPChildren_append a b]; rfl

/-- `b` is the element `a` with `x` added as its last child -/
def AddsKid (outer : String) (a b x : Node) : Prop :=
  ∃ kids, a = wEl outer [] kids ∧ b = wEl outer [] (kids ++ [x])

theorem addsKid (p : Para) (c : PChild) :
    AddsKid "p" (mPara p) (mPara { p with children := p.children ++ [c] }) (mPChild c) := by
  rcases p with ⟨props, cs, f⟩
  refine ⟨_, by simp only [mPara, el]; rfl, ?_⟩
  simp only [mPara, el, mPChildren_append, mPChildren, List.append_assoc]
  rfl

theorem run_xml (cs : List RChild) : mPChild (.run { rpr := some {}, children := cs }) =
    wEl "r" [] (wEl "rPr" [] :: cs.map mRChild) := by
  have : mRPr {} = wEl "rPr" [] := rfl
  simp [mPChild, mRun, mRChildren_map, optN, strO, wEl, el, this]

/-- C61, texts: `AddText` adds one run to the saved paragraph; it has a `w:t` for each piece of text
between tabs and line breaks, a `w:tab` for each tab and a `w:br` for each line break, in order. -/
theorem C61_text (p : Para) (text : String) :
    AddsKid "p" (mPara p) (mPara (p.addText text).1)
      (wEl "r" [] (wEl "rPr" [] :: textXml [] text.toList)) := by
  unfold Para.addText
  split
  · rename_i h
    have := addsKid p (.run { rpr := some {}, children := [.tab {}] })
    rw [run_xml] at this
    subst h
    exact this
  · obtain ⟨l, ls, hl⟩ := splitOn_ne '\n' text.toList
    have := addsKid p (.run { rpr := some {}, children := linePieces 0 (splitOn '\n' text.toList) })
    rw [run_xml] at this
    have e := textXml_eq text.toList [] l ls (by simp) hl
    rw [e]
    rw [hl, linePieces] at this
    simpa [Para.addRun, hl, linePieces] using this

/-- C61, tabs in runs: `AddTab` called on a run adds a `w:tab` as its last child in the file. -/
theorem C61_runTab (r : Run) : ∃ r', r.addTab = .ok r' ∧ ∃ as kids,
    mRun r = .elem ⟨"w", "r"⟩ as kids ∧ mRun r' = .elem ⟨"w", "r"⟩ as (kids ++ [wEl "tab" []]) := by
  rcases r with ⟨space, rpr, instr, children⟩
  refine ⟨_, rfl, _, _, by simp only [mRun, el]; rfl, ?_⟩
  simp only [mRun, el, mRChildren_map, List.map_append, List.append_assoc]
  rfl

/-- C61, texts: `AddTab` adds a run with a `w:tab`, `AddPageBreaks` one with a page break, `AddLink` a
`w:hyperlink` with the id of the new relationship and a run with the text in the style of links. -/
theorem C61_pieces (p : Para) (f : Doc) (text link : String) (ht : text ≠ "") :
    AddsKid "p" (mPara p) (mPara p.addTab.1) (wEl "r" [] [wEl "rPr" [], wEl "tab" []]) ∧
    AddsKid "p" (mPara p) (mPara p.addPageBreaks.1) (wEl "r" [] [wEl "rPr" [], wEl "br" [("type", "page")]]) ∧
    AddsKid "p" (mPara p) (mPara (p.addLink f text link).2.1)
      (.elem ⟨"w", "hyperlink"⟩ [⟨⟨"r", "id"⟩, (f.addLinkRelation link).2⟩]
        [wEl "r" [] [wEl "rPr" [] [wEl "rStyle" [("val", "a3")]], wEl "instrText" [] [.text text]]]) := by
  refine ⟨?_, ?_, ?_⟩
  · have := addsKid p (.run { rpr := some {}, children := [.tab {}] })
    rw [run_xml] at this; exact this
  · have := addsKid p (.run { rpr := some {}, children := [.br { type := "page" }] })
    rw [run_xml] at this; exact this
  · have := addsKid p (.link { id := (f.addLinkRelation link).2, run := { rpr := some { runStyle := some "a3" }, instr := text } })
    simp only [mPChild, mLink, mRun, ht, if_false] at this
    exact this

/-! ## The body -/

/-- `b` is the document `a` with `x` added as last element of its body -/
def AddsItem (a b x : Node) : Prop :=
  ∃ as kids, a = .elem ⟨"w", "document"⟩ as [wEl "body" [] kids] ∧
    b = .elem ⟨"w", "document"⟩ as [wEl "body" [] (kids ++ [x])]

theorem addsItem (items : List BItem) (i : BItem) :
    AddsItem (mDocument items) (mDocument (items ++ [i])) (mItem i) :=
  ⟨_, _, rfl, by simp [mDocument, wEl, el]⟩

/-- C61, body: `AddParagraph` adds an empty `w:p`, `WithA4Page` and `WithA3Page` add a `w:sectPr` with the
size of the paper in twentieths of a point. -/
theorem C61_body (f : Doc) (self : DocId) :
    AddsItem (mDocument f.items) (mDocument (f.addParagraph self).items) (wEl "p" []) ∧
    AddsItem (mDocument f.items) (mDocument f.withA4Page.items)
      (wEl "sectPr" [] [wEl "pgSz" [("w", "11906"), ("h", "16838")]]) ∧
    AddsItem (mDocument f.items) (mDocument f.withA3Page.items)
      (wEl "sectPr" [] [wEl "pgSz" [("w", "16838"), ("h", "23811")]]) := by
  refine ⟨addsItem _ _, addsItem _ (.sect { pgSz := some { w := 11906, h := 16838 } }),
    addsItem _ (.sect { pgSz := some { w := 16838, h := 23811 } })⟩

/-- The properties of a new table: its width, its lines, no special rows and columns -/
def tablePropsXml (tw : Int64) (bc : Option BorderColors) : Node :=
  let color (get : BorderColors → String) : String :=
    match bc with
    | none => "#000000"
    | some b => if get b = "" then "#000000" else get b
  wEl "tblPr" []
    [wEl "tblW" (if 0 < tw then [("w", itoa tw), ("type", "")] else [("w", "0"), ("type", "auto")]),
      bordersXml (color (·.top)) (color (·.left)) (color (·.bottom)) (color (·.right)) (color (·.insideH))
        (color (·.insideV)),
      wEl "tblLook" [("val", "0000"), ("firstRow", "0"), ("lastRow", "0"), ("firstColumn", "0"),
        ("lastColumn", "0"), ("noHBand", "0"), ("noVBand", "0")]]

theorem def_ne (s : String) : ¬ defColor s = "" := by
  unfold defColor
  split
  · decide
  · assumption

theorem border_xml (l c : String) :
    mBorder l (mkBorder (defColor c)) = wEl l [("val", "single"), ("sz", "4"), ("color", defColor c)] := by
  have h := def_ne c
  have : itoa 4 = "4" := by decide
  simp [mBorder, mkBorder, strO, intO, wEl, el, h, this]

theorem tblPr_xml (tw : Int64) (bc : Option BorderColors) :
    mTblPr (mkTblPr tw ((bc.getD {}).applyDefault)) = tablePropsXml tw bc := by
  have h0 : itoa 0 = "0" := by decide
  have hw : mWidth "tblW" (if tw > 0 then { w := tw } else { type := "auto" }) =
      wEl "tblW" (if 0 < tw then [("w", itoa tw), ("type", "")] else [("w", "0"), ("type", "auto")]) := by
    by_cases h : 0 < tw
    · rw [if_pos h, if_pos h]; rfl
    · rw [if_neg h, if_neg h]; rfl
  unfold mTblPr mkTblPr tablePropsXml
  simp only [optN, valN, mBorders, BorderColors.applyDefault, border_xml, hw, List.nil_append, List.cons_append,
    List.append_nil]
  cases bc with
  | none => rfl
  | some b => rfl

/-- C61, tables: `AddTable` adds a `w:tbl` with the given width and colours and as many `w:tr` and `w:tc`
as asked for. -/
theorem C61_addTable (f : Doc) (self : DocId) (row col tw : Int64) (bc : Option BorderColors) (f' : Doc) (t : Table)
    (bc' : Option BorderColors) (h : f.addTable self row col tw bc = .ok (f', t, bc')) :
    AddsItem (mDocument f.items) (mDocument f'.items) (wEl "tbl" []
      (tablePropsXml tw bc :: wEl "tblGrid" [] :: List.replicate row.toInt.toNat
        (wEl "tr" [] (wEl "trPr" [] :: List.replicate col.toInt.toNat
          (wEl "tc" [] [wEl "tcPr" [] [wEl "tcW" [("w", "0"), ("type", "auto")]]]))))) := by
  unfold Doc.addTable at h
  split at h
  · cases h
  split at h
  · cases h
  simp only [Res.ok.injEq, Prod.mk.injEq] at h
  obtain ⟨rfl, rfl, -⟩ := h
  refine cast (congrArg _ ?_) (addsItem f.items _)
  simp only [mItem, mTable, optN, tblPr_xml, mGrid, List.map_replicate, mRow, mCell, el, wEl, List.map_nil,
    List.cons_append, List.nil_append, List.flatMap_nil, List.append_nil]
  rfl

/-- C61, tables: `AddTableTwips` adds a `w:tbl` with a row for each height and in it a cell for each width. -/
theorem C61_addTableTwips (f : Doc) (self : DocId) (hs ws : List Int64) (tw : Int64) (bc : Option BorderColors) :
    AddsItem (mDocument f.items) (mDocument (f.addTableTwips self hs ws tw bc).1.items) (wEl "tbl" []
      (tablePropsXml tw bc ::
        wEl "tblGrid" [] ((ws.filter (0 < ·)).map fun w => wEl "gridCol" [("w", itoa w)]) ::
        hs.map fun h => wEl "tr" []
          (wEl "trPr" [] (if 0 < h then [wEl "trHeight" [("val", itoa h)]] else []) ::
            ws.map fun w => wEl "tc" [] [wEl "tcPr" [] [wEl "tcW" [("w", itoa w), ("type", "dxa")]]]))) := by
  refine cast (congrArg _ ?_) (addsItem f.items _)
  have hg : (List.map (fun w => if w > 0 then some w else none) ws).flatMap
      (optN fun n => el "w" "gridCol" (intA "w" "w" n) []) =
      (ws.filter (0 < ·)).map fun w => wEl "gridCol" [("w", itoa w)] := by
    clear hs
    induction ws with
    | nil => rfl
    | cons w ws ih =>
      rw [List.map_cons, List.flatMap_cons, ih, List.filter_cons]
      by_cases h : 0 < w
      · rw [if_pos h, if_pos (by simpa using h)]; rfl
      · rw [if_neg h, if_neg (by simpa using h)]; rfl
  simp only [mItem, mTable, optN, tblPr_xml, mGrid, hg, mRow, mCell, List.map_map, List.cons_append, List.nil_append]
  unfold wEl el
  congr 1
  congr 1
  congr 1
  refine List.map_congr_left fun h _ => ?_
  simp only [Function.comp, mRow, optN, mTrPr, valN, List.append_nil, el, List.cons_append, List.nil_append,
    List.map_map]
  congr 1
  congr 1
  by_cases hh : 0 < h
  · rw [if_pos hh, if_pos hh]; rfl
  · rw [if_neg hh, if_neg hh]; rfl

/-! ## Pictures -/

/-- The attributes `cx` and `cy` -/
def sizeXml (pre loc : String) (x y : Int64) : Node :=
  .elem ⟨pre, loc⟩ [⟨⟨"", "cx"⟩, itoa x⟩, ⟨⟨"", "cy"⟩, itoa y⟩] []

/-- C61, pictures: the picture calls add one run to the saved paragraph, with one drawing, in the text or
anchored to it; its sizes (outside and of the picture) are the good size of C18, and it shows the picture
with the relationship id that the call made. -/
theorem C61_picture [ImgEnv] (f : Doc) (p : Para) (pic : Bytes) (w h : Int64) (fmt : String)
    (hdec : ImgEnv.decodeSize pic = some (w, h, fmt))
    (hw : 0 < w.toInt) (hh : 0 ≤ h.toInt) (hb : h.toInt < 2 ^ 40) :
    ∃ x y, GoodSize w.toInt h.toInt x.toInt y.toInt ∧
      ∀ call ∈ [(p.addInlineDrawing f pic, "inline"), (p.addAnchorDrawing f pic, "anchor")],
        ∃ r n id, call.1.2.2 = .ok r ∧ AddsKid "p" (mPara p) (mPara call.1.2.1) n ∧ pictureEmbeds r = [id] ∧
          (n.find "w" "drawing").length = 1 ∧ (n.find "wp" call.2).length = 1 ∧
          n.find "wp" "extent" = [sizeXml "wp" "extent" x y] ∧
          n.find "a" "ext" = [sizeXml "a" "ext" x y] ∧
          n.find "a" "blip" = [.elem ⟨"a", "blip"⟩ [⟨⟨"r", "embed"⟩, id⟩, ⟨⟨"", "cstate"⟩, "print"⟩] []] := by
  obtain ⟨x, y, hs, hg⟩ := scaleSize_good w h hw hh hb
  refine ⟨x, y, hg, ?_⟩
  intro call hcall
  simp only [List.mem_cons, List.not_mem_nil, or_false] at hcall
  rcases hcall with rfl | rfl
  · simp only [Para.addInlineDrawing, Doc.addPicture, hdec, hs]
    refine ⟨_, _, _, rfl, addsKid p _, rfl, ?_, ?_, ?_, ?_, ?_⟩ <;> rfl
  · simp only [Para.addAnchorDrawing, Doc.addPicture, hdec, hs]
    refine ⟨_, _, _, rfl, addsKid p _, rfl, ?_, ?_, ?_, ?_, ?_⟩ <;> rfl

/-- C61, pictures: after `Size(w, h)` on the drawing of a picture call, the saved drawing has the sizes `w`
and `h` outside and on the picture, and shows the same picture. -/
theorem C61_size (idn id : Int64) (rid : String) (x y w h : Int64) :
    ∀ dr ∈ [({ inl := some ((mkInlinePic idn id rid x y).setSize w h) } : Drawing),
        { anchor := some ((mkAnchorPic idn id rid x y).setSize w h) }],
      (mDrawing dr).find "wp" "extent" = [sizeXml "wp" "extent" w h] ∧
      (mDrawing dr).find "a" "ext" = [sizeXml "a" "ext" w h] ∧
      (mDrawing dr).find "a" "blip" =
        [.elem ⟨"a", "blip"⟩ [⟨⟨"r", "embed"⟩, rid⟩, ⟨⟨"", "cstate"⟩, "print"⟩] []] := by
  intro dr hd
  simp only [List.mem_cons, List.not_mem_nil, or_false] at hd
  rcases hd with rfl | rfl <;> exact ⟨rfl, rfl, rfl⟩

/-! ## Shapes -/

theorem findL_append (pre loc : String) : ∀ a b : List Node, findL pre loc (a ++ b) = findL pre loc a ++ findL pre loc b
  | [], b => by simp [findL]
  | n :: a, b => by simp [findL, findL_append pre loc a b]

theorem findL_optN {α : Type} {pre loc : String} {m : α → Node} (h : ∀ a, (m a).find pre loc = []) (o : Option α) :
    findL pre loc (optN m o) = [] := by
  cases o with
  | none => rfl
  | some a => simp [optN, findL, h a]

theorem findL_flag {pre loc : String} {b : Bool} {l : String} (h : l ≠ loc) : findL pre loc (flagN b "a" l) = [] := by
  cases b <;> simp [flagN, findL, Node.find, el, h]

/-- The elements of a line -/
def lineNames : List String := ["ln", "noFill", "solidFill", "srgbClr", "prstDash", "miter", "round", "headEnd", "tailEnd"]

theorem find_line {pre loc : String} (h : loc ∉ lineNames) (l : Line) : (mLine l).find pre loc = [] := by
  simp only [lineNames, List.mem_cons, List.not_mem_nil, or_false, not_or] at h
  obtain ⟨h1, h2, h3, h4, h5, h6, h7, h8, h9⟩ := h
  have e1 : ∀ c, (mSolidFill c).find pre loc = [] := by
    intro c
    have : findL pre loc (optN (fun v => el "a" "srgbClr" (strA "" "val" v) []) c) = [] :=
      findL_optN (fun a => by simp [el, Node.find, findL, Ne.symm h4]) c
    simp [mSolidFill, el, Node.find, Ne.symm h3, this, findL_optN]
    exact this
  unfold mLine
  simp only [el, Node.find, findL_append]
  rw [if_neg (by simp [Ne.symm h1]), findL_flag (Ne.symm h2), findL_optN e1,
    findL_optN (fun a => by simp [Node.find, findL, Ne.symm h5]),
    findL_optN (fun a => by simp [Node.find, findL, Ne.symm h6]), findL_flag (Ne.symm h7),
    findL_optN (fun a => by simp [mLineEnd, el, Node.find, findL, Ne.symm h8]),
    findL_optN (fun a => by simp [mLineEnd, el, Node.find, findL, Ne.symm h9])]
  rfl

/-- What is in the graphic of a shape -/
structure ShapeFound (w h : Int64) (bw prst : String) (g : Node) : Prop where
  drawing : g.find "w" "drawing" = []
  inl : g.find "wp" "inline" = []
  anchor : g.find "wp" "anchor" = []
  extent : g.find "wp" "extent" = []
  wsp : (g.find "wps" "wsp").length = 1
  ext : g.find "a" "ext" = [sizeXml "a" "ext" w h]
  geom : (g.find "a" "prstGeom").map Node.attrsOf = [[⟨⟨"", "prst"⟩, prst⟩]]
  spPr : (g.find "wps" "spPr").map Node.attrsOf = [[⟨⟨"", "bwMode"⟩, bw⟩]]

theorem shape_found (w h : Int64) (bw prst : String) (ln : Option Line) :
    ShapeFound w h bw prst (mGraphic (mkShapeGraphic w h bw prst ln)) := by
  have e := fun pre loc (h : loc ∉ lineNames) => findL_optN (find_line (pre := pre) h) ln
  have hs : mGraphic (mkShapeGraphic w h bw prst ln) =
      .elem ⟨"a", "graphic"⟩ [⟨⟨"xmlns", "a"⟩, xmlnsDrawingMain⟩] [.elem ⟨"a", "graphicData"⟩ [⟨⟨"", "uri"⟩, xmlnsWPS⟩]
        [.elem ⟨"wps", "wsp"⟩ [] [mCNvCnPr true,
          .elem ⟨"wps", "spPr"⟩ [⟨⟨"", "bwMode"⟩, bw⟩]
            (mXfrm { ext := { cx := w, cy := h } } :: mPrstGeom { prst := prst } :: el "a" "noFill" [] [] :: optN mLine ln),
          mBodyPr {}]]] := by
    simp only [mkShapeGraphic, mGraphic, mGraphicDataO, mGraphicData, optN, mShapeO, mShape, mShapePr, mCanvasO, mGroupO,
      mTextBoxO, flagN, if_true, el, List.nil_append, List.append_nil, List.cons_append, List.append_assoc]
    rfl
  have e1 : ∀ (pre loc : String), loc ∉ lineNames → ∀ x y z, findL pre loc (x :: y :: z :: optN mLine ln) =
      x.find pre loc ++ (y.find pre loc ++ z.find pre loc) := by
    intro pre loc h x y z
    simp [findL, e pre loc h]
  rw [hs]
  refine ⟨?_, ?_, ?_, ?_, ?_, ?_, ?_, ?_⟩ <;> simp only [Node.find, findL, e1, e, lineNames, List.mem_cons,
    List.not_mem_nil, or_false, String.reduceEq, not_false_eq_true] <;> rfl

/-- C61, shapes: the shape calls add one run to the saved paragraph, with one drawing, in the text or
anchored to it, that has one shape of the given kind and size. -/
theorem C61_shape (f : Doc) (p : Para) (w h : Int64) (name bw prst : String) (ln : Option Line) :
    ∀ call ∈ [(p.addInlineShape f w h name bw prst ln, "inline"), (p.addAnchorShape f w h name bw prst ln, "anchor")],
      ∃ n, AddsKid "p" (mPara p) (mPara call.1.2.1) n ∧
        (n.find "w" "drawing").length = 1 ∧ (n.find "wp" call.2).length = 1 ∧ (n.find "wps" "wsp").length = 1 ∧
        n.find "wp" "extent" = [sizeXml "wp" "extent" w h] ∧
        n.find "a" "ext" = [sizeXml "a" "ext" w h] ∧
        (n.find "a" "prstGeom").map Node.attrsOf = [[⟨⟨"", "prst"⟩, prst⟩]] ∧
        (n.find "wps" "spPr").map Node.attrsOf = [[⟨⟨"", "bwMode"⟩, bw⟩]] := by
  intro call hcall
  simp only [List.mem_cons, List.not_mem_nil, or_false] at hcall
  have hg := shape_found w h bw prst ln
  rcases hcall with rfl | rfl
  · refine ⟨_, addsKid p _, ?_⟩
    simp only [mPChild, drawingRun, mRun, mRChildren, mRChild, mDrawing, mInlineO, mAnchorO, mInline, mGraphicO]
    generalize mGraphic (mkShapeGraphic w h bw prst ln) = g at hg ⊢
    simp [optN, el, Node.find, findL, hg.drawing, hg.inl, hg.extent, hg.wsp, hg.ext, hg.geom, hg.spPr, mRPr, flagN, valN,
      valO, valI, mExtent, mEffectExtent, mDocPr, mFramePr, sizeXml, intA]
  · refine ⟨_, addsKid p _, ?_⟩
    simp only [mPChild, drawingRun, mRun, mRChildren, mRChild, mDrawing, mInlineO, mAnchorO, mAnchor, mGraphicO]
    generalize mGraphic (mkShapeGraphic w h bw prst ln) = g at hg ⊢
    simp [optN, el, Node.find, findL, hg.drawing, hg.anchor, hg.extent, hg.wsp, hg.ext, hg.geom, hg.spPr, mRPr, flagN, valN,
      valO, valI, mExtent, mEffectExtent, mDocPr, mFramePr, sizeXml, intA, mSimplePos, mPosition]

/-! ## What is not as it should be -/

/-- C61 is false of `Spacing` on runs: in a `w:rPr` the space between characters is the attribute `w:val` of
`w:spacing` (ECMA-376, 17.3.2.35), and no `w:spacing` that the call writes has it. -/
theorem C61_spacing_unused (r r' : Run) (n : Int64) (h : r.setSpacing n = .ok r') :
    ∃ as ps rest, mRun r' = .elem ⟨"w", "r"⟩ as (wEl "rPr" [] ps :: rest) ∧
      ∃ x, ps.filter (isW "spacing") = [x] ∧ ∀ a ∈ x.attrsOf, a.name ≠ ⟨"w", "val"⟩ := by
  obtain ⟨as, rest, ps, h1, h2⟩ := C61_run (.spacing n) r r' h
  refine ⟨as, ps, rest, h1, ?_⟩
  have h3 : ps.filter (isW "spacing") = [wEl "spacing" (RSetter.attrs (.spacing n))] := by
    rcases h2 with ⟨_, h2⟩ | ⟨_, _, h2⟩ <;> exact h2.1
  refine ⟨_, h3, ?_⟩
  intro a ha
  simp only [wEl, Node.attrsOf, RSetter.attrs] at ha
  split at ha
  · cases ha
  · obtain rfl := List.mem_singleton.1 ha
    simp

/-! ## The hypotheses are met -/

example : ∃ r', (RSetter.bold).apply { rpr := some { size := some "24", iCs := true } } = .ok r' ∧
    mRun r' = wEl "r" [] [wEl "rPr" [] [wEl "b" [], wEl "iCs" [], wEl "sz" [("val", "24")]]] := ⟨_, rfl, rfl⟩

example : ∃ t', Table.justification { props := some { look := some {} } } "center" = .ok t' ∧
    mTable t' = wEl "tbl" [] [wEl "tblPr" [] [wEl "jc" [("val", "center")],
      wEl "tblLook" [("val", ""), ("firstRow", "0"), ("lastRow", "0"), ("firstColumn", "0"),
        ("lastColumn", "0"), ("noHBand", "0"), ("noVBand", "0")]]] := ⟨_, rfl, rfl⟩

example : ∃ r', Row.justification { props := some {} } "left" = .ok r' := ⟨_, rfl⟩
example : ∃ c', Cell.setShade { props := some { vAlign := some "top" } } "clear" "auto" "FF0000" = .ok c' := ⟨_, rfl⟩
example : ∃ f' t bc, Doc.new.addTable 0 2 3 0 none = .ok (f', t, bc) ∧ t.rows.length = 2 := ⟨_, _, _, rfl, rfl⟩

example : textXml [] "a\tb\n\nc".toList =
    [wEl "t" [] [.text "a"], wEl "tab" [], wEl "t" [] [.text "b"], wEl "br" [], wEl "br" [], wEl "t" [] [.text "c"]] := by
  rfl

section
local instance oxImgEnv : ImgEnv := ⟨fun _ => some (10, 20, "png")⟩
example : (ImgEnv.decodeSize [1] : Option (Int64 × Int64 × String)) = some (10, 20, "png") ∧
    0 < (10 : Int64).toInt ∧ 0 ≤ (20 : Int64).toInt ∧ (20 : Int64).toInt < 2 ^ 40 :=
  ⟨rfl, by decide, by decide, by decide⟩
end

end Docx
