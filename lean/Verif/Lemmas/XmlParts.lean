import Verif.Lemmas.XmlTree
import Verif.SpecXml

/-!
# Reading back what was written: the parts without nested paragraphs
-/

namespace Docx

set_option linter.unusedSectionVars false

/-- A pointer field decoded by `DecodeElement` -/
macro "tsub% " g:term:max l:term:max f:term:max : term =>
  `(takes_sub $g rfl $l $f rfl rfl)

variable [GoEnv]

theorem dec_shade (x : Shade) : Decodes (unShade (mShade x).as) (mShade x).kids x := by
  have h : AttrTakes shadeAttr {} _ x :=
    (at_strO (pre := "w") (loc := "val") x.val (fun z => ({ val := z } : Shade)) rfl) |>.append
    (at_strO (pre := "w") (loc := "color") x.color (fun z => ({ val := x.val, color := z } : Shade)) rfl) |>.append
    (at_strO (pre := "w") (loc := "fill") x.fill (fun z => ({ val := x.val, color := x.color, fill := z } : Shade)) rfl) |>.append
    (at_strO (pre := "w") (loc := "themeFill") x.themeFill (fun z => ({ val := x.val, color := x.color, fill := x.fill, themeFill := z } : Shade)) rfl) |>.append
    (at_strO (pre := "w") (loc := "themeFillTint") x.themeFillTint (fun z => ({ val := x.val, color := x.color, fill := x.fill, themeFill := x.themeFill, themeFillTint := z } : Shade)) rfl)
  exact decodes_leaf h

theorem dec_spacing (x : Spacing) : Decodes (unSpacing (mSpacing x).as) (mSpacing x).kids x := by
  have h : AttrTakes spacingAttr {} _ x :=
    (at_intO (pre := "w") (loc := "val") x.val (fun z => ({ val := z } : Spacing)) rfl) |>.append
    (at_intO (pre := "w") (loc := "beforeLines") x.beforeLines (fun z => ({ val := x.val, beforeLines := z } : Spacing)) rfl) |>.append
    (at_intO (pre := "w") (loc := "before") x.before (fun z => ({ val := x.val, beforeLines := x.beforeLines, before := z } : Spacing)) rfl) |>.append
    (at_intO (pre := "w") (loc := "line") x.line (fun z => ({ val := x.val, beforeLines := x.beforeLines, before := x.before, line := z } : Spacing)) rfl) |>.append
    (at_strO (pre := "w") (loc := "lineRule") x.lineRule (fun z => ({ val := x.val, beforeLines := x.beforeLines, before := x.before, line := x.line, lineRule := z } : Spacing)) rfl)
  exact decodes_leaf h

theorem dec_ind (x : Ind) : Decodes (unInd (mInd x).as) (mInd x).kids x := by
  have h : AttrTakes indAttr {} _ x :=
    (at_intON (pre := "w") (loc := "leftChars") x.leftChars (fun z => ({ leftChars := z } : Ind)) rfl) |>.append
    (at_intON (pre := "w") (loc := "left") x.left (fun z => ({ leftChars := x.leftChars, left := z } : Ind)) rfl) |>.append
    (at_intON (pre := "w") (loc := "firstLineChars") x.firstLineChars (fun z => ({ leftChars := x.leftChars, left := x.left, firstLineChars := z } : Ind)) rfl) |>.append
    (at_intON (pre := "w") (loc := "firstLine") x.firstLine (fun z => ({ leftChars := x.leftChars, left := x.left, firstLineChars := x.firstLineChars, firstLine := z } : Ind)) rfl) |>.append
    (at_intON (pre := "w") (loc := "hangingChars") x.hangingChars (fun z => ({ leftChars := x.leftChars, left := x.left, firstLineChars := x.firstLineChars, firstLine := x.firstLine, hangingChars := z } : Ind)) rfl) |>.append
    (at_intON (pre := "w") (loc := "hanging") x.hanging (fun z => ({ leftChars := x.leftChars, left := x.left, firstLineChars := x.firstLineChars, firstLine := x.firstLine, hangingChars := x.hangingChars, hanging := z } : Ind)) rfl)
  exact decodes_leaf h

theorem dec_tab (x : Tab) : Decodes (unTab (mTab x).as) (mTab x).kids x := by
  have h : AttrTakes tabAttr {} _ x :=
    (at_strO (pre := "w") (loc := "val") x.val (fun z => ({ val := z } : Tab)) rfl) |>.append
    (at_intON (pre := "w") (loc := "pos") x.position (fun z => ({ val := x.val, position := z } : Tab)) rfl)
  exact decodes_leaf h

theorem dec_tabs (ts : List Tab) : Decodes unTabs (mTabs ts).kids ts := by
  have h := takes_list (step := tabsStep) (chars := fun s _ => s) (f := mTab) (g := fun t => [t]) ts []
    (fun ys => ys) fun t _ ys => tsub% (tabsStep_good 0) (dec_tab t) (fun w => ys ++ [w])
  simp only [List.nil_append, List.flatMap_singleton'] at h
  exact decodes_loop (tabsStep_good 0) h

theorem dec_runFonts (x : RunFonts) : Decodes (unRunFonts (mRunFonts x).as) (mRunFonts x).kids x := by
  have h : AttrTakes runFontsAttr {} _ x :=
    (at_strO (pre := "w") (loc := "ascii") x.ascii (fun z => ({ ascii := z } : RunFonts)) rfl) |>.append
    (at_strO (pre := "w") (loc := "eastAsia") x.eastAsia (fun z => ({ ascii := x.ascii, eastAsia := z } : RunFonts)) rfl) |>.append
    (at_strO (pre := "w") (loc := "hAnsi") x.hAnsi (fun z => ({ ascii := x.ascii, eastAsia := x.eastAsia, hAnsi := z } : RunFonts)) rfl) |>.append
    (at_strO (pre := "w") (loc := "hint") x.hint (fun z => ({ ascii := x.ascii, eastAsia := x.eastAsia, hAnsi := x.hAnsi, hint := z } : RunFonts)) rfl)
  exact decodes_leaf h

theorem dec_rpr (x : RPr) : Decodes unRPr (mRPr x).kids x := by
  have h : Takes rprStep {} _ x :=
    (takes_optN (f := mRunFonts) x.fonts (fun z => ({ fonts := z } : RPr)) fun y => tsub% (rprStep_good 0) (dec_runFonts y) (fun w => (fun z => ({ fonts := z } : RPr)) (some w))) |>.append
    (takes_flagN (pre := "w") (loc := "b") (rprStep_good 0) x.bold (fun z => ({ fonts := x.fonts, bold := z } : RPr)) fun _ => rfl) |>.append
    (takes_flagN (pre := "w") (loc := "iCs") (rprStep_good 0) x.iCs (fun z => ({ fonts := x.fonts, bold := x.bold, iCs := z } : RPr)) fun _ => rfl) |>.append
    (takes_flagN (pre := "w") (loc := "i") (rprStep_good 0) x.italic (fun z => ({ fonts := x.fonts, bold := x.bold, iCs := x.iCs, italic := z } : RPr)) fun _ => rfl) |>.append
    (takes_valO (loc := "highlight") (rprStep_good 0) x.highlight (fun z => ({ fonts := x.fonts, bold := x.bold, iCs := x.iCs, italic := x.italic, highlight := z } : RPr)) fun _ _ => rfl) |>.append
    (takes_valN (loc := "color") (rprStep_good 0) x.color (fun z => ({ fonts := x.fonts, bold := x.bold, iCs := x.iCs, italic := x.italic, highlight := x.highlight, color := z } : RPr)) fun _ _ => rfl) |>.append
    (takes_valN (loc := "sz") (rprStep_good 0) x.size (fun z => ({ fonts := x.fonts, bold := x.bold, iCs := x.iCs, italic := x.italic, highlight := x.highlight, color := x.color, size := z } : RPr)) fun _ _ => rfl) |>.append
    (takes_valN (loc := "szCs") (rprStep_good 0) x.sizeCs (fun z => ({ fonts := x.fonts, bold := x.bold, iCs := x.iCs, italic := x.italic, highlight := x.highlight, color := x.color, size := x.size, sizeCs := z } : RPr)) fun _ _ => rfl) |>.append
    (takes_optN (f := mSpacing) x.spacing (fun z => ({ fonts := x.fonts, bold := x.bold, iCs := x.iCs, italic := x.italic, highlight := x.highlight, color := x.color, size := x.size, sizeCs := x.sizeCs, spacing := z } : RPr)) fun y => tsub% (rprStep_good 0) (dec_spacing y) (fun w => (fun z => ({ fonts := x.fonts, bold := x.bold, iCs := x.iCs, italic := x.italic, highlight := x.highlight, color := x.color, size := x.size, sizeCs := x.sizeCs, spacing := z } : RPr)) (some w))) |>.append
    (takes_valN (loc := "rStyle") (rprStep_good 0) x.runStyle (fun z => ({ fonts := x.fonts, bold := x.bold, iCs := x.iCs, italic := x.italic, highlight := x.highlight, color := x.color, size := x.size, sizeCs := x.sizeCs, spacing := x.spacing, runStyle := z } : RPr)) fun _ _ => rfl) |>.append
    (takes_valN (loc := "pStyle") (rprStep_good 0) x.style (fun z => ({ fonts := x.fonts, bold := x.bold, iCs := x.iCs, italic := x.italic, highlight := x.highlight, color := x.color, size := x.size, sizeCs := x.sizeCs, spacing := x.spacing, runStyle := x.runStyle, style := z } : RPr)) fun _ _ => rfl) |>.append
    (takes_optN (f := mShade) x.shade (fun z => ({ fonts := x.fonts, bold := x.bold, iCs := x.iCs, italic := x.italic, highlight := x.highlight, color := x.color, size := x.size, sizeCs := x.sizeCs, spacing := x.spacing, runStyle := x.runStyle, style := x.style, shade := z } : RPr)) fun y => tsub% (rprStep_good 0) (dec_shade y) (fun w => (fun z => ({ fonts := x.fonts, bold := x.bold, iCs := x.iCs, italic := x.italic, highlight := x.highlight, color := x.color, size := x.size, sizeCs := x.sizeCs, spacing := x.spacing, runStyle := x.runStyle, style := x.style, shade := z } : RPr)) (some w))) |>.append
    (takes_valI (loc := "kern") (rprStep_good 0) x.kern (fun z => ({ fonts := x.fonts, bold := x.bold, iCs := x.iCs, italic := x.italic, highlight := x.highlight, color := x.color, size := x.size, sizeCs := x.sizeCs, spacing := x.spacing, runStyle := x.runStyle, style := x.style, shade := x.shade, kern := z } : RPr)) (fun _ => rfl)) |>.append
    (takes_valO (loc := "u") (rprStep_good 0) x.underline (fun z => ({ fonts := x.fonts, bold := x.bold, iCs := x.iCs, italic := x.italic, highlight := x.highlight, color := x.color, size := x.size, sizeCs := x.sizeCs, spacing := x.spacing, runStyle := x.runStyle, style := x.style, shade := x.shade, kern := x.kern, underline := z } : RPr)) fun _ _ => rfl) |>.append
    (takes_valN (loc := "vertAlign") (rprStep_good 0) x.vertAlign (fun z => ({ fonts := x.fonts, bold := x.bold, iCs := x.iCs, italic := x.italic, highlight := x.highlight, color := x.color, size := x.size, sizeCs := x.sizeCs, spacing := x.spacing, runStyle := x.runStyle, style := x.style, shade := x.shade, kern := x.kern, underline := x.underline, vertAlign := z } : RPr)) fun _ _ => rfl) |>.append
    (takes_valN (loc := "strike") (rprStep_good 0) x.strike (fun z => ({ fonts := x.fonts, bold := x.bold, iCs := x.iCs, italic := x.italic, highlight := x.highlight, color := x.color, size := x.size, sizeCs := x.sizeCs, spacing := x.spacing, runStyle := x.runStyle, style := x.style, shade := x.shade, kern := x.kern, underline := x.underline, vertAlign := x.vertAlign, strike := z } : RPr)) fun _ _ => rfl)
  exact decodes_loop (rprStep_good 0) h

theorem takes_numPr (o : Option NumPr) (s : PPr) : Takes pprStep s (optN mNumPr o) s := by
  cases o with
  | none => exact TakesC.nil
  | some n => exact takes_skip (pprStep_good 0) rfl rfl

theorem dec_ppr (x : PPr) : Decodes unPPr (mPPr x).kids (normPPr x) := by
  have h : Takes pprStep {} _ (normPPr x) :=
    (takes_optN (f := mTabs) x.tabs (fun z => ({ tabs := z } : PPr)) fun y => tsub% (pprStep_good 0) (dec_tabs y) (fun w => (fun z => ({ tabs := z } : PPr)) (some w))) |>.append
    (takes_optN (f := mSpacing) x.spacing (fun z => ({ tabs := x.tabs, spacing := z } : PPr)) fun y => tsub% (pprStep_good 0) (dec_spacing y) (fun w => (fun z => ({ tabs := x.tabs, spacing := z } : PPr)) (some w))) |>.append
    (takes_numPr x.numPr _) |>.append
    (takes_optN (f := mInd) x.ind (fun z => ({ tabs := x.tabs, spacing := x.spacing, ind := z } : PPr)) fun y => tsub% (pprStep_good 0) (dec_ind y) (fun w => (fun z => ({ tabs := x.tabs, spacing := x.spacing, ind := z } : PPr)) (some w))) |>.append
    (takes_valN (loc := "jc") (pprStep_good 0) x.jc (fun z => ({ tabs := x.tabs, spacing := x.spacing, ind := x.ind, jc := z } : PPr)) fun _ _ => rfl) |>.append
    (takes_optN (f := mShade) x.shade (fun z => ({ tabs := x.tabs, spacing := x.spacing, ind := x.ind, jc := x.jc, shade := z } : PPr)) fun y => tsub% (pprStep_good 0) (dec_shade y) (fun w => (fun z => ({ tabs := x.tabs, spacing := x.spacing, ind := x.ind, jc := x.jc, shade := z } : PPr)) (some w))) |>.append
    (takes_valI (loc := "kern") (pprStep_good 0) x.kern (fun z => ({ tabs := x.tabs, spacing := x.spacing, ind := x.ind, jc := x.jc, shade := x.shade, kern := z } : PPr)) (fun _ => rfl)) |>.append
    (takes_valN (loc := "pStyle") (pprStep_good 0) x.style (fun z => ({ tabs := x.tabs, spacing := x.spacing, ind := x.ind, jc := x.jc, shade := x.shade, kern := x.kern, style := z } : PPr)) fun _ _ => rfl) |>.append
    (takes_valN (loc := "textAlignment") (pprStep_good 0) x.textAlignment (fun z => ({ tabs := x.tabs, spacing := x.spacing, ind := x.ind, jc := x.jc, shade := x.shade, kern := x.kern, style := x.style, textAlignment := z } : PPr)) fun _ _ => rfl) |>.append
    (takes_valI (loc := "adjustRightInd") (pprStep_good 0) x.adjustRightInd (fun z => ({ tabs := x.tabs, spacing := x.spacing, ind := x.ind, jc := x.jc, shade := x.shade, kern := x.kern, style := x.style, textAlignment := x.textAlignment, adjustRightInd := z } : PPr)) (fun _ => rfl)) |>.append
    (takes_valI (loc := "snapToGrid") (pprStep_good 0) x.snapToGrid (fun z => ({ tabs := x.tabs, spacing := x.spacing, ind := x.ind, jc := x.jc, shade := x.shade, kern := x.kern, style := x.style, textAlignment := x.textAlignment, adjustRightInd := x.adjustRightInd, snapToGrid := z } : PPr)) (fun _ => rfl)) |>.append
    (takes_valI (loc := "kinsoku") (pprStep_good 0) x.kinsoku (fun z => ({ tabs := x.tabs, spacing := x.spacing, ind := x.ind, jc := x.jc, shade := x.shade, kern := x.kern, style := x.style, textAlignment := x.textAlignment, adjustRightInd := x.adjustRightInd, snapToGrid := x.snapToGrid, kinsoku := z } : PPr)) (fun _ => rfl)) |>.append
    (takes_valI (loc := "overflowPunct") (pprStep_good 0) x.overflowPunct (fun z => ({ tabs := x.tabs, spacing := x.spacing, ind := x.ind, jc := x.jc, shade := x.shade, kern := x.kern, style := x.style, textAlignment := x.textAlignment, adjustRightInd := x.adjustRightInd, snapToGrid := x.snapToGrid, kinsoku := x.kinsoku, overflowPunct := z } : PPr)) (fun _ => rfl)) |>.append
    (takes_optN (f := mRPr) x.rpr (fun z => ({ tabs := x.tabs, spacing := x.spacing, ind := x.ind, jc := x.jc, shade := x.shade, kern := x.kern, style := x.style, textAlignment := x.textAlignment, adjustRightInd := x.adjustRightInd, snapToGrid := x.snapToGrid, kinsoku := x.kinsoku, overflowPunct := x.overflowPunct, rpr := z } : PPr)) fun y => tsub% (pprStep_good 0) (dec_rpr y) (fun w => (fun z => ({ tabs := x.tabs, spacing := x.spacing, ind := x.ind, jc := x.jc, shade := x.shade, kern := x.kern, style := x.style, textAlignment := x.textAlignment, adjustRightInd := x.adjustRightInd, snapToGrid := x.snapToGrid, kinsoku := x.kinsoku, overflowPunct := x.overflowPunct, rpr := z } : PPr)) (some w)))
  exact decodes_loop (pprStep_good 0) h

theorem dec_br (x : Br) : Decodes (unBr (mBr x).as) (mBr x).kids x := by
  have h : AttrTakes (fun (s : Br) _ _ => (s, none)) { type := getAtt (mBr x).as "type" } (mBr x).as x := by
    cases x with
    | mk t =>
      simp only [mBr, el, Node.as, strO]
      split
      · next e => subst e; rfl
      · rfl
  exact decodes_leaf h

theorem textStep_good (k : Nat) : StepGood k (fun (s : Text) (_ : String) (_ : List Attr) => flat s) :=
  fun s _ _ => good_flat k s (by simp)

theorem dec_text (x : Text) : Decodes (unText (mText x).as) (mText x).kids x := by
  have ha : AttrTakes textAttr {} _ ({ space := x.space } : Text) :=
    (at_strO (pre := "xml") (loc := "space") x.space (fun y => ({ space := y } : Text)) rfl)
  have h : TakesC (fun (s : Text) (_ : String) (_ : List Attr) => flat s) (fun s c => { s with text := c })
      ({ space := x.space } : Text) (textN x.text) x := by
    unfold textN
    split
    · next e => exact TakesC.nil' (by cases x; simp_all)
    · exact takes_text (textStep_good 0) _ rfl
  exact decodes_withAttrs ha (decodes_loopC (textStep_good 0) h)

theorem dec_extent (x : Ext) : Decodes (unExtent (mExtent x).as) (mExtent x).kids x := by
  have h : AttrTakes extAttr {} _ x :=
    (at_intA (pre := "") (loc := "cx") x.cx (set := (fun z => ({ cx := z } : Ext))) rfl) |>.append
    (at_intA (pre := "") (loc := "cy") x.cy (set := (fun z => ({ cx := x.cx, cy := z } : Ext))) rfl)
  exact decodes_leaf h

theorem dec_effectExtent (x : EffectExtent) : Decodes (unEffectExtent (mEffectExtent x).as) (mEffectExtent x).kids x := by
  have h : AttrTakes effAttr {} _ x :=
    (at_intA (pre := "") (loc := "l") x.l (set := (fun z => ({ l := z } : EffectExtent))) rfl) |>.append
    (at_intA (pre := "") (loc := "t") x.t (set := (fun z => ({ l := x.l, t := z } : EffectExtent))) rfl) |>.append
    (at_intA (pre := "") (loc := "r") x.r (set := (fun z => ({ l := x.l, t := x.t, r := z } : EffectExtent))) rfl) |>.append
    (at_intA (pre := "") (loc := "b") x.b (set := (fun z => ({ l := x.l, t := x.t, r := x.r, b := z } : EffectExtent))) rfl)
  exact decodes_leaf h

theorem dec_docPr (x : IdName) : Decodes (unIdName (mDocPr x).as) (mDocPr x).kids x := by
  have h : AttrTakes idNameAttr {} _ x :=
    (at_intA (pre := "") (loc := "id") x.id (set := (fun z => ({ id := z } : IdName))) rfl) |>.append
    (at_strO (pre := "") (loc := "name") x.name (fun z => ({ id := x.id, name := z } : IdName)) rfl)
  exact decodes_leaf h

theorem dec_idName (pre : String) (x : IdName) :
    Decodes (unIdName (mIdName pre x).as) (mIdName pre x).kids x := by
  have h : AttrTakes idNameAttr {} _ x :=
    (at_intA (pre := "") (loc := "id") x.id (set := (fun y => ({ id := y } : IdName))) rfl).append
    (at_strA (pre := "") (loc := "name") (v := x.name) rfl)
  exact decodes_leaf h

theorem dec_framePr (x : FrameLocks) : Decodes unFramePr (mFramePr x).kids x := by
  refine decodes_loop (frameStep_good 0) (takes_flat (frameStep_good 0) rfl (fun d => ?_) TakesC.nil)
  cases x with
  | mk a n =>
    show flatIntSt (⟨getAtt (strO "xmlns" "a" a ++ intO "" "noChangeAspect" n) "a", 0⟩ : FrameLocks)
      (getAtt (strO "xmlns" "a" a ++ intO "" "noChangeAspect" n) "noChangeAspect") _ d = _
    have h1 : getAtt (strO "xmlns" "a" a ++ intO "" "noChangeAspect" n) "a" = a := by
      unfold strO intO; split <;> split <;> simp_all [getAtt]
    have h2 : getAtt (strO "xmlns" "a" a ++ intO "" "noChangeAspect" n) "noChangeAspect" =
        if n = 0 then "" else itoa n := by
      unfold strO intO; split <;> split <;> simp_all [getAtt]
    rw [h1, h2]
    by_cases hn : n = 0
    · simp [hn, flatIntSt]
    · simp [hn, flatIntSt, itoa_ne_empty, getInt_itoa]

theorem dec_cNvPicPr (x : Option Int64) : Decodes (unCNvPicPr none) (mCNvPicPr x).kids x := by
  have h : Takes picLocksStep none _ x :=
    takes_optN (f := fun n => el "a" "picLocks" (intA "" "noChangeAspect" n) []) x (fun y => y) fun y => by
      refine takes_flat (picLocksStep_good 0) rfl (fun d => ?_) TakesC.nil
      show flatInt none (itoa y) _ d = _
      rw [flatInt, if_neg (itoa_ne_empty y), getInt_itoa]
  exact decodes_loop (picLocksStep_good 0) h

theorem dec_nvPicPr (x : NvPicPr) : Decodes unNvPicPr (mNvPicPr x).kids x := by
  refine decodes_loop (nvPicPrStep_good 0) (TakesC.cons (s' := { cNvPr := x.cNvPr }) ?_ ?_)
  · refine takes_flat (nvPicPrStep_good 0) rfl (fun d => ?_) TakesC.nil
    have h1 : getAtt (intA "" "id" x.cNvPr.id ++ strA "" "name" x.cNvPr.name) "id" = itoa x.cNvPr.id := rfl
    have h2 : getAtt (intA "" "id" x.cNvPr.id ++ strA "" "name" x.cNvPr.name) "name" = x.cNvPr.name := rfl
    simp only [nvPicPrStep, h1, h2, itoa_ne_empty, if_false, getInt_itoa, flat]
  · exact tsub% (nvPicPrStep_good 0) (dec_cNvPicPr x.locks) (fun w => { cNvPr := x.cNvPr, locks := w })

theorem dec_blip (x : Blip) : Decodes (unBlip {} (mBlip x).as) (mBlip x).kids x := by
  have ha : AttrTakes blipAttr {} _ ({ embed := x.embed, cstate := x.cstate } : Blip) :=
    (at_strA (pre := "r") (loc := "embed") (v := x.embed) (s' := { embed := x.embed }) rfl).append
    (at_strO (pre := "") (loc := "cstate") x.cstate (fun y => ({ embed := x.embed, cstate := y } : Blip)) rfl)
  have h : Takes blipStep ({ embed := x.embed, cstate := x.cstate } : Blip) _ x :=
    takes_optN (f := fun n => el "a" "alphaModFix" (intA "" "amt" n) []) x.alphaModFix
      (fun y => ({ embed := x.embed, cstate := x.cstate, alphaModFix := y } : Blip)) fun y => by
      refine takes_flat (blipStep_good 0) rfl (fun d => ?_) TakesC.nil
      show flatInt _ (itoa y) _ d = _
      rw [flatInt, if_neg (itoa_ne_empty y), getInt_itoa]
  exact decodes_withAttrs ha (decodes_loop (blipStep_good 0) h)

theorem dec_stretch (x : Bool) : Decodes (unStretch false) (flagN x "a" "fillRect") x :=
  decodes_loop (stretchStep_good 0) (takes_flagS (stretchStep_good 0) x (fun y => y) rfl)

theorem dec_picFill (x : BlipFill) : Decodes unPicFill (mPicFill x).kids x := by
  refine decodes_loop (picFillStep_good 0) (TakesC.cons (s' := { blip := x.blip }) ?_ ?_)
  · exact tsub% (picFillStep_good 0) (dec_blip x.blip) (fun w => { blip := w })
  · exact tsub% (picFillStep_good 0) (dec_stretch x.fillRect) (fun w => { blip := x.blip, fillRect := w })

theorem off_attrs (x : Off) : AttrTakes offAttr {} (intA "" "x" x.x ++ intA "" "y" x.y) x :=
  (at_intA (pre := "") (loc := "x") x.x (set := (fun y => ({ x := y } : Off))) rfl).append
  (at_intA (pre := "") (loc := "y") x.y (set := (fun y => ({ x := x.x, y := y } : Off))) rfl)

theorem ext_attrs (x : Ext) : AttrTakes extAttr {} (intA "" "cx" x.cx ++ intA "" "cy" x.cy) x :=
  (at_intA (pre := "") (loc := "cx") x.cx (set := (fun y => ({ cx := y } : Ext))) rfl).append
  (at_intA (pre := "") (loc := "cy") x.cy (set := (fun y => ({ cx := x.cx, cy := y } : Ext))) rfl)

theorem eff_attrs (x : EffectExtent) : AttrTakes effAttr {}
    (intA "" "l" x.l ++ intA "" "t" x.t ++ intA "" "r" x.r ++ intA "" "b" x.b) x :=
  (((at_intA (pre := "") (loc := "l") x.l (set := (fun y => ({ l := y } : EffectExtent))) rfl).append
  (at_intA (pre := "") (loc := "t") x.t (set := (fun y => ({ l := x.l, t := y } : EffectExtent))) rfl)).append
  (at_intA (pre := "") (loc := "r") x.r (set := (fun y => ({ l := x.l, t := x.t, r := y } : EffectExtent))) rfl)).append
  (at_intA (pre := "") (loc := "b") x.b (set := (fun y => ({ l := x.l, t := x.t, r := x.r, b := y } : EffectExtent))) rfl)

theorem takes_flatAttrs {α σ : Type} {step : σ → String → List Attr → Dec → Out σ}
    {chars : σ → String → σ} {k : Nat} {s s' : σ} (hg : StepGood k step)
    {n : Node} {q : QName} {as : List Attr}
    {f : α → String → String → α × Option Err} {init v : α} {g : α → σ}
    (hn : n = .elem q as []) (hs : step s q.loc as = flatAttrs f init as g)
    (ha : AttrTakes f init as v) (hv : g v = s') : TakesC step chars s [n] s' := by
  refine takes_flat hg hn (fun d => ?_) TakesC.nil
  rw [hs]; simp only [flatAttrs, ha, hv]

theorem takes_flatAttrsV {α σ : Type} {step : σ → String → List Attr → Dec → Out σ}
    {chars : σ → String → σ} {k : Nat} {s s' : σ} (hg : StepGood k step)
    {n : Node} {q : QName} {as : List Attr} {s0 : σ}
    {f : α → String → String → α × Option Err} {init v : α} {g : α → σ}
    (hn : n = .elem q as []) (hs : step s q.loc as = flatAttrsV s0 f init as g)
    (ha : AttrTakes f init as v) (hv : g v = s') : TakesC step chars s [n] s' := by
  refine takes_flat hg hn (fun d => ?_) TakesC.nil
  rw [hs]; simp only [flatAttrsV, ha, hv]

theorem dec_xfrm (x : Xfrm) : Decodes (unXfrm {} (mXfrm x).as) (mXfrm x).kids x := by
  have ha : AttrTakes xfrmAttr {} _ ({ rot := x.rot, flipH := x.flipH, flipV := x.flipV } : Xfrm) :=
    (at_intO (pre := "") (loc := "rot") x.rot (fun y => ({ rot := y } : Xfrm)) rfl).append
    (at_intO (pre := "") (loc := "flipH") x.flipH (fun y => ({ rot := x.rot, flipH := y } : Xfrm)) rfl) |>.append
    (at_intO (pre := "") (loc := "flipV") x.flipV (fun y => ({ rot := x.rot, flipH := x.flipH, flipV := y } : Xfrm)) rfl)
  have h1 : Takes xfrmStep ({ rot := x.rot, flipH := x.flipH, flipV := x.flipV } : Xfrm)
      [mOff "off" x.off, mExt "ext" x.ext]
      { rot := x.rot, flipH := x.flipH, flipV := x.flipV, off := x.off, ext := x.ext } :=
    TakesC.cons (takes_flatAttrs (xfrmStep_good 0) (g := fun w => ({ rot := x.rot, flipH := x.flipH, flipV := x.flipV, off := w } : Xfrm)) rfl rfl (off_attrs x.off) rfl)
      (takes_flatAttrs (xfrmStep_good 0) (g := fun w => ({ rot := x.rot, flipH := x.flipH, flipV := x.flipV, off := x.off, ext := w } : Xfrm)) rfl rfl (ext_attrs x.ext) rfl)
  have h2 := takes_optN (step := xfrmStep) (chars := fun s _ => s) (f := mOff "chOff") x.chOff
    (fun y => ({ rot := x.rot, flipH := x.flipH, flipV := x.flipV, off := x.off, ext := x.ext, chOff := y } : Xfrm))
    fun y => takes_flatAttrsV (xfrmStep_good 0) (g := fun w => ({ rot := x.rot, flipH := x.flipH, flipV := x.flipV, off := x.off, ext := x.ext, chOff := some w } : Xfrm)) rfl rfl (off_attrs y) rfl
  have h3 := takes_optN (step := xfrmStep) (chars := fun s _ => s) (f := mExt "chExt") x.chExt
    (fun y => ({ rot := x.rot, flipH := x.flipH, flipV := x.flipV, off := x.off, ext := x.ext, chOff := x.chOff, chExt := y } : Xfrm))
    fun y => takes_flatAttrsV (xfrmStep_good 0) (g := fun w => ({ rot := x.rot, flipH := x.flipH, flipV := x.flipV, off := x.off, ext := x.ext, chOff := x.chOff, chExt := some w } : Xfrm)) rfl rfl (ext_attrs y) rfl
  exact decodes_withAttrs ha (decodes_loop (xfrmStep_good 0) ((h1.append h2).append h3))

theorem dec_prstGeom (x : PrstGeom) : Decodes (unPrstGeom (mPrstGeom x).as) (mPrstGeom x).kids x := by
  have ha : AttrTakes prstAttr {} _ ({ prst := x.prst } : PrstGeom) :=
    (at_strA (pre := "") (loc := "prst") (v := x.prst) (s := (fun z => ({ prst := z } : PrstGeom)) "") (s' := (fun z => ({ prst := z } : PrstGeom)) x.prst) rfl)
  have h : Takes prstStep ({ prst := x.prst } : PrstGeom) _ x :=
    (takes_flagS (pre := "a") (loc := "avLst") (prstStep_good 0) x.avLst (fun z => ({ prst := x.prst, avLst := z } : PrstGeom)) rfl)
  exact decodes_withAttrs ha (decodes_loop (prstStep_good 0) h)

theorem dec_picSpPr (x : PicSpPr) : Decodes unPicSpPr (mPicSpPr x).kids x := by
  have h1 : Takes picSpPrStep {} [mXfrm x.xfrm] { xfrm := x.xfrm } :=
    tsub% (picSpPrStep_good 0) (dec_xfrm x.xfrm) (fun w => { xfrm := w })
  have h2 := takes_optN (step := picSpPrStep) (chars := fun s _ => s) (f := mPrstGeom) x.prstGeom
    (fun y => ({ xfrm := x.xfrm, prstGeom := y } : PicSpPr))
    fun y => tsub% (picSpPrStep_good 0) (dec_prstGeom y) (fun w => { xfrm := x.xfrm, prstGeom := some w })
  exact decodes_loop (picSpPrStep_good 0) (h1.append h2)

theorem dec_pic (x : Picture) : Decodes unPic (mPic x).kids { x with xmlPic := "" } := by
  have h1 := takes_optN (step := picStep) (chars := fun s _ => s) (f := mNvPicPr) x.nvPicPr
    (fun y => ({ nvPicPr := y } : Picture))
    fun y => tsub% (picStep_good 0) (dec_nvPicPr y) (fun w => { nvPicPr := some w })
  have h2 := takes_optN (step := picStep) (chars := fun s _ => s) (f := mPicFill) x.blipFill
    (fun y => ({ nvPicPr := x.nvPicPr, blipFill := y } : Picture))
    fun y => tsub% (picStep_good 0) (dec_picFill y) (fun w => { nvPicPr := x.nvPicPr, blipFill := some w })
  have h3 := takes_optN (step := picStep) (chars := fun s _ => s) (f := mPicSpPr) x.spPr
    (fun y => ({ nvPicPr := x.nvPicPr, blipFill := x.blipFill, spPr := y } : Picture))
    fun y => tsub% (picStep_good 0) (dec_picSpPr y) (fun w => { nvPicPr := x.nvPicPr, blipFill := x.blipFill, spPr := some w })
  exact decodes_loop (picStep_good 0) ((h1.append h2).append h3)

theorem pic_attr (x : Picture) : getAtt (mPic x).as "pic" = x.xmlPic := by
  show getAtt (strO "xmlns" "pic" x.xmlPic) "pic" = _
  unfold strO; split <;> simp_all [getAtt]

theorem isFmtSpace_itoa (n : Int64) : ∀ c ∈ (itoa n).toList, isFmtSpace c = false := by
  intro c hc
  have h : c = '-' ∨ (48 ≤ c.toNat ∧ c.toNat ≤ 57) := by
    simp only [itoa, String.toList_ofList, intRep] at hc
    split at hc
    · rcases List.mem_cons.1 hc with h | h
      · exact .inl h
      · exact .inr (natRep_digits _ c h)
    · exact .inr (natRep_digits _ c hc)
  rcases h with h | h
  · subst h; decide
  · simp only [isFmtSpace]
    simp; omega

theorem trimSpace_itoa (n : Int64) : trimSpace (itoa n).toList = (itoa n).toList := by
  have key : ∀ cs : List Char, (∀ c ∈ cs, isFmtSpace c = false) → cs.dropWhile isFmtSpace = cs := by
    intro cs h
    cases cs with
    | nil => rfl
    | cons c cs => simp [List.dropWhile, h c (List.mem_cons_self ..)]
  unfold trimSpace
  rw [key _ (isFmtSpace_itoa n), key _ (by simpa using isFmtSpace_itoa n), List.reverse_reverse]

theorem dec_position (loc : String) (x : Position) :
    Decodes (unPosition (mPosition loc x).as) (mPosition loc x).kids x := by
  have h : Takes posStep { relativeFrom := x.relativeFrom } (mPosition loc x).kids x := by
    refine takes_elem (posStep_good 0) (fun rest stk => ?_)
    show (let o := reflInt 0 _; (⟨{ relativeFrom := x.relativeFrom, posOffset := o.val }, tolerate o.err, o.dec⟩ :
      Out Position)) = _
    have : ∀ q, reflInt 0 ⟨toksL [Node.text (itoa x.posOffset)] ++ .stop q :: rest, .elem q :: stk, false⟩ =
        ⟨x.posOffset, none, ⟨rest, stk, false⟩⟩ := by
      intro q
      simp only [reflInt, toksL_cons, toksL_nil, toks_text, List.append_nil, List.cons_append, List.nil_append,
        List.length_cons]
      rw [reflTextN, tok_chars]
      simp only
      rw [reflTextN, tok_stop]
      simp [itoa_ne_empty, trimSpace_itoa, String.ofList_toList, atoi_itoa]
    rw [this]
    rfl
  exact decodes_loop (posStep_good 0) h

theorem dec_tile (x : Tile) : Decodes (unTile (mTile x).as) (mTile x).kids x := by
  have h : AttrTakes tileAttr {} _ x :=
    (at_intA (pre := "") (loc := "tx") x.tx (set := (fun z => ({ tx := z } : Tile))) rfl) |>.append
    (at_intA (pre := "") (loc := "ty") x.ty (set := (fun z => ({ tx := x.tx, ty := z } : Tile))) rfl) |>.append
    (at_intA (pre := "") (loc := "sx") x.sx (set := (fun z => ({ tx := x.tx, ty := x.ty, sx := z } : Tile))) rfl) |>.append
    (at_intA (pre := "") (loc := "sy") x.sy (set := (fun z => ({ tx := x.tx, ty := x.ty, sx := x.sx, sy := z } : Tile))) rfl) |>.append
    (at_strA (pre := "") (loc := "flip") (v := x.flip) (s := (fun z => ({ tx := x.tx, ty := x.ty, sx := x.sx, sy := x.sy, flip := z } : Tile)) "") (s' := (fun z => ({ tx := x.tx, ty := x.ty, sx := x.sx, sy := x.sy, flip := z } : Tile)) x.flip) rfl) |>.append
    (at_strA (pre := "") (loc := "algn") (v := x.algn) (s := (fun z => ({ tx := x.tx, ty := x.ty, sx := x.sx, sy := x.sy, flip := x.flip, algn := z } : Tile)) "") (s' := (fun z => ({ tx := x.tx, ty := x.ty, sx := x.sx, sy := x.sy, flip := x.flip, algn := z } : Tile)) x.algn) rfl)
  exact decodes_leaf h

theorem dec_aBlipFill (x : ABlipFill) : Decodes (unABlipFill (mABlipFill x).as) (mABlipFill x).kids x := by
  have ha : AttrTakes aBlipFillAttr {} _ ({ dpi := x.dpi, rotWithShape := x.rotWithShape } : ABlipFill) :=
    (at_intA (pre := "") (loc := "dpi") x.dpi (set := (fun z => ({ dpi := z } : ABlipFill))) rfl) |>.append
    (at_intA (pre := "") (loc := "rotWithShape") x.rotWithShape (set := (fun z => ({ dpi := x.dpi, rotWithShape := z } : ABlipFill))) rfl)
  have h : Takes aBlipFillStep ({ dpi := x.dpi, rotWithShape := x.rotWithShape } : ABlipFill) _ x :=
    (takes_optN (f := mBlip) x.blip (fun z => ({ dpi := x.dpi, rotWithShape := x.rotWithShape, blip := z } : ABlipFill)) fun y => tsub% (aBlipFillStep_good 0) (dec_blip y) (fun w => (fun z => ({ dpi := x.dpi, rotWithShape := x.rotWithShape, blip := z } : ABlipFill)) (some w))) |>.append
    (takes_flagN (pre := "a") (loc := "srcRect") (aBlipFillStep_good 0) x.srcRect (fun z => ({ dpi := x.dpi, rotWithShape := x.rotWithShape, blip := x.blip, srcRect := z } : ABlipFill)) fun _ => rfl) |>.append
    (takes_optN (f := mTile) x.tile (fun z => ({ dpi := x.dpi, rotWithShape := x.rotWithShape, blip := x.blip, srcRect := x.srcRect, tile := z } : ABlipFill)) fun y => tsub% (aBlipFillStep_good 0) (dec_tile y) (fun w => (fun z => ({ dpi := x.dpi, rotWithShape := x.rotWithShape, blip := x.blip, srcRect := x.srcRect, tile := z } : ABlipFill)) (some w)))
  exact decodes_withAttrs ha (decodes_loop (aBlipFillStep_good 0) h)

theorem dec_solidFill (x : Option String) : Decodes unSolidFill (mSolidFill x).kids x := by
  have h : Takes solidFillStep none _ x :=
    takes_optN (f := fun v => el "a" "srgbClr" (strA "" "val" v) []) x (fun y => y)
      fun y => takes_skip (solidFillStep_good 0) rfl rfl
  exact decodes_loop (solidFillStep_good 0) h

theorem dec_lineEnd (loc : String) (x : LineEnd) :
    Decodes (unLineEnd (mLineEnd loc x).as) (mLineEnd loc x).kids x := by
  have h : AttrTakes lineEndAttr {} _ x :=
    (at_strO (pre := "") (loc := "type") x.type (fun y => ({ type := y } : LineEnd)) rfl).append
    (at_strO (pre := "") (loc := "w") x.w (fun y => ({ type := x.type, w := y } : LineEnd)) rfl) |>.append
    (at_strO (pre := "") (loc := "len") x.len (fun y => ({ type := x.type, w := x.w, len := y } : LineEnd)) rfl)
  exact decodes_leaf h

theorem dec_line (x : Line) : Decodes (unLine (mLine x).as) (mLine x).kids x := by
  have ha : AttrTakes lineAttr {} _ ({ w := x.w, cap := x.cap, compound := x.compound, align := x.align } : Line) :=
    (at_intO (pre := "") (loc := "w") x.w (fun z => ({ w := z } : Line)) rfl) |>.append
    (at_strO (pre := "") (loc := "cap") x.cap (fun z => ({ w := x.w, cap := z } : Line)) rfl) |>.append
    (at_strO (pre := "") (loc := "cmpd") x.compound (fun z => ({ w := x.w, cap := x.cap, compound := z } : Line)) rfl) |>.append
    (at_strO (pre := "") (loc := "algn") x.align (fun z => ({ w := x.w, cap := x.cap, compound := x.compound, align := z } : Line)) rfl)
  have h : Takes lineStep ({ w := x.w, cap := x.cap, compound := x.compound, align := x.align } : Line) _ x :=
    (takes_flagN (pre := "a") (loc := "noFill") (lineStep_good 0) x.noFill (fun z => ({ w := x.w, cap := x.cap, compound := x.compound, align := x.align, noFill := z } : Line)) fun _ => rfl) |>.append
    (takes_optN (f := mSolidFill) x.solidFill (fun z => ({ w := x.w, cap := x.cap, compound := x.compound, align := x.align, noFill := x.noFill, solidFill := z } : Line)) fun y => tsub% (lineStep_good 0) (dec_solidFill y) (fun w => (fun z => ({ w := x.w, cap := x.cap, compound := x.compound, align := x.align, noFill := x.noFill, solidFill := z } : Line)) (some w))) |>.append
    (takes_optN (f := fun v => el "a" "prstDash" (strA "" "val" v) []) x.prstDash
      (fun y => ({ w := x.w, cap := x.cap, compound := x.compound, align := x.align, noFill := x.noFill, solidFill := x.solidFill, prstDash := y } : Line))
      fun y => takes_flat (lineStep_good 0) rfl (fun _ => rfl) TakesC.nil) |>.append
    (takes_optN (f := fun v => el "a" "miter" (strA "" "lim" v) []) x.miter
      (fun y => ({ w := x.w, cap := x.cap, compound := x.compound, align := x.align, noFill := x.noFill, solidFill := x.solidFill, prstDash := x.prstDash, miter := y } : Line))
      fun y => takes_flat (lineStep_good 0) rfl (fun _ => rfl) TakesC.nil) |>.append
    (takes_flagN (pre := "a") (loc := "round") (lineStep_good 0) x.round (fun z => ({ w := x.w, cap := x.cap, compound := x.compound, align := x.align, noFill := x.noFill, solidFill := x.solidFill, prstDash := x.prstDash, miter := x.miter, round := z } : Line)) fun _ => rfl) |>.append
    (takes_optN (f := mLineEnd "headEnd") x.headEnd (fun z => ({ w := x.w, cap := x.cap, compound := x.compound, align := x.align, noFill := x.noFill, solidFill := x.solidFill, prstDash := x.prstDash, miter := x.miter, round := x.round, headEnd := z } : Line)) fun y => tsub% (lineStep_good 0) (dec_lineEnd "headEnd" y) (fun w => (fun z => ({ w := x.w, cap := x.cap, compound := x.compound, align := x.align, noFill := x.noFill, solidFill := x.solidFill, prstDash := x.prstDash, miter := x.miter, round := x.round, headEnd := z } : Line)) (some w))) |>.append
    (takes_optN (f := mLineEnd "tailEnd") x.tailEnd (fun z => ({ w := x.w, cap := x.cap, compound := x.compound, align := x.align, noFill := x.noFill, solidFill := x.solidFill, prstDash := x.prstDash, miter := x.miter, round := x.round, headEnd := x.headEnd, tailEnd := z } : Line)) fun y => tsub% (lineStep_good 0) (dec_lineEnd "tailEnd" y) (fun w => (fun z => ({ w := x.w, cap := x.cap, compound := x.compound, align := x.align, noFill := x.noFill, solidFill := x.solidFill, prstDash := x.prstDash, miter := x.miter, round := x.round, headEnd := x.headEnd, tailEnd := z } : Line)) (some w)))
  exact decodes_withAttrs ha (decodes_loop (lineStep_good 0) h)

theorem dec_shapePr (pre loc : String) (x : ShapePr) :
    Decodes (unShapePr (mShapePr pre loc x).as) (mShapePr pre loc x).kids (normShapePr x) := by
  have ha : AttrTakes shapePrAttr {} _ ({ bwMode := x.bwMode } : ShapePr) :=
    at_strA (pre := "") (loc := "bwMode") (v := x.bwMode) rfl
  have h1 : Takes shapePrStep { bwMode := x.bwMode } [mXfrm x.xfrm, mPrstGeom x.prstGeom]
      { bwMode := x.bwMode, xfrm := x.xfrm, prstGeom := { prst := x.prstGeom.prst } } := by
    refine TakesC.cons (tsub% (shapePrStep_good 0) (dec_xfrm x.xfrm) (fun w => { bwMode := x.bwMode, xfrm := w }))
      (takes_flat (s' := { bwMode := x.bwMode, xfrm := x.xfrm, prstGeom := { prst := x.prstGeom.prst } })
        (shapePrStep_good 0) rfl (fun _ => rfl) ?_)
    cases x.prstGeom.avLst with
    | false => exact TakesC.nil
    | true => exact takes_skip (shapePrStep_good 0) rfl rfl
  have h2 := takes_optN (step := shapePrStep) (chars := fun s _ => s) (f := mSolidFill) x.solidFill
    (fun y => ({ bwMode := x.bwMode, xfrm := x.xfrm, prstGeom := { prst := x.prstGeom.prst }, solidFill := y } : ShapePr))
    fun y => tsub% (shapePrStep_good 0) (dec_solidFill y) (fun w => { bwMode := x.bwMode, xfrm := x.xfrm, prstGeom := { prst := x.prstGeom.prst }, solidFill := some w })
  have h3 := takes_optN (step := shapePrStep) (chars := fun s _ => s) (f := mABlipFill) x.blipFill
    (fun y => ({ bwMode := x.bwMode, xfrm := x.xfrm, prstGeom := { prst := x.prstGeom.prst }, solidFill := x.solidFill, blipFill := y } : ShapePr))
    fun y => tsub% (shapePrStep_good 0) (dec_aBlipFill y) (fun w => { bwMode := x.bwMode, xfrm := x.xfrm, prstGeom := { prst := x.prstGeom.prst }, solidFill := x.solidFill, blipFill := some w })
  have h4 := takes_flagN (step := shapePrStep) (chars := fun s _ => s) (pre := "a") (loc := "noFill")
    (shapePrStep_good 0) x.noFill
    (fun y => ({ bwMode := x.bwMode, xfrm := x.xfrm, prstGeom := { prst := x.prstGeom.prst }, solidFill := x.solidFill, blipFill := x.blipFill, noFill := y } : ShapePr)) fun _ => rfl
  have h5 := takes_optN (step := shapePrStep) (chars := fun s _ => s) (f := mLine) x.line
    (fun y => ({ bwMode := x.bwMode, xfrm := x.xfrm, prstGeom := { prst := x.prstGeom.prst }, solidFill := x.solidFill, blipFill := x.blipFill, noFill := x.noFill, line := y } : ShapePr))
    fun y => tsub% (shapePrStep_good 0) (dec_line y) (fun w => { bwMode := x.bwMode, xfrm := x.xfrm, prstGeom := { prst := x.prstGeom.prst }, solidFill := x.solidFill, blipFill := x.blipFill, noFill := x.noFill, line := some w })
  exact decodes_withAttrs ha (decodes_loop (shapePrStep_good 0) ((((h1.append h2).append h3).append h4).append h5))

theorem dec_cNvCnPr (x : Bool) : Decodes unCNvCnPr (mCNvCnPr x).kids x :=
  decodes_loop (cNvCnPrStep_good 0)
    (takes_flagN (pre := "a") (loc := "cxnSpLocks") (cNvCnPrStep_good 0) x (fun y => y) fun _ => rfl)

theorem dec_spLocks (x : Int64) : Decodes (unSpLocks (intO "" "noChangeArrowheads" x)) [] x :=
  decodes_leaf (at_intO x (fun y => y) rfl)

theorem dec_background (x : Bool) : Decodes unBackground (mBackground x).kids x :=
  decodes_loop (bgStep_good 0)
    (takes_flagN (pre := "a") (loc := "noFill") (bgStep_good 0) x (fun y => y) fun _ => rfl)

theorem dec_whole (x : Option Line) : Decodes unWhole (mWhole x).kids x :=
  decodes_loop (wholeStep_good 0)
    (takes_optN (f := mLine) x (fun y => y) fun y => tsub% (wholeStep_good 0) (dec_line y) (fun w => some w))

theorem dec_cNvGrpSpPr (x : Bool) : Decodes unCNvGrpSpPr (mCNvGrpSpPr x).kids x :=
  decodes_loop (grpPrStep_good 0)
    (takes_flagS (pre := "a") (loc := "grpSpLocks") (grpPrStep_good 0) x (fun y => y) rfl)

theorem dec_cNvSpPr (x : CNvSpPr) : Decodes (unCNvSpPr (mCNvSpPr x).as) (mCNvSpPr x).kids x := by
  have ha : AttrTakes cNvSpPrAttr {} _ ({ txBox := x.txBox } : CNvSpPr) :=
    (at_intO (pre := "") (loc := "txBox") x.txBox (fun z => ({ txBox := z } : CNvSpPr)) rfl)
  have h : Takes cNvSpPrStep ({ txBox := x.txBox } : CNvSpPr) _ x :=
    (takes_optN (f := fun n => el "a" "spLocks" (intO "" "noChangeArrowheads" n) []) x.spLocks (fun z => ({ txBox := x.txBox, spLocks := z } : CNvSpPr)) fun y => tsub% (cNvSpPrStep_good 0) (dec_spLocks y) (fun w => (fun z => ({ txBox := x.txBox, spLocks := z } : CNvSpPr)) (some w)))
  exact decodes_withAttrs ha (decodes_loop (cNvSpPrStep_good 0) h)

theorem dec_bodyPr (x : BodyPr) : Decodes (unBodyPr (mBodyPr x).as) (mBodyPr x).kids x := by
  have ha : AttrTakes bodyPrAttr {} _ ({ rot := x.rot, vert := x.vert, wrap := x.wrap, lIns := x.lIns, tIns := x.tIns, rIns := x.rIns, bIns := x.bIns, anchor := x.anchor, anchorCtr := x.anchorCtr, upright := x.upright } : BodyPr) :=
    (at_intAL (pre := "") (loc := "rot") x.rot (set := (fun z => ({ rot := z } : BodyPr))) rfl) |>.append
    (at_strO (pre := "") (loc := "vert") x.vert (fun z => ({ rot := x.rot, vert := z } : BodyPr)) rfl) |>.append
    (at_strO (pre := "") (loc := "wrap") x.wrap (fun z => ({ rot := x.rot, vert := x.vert, wrap := z } : BodyPr)) rfl) |>.append
    (at_intAL (pre := "") (loc := "lIns") x.lIns (set := (fun z => ({ rot := x.rot, vert := x.vert, wrap := x.wrap, lIns := z } : BodyPr))) rfl) |>.append
    (at_intAL (pre := "") (loc := "tIns") x.tIns (set := (fun z => ({ rot := x.rot, vert := x.vert, wrap := x.wrap, lIns := x.lIns, tIns := z } : BodyPr))) rfl) |>.append
    (at_intAL (pre := "") (loc := "rIns") x.rIns (set := (fun z => ({ rot := x.rot, vert := x.vert, wrap := x.wrap, lIns := x.lIns, tIns := x.tIns, rIns := z } : BodyPr))) rfl) |>.append
    (at_intAL (pre := "") (loc := "bIns") x.bIns (set := (fun z => ({ rot := x.rot, vert := x.vert, wrap := x.wrap, lIns := x.lIns, tIns := x.tIns, rIns := x.rIns, bIns := z } : BodyPr))) rfl) |>.append
    (at_strO (pre := "") (loc := "anchor") x.anchor (fun z => ({ rot := x.rot, vert := x.vert, wrap := x.wrap, lIns := x.lIns, tIns := x.tIns, rIns := x.rIns, bIns := x.bIns, anchor := z } : BodyPr)) rfl) |>.append
    (at_intAL (pre := "") (loc := "anchorCtr") x.anchorCtr (set := (fun z => ({ rot := x.rot, vert := x.vert, wrap := x.wrap, lIns := x.lIns, tIns := x.tIns, rIns := x.rIns, bIns := x.bIns, anchor := x.anchor, anchorCtr := z } : BodyPr))) rfl) |>.append
    (at_intAL (pre := "") (loc := "upright") x.upright (set := (fun z => ({ rot := x.rot, vert := x.vert, wrap := x.wrap, lIns := x.lIns, tIns := x.tIns, rIns := x.rIns, bIns := x.bIns, anchor := x.anchor, anchorCtr := x.anchorCtr, upright := z } : BodyPr))) rfl)
  have h : Takes bodyPrStep ({ rot := x.rot, vert := x.vert, wrap := x.wrap, lIns := x.lIns, tIns := x.tIns, rIns := x.rIns, bIns := x.bIns, anchor := x.anchor, anchorCtr := x.anchorCtr, upright := x.upright } : BodyPr) _ x :=
    (takes_flagN (pre := "a") (loc := "noAutofit") (bodyPrStep_good 0) x.noAutofit (fun z => ({ rot := x.rot, vert := x.vert, wrap := x.wrap, lIns := x.lIns, tIns := x.tIns, rIns := x.rIns, bIns := x.bIns, anchor := x.anchor, anchorCtr := x.anchorCtr, upright := x.upright, noAutofit := z } : BodyPr)) fun _ => rfl)
  exact decodes_withAttrs ha (decodes_loop (bodyPrStep_good 0) h)

theorem dec_tblpPr (x : TblpPr) : Decodes (unTblpPr (mTblpPr x).as) (mTblpPr x).kids x := by
  have h : AttrTakes tblpPrAttr {} _ x :=
    (at_intO (pre := "w") (loc := "leftFromText") x.leftFromText (fun z => ({ leftFromText := z } : TblpPr)) rfl) |>.append
    (at_intO (pre := "w") (loc := "rightFromText") x.rightFromText (fun z => ({ leftFromText := x.leftFromText, rightFromText := z } : TblpPr)) rfl) |>.append
    (at_strO (pre := "w") (loc := "vertAnchor") x.vertAnchor (fun z => ({ leftFromText := x.leftFromText, rightFromText := x.rightFromText, vertAnchor := z } : TblpPr)) rfl) |>.append
    (at_strO (pre := "w") (loc := "horzAnchor") x.horzAnchor (fun z => ({ leftFromText := x.leftFromText, rightFromText := x.rightFromText, vertAnchor := x.vertAnchor, horzAnchor := z } : TblpPr)) rfl) |>.append
    (at_strO (pre := "w") (loc := "tblpXSpec") x.tblpXSpec (fun z => ({ leftFromText := x.leftFromText, rightFromText := x.rightFromText, vertAnchor := x.vertAnchor, horzAnchor := x.horzAnchor, tblpXSpec := z } : TblpPr)) rfl) |>.append
    (at_strO (pre := "w") (loc := "tblpYSpec") x.tblpYSpec (fun z => ({ leftFromText := x.leftFromText, rightFromText := x.rightFromText, vertAnchor := x.vertAnchor, horzAnchor := x.horzAnchor, tblpXSpec := x.tblpXSpec, tblpYSpec := z } : TblpPr)) rfl) |>.append
    (at_intO (pre := "w") (loc := "tblpX") x.tblpX (fun z => ({ leftFromText := x.leftFromText, rightFromText := x.rightFromText, vertAnchor := x.vertAnchor, horzAnchor := x.horzAnchor, tblpXSpec := x.tblpXSpec, tblpYSpec := x.tblpYSpec, tblpX := z } : TblpPr)) rfl) |>.append
    (at_intO (pre := "w") (loc := "tblpY") x.tblpY (fun z => ({ leftFromText := x.leftFromText, rightFromText := x.rightFromText, vertAnchor := x.vertAnchor, horzAnchor := x.horzAnchor, tblpXSpec := x.tblpXSpec, tblpYSpec := x.tblpYSpec, tblpX := x.tblpX, tblpY := z } : TblpPr)) rfl)
  exact decodes_leaf h

theorem dec_tblStyle (x : String) : Decodes (unTblStyle (strA "w" "val" x)) [] x := by
  refine decodes_leaf (at_strA ?_)
  unfold tblStyleAttr
  split
  · next e => rw [e]
  · rfl

theorem dec_tblW (x : Width) : Decodes (unTblW (mWidth "tblW" x).as) (mWidth "tblW" x).kids x := by
  have h : AttrTakes widthAttr {} _ x :=
    (at_intA (pre := "w") (loc := "w") x.w (set := (fun y => ({ w := y } : Width)))
      (by rw [widthAttr, if_neg (itoa_ne_empty _)])).append
    (at_strA (pre := "w") (loc := "type") (v := x.type) (by
      cases x with
      | mk w t =>
        unfold widthAttr
        split
        · next e => simp only at e; rw [e]
        · rfl))
  exact decodes_leaf h

theorem lookVal_itoa (n : Int64) : lookVal (itoa n) = normLookInt n := by
  unfold normLookInt lookVal
  simp only [itoa, String.toList_ofList, intRep]
  by_cases h : n.toInt < 0
  · have h' : n < 0 := by rw [Int64.lt_iff_toInt_lt]; exact h
    simp [h, h', leadByte]
  · have h' : ¬ n < 0 := by rw [Int64.lt_iff_toInt_lt]; exact h
    simp only [h, h', if_false]
    have hd := natRep_digits n.toInt.natAbs
    cases hr : natRep n.toInt.natAbs with
    | nil => rfl
    | cons c cs =>
      have := hd c (by rw [hr]; exact List.mem_cons_self ..)
      simp only [List.head?_cons, Option.map_some, Option.getD_some]
      congr 1
      simp only [leadByte]
      rw [if_pos (by omega)]
      omega

theorem at_look {pre loc : String} {s s' : TblLook} (n : Int64)
    (h : ∀ v, v ≠ "" → lookVal v = normLookInt n → lookAttr s loc v = (s', none)) :
    AttrTakes lookAttr s (intA pre loc n) s' :=
  at_one (h _ (itoa_ne_empty n) (lookVal_itoa n))

theorem dec_look (x : TblLook) : Decodes (unTblLook (mLook x).as) (mLook x).kids (normLook x) := by
  have h : AttrTakes lookAttr {} _ (normLook x) :=
    ((((((at_strA (pre := "w") (loc := "val") (v := x.val) (s' := { val := x.val }) (by
      unfold lookAttr
      split
      · next e => rw [e]
      · rfl)).append
    (at_look (pre := "w") (loc := "firstRow")
      (s' := { val := x.val, firstRow := normLookInt x.firstRow }) x.firstRow
      (fun v hv h => by rw [lookAttr, if_neg hv, ← h]))).append
    (at_look (pre := "w") (loc := "lastRow")
      (s' := { val := x.val, firstRow := normLookInt x.firstRow, lastRow := normLookInt x.lastRow }) x.lastRow
      (fun v hv h => by rw [lookAttr, if_neg hv, ← h]))).append
    (at_look (pre := "w") (loc := "firstColumn")
      (s' := { val := x.val, firstRow := normLookInt x.firstRow, lastRow := normLookInt x.lastRow, firstCol := normLookInt x.firstCol }) x.firstCol
      (fun v hv h => by rw [lookAttr, if_neg hv, ← h]))).append
    (at_look (pre := "w") (loc := "lastColumn")
      (s' := { val := x.val, firstRow := normLookInt x.firstRow, lastRow := normLookInt x.lastRow, firstCol := normLookInt x.firstCol, lastCol := normLookInt x.lastCol }) x.lastCol
      (fun v hv h => by rw [lookAttr, if_neg hv, ← h]))).append
    (at_look (pre := "w") (loc := "noHBand")
      (s' := { val := x.val, firstRow := normLookInt x.firstRow, lastRow := normLookInt x.lastRow, firstCol := normLookInt x.firstCol, lastCol := normLookInt x.lastCol, noHBand := normLookInt x.noHBand }) x.noHBand
      (fun v hv h => by rw [lookAttr, if_neg hv, ← h]))).append
    (at_look (pre := "w") (loc := "noVBand") x.noVBand
      (fun v hv h => by rw [lookAttr, if_neg hv, h]; rfl))
  exact decodes_leaf h

theorem dec_border (loc : String) (x : Border) :
    Decodes (unBorder (mBorder loc x).as) (mBorder loc x).kids x := by
  have h : AttrTakes borderAttr {} _ x :=
    (at_strO (pre := "w") (loc := "val") x.val (fun y => ({ val := y } : Border)) rfl).append
    (at_intON (pre := "w") (loc := "sz") x.size (fun y => ({ val := x.val, size := y } : Border)) rfl) |>.append
    (at_intON (pre := "w") (loc := "space") x.space
      (fun y => ({ val := x.val, size := x.size, space := y } : Border)) rfl) |>.append
    (at_strO (pre := "w") (loc := "color") x.color
      (fun y => ({ val := x.val, size := x.size, space := x.space, color := y } : Border)) rfl)
  exact decodes_leaf h

theorem dec_borders (loc : String) (x : Borders) : Decodes unBorders (mBorders loc x).kids x := by
  have h : Takes bordersStep {} _ x :=
    (takes_optN (f := mBorder "top") x.top (fun z => ({ top := z } : Borders)) fun y => tsub% (bordersStep_good 0) (dec_border "top" y) (fun w => (fun z => ({ top := z } : Borders)) (some w))) |>.append
    (takes_optN (f := mBorder "left") x.left (fun z => ({ top := x.top, left := z } : Borders)) fun y => tsub% (bordersStep_good 0) (dec_border "left" y) (fun w => (fun z => ({ top := x.top, left := z } : Borders)) (some w))) |>.append
    (takes_optN (f := mBorder "bottom") x.bottom (fun z => ({ top := x.top, left := x.left, bottom := z } : Borders)) fun y => tsub% (bordersStep_good 0) (dec_border "bottom" y) (fun w => (fun z => ({ top := x.top, left := x.left, bottom := z } : Borders)) (some w))) |>.append
    (takes_optN (f := mBorder "right") x.right (fun z => ({ top := x.top, left := x.left, bottom := x.bottom, right := z } : Borders)) fun y => tsub% (bordersStep_good 0) (dec_border "right" y) (fun w => (fun z => ({ top := x.top, left := x.left, bottom := x.bottom, right := z } : Borders)) (some w))) |>.append
    (takes_optN (f := mBorder "insideH") x.insideH (fun z => ({ top := x.top, left := x.left, bottom := x.bottom, right := x.right, insideH := z } : Borders)) fun y => tsub% (bordersStep_good 0) (dec_border "insideH" y) (fun w => (fun z => ({ top := x.top, left := x.left, bottom := x.bottom, right := x.right, insideH := z } : Borders)) (some w))) |>.append
    (takes_optN (f := mBorder "insideV") x.insideV (fun z => ({ top := x.top, left := x.left, bottom := x.bottom, right := x.right, insideH := x.insideH, insideV := z } : Borders)) fun y => tsub% (bordersStep_good 0) (dec_border "insideV" y) (fun w => (fun z => ({ top := x.top, left := x.left, bottom := x.bottom, right := x.right, insideH := x.insideH, insideV := z } : Borders)) (some w)))
  exact decodes_loop (bordersStep_good 0) h

theorem takes_tblLook (s : TblPr) (o : Option TblLook) :
    Takes tblPrStep { s with look := none } (optN mLook o) { s with look := o.map normLook } := by
  cases o with
  | none => exact TakesC.nil
  | some l => exact tsub% (tblPrStep_good 0) (dec_look l) (fun w => { s with look := some w })

theorem takes_tblStyle (s : TblPr) (o : Option String) :
    Takes tblPrStep { s with style := none } (valN "tblStyle" o) { s with style := o } := by
  cases o with
  | none => exact TakesC.nil
  | some l => exact tsub% (tblPrStep_good 0) (dec_tblStyle l) (fun w => { s with style := some w })

theorem dec_tblPr (x : TblPr) : Decodes unTblPr (mTblPr x).kids (normTblPr x) := by
  have h : Takes tblPrStep {} _ (normTblPr x) :=
    (takes_optN (f := mTblpPr) x.position (fun z => ({ position := z } : TblPr)) fun y => tsub% (tblPrStep_good 0) (dec_tblpPr y) (fun w => (fun z => ({ position := z } : TblPr)) (some w))) |>.append
    (takes_tblStyle { position := x.position } x.style) |>.append
    (takes_optN (f := mWidth "tblW") x.width (fun z => ({ position := x.position, style := x.style, width := z } : TblPr)) fun y => tsub% (tblPrStep_good 0) (dec_tblW y) (fun w => (fun z => ({ position := x.position, style := x.style, width := z } : TblPr)) (some w))) |>.append
    (takes_valS (loc := "jc") (tblPrStep_good 0) x.jc (fun z => ({ position := x.position, style := x.style, width := x.width, jc := z } : TblPr)) fun _ => rfl) |>.append
    (takes_optN (f := mBorders "tblBorders") x.borders (fun z => ({ position := x.position, style := x.style, width := x.width, jc := x.jc, borders := z } : TblPr)) fun y => tsub% (tblPrStep_good 0) (dec_borders "tblBorders" y) (fun w => (fun z => ({ position := x.position, style := x.style, width := x.width, jc := x.jc, borders := z } : TblPr)) (some w))) |>.append
    (takes_tblLook { position := x.position, style := x.style, width := x.width, jc := x.jc, borders := x.borders } x.look)
  exact decodes_loop (tblPrStep_good 0) h

theorem dec_gridCol (x : Int64) : Decodes (unGridCol (intA "w" "w" x)) [] x :=
  decodes_leaf (at_intA x (set := fun y => y) (by rw [gridColAttr, if_neg (itoa_ne_empty _)]))

theorem dec_grid (x : List (Option Int64)) : Decodes unGrid (mGrid x).kids (x.filter Option.isSome) := by
  have h : ∀ (x ys : List (Option Int64)), Takes gridStep ys
      (x.flatMap (optN fun n => el "w" "gridCol" (intA "w" "w" n) [])) (ys ++ x.filter Option.isSome) := by
    intro x
    induction x with
    | nil => intro ys; exact TakesC.nil' (by simp)
    | cons o x ih =>
      intro ys
      rw [List.flatMap_cons]
      cases o with
      | none => exact TakesC.append TakesC.nil (ih ys)
      | some n =>
        refine TakesC.append (tsub% (gridStep_good 0) (dec_gridCol n) (fun w => ys ++ [some w])) ?_
        have := ih (ys ++ [some n])
        simpa using this
  have := h x []
  exact decodes_loop (gridStep_good 0) this

theorem dec_trPr (x : TrPr) : Decodes unTrPr (mTrPr x).kids x := by
  have h1 := takes_optN (step := trPrStep) (chars := fun s _ => s)
    (f := fun h => el "w" "trHeight" (strO "w" "hRule" h.rule ++ intA "w" "val" h.val) []) x.height
    (fun y => ({ height := y } : TrPr)) fun y => by
      have ha : AttrTakes heightAttr {} (strO "w" "hRule" y.rule ++ intA "w" "val" y.val) y :=
        (at_strO (pre := "w") (loc := "hRule") y.rule (fun z => ({ rule := z } : RowHeight)) rfl).append
        (at_intA (pre := "w") (loc := "val") y.val (set := fun z => ({ rule := y.rule, val := z } : RowHeight)) rfl)
      refine takes_skip (trPrStep_good 0) rfl ?_
      funext d
      show (match attrs heightAttr {} (strO "w" "hRule" y.rule ++ intA "w" "val" y.val) with
        | (v, none) => skipTo ({ height := some v } : TrPr) d
        | (_, some e) => ⟨{}, some e, d⟩) = _
      rw [ha]
  have h2 := takes_valS (step := trPrStep) (chars := fun s _ => s) (loc := "jc") (trPrStep_good 0) x.jc
    (fun y => ({ height := x.height, jc := y } : TrPr)) fun _ => rfl
  exact decodes_loop (trPrStep_good 0) (h1.append h2)

theorem takes_tcW (o : Option Width) : Takes tcPrStep {} (optN (mWidth "tcW") o) { width := o } := by
  cases o with
  | none => exact TakesC.nil
  | some w =>
    refine takes_flat (tcPrStep_good 0) rfl (fun d => ?_) TakesC.nil
    show flatInt _ (itoa w.w) _ d = _
    rw [flatInt, if_neg (itoa_ne_empty _), getInt_itoa]
    rfl

theorem dec_tcPr (x : TcPr) : Decodes unTcPr (mTcPr x).kids x := by
  have h : Takes tcPrStep {} _ x :=
    (takes_tcW x.width) |>.append
    (takes_valO (loc := "vMerge") (tcPrStep_good 0) x.vMerge (fun z => ({ width := x.width, vMerge := z } : TcPr)) fun _ _ => rfl) |>.append
    (takes_valI (loc := "gridSpan") (tcPrStep_good 0) x.gridSpan (fun z => ({ width := x.width, vMerge := x.vMerge, gridSpan := z } : TcPr)) (fun _ => rfl)) |>.append
    (takes_optN (f := mBorders "tcBorders") x.borders (fun z => ({ width := x.width, vMerge := x.vMerge, gridSpan := x.gridSpan, borders := z } : TcPr)) fun y => tsub% (tcPrStep_good 0) (dec_borders "tcBorders" y) (fun w => (fun z => ({ width := x.width, vMerge := x.vMerge, gridSpan := x.gridSpan, borders := z } : TcPr)) (some w))) |>.append
    (takes_optN (f := mShade) x.shade (fun z => ({ width := x.width, vMerge := x.vMerge, gridSpan := x.gridSpan, borders := x.borders, shade := z } : TcPr)) fun y => tsub% (tcPrStep_good 0) (dec_shade y) (fun w => (fun z => ({ width := x.width, vMerge := x.vMerge, gridSpan := x.gridSpan, borders := x.borders, shade := z } : TcPr)) (some w))) |>.append
    (takes_valN (loc := "vAlign") (tcPrStep_good 0) x.vAlign (fun z => ({ width := x.width, vMerge := x.vMerge, gridSpan := x.gridSpan, borders := x.borders, shade := x.shade, vAlign := z } : TcPr)) fun _ _ => rfl)
  exact decodes_loop (tcPrStep_good 0) h

theorem dec_pgSz (x : PgSz) : Decodes (unPgSz (mPgSz x).as) (mPgSz x).kids x := by
  have h : AttrTakes pgSzAttr {} _ x :=
    (at_intAA (pre := "w") (loc := "w") x.w (set := (fun z => ({ w := z } : PgSz))) rfl) |>.append
    (at_intAA (pre := "w") (loc := "h") x.h (set := (fun z => ({ w := x.w, h := z } : PgSz))) rfl)
  exact decodes_leaf h

theorem dec_pgMar (x : PgMar) : Decodes (unPgMar (mPgMar x).as) (mPgMar x).kids x := by
  have h : AttrTakes pgMarAttr {} _ x :=
    (at_intAA (pre := "w") (loc := "top") x.top (set := (fun z => ({ top := z } : PgMar))) rfl) |>.append
    (at_intAA (pre := "w") (loc := "left") x.left (set := (fun z => ({ top := x.top, left := z } : PgMar))) rfl) |>.append
    (at_intAA (pre := "w") (loc := "bottom") x.bottom (set := (fun z => ({ top := x.top, left := x.left, bottom := z } : PgMar))) rfl) |>.append
    (at_intAA (pre := "w") (loc := "right") x.right (set := (fun z => ({ top := x.top, left := x.left, bottom := x.bottom, right := z } : PgMar))) rfl) |>.append
    (at_intAA (pre := "w") (loc := "header") x.header (set := (fun z => ({ top := x.top, left := x.left, bottom := x.bottom, right := x.right, header := z } : PgMar))) rfl) |>.append
    (at_intAA (pre := "w") (loc := "footer") x.footer (set := (fun z => ({ top := x.top, left := x.left, bottom := x.bottom, right := x.right, header := x.header, footer := z } : PgMar))) rfl) |>.append
    (at_intAA (pre := "w") (loc := "gutter") x.gutter (set := (fun z => ({ top := x.top, left := x.left, bottom := x.bottom, right := x.right, header := x.header, footer := x.footer, gutter := z } : PgMar))) rfl)
  exact decodes_leaf h

theorem dec_docGrid (x : DocGrid) : Decodes (unDocGrid (mDocGrid x).as) (mDocGrid x).kids x := by
  have h : AttrTakes docGridAttr {} _ x :=
    (at_strA (pre := "w") (loc := "type") (v := x.type) (s := (fun z => ({ type := z } : DocGrid)) "") (s' := (fun z => ({ type := z } : DocGrid)) x.type) rfl) |>.append
    (at_intAA (pre := "w") (loc := "linePitch") x.linePitch (set := (fun z => ({ type := x.type, linePitch := z } : DocGrid))) rfl)
  exact decodes_leaf h

theorem dec_cols (x : Int64) : Decodes (unCols (mCols x).as) (mCols x).kids x :=
  decodes_leaf (at_intAA x (set := fun y => y) rfl)

theorem dec_sect (x : SectPr) : Decodes unSect (mSect x).kids x := by
  have h : Takes sectStep {} _ x :=
    (takes_optN (f := mPgSz) x.pgSz (fun z => ({ pgSz := z } : SectPr)) fun y => tsub% (sectStep_good 0) (dec_pgSz y) (fun w => (fun z => ({ pgSz := z } : SectPr)) (some w))) |>.append
    (takes_optN (f := mPgMar) x.pgMar (fun z => ({ pgSz := x.pgSz, pgMar := z } : SectPr)) fun y => tsub% (sectStep_good 0) (dec_pgMar y) (fun w => (fun z => ({ pgSz := x.pgSz, pgMar := z } : SectPr)) (some w))) |>.append
    (takes_optN (f := mCols) x.cols (fun z => ({ pgSz := x.pgSz, pgMar := x.pgMar, cols := z } : SectPr)) fun y => tsub% (sectStep_good 0) (dec_cols y) (fun w => (fun z => ({ pgSz := x.pgSz, pgMar := x.pgMar, cols := z } : SectPr)) (some w))) |>.append
    (takes_optN (f := mDocGrid) x.docGrid (fun z => ({ pgSz := x.pgSz, pgMar := x.pgMar, cols := x.cols, docGrid := z } : SectPr)) fun y => tsub% (sectStep_good 0) (dec_docGrid y) (fun w => (fun z => ({ pgSz := x.pgSz, pgMar := x.pgMar, cols := x.cols, docGrid := z } : SectPr)) (some w)))
  exact decodes_loop (sectStep_good 0) h

end Docx
