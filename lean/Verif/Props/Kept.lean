import Verif.Lemmas.SavedEls
import Verif.Props.Content
import Verif.Props.Round

/-!
# Opening and saving a document (C70)

`resaved`, `written`, `AsSaved` and `attrsOf` are in `Verif.SpecKept`, `xmlContent` is in
`Verif.SpecContent`.
-/

namespace Docx

set_option linter.unusedSectionVars false

section
variable [GoEnv]

/-! ## What is kept -/

theorem normLook_id {l : TblLook} (h : lookOk l) : normLook l = l := by
  obtain ⟨h1, h2, h3, h4, h5, h6⟩ := h
  cases l
  simp only [normLook, TblLook.mk.injEq, true_and]
  exact ⟨(normLookInt_iff _).2 h1, (normLookInt_iff _).2 h2, (normLookInt_iff _).2 h3,
    (normLookInt_iff _).2 h4, (normLookInt_iff _).2 h5, (normLookInt_iff _).2 h6⟩

theorem savedPara_id {file : Option DocId} {p : Para} (h : keptPara file p) : savedPara p = paraContent p := by
  cases p with
  | mk props children f =>
    have h1 : keptPPr props := h.1
    rw [savedPara, paraContent]
    cases props with
    | none => rfl
    | some x =>
      have := h1 x rfl
      cases x
      simp only at this
      subst this
      rfl

theorem savedItem_id {file : Option DocId} {i : BItem} (h : keptItem file i)
    (hl : ∀ t pr l, i = .table t → t.props = some pr → pr.look = some l → lookOk l) :
    savedItem i = itemContent i := by
  cases i with
  | para p => rw [savedItem, savedPara_id h, itemContent]
  | sect s => rfl
  | table t =>
    rw [savedItem, itemContent, savedTable, tableContent]
    congr 2
    · cases hp : t.props with
      | none => rfl
      | some pr =>
        simp only [Option.map_some, Option.some.injEq, normTblPr]
        cases hk : pr.look with
        | none => cases pr; simp_all
        | some l =>
          have := normLook_id (hl t pr l rfl hp hk)
          cases pr
          simp_all
    · cases hg : t.grid with
      | none => rfl
      | some g =>
        simp only [Option.map_some, Option.some.injEq, List.filter_eq_self]
        intro o ho
        cases o with
        | none => exact absurd ho (h.1 g hg)
        | some n => rfl
    · refine List.map_congr_left fun r hr => ?_
      rw [savedRow, rowContent]
      congr 1
      refine List.map_congr_left fun c hc => ?_
      rw [savedCell, cellContent]
      congr 1
      exact List.map_congr_left fun p hp => savedPara_id ((h.2 r hr c hc).1 p hp)

/-- C70: the file that is written for a document says, read by the rules of `Verif.SpecContent`, what is in
the document: the same paragraphs, tables, links, runs and texts with the same formatting, unless the
document has numbering, nil grid columns, or numbers of more than one digit in `tblLook`. -/
theorem C70_saved (file : Option DocId) (items : List BItem) (h : keptBody file items) (hl : looksOk items) :
    xmlContent lastPiece (mDocument items).kids = items.map itemContent := by
  rw [read_document rfl (fun _ => rfl)]
  exact List.map_congr_left fun i hi => savedItem_id (h i hi) (hl i hi)

/-! ### The flags of `tblLook` -/

theorem elsL_mono {o : String → Bool} {ks : List Node} {e : El} (h : e ∈ elsL o ks) :
    e ∈ elsL (fun _ => true) ks := by
  revert h
  refine Node.rec_1 (motive_1 := fun n => e ∈ els o n → e ∈ els (fun _ => true) n)
    (motive_2 := fun ns => e ∈ elsL o ns → e ∈ elsL (fun _ => true) ns) ?_ ?_ ?_ ?_ ?_ ks
  · intro q as kids ih h
    rw [els] at h ⊢
    rcases List.mem_cons.1 h with h | h
    · subst h; exact List.mem_cons_self ..
    · split at h
      · exact List.mem_cons_of_mem _ (by simpa using ih h)
      · cases h
  · intro s h; simp [els] at h
  · intro h; simp [els] at h
  · intro h; simp [elsL] at h
  · intro n ns h1 h2 h
    rw [elsL] at h ⊢
    rcases List.mem_append.1 h with h | h
    · exact List.mem_append_left _ (h1 h)
    · exact List.mem_append_right _ (h2 h)

theorem elsL_mem {o : String → Bool} {ks : List Node} {n : Node} {e : El} (hn : n ∈ ks) (h : e ∈ els o n) :
    e ∈ elsL o ks := by
  induction ks with
  | nil => cases hn
  | cons k ks ih =>
    rw [elsL]
    rcases List.mem_cons.1 hn with hn | hn
    · subst hn; exact List.mem_append_left _ h
    · exact List.mem_append_right _ (ih hn)

theorem elsL_child {l : String} {ks kids : List Node} {e : El} (hk : kids ∈ ks.flatMap (childrenOf l))
    (h : e ∈ elsL (fun _ => true) kids) : e ∈ elsL (fun _ => true) ks := by
  obtain ⟨n, hn, hc⟩ := List.mem_flatMap.1 hk
  refine elsL_mem hn ?_
  cases n with
  | text s => cases hc
  | other => cases hc
  | elem q as k =>
    rw [childrenOf] at hc
    split at hc
    · simp only [List.mem_singleton] at hc
      subst hc
      rw [els]
      exact List.mem_cons_of_mem _ (by simpa using h)
    · cases hc

theorem lookFlag_digit {as : List Attr} {n : String}
    (hn : n ∈ ["firstRow", "lastRow", "firstColumn", "lastColumn", "noHBand", "noVBand"])
    (h : ∀ a ∈ as, a.name.loc ∈ ["firstRow", "lastRow", "firstColumn", "lastColumn", "noHBand", "noVBand"] →
      a.val = "0" ∨ a.val = "1") : digit (xmlLookFlag n as) := by
  unfold xmlLookFlag
  cases hv : attrFull? n as with
  | none => exact ⟨by decide, by decide⟩
  | some v =>
    unfold attrFull? at hv
    obtain ⟨a, ha, rfl⟩ := Option.map_eq_some_iff.1 hv
    have := List.mem_of_getLast? ha
    rw [List.mem_filter] at this
    obtain ⟨hm, hc⟩ := this
    simp only [Bool.and_eq_true, beq_iff_eq] at hc
    rcases h a hm (hc.1 ▸ hn) with e | e
    · rw [e]; exact ⟨by decide, by decide⟩
    · rw [e]; exact ⟨by decide, by decide⟩

theorem looks_digits {ks : List Node} {items : List BItem} (hf : lookFlags ks)
    (hc : items.map itemContent = xmlContent lastPiece ks) : looksOk items := by
  intro i hi t pr l he hp hl
  subst he
  have hm : itemContent (.table t) ∈ xmlContent lastPiece ks := by
    rw [← hc]; exact List.mem_map_of_mem hi
  unfold xmlContent at hm
  obtain ⟨b, hb, hm⟩ := List.mem_flatMap.1 hm
  obtain ⟨n, hn, hm⟩ := List.mem_flatMap.1 hm
  cases n with
  | text s => cases hm
  | other => cases hm
  | elem q as kids =>
    have hkids : kids ∈ b.flatMap (childrenOf q.loc) :=
      List.mem_flatMap.2 ⟨_, hn, by simp [childrenOf]⟩
    have ht : xmlTable lastPiece kids = tableContent t := by
      simp only [xmlItemContent] at hm
      split at hm
      · simp [itemContent] at hm
      · split at hm
        · simp only [itemContent, List.mem_singleton, Content.table.injEq] at hm
          exact hm.symm
        · split at hm <;> simp [itemContent] at hm
    have hpr : lastChild "tblPr" xmlTblPr kids = some pr := by
      have := congrArg TableCont.props ht
      simpa [xmlTable, tableContent, hp] using this
    unfold lastChild at hpr
    obtain ⟨pk, hpk, rfl⟩ := Option.map_eq_some_iff.1 hpr
    have hpk := List.mem_of_getLast? hpk
    have hlook : (lastEl "tblLook" (elsL (fun _ => false) pk)).map (fun e => xmlLook e.attrs) = some l := hl
    obtain ⟨e, he, rfl⟩ := Option.map_eq_some_iff.1 hlook
    unfold lastEl at he
    have he := List.mem_of_getLast? he
    rw [List.mem_filter] at he
    have hmem : e ∈ elsL (fun _ => true) ks :=
      elsL_child hb (elsL_child hkids (elsL_child hpk (elsL_mono he.1)))
    have hd := hf e hmem (by simpa using he.2)
    exact ⟨lookFlag_digit (by simp) hd, lookFlag_digit (by simp) hd, lookFlag_digit (by simp) hd,
      lookFlag_digit (by simp) hd, lookFlag_digit (by simp) hd, lookFlag_digit (by simp) hd⟩

/-- C70, partial: a file that is opened without an error and saved again says the same, read by the rules
of `Verif.SpecContent`: the same paragraphs, tables, links, runs and texts with the same formatting.
Missing: files with bad numbers, with white space at the beginning of an `AlternateContent`, or with
flags other than 0 and 1 in `w:tblLook`. -/
theorem C70_kept_partial (pre post : List Tok)
    (hp : ∀ t ∈ pre, t = .other ∨ ∃ c, t = .chars c) (q : QName) (as : List Attr) (ks : List Node)
    (hok : numsOkL ks) (hal : altsOkL ks) (hf : lookFlags ks)
    (he : (decodeDocument none [] (pre ++ (Node.elem q as ks).toks ++ post)).err = none) :
    xmlContent lastPiece (resaved (pre ++ (Node.elem q as ks).toks ++ post)).kids =
      xmlContent lastPiece ks := by
  have hc := C58_content_partial none [] pre post hp q as ks hok hal he
  simp only [List.map_nil, List.nil_append] at hc
  rw [resaved, C70_saved none _ (C42_parsed_kept none _) (looks_digits hf hc), hc]

/-! ## What is not kept -/

/-- C70: whatever is in a file, the elements written when it is opened and saved are all `AsSaved`, apart
from those in drawings: nothing outside the vocabulary of the library, no numbering, no values of
`w:b`, `w:i` and `w:iCs`, no zeros in indentations and spacings, one run per link.  A file with anything
else is changed. -/
theorem C70_plain (toks : List Tok) : ∀ e ∈ written (resaved toks), AsSaved e := by
  intro e he
  refine plains_document (C42_parsed_kept none toks) e ?_
  rw [elsL, elsL, List.append_nil]
  exact he

/-- C70 is false: no numbering is left. -/
theorem C70_numbering_lost (toks : List Tok) :
    ∀ e ∈ written (resaved toks), e.name ∉ ["numPr", "numId", "ilvl"] := by
  intro e he hn
  obtain ⟨as, hv, _⟩ := (C70_plain toks e he).known
  simp only [List.mem_cons, List.not_mem_nil, or_false] at hn
  rcases hn with h | h | h <;> (rw [h] at hv; simp [vocabulary] at hv)

/-- C70 is false: nothing is ever switched off in a saved file.  All `w:b`, `w:i` and `w:iCs` elements
in it have no attributes, which means on. -/
theorem C70_nothing_off (toks : List Tok) :
    ∀ e ∈ written (resaved toks), e.name ∈ ["b", "i", "iCs"] → e.attrs = [] := by
  intro e he hn
  obtain ⟨as, hv, ha⟩ := (C70_plain toks e he).known
  have : as = [] := by
    simp only [List.mem_cons, List.not_mem_nil, or_false] at hn
    rcases hn with h | h | h <;> (rw [h] at hv; simp [vocabulary] at hv; exact hv)
  subst this
  exact List.eq_nil_iff_forall_not_mem.2 fun a h => by cases ha a h

/-- C70 is false: no link is to a place in the document. -/
theorem C70_anchors_lost (toks : List Tok) :
    ∀ e ∈ written (resaved toks), e.name = "hyperlink" → ∀ a ∈ e.attrs, a.name.loc = "id" := by
  intro e he hn a ha
  obtain ⟨as, hv, h⟩ := (C70_plain toks e he).known
  rw [hn] at hv
  simp [vocabulary] at hv
  subst hv
  simpa using h a ha

/-- C70 is false: the space after paragraphs and the right indentation are lost. -/
theorem C70_after_lost (toks : List Tok) : ∀ e ∈ written (resaved toks), ∀ a ∈ e.attrs,
    (e.name = "spacing" → a.name.loc ≠ "after") ∧ (e.name = "ind" → a.name.loc ≠ "right") := by
  intro e he a ha
  obtain ⟨as, hv, h⟩ := (C70_plain toks e he).known
  constructor <;> intro hn h2 <;> (
    rw [hn] at hv
    simp [vocabulary] at hv
    subst hv
    have := h a ha
    rw [h2] at this
    simp at this)

/-! ### Examples -/

/-- The attribute `w:val` -/
def valAttr (s : String) : List Attr := [⟨⟨"w", "val"⟩, s⟩]

/-- An element of the name space `w` -/
def wElem (l : String) (as : List Attr) (ks : List Node) : Node := .elem ⟨"w", l⟩ as ks

theorem decode_body {bs : List Node} {items : List BItem} (h : Decodes (unBody D none []) bs items) :
    (decodeDocument none [] (docWith bs).toks).val = items := by
  have hd : Decodes (unDocument D none []) [.elem ⟨"w", "body"⟩ [] bs] items :=
    decodes_loop (documentStep_good (D_good 0) none)
      (takes_sub (documentStep_good (D_good 0) none) rfl h (fun v => v) rfl rfl)
  have := decode_root (q := ⟨"w", "document"⟩) (as := []) hd [] [] (by simp)
  rw [List.nil_append, List.append_nil] at this
  exact congrArg Out.val this

/-- A document with a text formatted by these elements -/
def formatted (ks : List Node) : Node :=
  docWith [pWith [rWith [wElem "rPr" [] ks, tWith [.text "x"]]]]

/-- A run with the text "x" -/
def xRun (f : RPr) : Run := { rpr := some f, children := [.text { text := "x" }] }

theorem takes_t (file : Option DocId) (f : Option RPr) (cs : List RChild) (s : String) (h : s ≠ "") :
    Takes (runStep D file) { rpr := f, children := cs } [tWith [.text s]]
      { rpr := f, children := cs ++ [.text { text := s }] } := by
  have := dec_text { text := s }
  simp only [mText, textN, if_neg h] at this
  exact takes_runStrict (D_good 0) (fun w => ({ rpr := f, children := cs }, some (.text w))) (fun _ => rfl)
    this rfl

theorem resaved_formatted {ks : List Node} {f : RPr} (h : Decodes unRPr ks f) :
    resaved (formatted ks).toks = mDocument [.para { children := [.run (xRun f)] }] := by
  have h1 : Takes (runStep D none) {} [wElem "rPr" [] ks] { rpr := some f } :=
    takes_runSub (D_good 0) (fun w => ({ rpr := some w }, none)) (fun _ => rfl) h rfl
  have hr : Decodes (unRun D none {} []) [wElem "rPr" [] ks, tWith [.text "x"]] (xRun f) :=
    decodes_withAttrs rfl (decodes_loop (runStep_good (D_good 0) none)
      (h1.append (takes_t none (some f) [] "x" (by decide))))
  rw [resaved, formatted, decode_oneRun hr]

/-- A document with an empty paragraph formatted by these elements -/
def formattedPara (ks : List Node) : Node := docWith [pWith [wElem "pPr" [] ks]]

theorem resaved_formattedPara {ks : List Node} {f : PPr} (h : Decodes unPPr ks f) :
    resaved (formattedPara ks).toks = mDocument [.para { props := some f }] := by
  have hp : Decodes (unPara D none) [wElem "pPr" [] ks] { props := some f } :=
    decodes_unPara (decodes_loop (paraStep_good (D_good 0) none)
      (takes_sub (paraStep_good (D_good 0) none) rfl h (fun v => ({ props := some v } : Para)) rfl rfl))
  have hb : Decodes (unBody D none []) [pWith [wElem "pPr" [] ks]] [.para { props := some f }] :=
    decodes_loop (bodyStep_good (D_good 0) none)
      (takes_sub (bodyStep_good (D_good 0) none) rfl hp (fun v => [.para v]) rfl rfl)
  rw [resaved, formattedPara, decode_body hb]

/-- C70 is false: a text that is not bold, in spite of its style, becomes bold (for `s` = "0", "false" or
"off"); the same for italics. -/
theorem C70_off_becomes_on (s : String) :
    attrsOf "b" (formatted [wElem "b" (valAttr s) []]) = [valAttr s] ∧
      attrsOf "b" (resaved (formatted [wElem "b" (valAttr s) []]).toks) = [[]] ∧
    attrsOf "i" (formatted [wElem "i" (valAttr s) []]) = [valAttr s] ∧
      attrsOf "i" (resaved (formatted [wElem "i" (valAttr s) []]).toks) = [[]] := by
  have hb : Decodes unRPr [wElem "b" (valAttr s) []] { bold := true } :=
    decodes_loop (rprStep_good 0) (takes_flat (rprStep_good 0) rfl (fun d => rfl) TakesC.nil)
  have hi : Decodes unRPr [wElem "i" (valAttr s) []] { italic := true } :=
    decodes_loop (rprStep_good 0) (takes_flat (rprStep_good 0) rfl (fun d => rfl) TakesC.nil)
  rw [resaved_formatted hb, resaved_formatted hi]
  exact ⟨rfl, rfl, rfl, rfl⟩

/-- C70 is false: a struck out text gets a value of `w:strike` that is neither on nor off. -/
theorem C70_strike_invalid :
    attrsOf "strike" (formatted [wElem "strike" [] []]) = [[]] ∧
      attrsOf "strike" (resaved (formatted [wElem "strike" [] []]).toks) = [valAttr ""] := by
  have hb : Decodes unRPr [wElem "strike" [] []] { strike := some "" } :=
    decodes_loop (rprStep_good 0) (takes_flat (rprStep_good 0) rfl (fun d => rfl) TakesC.nil)
  rw [resaved_formatted hb]
  exact ⟨rfl, rfl⟩

/-- C70 is false: a switch without a value, which means on, is lost. -/
theorem C70_switch_lost (l : String) (h : l ∈ ["adjustRightInd", "snapToGrid", "kinsoku", "overflowPunct"]) :
    attrsOf l (formattedPara [wElem l [] []]) = [[]] ∧
      attrsOf l (resaved (formattedPara [wElem l [] []]).toks) = [] := by
  have hb : Decodes unPPr [wElem l [] []] {} := by
    simp only [List.mem_cons, List.not_mem_nil, or_false] at h
    rcases h with rfl | rfl | rfl | rfl <;>
      exact decodes_loop (pprStep_good 0) (takes_flat (pprStep_good 0) rfl (fun d => rfl) TakesC.nil)
  rw [resaved_formattedPara hb]
  simp only [List.mem_cons, List.not_mem_nil, or_false] at h
  rcases h with rfl | rfl | rfl | rfl <;> exact ⟨rfl, rfl⟩

/-- C70 is false: a zero, which overrides the value in the style, is lost. -/
theorem C70_zero_lost :
    attrsOf "ind" (formattedPara [wElem "ind" [⟨⟨"w", "left"⟩, "0"⟩] []]) = [[⟨⟨"w", "left"⟩, "0"⟩]] ∧
      attrsOf "ind" (resaved (formattedPara [wElem "ind" [⟨⟨"w", "left"⟩, "0"⟩] []]).toks) = [[]] := by
  have ha : AttrTakes indAttr {} [⟨⟨"w", "left"⟩, "0"⟩] {} := rfl
  have hi : Decodes (unInd [⟨⟨"w", "left"⟩, "0"⟩]) [] {} := decodes_leaf ha
  have hb : Decodes unPPr [wElem "ind" [⟨⟨"w", "left"⟩, "0"⟩] []] { ind := some {} } :=
    decodes_loop (pprStep_good 0)
      (takes_sub (pprStep_good 0) rfl hi (fun v => ({ ind := some v } : PPr)) rfl rfl)
  rw [resaved_formattedPara hb]
  exact ⟨rfl, rfl⟩

/-- A document with a link of two runs, the first of them formatted by `ks` -/
def twoRuns (ks : List Node) : Node :=
  docWith [pWith [wElem "hyperlink" [⟨⟨"r", "id"⟩, "rId1"⟩]
    [rWith [wElem "rPr" [] ks, tWith [.text "x"]], rWith [tWith [.text "y"]]]]]

/-- A bold run with two texts -/
def xyRun : Run :=
  { rpr := some { bold := true }, children := [.text { text := "x" }, .text { text := "y" }] }

/-- C70 is false: if the first run of a link is bold, the whole link becomes bold. -/
theorem C70_link_joined : resaved (twoRuns [wElem "b" [] []]).toks =
    .elem ⟨"w", "document"⟩ docAttrs [.elem ⟨"w", "body"⟩ [] [pWith [wElem "hyperlink" [⟨⟨"r", "id"⟩, "rId1"⟩]
      [rWith [wElem "rPr" [] [wElem "b" [] []], tWith [.text "x"], tWith [.text "y"]]]]]] := by
  have hb : Decodes unRPr [wElem "b" [] []] { bold := true } :=
    decodes_loop (rprStep_good 0) (takes_flat (rprStep_good 0) rfl (fun d => rfl) TakesC.nil)
  have h1 : Takes (runStep D none) {} [wElem "rPr" [] [wElem "b" [] []]] { rpr := some { bold := true } } :=
    takes_runSub (D_good 0) (fun w => ({ rpr := some w }, none)) (fun _ => rfl) hb rfl
  have hr : Decodes (unRun D none {} []) [wElem "rPr" [] [wElem "b" [] []], tWith [.text "x"]]
      (xRun { bold := true }) :=
    decodes_withAttrs rfl (decodes_loop (runStep_good (D_good 0) none)
      (h1.append (takes_t none (some { bold := true }) [] "x" (by decide))))
  have hr2 : Decodes (unRun D none (xRun { bold := true }) []) [tWith [.text "y"]]
      xyRun :=
    decodes_withAttrs rfl (decodes_loop (runStep_good (D_good 0) none)
      (takes_t none (some { bold := true }) [.text { text := "x" }] "y" (by decide)))
  have hl : Decodes (unLink D) [rWith [wElem "rPr" [] [wElem "b" [] []], tWith [.text "x"]], rWith [tWith [.text "y"]]]
      ⟨"", xyRun⟩ := by
    refine decodes_loop (hyperlinkStep_good (D_good 0)) (TakesC.cons (s' := ⟨"", xRun { bold := true }⟩) ?_ ?_)
    · exact takes_sub (hyperlinkStep_good (D_good 0)) rfl hr (fun w => (⟨"", w⟩ : Hyperlink)) rfl rfl
    · exact takes_sub (hyperlinkStep_good (D_good 0)) rfl hr2 (fun w => (⟨"", w⟩ : Hyperlink)) rfl rfl
  have hp : Decodes (unPara D none) [wElem "hyperlink" [⟨⟨"r", "id"⟩, "rId1"⟩]
      [rWith [wElem "rPr" [] [wElem "b" [] []], tWith [.text "x"]], rWith [tWith [.text "y"]]]]
      { children := [.link ⟨"rId1", xyRun⟩] } :=
    decodes_unPara (decodes_loop (paraStep_good (D_good 0) none)
      (takes_sub (paraStep_good (D_good 0) none) rfl hl
        (fun v => (⟨none, [.link ⟨linkID (strA "r" "id" "rId1") v.id, v.run⟩], none⟩ : Para)) rfl rfl))
  have hbd : Decodes (unBody D none []) [pWith [wElem "hyperlink" [⟨⟨"r", "id"⟩, "rId1"⟩]
      [rWith [wElem "rPr" [] [wElem "b" [] []], tWith [.text "x"]], rWith [tWith [.text "y"]]]]]
      [.para { children := [.link ⟨"rId1", xyRun⟩] }] :=
    decodes_loop (bodyStep_good (D_good 0) none)
      (takes_sub (bodyStep_good (D_good 0) none) rfl hp (fun v => [.para v]) rfl rfl)
  rw [resaved, twoRuns, decode_body hbd]
  rfl

/-- A document with a table with these properties -/
def tableWith (ks : List Node) : Node := docWith [wElem "tbl" [] [wElem "tblPr" [] ks]]

/-- C70 is false: if a table says only by the mask `w:val` which of its parts are formatted, flags are
written that say that none are. -/
theorem C70_look_invented (m : String) (hm : m ≠ "") :
    attrsOf "tblLook" (tableWith [wElem "tblLook" (valAttr m) []]) = [valAttr m] ∧
      attrsOf "tblLook" (resaved (tableWith [wElem "tblLook" (valAttr m) []]).toks) =
        [valAttr m ++ ["firstRow", "lastRow", "firstColumn", "lastColumn", "noHBand", "noVBand"].map
          fun n => ⟨⟨"w", n⟩, "0"⟩] := by
  have ha : AttrTakes lookAttr {} (valAttr m) { val := m } := by
    simp [AttrTakes, attrs, lookAttr, valAttr, hm]
  have hi : Decodes (unTblLook (valAttr m)) [] { val := m } := decodes_leaf ha
  have hb : Decodes unTblPr [wElem "tblLook" (valAttr m) []] { look := some { val := m } } :=
    decodes_loop (tblPrStep_good 0)
      (takes_sub (tblPrStep_good 0) rfl hi (fun v => ({ look := some v } : TblPr)) rfl rfl)
  have ht : Decodes (unTable D none) [wElem "tblPr" [] [wElem "tblLook" (valAttr m) []]]
      { props := some { look := some { val := m } } } :=
    decodes_loop (tableStep_good (D_good 0) none)
      (takes_sub (tableStep_good (D_good 0) none) rfl hb (fun v => ({ props := some v } : Table)) rfl rfl)
  have hbd : Decodes (unBody D none []) [wElem "tbl" [] [wElem "tblPr" [] [wElem "tblLook" (valAttr m) []]]]
      [.table { props := some { look := some { val := m } } }] :=
    decodes_loop (bodyStep_good (D_good 0) none)
      (takes_sub (bodyStep_good (D_good 0) none) rfl ht (fun v => [.table v]) rfl rfl)
  rw [resaved, tableWith, decode_body hbd]
  exact ⟨rfl, rfl⟩

end

/-! ## A case that meets the hypotheses -/

/-- Some way to read floating point numbers -/
local instance : GoEnv := ⟨fun _ => none, fun _ => false, fun _ => false⟩

/-- The hypotheses of `C70_kept_partial` hold for this document, which has a bold text and an unknown
element, and this is what it says before and after. -/
example :
    let ks := [Node.elem ⟨"w", "body"⟩ [] [pWith [wElem "bookmarkStart" [] [],
      rWith [wElem "rPr" [] [wElem "b" [] [], wElem "sz" (valAttr "24") []], tWith [.text "a"]]],
      wElem "tbl" [] [wElem "tblPr" [] [wElem "tblLook" [⟨⟨"w", "firstRow"⟩, "1"⟩] []]]]]
    numsOkL ks ∧ altsOkL ks ∧ lookFlags ks ∧
      (decodeDocument none [] (Node.elem ⟨"w", "document"⟩ [] ks).toks).err = none ∧
      xmlContent lastPiece (resaved (Node.elem ⟨"w", "document"⟩ [] ks).toks).kids =
        [.para { parts := [.run { rpr := some { bold := true, size := some "24" }, pieces := [.text "a"] }] },
         .table { props := some { look := some { firstRow := 1 } } }] := by
  intro ks
  have h1 : numsOkL ks := by
    simp [ks, pWith, rWith, tWith, wElem, valAttr, numsOk, numsOkL, attrsOk, numeric]
  have h2 : altsOkL ks := by
    simp [ks, pWith, rWith, tWith, wElem, altsOk, altsOkL]
  have h3 : lookFlags ks := by
    simp [ks, pWith, rWith, tWith, wElem, lookFlags, elsL, els]
  have h4 : (decodeDocument none [] (Node.elem ⟨"w", "document"⟩ [] ks).toks).err = none := by
    decide +kernel
  refine ⟨h1, h2, h3, h4, ?_⟩
  have h := C70_kept_partial [] [] (by simp) ⟨"w", "document"⟩ [] ks h1 h2 h3
    (by rw [List.nil_append, List.append_nil]; exact h4)
  rw [List.nil_append, List.append_nil] at h
  rw [h]
  rfl

end Docx
