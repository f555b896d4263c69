import Verif.SpecShown
import Verif.Props.Forms

/-!
# C82: printing an opened file shows its text
-/

namespace Docx

set_option linter.unusedSectionVars false

section
variable [GoEnv] [HashEnv]

theorem targetIn_refer (rs : List Rel) (id : String) :
    (match referTarget id rs with | some t => t | none => id) = targetIn rs id := by
  unfold targetIn
  induction rs with
  | nil => rfl
  | cons r rs ih =>
    simp only [referTarget, List.find?_cons]
    by_cases h : r.id = id
    · simp [h]
    · have : (r.id == id) = false := by simpa using h
      simp only [this, h, if_false]
      exact ih

theorem rchildren_shown (w : World) : ∀ cs : List RChild, (cs.map pieceOf).contains .drawing = false →
    rchildrenStr w cs = .ok (showPieces (cs.map pieceOf))
  | [], _ => rfl
  | c :: cs, h => by
    simp only [List.map_cons, List.contains_cons, Bool.or_eq_false_iff] at h
    have ih := rchildren_shown w cs h.2
    simp only [rchildrenStr, ih, List.map_cons, showPieces]
    cases c with
    | text t => rfl
    | tab t => rfl
    | br b => rfl
    | drawing d => exact absurd h.1 (by simp [pieceOf])

theorem pchild_shown (w : World) (d : DocId) (f : Doc) (hw : w[d]? = some f) (c : PChild)
    (h : (partOf c).plain = true) : c.str w (some d) = .ok ((partOf c).shown f.rels) := by
  cases c with
  | run r =>
    simp only [partOf, PPart.plain, runContent, Bool.not_eq_true'] at h
    exact rchildren_shown w r.children h
  | link l =>
    simp only [partOf, PPart.plain, runContent, List.isEmpty_iff] at h
    simp only [PChild.str, Option.bind_some, hw, partOf, PPart.shown, runContent, h, showPieces,
      String.append_empty]
    rw [← targetIn_refer]
    rfl
  | rpr f => rfl

theorem pchildren_shown (w : World) (d : DocId) (f : Doc) (hw : w[d]? = some f) : ∀ cs : List PChild,
    (cs.map partOf).all PPart.plain = true →
    pchildrenStr w (some d) cs = .ok (showParts f.rels (cs.map partOf))
  | [], _ => rfl
  | c :: cs, h => by
    simp only [List.map_cons, List.all_cons, Bool.and_eq_true] at h
    simp only [pchildrenStr, pchild_shown w d f hw c h.1, pchildren_shown w d f hw cs h.2, List.map_cons, showParts]
    rfl

theorem kept_file {file : Option DocId} {p : Para} (h : keptPara file p) : p.file = file := by
  cases p
  rw [keptPara] at h
  exact h.2.2

theorem para_shown (w : World) (d : DocId) (f : Doc) (hw : w[d]? = some f) (p : Para) (hk : keptPara (some d) p)
    (h : (paraContent p).parts.all PPart.plain = true) :
    p.str w = .ok (showParts f.rels (paraContent p).parts) := by
  unfold Para.str
  rw [kept_file hk]
  exact pchildren_shown w d f hw p.children h

theorem cell_shown (w : World) (d : DocId) (f : Doc) (hw : w[d]? = some f) (c : Cell) (hk : keptCell (some d) c)
    (h1 : (cellContent c).paras.length ≤ 1)
    (h2 : (cellContent c).paras.all (fun p => p.parts.all PPart.plain) = true) :
    c.str w = .ok ((if (cellContent c).paras.all (·.parts.isEmpty) then "       "
      else " " ++ showCell f.rels (cellContent c)) ++ " |") := by
  unfold Cell.str
  simp only [cellContent, List.length_map] at h1
  match hc : c.paras, h1 with
  | [], _ => simp only [cellContent, hc, List.map_nil, List.all_nil, if_true]; rfl
  | [p], _ =>
    have hp := hk.1 p (by rw [hc]; exact List.mem_cons_self)
    simp only [cellContent, hc, List.map_cons, List.map_nil, List.all_cons, List.all_nil, Bool.and_true] at h2 ⊢
    by_cases he : p.children = []
    · simp only [he, if_true, paraContent, List.map_nil, List.isEmpty_nil]; rfl
    · have : (paraContent p).parts.isEmpty = false := by
        simp only [paraContent, List.isEmpty_map]
        cases hh : p.children with
        | nil => exact absurd hh he
        | cons _ _ => rfl
      simp only [he, if_false, this, Bool.false_eq_true, para_shown w d f hw p hp h2, showCell, List.map_cons,
        List.map_nil, String.intercalate]
      rfl

theorem cells_shown (w : World) (d : DocId) (f : Doc) (hw : w[d]? = some f) : ∀ cs : List Cell,
    (∀ c ∈ cs, keptCell (some d) c) →
    (cs.map cellContent).all (fun c => decide (c.paras.length ≤ 1) && c.paras.all fun p => p.parts.all PPart.plain) = true →
    cellsStr w cs = .ok (showCells f.rels (cs.map cellContent))
  | [], _, _ => rfl
  | c :: cs, hk, h => by
    simp only [List.map_cons, List.all_cons, Bool.and_eq_true, decide_eq_true_eq] at h
    have h1 := cell_shown w d f hw c (hk c List.mem_cons_self) h.1.1 h.1.2
    have h2 := cells_shown w d f hw cs (fun x hx => hk x (List.mem_cons_of_mem _ hx)) h.2
    simp only [cellsStr, h1, h2, List.map_cons, showCells]
    rfl

theorem rows_shown (w : World) (d : DocId) (f : Doc) (hw : w[d]? = some f) : ∀ rs : List Row,
    (∀ r ∈ rs, keptRow (some d) r) →
    (rs.map rowContent).all (fun r => r.cells.all fun c =>
      decide (c.paras.length ≤ 1) && c.paras.all fun p => p.parts.all PPart.plain) = true →
    rowsStr w rs = .ok (showRows f.rels (rs.map rowContent))
  | [], _, _ => rfl
  | r :: rs, hk, h => by
    simp only [List.map_cons, List.all_cons, Bool.and_eq_true] at h
    have h1 := cells_shown w d f hw r.cells (hk r List.mem_cons_self) h.1
    have h2 := rows_shown w d f hw rs (fun x hx => hk x (List.mem_cons_of_mem _ hx)) h.2
    simp only [rowsStr, h1, h2, List.map_cons, showRows, rowContent]
    rfl

theorem headerCells_times : ∀ n : Nat, headerCells n = timesText " :----: |" n
  | 0 => rfl
  | n + 1 => by rw [headerCells, timesText, headerCells_times n]

theorem table_shown (w : World) (d : DocId) (f : Doc) (hw : w[d]? = some f) (t : Table) (hk : keptTable (some d) t)
    (h : (Content.table (tableContent t)).plain = true) :
    t.str w = .ok (showTable f.rels (tableContent t)) := by
  have hr := rows_shown w d f hw t.rows hk.2 h
  unfold Table.str showTable
  simp only [tableContent]
  cases ht : t.rows with
  | nil => rfl
  | cons r rs =>
    rw [ht] at hr
    simp only [List.map_cons, rowContent]
    cases hc : r.cells with
    | nil => rfl
    | cons c cs =>
      simp only [List.map_cons, List.isEmpty_cons, Bool.false_eq_true, if_false, List.length_cons, List.length_map,
        Nat.succ_ne_zero, hr, headerCells_times]
      simp only [List.map_cons, rowContent, hc]
      rfl

theorem opened_parts (me : DocId) (a : Archive) (f : Doc) (hopen : unpack me a = (f, none))
    (ks rs : List Node) (hdoc : OneXml a "word/document.xml" ks)
    (hrels : OneXml a "word/_rels/document.xml.rels" rs)
    (hok : numsOkL ks) (hal : altsOkL ks) (ht : textsOkL ks) :
    f.items.map itemContent = xmlContent whole ks ∧ keptBody (some me) f.items ∧ f.rels = relsOf rs := by
  refine ⟨?_, ?_, ?_⟩
  · obtain ⟨pre, post, cs, before, after, q, as, rfl, h1, h2, h3, h4⟩ := hdoc
    rw [C74_content_partial me pre post f cs before after q as ks hopen ⟨h1, h2⟩ h3 h4 hok hal, xmlContent_whole ks ht]
  · obtain ⟨pre, post, cs, before, after, q, as, rfl, h1, h2, h3, h4⟩ := hdoc
    obtain ⟨s, _, _, h⟩ := (C55_document me _ f hopen).2 pre _ post rfl rfl (by
      rw [List.map_append, List.mem_append, not_or]; exact ⟨h1, h2⟩)
    rw [h]
    exact C42_parsed_kept (some me) s.toks
  · obtain ⟨pre, post, cs, before, after, q, as, rfl, h1, h2, h3, h4⟩ := hrels
    obtain ⟨s, hs, _, h⟩ := (C55_relationships me _ f hopen).2 pre _ post rfl rfl (by
      rw [List.map_append, List.mem_append, not_or]; exact ⟨h1, h2⟩)
    simp only [Except.ok.injEq] at hs
    subst hs
    have e : (⟨utf8 cs, none⟩ : Stream).toks = toksL before ++ (Node.elem q as rs).toks ++ toksL after := by
      simp only [Stream.toks, lex_file h3, toksL_append, toksL, List.append_assoc]
    rw [h, e, decodeRels_tree _ _ _ _ _ _ _ h4]
    rfl

/-- **C82 (partial).** For an opened package `String` of a paragraph or table shows what the file says: the
texts, tabs and breaks of the paragraph in order, and its links with their targets from the table of
relationships.  Missing: files for which C58 or C46 is false; paragraphs with drawings, of which only a name
is shown; links whose text is in the file as text (`C82_link`); cells with several paragraphs
(`C82_cell`). -/
theorem C82_shown_partial (me : DocId) (a : Archive) (f : Doc) (hopen : unpack me a = (f, none))
    (ks rs : List Node) (hdoc : OneXml a "word/document.xml" ks)
    (hrels : OneXml a "word/_rels/document.xml.rels" rs)
    (hok : numsOkL ks) (hal : altsOkL ks) (ht : textsOkL ks) (w : World) (hw : w[me]? = some f) :
    f.items.length = (xmlContent whole ks).length ∧
    (∀ (i : Nat) (c : ParaCont), (xmlContent whole ks)[i]? = some (.para c) → (Content.para c).plain = true →
      ∃ p, f.items[i]? = some (.para p) ∧ p.str w = .ok ((Content.para c).shown (relsOf rs))) ∧
    (∀ (i : Nat) (c : TableCont), (xmlContent whole ks)[i]? = some (.table c) → (Content.table c).plain = true →
      ∃ t, f.items[i]? = some (.table t) ∧ t.str w = .ok ((Content.table c).shown (relsOf rs))) := by
  obtain ⟨hitems, hkept, hrel⟩ := opened_parts me a f hopen ks rs hdoc hrels hok hal ht
  refine ⟨by rw [← hitems, List.length_map], ?_, ?_⟩
  all_goals
    intro i c hc hp
    rw [← hitems, List.getElem?_map, Option.map_eq_some_iff] at hc
    obtain ⟨x, hx, hc⟩ := hc
    rw [← hrel, ← hc]
    rw [← hc] at hp
    have hk := hkept _ (List.mem_of_getElem? hx)
  · cases x with
    | para p => exact ⟨p, hx, para_shown w me f hw p hk hp⟩
    | table t => cases hc
    | sect s => cases hc
  · cases x with
    | table t => exact ⟨t, hx, table_shown w me f hw t hk hp⟩
    | para p => cases hc
    | sect s => cases hc

/-! ## Limits -/

theorem link_shown (w : World) (d : DocId) (f : Doc) (hw : w[d]? = some f) (props : Option PPr) (id : String)
    (r : Run) :
    Para.str w { props := props, children := [.link { id := id, run := r }], file := some d } =
      .ok ("[" ++ r.instr ++ "](" ++ targetIn f.rels id ++ ")") := by
  simp only [Para.str, pchildrenStr, PChild.str, Option.bind_some, hw]
  rw [← targetIn_refer]
  simp only [Doc.referTarget]
  show Res.ok _ = _
  rw [String.append_empty]
  rfl

/-- **C82 is false for links of other programs.** For a paragraph that is a link, whatever texts the file
has for it (`r.pieces`), `String` shows nothing but the code of its field, mostly none. -/
theorem C82_link (me : DocId) (a : Archive) (f : Doc) (hopen : unpack me a = (f, none))
    (ks rs : List Node) (hdoc : OneXml a "word/document.xml" ks)
    (hrels : OneXml a "word/_rels/document.xml.rels" rs)
    (hok : numsOkL ks) (hal : altsOkL ks) (ht : textsOkL ks) (w : World) (hw : w[me]? = some f)
    (i : Nat) (props : Option PPr) (id : String) (r : RunCont)
    (hc : (xmlContent whole ks)[i]? = some (.para ⟨props, [.link id r]⟩)) :
    ∃ p, f.items[i]? = some (.para p) ∧
      p.str w = .ok ("[" ++ r.instr ++ "](" ++ targetIn (relsOf rs) id ++ ")") := by
  obtain ⟨hitems, hkept, hrel⟩ := opened_parts me a f hopen ks rs hdoc hrels hok hal ht
  rw [← hitems, List.getElem?_map, Option.map_eq_some_iff] at hc
  obtain ⟨x, hx, hc⟩ := hc
  have hk := hkept _ (List.mem_of_getElem? hx)
  cases x with
  | table t => cases hc
  | sect s => cases hc
  | para p =>
    refine ⟨p, hx, ?_⟩
    have hf := kept_file hk
    rcases p with ⟨pp, cs, fl⟩
    simp only [itemContent, paraContent, Content.para.injEq, ParaCont.mk.injEq] at hc
    obtain ⟨_, hc⟩ := hc
    rw [List.map_eq_cons_iff] at hc
    obtain ⟨c, t, rfl, hc, ht⟩ := hc
    rw [List.map_eq_nil_iff] at ht
    subst ht
    cases c with
    | run _ => cases hc
    | rpr _ => cases hc
    | link l =>
      simp only [partOf, PPart.link.injEq] at hc
      obtain ⟨rfl, rfl⟩ := hc
      simp only at hf
      rw [hf, ← hrel]
      exact link_shown w me f hw pp l.id l.run

/-- **C82 is false for cells with several paragraphs.** Only the first is shown. -/
theorem C82_cell (w : World) (p : Para) (ps ps' : List Para) (props : Option TcPr) (file : Option DocId) :
    Cell.str w { props := props, paras := p :: ps, file := file } =
      Cell.str w { props := props, paras := p :: ps', file := file } := rfl

end

/-! ## Cases that meet the hypotheses -/

local instance shownEnv : GoEnv := ⟨fun _ => none, fun _ => false, fun _ => false⟩

/-- A document as other programs write it: a text and a link, and a table with one cell -/
def shownBody : List Node :=
  [.elem ⟨"w", "body"⟩ [] [
    .elem ⟨"w", "p"⟩ [] [.elem ⟨"w", "r"⟩ [] [.elem ⟨"w", "t"⟩ [] [.text "a"], .elem ⟨"w", "tab"⟩ [] [],
      .elem ⟨"w", "t"⟩ [] [.text "b"]]],
    .elem ⟨"w", "p"⟩ [] [.elem ⟨"w", "hyperlink"⟩ [⟨⟨"r", "id"⟩, "rId1"⟩]
      [.elem ⟨"w", "r"⟩ [] [.elem ⟨"w", "t"⟩ [] [.text "here"]]]],
    .elem ⟨"w", "tbl"⟩ [] [.elem ⟨"w", "tr"⟩ [] [.elem ⟨"w", "tc"⟩ [] [.elem ⟨"w", "p"⟩ []
      [.elem ⟨"w", "r"⟩ [] [.elem ⟨"w", "t"⟩ [] [.text "c"]]]]]]]]

/-- Its table of relationships -/
def shownRels : List Node :=
  [.elem ⟨"", "Relationship"⟩ [⟨⟨"", "Id"⟩, "rId1"⟩, ⟨⟨"", "Type"⟩, "t"⟩, ⟨⟨"", "Target"⟩, "u"⟩] []]

/-- The package -/
def shownPackage : Archive :=
  [⟨"word/document.xml", .ok ⟨utf8 ((Node.elem ⟨"w", "document"⟩ [] shownBody).chars), none⟩⟩,
   ⟨"word/_rels/document.xml.rels", .ok ⟨utf8 ((Node.elem ⟨"", "Relationships"⟩ [] shownRels).chars), none⟩⟩]

example : (xmlContent whole shownBody).map (fun c => (c.plain, c.shown (relsOf shownRels))) =
    [(true, "a\tb"), (false, "[here](u)"), (true, "|  :----: |\n| c |")] := by decide +kernel

example : numsOkL shownBody ∧ altsOkL shownBody ∧ textsOkL shownBody := by
  refine ⟨?_, ?_, ?_⟩
  · simp [numsOkL, numsOk, attrsOk, numeric, shownBody]
  · simp [altsOkL, altsOk, shownBody]
  · simp [textsOkL, textsOk, charDataL, charData, shownBody]

example : OneXml shownPackage "word/document.xml" shownBody := by
  refine ⟨[], _, _, [], [], ⟨"w", "document"⟩, [], rfl, by decide, by decide, ?_, rfl⟩
  have := form_chars (.elem ⟨"w", "document"⟩ [] shownBody) (by decide +kernel) rfl (by
    unfold xmlText; decide +kernel)
  simpa using Forms.cons this .nil

example : (unpack 0 shownPackage).2 = none := by decide +kernel

end Docx
