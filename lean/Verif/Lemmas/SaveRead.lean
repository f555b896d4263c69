import Verif.Lemmas.XmlContent
import Verif.Lemmas.XmlRound

/-!
# What is written in a saved document

Lemmas for C70.  The formatting written for a document, read by `Verif.SpecFormat`, is the formatting of
the document.
-/

namespace Docx

set_option linter.unusedSectionVars false

section
variable [GoEnv]

theorem readAs_decodes {α : Type} {u : Dec → Out α} {of : List Node → α} {ks : List Node} {v : α}
    (hr : ReadAs u of) (hd : Decodes u ks v) (hn : numsOkL ks) : of ks = v := by
  have h := hd ⟨"", ""⟩ [] []
  have he : (Dec.pushEOF ⟨toksL ks ++ [.stop ⟨"", ""⟩], [.elem ⟨"", ""⟩], false⟩) =
      inCtx [(ks, ⟨"", ""⟩)] [] [] := by
    simp [Dec.pushEOF, pushMark, inCtx, ctxToks, ctxStk]
  have hp := decodeElement_parts (u := u) (d := ⟨toksL ks ++ [.stop ⟨"", ""⟩], [.elem ⟨"", ""⟩], false⟩)
    (by rw [h])
  rw [he, h] at hp
  rw [← hr _ _ _ _ hn hp.1, ← hp.2]

/-! ## Numbers -/

theorem numLike_itoa (n : Int64) : numLike (itoa n) := by
  unfold numLike
  rw [getInt_itoa]
  simp

theorem numAttrs_append {l : String} {a b : List Attr} (ha : attrsOk l a) (hb : attrsOk l b) :
    attrsOk l (a ++ b) := by
  intro x hx
  rcases List.mem_append.1 hx with h | h
  · exact ha x h
  · exact hb x h

theorem numAttrs_intA (l p n : String) (v : Int64) : attrsOk l (intA p n v) := by
  intro x hx _
  simp only [intA, List.mem_singleton] at hx
  subst hx
  exact numLike_itoa v

theorem numAttrs_intO (l p n : String) (v : Int64) : attrsOk l (intO p n v) := by
  unfold intO
  split
  · intro x hx; cases hx
  · exact numAttrs_intA l p n v

theorem numAttrs_strA {l p n : String} (v : String) (h : n ∉ numeric l) : attrsOk l (strA p n v) := by
  intro x hx hm
  simp only [strA, List.mem_singleton] at hx
  subst hx
  exact absurd hm h

theorem numAttrs_strO {l p n : String} (v : String) (h : n ∉ numeric l) : attrsOk l (strO p n v) := by
  unfold strO
  split
  · intro x hx; cases hx
  · exact numAttrs_strA v h

theorem numAttrs_nil (l : String) : attrsOk l [] := fun _ h => by cases h

theorem numsOkL_append {a b : List Node} (ha : numsOkL a) (hb : numsOkL b) : numsOkL (a ++ b) := by
  induction a with
  | nil => exact hb
  | cons n ns ih => exact ⟨ha.1, ih ha.2⟩

theorem numsOkL_optN {α : Type} {f : α → Node} (h : ∀ a, numsOk (f a)) (o : Option α) :
    numsOkL (optN f o) := by
  cases o with
  | none => exact trivial
  | some a => exact ⟨h a, trivial⟩

theorem numsOkL_flagN (b : Bool) (p l : String) : numsOkL (flagN b p l) := by
  unfold flagN
  split
  · exact ⟨⟨numAttrs_nil _, trivial⟩, trivial⟩
  · exact trivial

theorem numsOkL_valN {l : String} (h : "val" ∉ numeric l) (o : Option String) : numsOkL (valN l o) := by
  cases o with
  | none => exact trivial
  | some v => exact ⟨⟨numAttrs_strA v h, trivial⟩, trivial⟩

theorem numsOkL_valO {l : String} (h : "val" ∉ numeric l) (o : Option String) : numsOkL (valO l o) := by
  cases o with
  | none => exact trivial
  | some v => exact ⟨⟨numAttrs_strO v h, trivial⟩, trivial⟩

theorem numsOkL_valI (l : String) (o : Option Int64) : numsOkL (valI l o) := by
  cases o with
  | none => exact trivial
  | some v => exact ⟨⟨numAttrs_intA _ _ _ v, trivial⟩, trivial⟩

/-- Closes the goals about attributes and lists of elements -/
macro "nums" : tactic => `(tactic| (
  repeat' first
    | with_reducible refine numAttrs_append ?_ ?_
    | with_reducible refine numsOkL_append ?_ ?_
    | with_reducible exact numAttrs_intA _ _ _ _
    | with_reducible exact numAttrs_intO _ _ _ _
    | with_reducible exact numAttrs_strA _ (by decide)
    | with_reducible exact numAttrs_strO _ (by decide)
    | with_reducible exact numAttrs_nil _
    | with_reducible exact numsOkL_flagN _ _ _
    | with_reducible exact numsOkL_valN (by decide) _
    | with_reducible exact numsOkL_valO (by decide) _
    | with_reducible exact numsOkL_valI _ _))

theorem numsOk_shade (s : Shade) : numsOk (mShade s) := by simp only [mShade, el, numsOk]; refine ⟨?_, trivial⟩; nums
theorem numsOk_spacing (s : Spacing) : numsOk (mSpacing s) := by simp only [mSpacing, el, numsOk]; refine ⟨?_, trivial⟩; nums
theorem numsOk_ind (s : Ind) : numsOk (mInd s) := by simp only [mInd, el, numsOk]; refine ⟨?_, trivial⟩; nums
theorem numsOk_tab (s : Tab) : numsOk (mTab s) := by simp only [mTab, el, numsOk]; refine ⟨?_, trivial⟩; nums
theorem numsOk_fonts (s : RunFonts) : numsOk (mRunFonts s) := by simp only [mRunFonts, el, numsOk]; refine ⟨?_, trivial⟩; nums
theorem numsOk_tblpPr (s : TblpPr) : numsOk (mTblpPr s) := by simp only [mTblpPr, el, numsOk]; refine ⟨?_, trivial⟩; nums
theorem numsOk_tblW (s : Width) : numsOk (mWidth "tblW" s) := by simp only [mWidth, el, numsOk]; refine ⟨?_, trivial⟩; nums
theorem numsOk_tcW (s : Width) : numsOk (mWidth "tcW" s) := by simp only [mWidth, el, numsOk]; refine ⟨?_, trivial⟩; nums
theorem numsOk_look (s : TblLook) : numsOk (mLook s) := by simp only [mLook, el, numsOk]; refine ⟨?_, trivial⟩; nums

theorem numsOkL_map {α : Type} {f : α → Node} (h : ∀ a, numsOk (f a)) (l : List α) :
    numsOkL (l.map f) := by
  induction l with
  | nil => exact trivial
  | cons a l ih => exact ⟨h a, ih⟩

theorem numsOk_tabs (ts : List Tab) : numsOk (mTabs ts) := ⟨numAttrs_nil _, numsOkL_map numsOk_tab ts⟩

theorem numsOk_rpr (r : RPr) : numsOk (mRPr r) := by
  simp only [mRPr, el, numsOk]
  refine ⟨numAttrs_nil _, ?_⟩
  nums
  · exact numsOkL_optN numsOk_fonts _
  · exact numsOkL_optN numsOk_spacing _
  · exact numsOkL_optN numsOk_shade _

theorem numsOk_numPr (n : NumPr) : numsOk (mNumPr n) := by
  simp only [mNumPr, el, numsOk]
  refine ⟨numAttrs_nil _, ?_⟩
  nums

theorem numsOk_ppr (p : PPr) : numsOk (mPPr p) := by
  simp only [mPPr, el, numsOk]
  refine ⟨numAttrs_nil _, ?_⟩
  nums
  · exact numsOkL_optN numsOk_tabs _
  · exact numsOkL_optN numsOk_spacing _
  · exact numsOkL_optN numsOk_numPr _
  · exact numsOkL_optN numsOk_ind _
  · exact numsOkL_optN numsOk_shade _
  · exact numsOkL_optN numsOk_rpr _

theorem numsOk_borders {l : String} (b : Borders) : numsOk (mBorders l b) := by
  simp only [mBorders, el, numsOk]
  refine ⟨numAttrs_nil _, ?_⟩
  nums
  all_goals
    refine numsOkL_optN ?_ _
    intro b
    simp only [mBorder, mPgSz, mPgMar, mCols, mDocGrid, el, numsOk]
    refine ⟨?_, trivial⟩
    nums

theorem numsOk_tblPr (t : TblPr) : numsOk (mTblPr t) := by
  simp only [mTblPr, el, numsOk]
  refine ⟨numAttrs_nil _, ?_⟩
  nums
  · exact numsOkL_optN numsOk_tblpPr _
  · exact numsOkL_optN numsOk_tblW _
  · exact numsOkL_optN numsOk_borders _
  · exact numsOkL_optN numsOk_look _

theorem numsOk_grid (g : List (Option Int64)) : numsOk (mGrid g) := by
  refine ⟨numAttrs_nil _, ?_⟩
  show numsOkL (g.flatMap _)
  induction g with
  | nil => exact trivial
  | cons o g ih =>
    rw [List.flatMap_cons]
    refine numsOkL_append (numsOkL_optN ?_ _) ih
    intro n
    simp only [el, numsOk]
    refine ⟨?_, trivial⟩
    nums

theorem numsOk_trPr (t : TrPr) : numsOk (mTrPr t) := by
  simp only [mTrPr, el, numsOk]
  refine ⟨numAttrs_nil _, ?_⟩
  nums
  refine numsOkL_optN ?_ _
  intro b
  simp only [el, numsOk]
  refine ⟨?_, trivial⟩
  nums

theorem numsOk_tcPr (t : TcPr) : numsOk (mTcPr t) := by
  simp only [mTcPr, el, numsOk]
  refine ⟨numAttrs_nil _, ?_⟩
  nums
  · exact numsOkL_optN numsOk_tcW _
  · exact numsOkL_optN numsOk_borders _
  · exact numsOkL_optN numsOk_shade _

theorem numsOk_sect (s : SectPr) : numsOk (mSect s) := by
  simp only [mSect, el, numsOk]
  refine ⟨numAttrs_nil _, ?_⟩
  nums
  all_goals
    refine numsOkL_optN ?_ _
    intro b
    simp only [mBorder, mPgSz, mPgMar, mCols, mDocGrid, el, numsOk]
    refine ⟨?_, trivial⟩
    nums

/-! ## Formatting -/

theorem read_rpr (r : RPr) : xmlRPr (mRPr r).kids = r :=
  readAs_decodes unRPr_readAs (dec_rpr r) (numsOk_rpr r).2

theorem read_ppr (p : PPr) : xmlPPr (mPPr p).kids = normPPr p :=
  readAs_decodes unPPr_readAs (dec_ppr p) (numsOk_ppr p).2

theorem read_tblPr (t : TblPr) : xmlTblPr (mTblPr t).kids = normTblPr t :=
  readAs_decodes unTblPr_readAs (dec_tblPr t) (numsOk_tblPr t).2

theorem read_grid (g : List (Option Int64)) : xmlGrid (mGrid g).kids = g.filter Option.isSome :=
  readAs_decodes unGrid_readAs (dec_grid g) (numsOk_grid g).2

theorem read_trPr (t : TrPr) : xmlTrPr (mTrPr t).kids = t :=
  readAs_decodes unTrPr_readAs (dec_trPr t) (numsOk_trPr t).2

theorem read_tcPr (t : TcPr) : xmlTcPr (mTcPr t).kids = t :=
  readAs_decodes unTcPr_readAs (dec_tcPr t) (numsOk_tcPr t).2

theorem read_sect (s : SectPr) : xmlSect (mSect s).kids = s :=
  readAs_decodes unSect_readAs (dec_sect s) (numsOk_sect s).2

/-! ## Runs and paragraphs -/

theorem runEls_rPr (tx : List String → String) (p : String) (as : List Attr) (ks : List Node) :
    runEls tx (.elem ⟨p, "rPr"⟩ as ks) = [.format (xmlRPr ks)] := by
  simp [runEls]

theorem part_r (tx : List String → String) (p : String) (as : List Attr) (ks : List Node) :
    xmlPart tx (.elem ⟨p, "r"⟩ as ks) = [.run (runCont (runElsL tx ks))] := by
  simp [xmlPart]

theorem part_link (tx : List String → String) (p q p' id : String) (as : List Attr) (ks : List Node) :
    xmlPart tx (.elem ⟨p, "hyperlink"⟩ [⟨⟨p', "id"⟩, id⟩] [.elem ⟨q, "r"⟩ as ks]) =
      [.link id (runCont (runElsL tx ks))] := by
  simp [xmlPart, firstAttr, childrenOf]

theorem part_rPr (tx : List String → String) (p : String) (as : List Attr) (ks : List Node) :
    xmlPart tx (.elem ⟨p, "rPr"⟩ as ks) = [.rpr (xmlRPr ks)] := by
  simp [xmlPart]

theorem mRPr_elem (r : RPr) : mRPr r = .elem ⟨"w", "rPr"⟩ [] (mRPr r).kids := rfl

theorem mRun_elem (r : Run) : mRun r = .elem ⟨"w", "r"⟩ (mRun r).as (mRun r).kids := by
  cases r
  simp [mRun, el, Node.as, Node.kids]

theorem runElsL_append (tx : List String → String) (a b : List Node) :
    runElsL tx (a ++ b) = runElsL tx a ++ runElsL tx b := by
  induction a with
  | nil => simp [runElsL]
  | cons n a ih => simp [runElsL, ih]

variable {tx : List String → String} (h0 : tx [] = "") (h1 : ∀ s, tx [s] = s)
include h0 h1

theorem read_rchild (c : RChild) : runEls tx (mRChild c) = [.piece (pieceOf c)] := by
  cases c with
  | text t =>
    have : tx (charDataL (textN t.text)) = t.text := by
      unfold textN
      split
      · rename_i h; rw [h]; exact h0
      · simp [charDataL, charData, h1]
    simp [mRChild, mText, el, runEls, this, pieceOf]
  | tab t => simp [mRChild, mTab, el, runEls, runElsL, pieceOf]
  | br b =>
    have : firstAttr "type" (strO "w" "type" b.type) = b.type := by
      unfold strO
      split
      · rename_i h; rw [h]; rfl
      · rfl
    simp [mRChild, mBr, el, runEls, this, pieceOf]
  | drawing d =>
    cases d
    simp [mRChild, mDrawing, el, runEls, pieceOf]

theorem read_rchildren (cs : List RChild) :
    runElsL tx (mRChildren cs) = cs.map fun c => .piece (pieceOf c) := by
  induction cs with
  | nil => simp [mRChildren, runElsL]
  | cons c cs ih => simp [mRChildren, runElsL, read_rchild h0 h1, ih]

omit h0 h1 in
theorem runEl_pieces (ps : List Piece) : RunEl.pieces (ps.map .piece) = ps ∧
    RunEl.format? (ps.map .piece) = none ∧ RunEl.code? (ps.map .piece) = none := by
  induction ps with
  | nil => exact ⟨rfl, rfl, rfl⟩
  | cons p ps ih => simp [RunEl.pieces, RunEl.format?, RunEl.code?, ih]

theorem read_run (r : Run) : runCont (runElsL tx (mRun r).kids) = runContent r := by
  cases r with
  | mk space rpr instr children =>
    have hc : runElsL tx (mRChildren children) = (children.map pieceOf).map .piece := by
      rw [read_rchildren h0 h1, List.map_map]; rfl
    have hp := runEl_pieces (children.map pieceOf)
    generalize hps : children.map pieceOf = ps at hc hp
    have hi : runElsL tx (if instr = "" then [] else [el "w" "instrText" [] [.text instr]]) =
        if instr = "" then [] else [.code instr] := by
      split
      · simp [runElsL]
      · simp [runElsL, runEls, el, ownText]
    have hr : runElsL tx (optN mRPr rpr) = (rpr.map RunEl.format).toList := by
      cases rpr with
      | none => simp [optN, runElsL]
      | some r =>
        rw [optN, mRPr_elem, runElsL, runEls_rPr, read_rpr]
        simp [runElsL]
    have hk : (mRun ⟨space, rpr, instr, children⟩).kids = optN mRPr rpr ++
        (if instr = "" then [] else [el "w" "instrText" [] [.text instr]]) ++ mRChildren children := by
      simp [mRun, el, Node.kids]
    rw [hk, runElsL_append, runElsL_append, hr, hi, hc]
    by_cases h : instr = ""
    · cases rpr <;>
        simp [runCont, runContent, RunEl.pieces, RunEl.format?, RunEl.code?, hp, h, hps]
    · cases rpr <;>
        simp [runCont, runContent, RunEl.pieces, RunEl.format?, RunEl.code?, hp, h, hps]

theorem read_part (c : PChild) : xmlPart tx (mPChild c) = [partOf c] := by
  cases c with
  | run r => rw [mPChild, mRun_elem, part_r, read_run h0 h1, partOf]
  | link h =>
    cases h with
    | mk id run => rw [mPChild, mLink, mRun_elem, el, strA, part_link, read_run h0 h1, partOf]
  | rpr f => rw [mPChild, mRPr_elem, part_rPr, read_rpr, partOf]

theorem read_parts (cs : List PChild) : (mPChildren cs).flatMap (xmlPart tx) = cs.map partOf := by
  induction cs with
  | nil => simp [mPChildren]
  | cons c cs ih => simp [mPChildren, read_part h0 h1, ih]

omit h0 h1 in
theorem lastChild_none {α : Type} {n : String} {of : List Node → α} {ks : List Node}
    (h : ∀ k ∈ ks, childrenOf n k = []) : lastChild n of ks = none := by
  have : ks.flatMap (childrenOf n) = [] := by simpa [List.flatMap_eq_nil_iff] using h
  rw [lastChild, this]
  rfl

omit h0 h1 in
theorem lastChild_opt {α β : Type} {n : String} {of : List Node → α} {f : β → Node} (o : Option β)
    {ks : List Node} (hf : ∀ b, childrenOf n (f b) = [(f b).kids]) (h : ∀ k ∈ ks, childrenOf n k = []) :
    lastChild n of (optN f o ++ ks) = o.map fun b => of (f b).kids := by
  have : ks.flatMap (childrenOf n) = [] := by simpa [List.flatMap_eq_nil_iff] using h
  rw [lastChild, List.flatMap_append, this]
  cases o with
  | none => simp [optN]
  | some b => simp [optN, hf]

omit h0 h1 in
theorem mem_pchildren {cs : List PChild} {k : Node} (h : k ∈ mPChildren cs) : ∃ c, k = mPChild c := by
  induction cs with
  | nil => simp [mPChildren] at h
  | cons c cs ih =>
    rw [mPChildren] at h
    rcases List.mem_cons.1 h with h | h
    · exact ⟨c, h⟩
    · exact ih h

omit h0 h1 in
theorem pchild_noPPr (c : PChild) : childrenOf "pPr" (mPChild c) = [] := by
  cases c with
  | run r => cases r; simp [mPChild, mRun, el, childrenOf]
  | link h => cases h; simp [mPChild, mLink, el, childrenOf]
  | rpr f => simp [mPChild, mRPr, el, childrenOf]

theorem read_para (p : Para) : xmlPara tx (mPara p).kids =
    { paraContent p with props := p.props.map normPPr } := by
  cases p with
  | mk props children file =>
    have hk : (mPara ⟨props, children, file⟩).kids = optN mPPr props ++ mPChildren children := by
      simp [mPara, el, Node.kids]
    have hp : (optN mPPr props).flatMap (xmlPart tx) = [] := by
      cases props <;> simp [optN, mPPr, el, xmlPart]
    rw [hk, xmlPara, lastChild_opt _ (fun b => by simp [mPPr, el, childrenOf, Node.kids]) fun k h => by
      obtain ⟨c, rfl⟩ := mem_pchildren h
      exact pchild_noPPr c, List.flatMap_append, hp, read_parts h0 h1]
    simp [paraContent, read_ppr]

/-! ## Tables and the document -/

omit h0 h1 in
theorem flatMap_childrenOf {α : Type} {n : String} {f : α → Node} (l : List α)
    (hf : ∀ a, childrenOf n (f a) = [(f a).kids]) :
    (l.map f).flatMap (childrenOf n) = l.map fun a => (f a).kids := by
  induction l with
  | nil => rfl
  | cons a l ih => simp [hf, ih]

omit h0 h1 in
theorem optN_noChild {α : Type} {n : String} {f : α → Node} (o : Option α)
    (hf : ∀ a, childrenOf n (f a) = []) : (optN f o).flatMap (childrenOf n) = [] := by
  cases o <;> simp [optN, hf]

omit h0 h1 in
theorem child_para (p : Para) (n : String) :
    childrenOf n (mPara p) = if "p" = n then [(mPara p).kids] else [] := by
  cases p; simp [mPara, el, childrenOf, Node.kids]

/-- What is written of a paragraph -/
def savedPara (p : Para) : ParaCont := { paraContent p with props := p.props.map normPPr }

/-- What is written of a cell -/
def savedCell (c : Cell) : CellCont := ⟨c.props, c.paras.map savedPara⟩

/-- What is written of a row -/
def savedRow (r : Row) : RowCont := ⟨r.props, r.cells.map savedCell⟩

/-- What is written of a table -/
def savedTable (t : Table) : TableCont :=
  ⟨t.props.map normTblPr, t.grid.map fun g => g.filter Option.isSome, t.rows.map savedRow⟩

/-- What is written of a body item -/
def savedItem : BItem → Content
  | .para p => .para (savedPara p)
  | .table t => .table (savedTable t)
  | .sect s => .sect s

theorem read_cell (c : Cell) : xmlCell tx (mCell c).kids = savedCell c := by
  have hk : (mCell c).kids = optN mTcPr c.props ++ c.paras.map mPara := rfl
  rw [hk, xmlCell, lastChild_opt _ (fun b => by simp [mTcPr, el, childrenOf, Node.kids]) (by
    intro k h
    obtain ⟨p, _, rfl⟩ := List.mem_map.1 h
    rw [child_para]; rfl), List.flatMap_append, optN_noChild _ (by intro a; rfl),
    flatMap_childrenOf _ (by intro a; rw [child_para]; rfl)]
  simp only [read_tcPr, List.nil_append, List.map_map, savedCell]
  congr 1
  · simp
  · exact List.map_congr_left fun p _ => read_para h0 h1 p

theorem read_row (r : Row) : xmlRow tx (mRow r).kids = savedRow r := by
  have hk : (mRow r).kids = optN mTrPr r.props ++ r.cells.map mCell := rfl
  rw [hk, xmlRow, lastChild_opt _ (fun b => by simp [mTrPr, el, childrenOf, Node.kids]) (by
    intro k h
    obtain ⟨p, _, rfl⟩ := List.mem_map.1 h
    rfl), List.flatMap_append, optN_noChild _ (by intro a; rfl),
    flatMap_childrenOf _ (by intro a; rfl)]
  simp only [read_trPr, List.nil_append, List.map_map, savedRow]
  congr 1
  · simp
  · exact List.map_congr_left fun p _ => read_cell h0 h1 p

theorem read_table (t : Table) : xmlTable tx (mTable t).kids = savedTable t := by
  have hk : (mTable t).kids = optN mTblPr t.props ++ (optN mGrid t.grid ++ t.rows.map mRow) := by
    simp [mTable, el, Node.kids]
  have hg : lastChild "tblGrid" xmlGrid (optN mTblPr t.props ++ (optN mGrid t.grid ++ t.rows.map mRow)) =
      lastChild "tblGrid" xmlGrid (optN mGrid t.grid ++ t.rows.map mRow) := by
    rw [lastChild, List.flatMap_append, optN_noChild _ (by intro a; rfl), List.nil_append, lastChild]
  rw [hk, xmlTable, hg, lastChild_opt _ (fun b => by simp [mTblPr, el, childrenOf, Node.kids]) (by
    intro k h
    rcases List.mem_append.1 h with h | h
    · cases hgr : t.grid with
      | none => rw [hgr] at h; cases h
      | some g => rw [hgr] at h; simp only [optN, List.mem_singleton] at h; subst h; rfl
    · obtain ⟨p, _, rfl⟩ := List.mem_map.1 h
      rfl), lastChild_opt _ (fun b => by simp [mGrid, el, childrenOf, Node.kids]) (by
    intro k h
    obtain ⟨p, _, rfl⟩ := List.mem_map.1 h
    rfl), List.flatMap_append, List.flatMap_append, optN_noChild _ (by intro a; rfl),
    optN_noChild _ (by intro a; rfl), flatMap_childrenOf _ (by intro a; rfl)]
  simp only [read_tblPr, read_grid, List.nil_append, List.map_map, savedTable]
  congr 1
  exact List.map_congr_left fun p _ => read_row h0 h1 p

theorem read_item (i : BItem) : xmlItemContent tx (mItem i) = [savedItem i] := by
  cases i with
  | para p =>
    have := read_para h0 h1 p
    cases p
    rw [mItem, savedItem, savedPara, ← this]
    simp [mPara, el, xmlItemContent, Node.kids]
  | table t =>
    have := read_table h0 h1 t
    rw [mItem, savedItem, ← this]
    rfl
  | sect s =>
    have := read_sect s
    show [Content.sect (xmlSect (mSect s).kids)] = _
    rw [this]
    rfl

theorem read_document (items : List BItem) :
    xmlContent tx (mDocument items).kids = items.map savedItem := by
  have : (mDocument items).kids.flatMap (childrenOf "body") = [items.map mItem] := rfl
  rw [xmlContent, this]
  simp only [List.flatMap_cons, List.flatMap_nil, List.append_nil]
  induction items with
  | nil => rfl
  | cons i is ih => simp [read_item h0 h1, ih (by rfl)]

end

end Docx
