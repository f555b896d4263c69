import Verif.Lemmas.RenameWorld
import Verif.Lemmas.Copy
import Verif.Pack

/-!
# Actions in a world with other addresses
-/

set_option linter.unusedSectionVars false
set_option linter.unusedSimpArgs false

namespace Docx

variable {ρ : DocId → DocId}

/-! ## Calls that make no document -/

theorem rel_ok {α β : Type} {R : α → β → Prop} {a : α} {b : β} (h : R a b) : RelRes R (.ok a) (.ok b) := h

theorem rnPara_addRun (p : Para) (r : Run) : (rnPara ρ p).addRun (rnRun ρ r) = rnPara ρ (p.addRun r) := by
  cases p; simp [Para.addRun, rnPara, rnPChildren_eq, rnPChild]

theorem rnRChild_tabPieces (i : Nat) (ks : List (List Char)) :
    (tabPieces i ks).map (rnRChild ρ) = tabPieces i ks := by
  induction ks generalizing i with
  | nil => rfl
  | cons k ks ih =>
    simp only [tabPieces, List.map_append, ih]
    congr 1
    congr 1
    · split <;> rfl
    · split <;> rfl

theorem rnRChild_linePieces (i : Nat) (ks : List (List Char)) :
    (linePieces i ks).map (rnRChild ρ) = linePieces i ks := by
  induction ks generalizing i with
  | nil => rfl
  | cons k ks ih =>
    simp only [linePieces, List.map_append, ih, rnRChild_tabPieces]
    congr 1
    congr 1
    split <;> rfl

theorem rnPara_addText (p : Para) (text : String) :
    ((rnPara ρ p).addText text).1 = rnPara ρ (p.addText text).1 := by
  unfold Para.addText
  split
  · unfold Para.addTab
    simp only
    rw [← rnPara_addRun]
    rfl
  · simp only
    rw [← rnPara_addRun]
    simp only [rnRun, rnRChildren_eq, rnRChild_linePieces]

theorem rnPara_addLink (p : Para) (f : Doc) (text link : String) :
    ((rnPara ρ p).addLink (rnDoc ρ f) text link).1 = rnDoc ρ (p.addLink f text link).1 ∧
    ((rnPara ρ p).addLink (rnDoc ρ f) text link).2.1 = rnPara ρ (p.addLink f text link).2.1 := by
  cases p
  refine ⟨rfl, ?_⟩
  simp only [Para.addLink, rnPara, rnPChildren_eq, List.map_append, List.map_cons, List.map_nil, rnPChild, rnLink,
    rnRun]
  rfl

theorem addPicture_rename [ImgEnv] (f : Doc) (pic : Bytes) :
    (rnDoc ρ f).addPicture pic = (rnDoc ρ (f.addPicture pic).1, (f.addPicture pic).2) := by
  unfold Doc.addPicture
  cases ImgEnv.decodeSize pic with
  | none => rfl
  | some x =>
    obtain ⟨w, h, fmt⟩ := x
    simp only
    cases scaleSize w h with
    | none => rfl
    | some x => rfl

theorem rnRun_drawing (d : Drawing) : rnRun ρ (drawingRun d) = drawingRun (rnDrawing ρ d) := rfl

theorem step_moves [ImgEnv] {w1 w2 : World} {o : Op} (h : Emb ρ w1 w2) (hb : o.Blind) (hn : o ≠ .new) :
    MovesW ρ w1 w2 (step w1 o) (step w2 (o.at ρ)) := by
  cases o with
  | new => exact absurd rfl hn
  | load items media => exact hb.elim
  | split d sep => exact hb.elim
  | addParagraph d =>
    exact onDoc_moves d h fun f => rel_ok (by simp [Doc.addParagraph, rnDoc, rnItems, rnItem, rnPara, rnPChildren])
  | cellAddParagraph d i r c =>
    refine onDoc_moves d h fun f => rel_ok ?_
    simp only [rnDoc]
    congr 1
    refine rn_modify ?_ f.items i
    intro x
    cases x with
    | para p => rfl
    | sect s => rfl
    | table t =>
      simp only [rnItem, rnTable]
      refine congrArg (fun rows => BItem.table { t with rows := rows }) ?_
      refine rn_modify ?_ t.rows r
      intro row
      simp only [rnRow]
      refine congrArg (fun cells => ({ row with cells := cells } : Row)) ?_
      refine rn_modify ?_ row.cells c
      intro cell
      simp [Cell.addParagraph, rnCell, rnPara, rnPChildren]
  | addTable d row col width colors =>
    refine onDoc_moves d h fun f => ?_
    unfold Doc.addTable
    by_cases h1 : row < 0
    · rw [if_pos h1, if_pos h1]; trivial
    · rw [if_neg h1, if_neg h1]
      by_cases h2 : row > 0 ∧ col < 0
      · rw [if_pos h2, if_pos h2]; trivial
      · rw [if_neg h2, if_neg h2]
        refine rel_ok ?_
        simp [rnDoc, rnItems, rnItem, rnTable, rnRow, rnCell, List.map_replicate]
  | addTableTwips d rows cols width colors =>
    refine onDoc_moves d h fun f => rel_ok ?_
    simp [Doc.addTableTwips, rnDoc, rnItems, rnItem, rnTable, rnRow, rnCell, List.map_map, Function.comp_def]
  | withA3Page d => exact onDoc_moves d h fun f => rel_ok (by simp [Doc.withA3Page, rnDoc, rnItems, rnItem])
  | withA4Page d => exact onDoc_moves d h fun f => rel_ok (by simp [Doc.withA4Page, rnDoc, rnItems, rnItem])
  | useTemplate d t l tfs => exact onDoc_moves d h fun f => rel_ok rfl
  | increaseID d name => exact onDoc_moves d h fun f => rel_ok rfl
  | addText d l text => exact onPara_moves d l h fun f p => rel_ok (by rw [rnPara_addText])
  | addLink d l text link =>
    exact onPara_moves d l h fun f p => rel_ok
      (Prod.ext (rnPara_addLink p f text link).1 (rnPara_addLink p f text link).2)
  | addInlineDrawing d l pic =>
    refine onPara_moves d l h fun f p => ?_
    unfold Para.addInlineDrawing
    rw [addPicture_rename]
    obtain ⟨f', r⟩ := f.addPicture pic
    cases r with
    | panic => trivial
    | err e => exact rel_ok rfl
    | ok x =>
      obtain ⟨idn, id, rid, w, hh⟩ := x
      refine rel_ok ?_
      simp only [← rnPara_addRun, rnRun_drawing]
      rfl
  | addAnchorDrawing d l pic =>
    refine onPara_moves d l h fun f p => ?_
    unfold Para.addAnchorDrawing
    rw [addPicture_rename]
    obtain ⟨f', r⟩ := f.addPicture pic
    cases r with
    | panic => trivial
    | err e => exact rel_ok rfl
    | ok x =>
      obtain ⟨idn, id, rid, w, hh⟩ := x
      refine rel_ok ?_
      simp only [← rnPara_addRun, rnRun_drawing]
      rfl
  | addInlineShape d l sw sh name bw prst ln =>
    refine onPara_moves d l h fun f p => rel_ok ?_
    simp only [Para.addInlineShape, ← rnPara_addRun, rnRun_drawing]
    rfl
  | addAnchorShape d l sw sh name bw prst ln =>
    refine onPara_moves d l h fun f p => rel_ok ?_
    simp only [Para.addAnchorShape, ← rnPara_addRun, rnRun_drawing]
    rfl
  | append f af =>
    simp only [step, Op.at, World.appendFile, h.same]
    cases w1[f]? with
    | none => trivial
    | some t =>
      cases w1[af]? with
      | none => trivial
      | some a => exact appendItems_moves f a.items h
  | edit d g =>
    refine onDoc_moves d h fun f => rel_ok ?_
    simp only [rnDoc]
    congr 1
    exact hb ρ f.items

/-! ## Texts -/

section
variable [HashEnv] {w1 w2 : World} (h : Emb ρ w1 w2)
include h

theorem picTarget_rename (file : Option DocId) (pic : Picture) :
    picTarget w2 (file.map ρ) pic = picTarget w1 file pic := by
  unfold picTarget
  cases pic.blipFill with
  | none => rfl
  | some bf =>
    simp only [h.file]
    cases file.bind (w1[·]?) <;> rfl

theorem graphicData_str_rename (tag : String) (file : Option DocId) (docPr : Option IdName) (gd : GraphicData) :
    (rnGraphicData ρ gd).str w2 tag (file.map ρ) docPr = gd.str w1 tag file docPr := by
  obtain ⟨uri, pic, sh, cv, gr⟩ := gd
  simp only [GraphicData.str, rnGraphicData]
  cases pic with
  | some pic => simp only [picTarget_rename h]
  | none =>
    cases sh with
    | some s => cases s; simp only [rnShapeO, rnShape, shapeLabel]
    | none => cases cv <;> rfl

theorem inline_str_rename (i : Inline) : (rnInline ρ i).str w2 = i.str w1 := by
  obtain ⟨a1, a2, a3, a4, a5, a6, a7, a8, g, file⟩ := i
  cases g with
  | none => rfl
  | some g =>
    obtain ⟨xa, gd⟩ := g
    cases gd with
    | none => rfl
    | some gd => exact graphicData_str_rename h _ file a7 gd

theorem anchor_str_rename (i : Anchor) : (rnAnchor ρ i).str w2 = i.str w1 := by
  obtain ⟨a1, a2, a3, a4, a5, a6, a7, a8, b1, b2, b3, b4, b5, b6, b7, b8, c1, c2, c3, g, file⟩ := i
  cases g with
  | none => rfl
  | some g =>
    obtain ⟨xa, gd⟩ := g
    cases gd with
    | none => rfl
    | some gd => exact graphicData_str_rename h _ file c2 gd

theorem rchild_str_rename (c : RChild) : (rnRChild ρ c).str w2 = c.str w1 := by
  cases c with
  | drawing d =>
    obtain ⟨i, a⟩ := d
    cases i with
    | some i => exact inline_str_rename h i
    | none =>
      cases a with
      | some a => exact anchor_str_rename h a
      | none => rfl
  | _ => rfl

theorem rchildren_str_rename (cs : List RChild) : rchildrenStr w2 (rnRChildren ρ cs) = rchildrenStr w1 cs := by
  induction cs with
  | nil => rfl
  | cons c cs ih => simp only [rnRChildren, rchildrenStr, rchild_str_rename h, ih]

theorem pchildren_str_rename (file : Option DocId) (cs : List PChild) :
    pchildrenStr w2 (file.map ρ) (rnPChildren ρ cs) = pchildrenStr w1 file cs := by
  induction cs with
  | nil => rfl
  | cons c cs ih =>
    have hc : (rnPChild ρ c).str w2 (file.map ρ) = c.str w1 file := by
      cases c with
      | run r => cases r; exact rchildren_str_rename h _
      | rpr x => rfl
      | link l =>
        obtain ⟨id, r⟩ := l
        simp only [rnPChild, rnLink, PChild.str, h.file]
        cases r
        cases file.bind (w1[·]?) <;> rfl
    simp only [rnPChildren, pchildrenStr, hc, ih]

/-- A paragraph has the same text. -/
theorem para_str_rename (p : Para) : (rnPara ρ p).str w2 = p.str w1 := by
  cases p; exact pchildren_str_rename h _ _

end

/-! ## New documents -/

theorem Emb.push {w1 w2 : World} (h : Emb ρ w1 w2) (hρ : ρ w1.length = w2.length) (f : Doc) :
    Emb ρ (w1 ++ [f]) (w2 ++ [rnDoc ρ f]) := by
  refine ⟨h.inj, fun d => ?_⟩
  have hs := h.same d
  by_cases hd : d = w1.length
  · subst hd
    rw [hρ]
    simp
  · have hne : ρ d ≠ w2.length := fun e => hd (h.inj _ _ (e.trans hρ.symm))
    by_cases hl : d < w1.length
    · rw [List.getElem?_append_left hl, ← hs]
      rw [List.getElem?_eq_getElem hl] at hs
      obtain ⟨h', _⟩ := List.getElem?_eq_some_iff.1 hs
      rw [List.getElem?_append_left h']
    · have hn : w1[d]? = none := List.getElem?_eq_none (Nat.le_of_not_lt hl)
      have hn' : (w1 ++ [f])[d]? = none := by
        apply List.getElem?_eq_none
        simp only [List.length_append, List.length_cons, List.length_nil]
        simp only [DocId] at *
        omega
      rw [hn] at hs
      have : w2.length ≤ ρ d := List.getElem?_eq_none_iff.1 hs
      rw [hn']
      apply List.getElem?_eq_none
      simp only [List.length_append, List.length_cons, List.length_nil]
      simp only [DocId] at *
      omega

/-- Documents that were there, at other addresses, are not changed. -/
def Kept (ρ : DocId → DocId) (w w' : World) : Prop :=
  w.length ≤ w'.length ∧ ∀ e, e < w.length → (∀ d, e ≠ ρ d) → w'[e]? = w[e]?

theorem Aside.kept {w w' : World} (h : Aside ρ w w') : Kept ρ w w' :=
  ⟨Nat.le_of_eq h.1.symm, fun e _ he => h.2 e he⟩

theorem Kept.push (w : World) (f : Doc) : Kept ρ w (w ++ [f]) :=
  ⟨by simp, fun e he _ => by rw [List.getElem?_append_left he]⟩

theorem Kept.trans {w w' w'' : World} (h : Kept ρ w w') (h' : Kept ρ w' w'') : Kept ρ w w'' :=
  ⟨Nat.le_trans h.1 h'.1, fun e he hd => (h'.2 e (Nat.lt_of_lt_of_le he h.1) hd).trans (h.2 e he hd)⟩

theorem splitFill_moves [HashEnv] (re : String → Bool) (nd : DocId) : ∀ (is : List BItem) {w1 w2 : World} (cnt : Nat),
    Emb ρ w1 w2 → Shifts ρ (Option.map (rnItems ρ)) w1 w2 (splitFill (splitByText re) nd w1 cnt is)
      (splitFill (splitByText re) (ρ nd) w2 cnt (rnItems ρ is)) := by
  intro is
  induction is with
  | nil => intro w1 w2 cnt h; exact Shifts.ok rfl h
  | cons i is ih =>
    intro w1 w2 cnt h
    cases i with
    | para p =>
      simp only [rnItems, List.map_cons, rnItem, splitFill]
      have e : splitByText re w2 (rnPara ρ p) = splitByText re w1 p := by
        simp only [splitByText, para_str_rename h]
      rw [e]
      cases splitByText re w1 p with
      | panic => trivial
      | err e => exact rfl
      | ok b =>
        show Shifts ρ _ w1 w2 (if b = true ∧ cnt > 0 then _ else _) (if b = true ∧ cnt > 0 then _ else _)
        split
        · exact Shifts.ok rfl h
        · refine RelRes.bind (para_moves nd h p) ?_
          rintro ⟨w1', x1⟩ ⟨w2', x2⟩ ⟨hxx, hag, ho1, ho2⟩
          simp only at hxx hag ho1 ho2
          subst hxx
          obtain ⟨h1, h2, h3⟩ := pushItem_moves nd hag (.para x1)
          exact Shifts.after (h2.trans ho1) (ho2.trans h3) (ih _ h1)
    | table t =>
      simp only [rnItems, List.map_cons, rnItem, splitFill]
      refine RelRes.bind (table_moves nd h t) ?_
      rintro ⟨w1', x1⟩ ⟨w2', x2⟩ ⟨hxx, hag, ho1, ho2⟩
      simp only at hxx hag ho1 ho2
      subst hxx
      obtain ⟨h1, h2, h3⟩ := pushItem_moves nd hag (.table x1)
      exact Shifts.after (h2.trans ho1) (ho2.trans h3) (ih _ h1)
    | sect s =>
      simp only [rnItems, List.map_cons, rnItem, splitFill]
      obtain ⟨h1, h2, h3⟩ := pushItem_moves nd h (.sect s)
      exact Shifts.after h2 h3 (ih _ h1)

theorem splitLoop_ge {sep : World → Para → Res Bool} {f : Doc} : ∀ {n : Nat} {w w' : World} {docs docs' is},
    splitLoop sep f n w docs is = .ok (w', docs') → w.length ≤ w'.length := by
  intro n
  induction n with
  | zero => intro w w' docs docs' is h; simp [splitLoop] at h
  | succ n ih =>
    intro w w' docs docs' is h
    cases is with
    | nil =>
      simp only [splitLoop, Res.ok.injEq, Prod.mk.injEq] at h
      rw [h.1]; exact Nat.le_refl _
    | cons i is =>
      simp only [splitLoop] at h
      obtain ⟨⟨w1, left⟩, h1, h2⟩ := Res.bind_eq_ok.1 h
      have hl := (splitFill_grow h1).len
      simp only [List.length_append, List.length_cons, List.length_nil] at hl
      cases left with
      | none =>
        simp only at h2
        cases h2
        omega
      | some rest =>
        have := ih h2
        simp only at this
        omega

theorem splitLoop_moves [HashEnv] (re : String → Bool) (f : Doc) : ∀ (n : Nat) (is : List BItem) {w1 w2 w2' : World}
    {docs1 docs2 docs2' : List DocId}, Emb ρ w1 w2 →
    splitLoop (splitByText re) (rnDoc ρ f) n w2 docs2 (rnItems ρ is) = .ok (w2', docs2') →
    (∀ i, w2.length + i < w2'.length → ρ (w1.length + i) = w2.length + i) →
    ∃ w1' docs1', splitLoop (splitByText re) f n w1 docs1 is = .ok (w1', docs1') ∧ Emb ρ w1' w2' ∧
      w1'.length + w2.length = w2'.length + w1.length ∧ Kept ρ w2 w2' := by
  intro n
  induction n with
  | zero => intro is w1 w2 w2' d1 d2 d2' h hr; simp [splitLoop] at hr
  | succ n ih =>
    intro is w1 w2 w2' d1 d2 d2' h hr hρ
    cases is with
    | nil =>
      simp only [rnItems, List.map_nil, splitLoop, Res.ok.injEq, Prod.mk.injEq] at hr
      obtain ⟨rfl, rfl⟩ := hr
      exact ⟨w1, d1, rfl, h, Nat.add_comm _ _, ⟨Nat.le_refl _, fun _ _ _ => rfl⟩⟩
    | cons i is =>
      have hr0 := hr
      simp only [rnItems, List.map_cons, splitLoop] at hr
      obtain ⟨⟨w3, left⟩, hf, hr2⟩ := Res.bind_eq_ok.1 hr
      have hl3 := (splitFill_grow hf).len
      simp only [List.length_append, List.length_cons, List.length_nil] at hl3
      have hge : w3.length ≤ w2'.length := by
        cases left with
        | none => simp only at hr2; cases hr2; exact Nat.le_refl _
        | some rest => exact splitLoop_ge hr2
      have h0 : ρ w1.length = w2.length := hρ 0 (by omega)
      have hm := splitFill_moves re w1.length (i :: is) 0 (h.push h0 (splitDoc f))
      rw [h0] at hm
      have hsd : rnDoc ρ (splitDoc f) = splitDoc (rnDoc ρ f) := rfl
      rw [hsd] at hm
      have hf' : splitFill (splitByText re) w2.length (w2 ++ [splitDoc (rnDoc ρ f)]) 0 (rnItems ρ (i :: is)) =
          .ok (w3, left) := hf
      rw [hf'] at hm
      cases h1 : splitFill (splitByText re) w1.length (w1 ++ [splitDoc f]) 0 (i :: is) with
      | panic => rw [h1] at hm; exact hm.elim
      | err e => rw [h1] at hm; exact hm.elim
      | ok x =>
        obtain ⟨w4, left1⟩ := x
        rw [h1] at hm
        obtain ⟨e1, e2, e3, e4⟩ := hm
        simp only at e1 e2 e3 e4
        simp only [List.length_append, List.length_cons, List.length_nil] at e3
        have k1 : Kept ρ w2 w3 := (Kept.push w2 _).trans e4.kept
        simp only [splitLoop, h1]
        cases left1 with
        | none =>
          rw [e1] at hr2
          simp only [Option.map_none] at hr2
          cases hr2
          exact ⟨w4, _, rfl, e2, by omega, k1⟩
        | some rest =>
          rw [e1] at hr2
          simp only [Option.map_some] at hr2
          obtain ⟨w5, d5, g1, g2, g3, g4⟩ := ih rest (docs1 := d1 ++ [w1.length]) e2 hr2 (by
            intro j hj
            have := hρ (j + 1) (by omega)
            rw [show w4.length + j = w1.length + (j + 1) by omega, this]
            exact (by omega : (w2.length + (j + 1) : Nat) = w3.length + j))
          exact ⟨w5, d5, g1, g2, by omega, k1.trans g4⟩

/-! ## Opening -/

section
variable [GoEnv]

theorem unpackEntry_rename (f : Doc) (me : DocId) (e : Entry) :
    (rnDoc ρ f).unpackEntry (ρ me) e = (rnDoc ρ (f.unpackEntry me e).1, (f.unpackEntry me e).2) := by
  unfold Doc.unpackEntry
  split
  · unfold Doc.parseRels
    cases e.file with
    | error x => rfl
    | ok s =>
      simp only
      show (match decodeRels xmlnsR f.rels s.toks with | ⟨(x, rs), some e, _⟩ => _ | ⟨(x, rs), none, _⟩ => _) = _
      generalize decodeRels xmlnsR f.rels s.toks = o
      obtain ⟨⟨x, rs⟩, er, d⟩ := o
      cases er <;> rfl
  · split
    · unfold Doc.parseDocument
      cases e.file with
      | error x => rfl
      | ok s =>
        simp only
        have := decodeDocument_rename (ρ := ρ) (some me) f.items s.toks
        simp only [Option.map_some] at this
        rw [show (rnDoc ρ f).items = rnItems ρ f.items from rfl, this]
        rfl
    · cases afterMedia e.name with
      | none => rfl
      | some n =>
        simp only [Doc.parseMedia]
        cases e.file with
        | error x => rfl
        | ok s =>
          simp only
          cases s.err <;> rfl

theorem unpackAll_rename (me : DocId) : ∀ (es : List Entry) (f : Doc),
    (rnDoc ρ f).unpackAll (ρ me) es = (rnDoc ρ (f.unpackAll me es).1, (f.unpackAll me es).2) := by
  intro es
  induction es with
  | nil => intro f; rfl
  | cons e es ih =>
    intro f
    simp only [Doc.unpackAll, unpackEntry_rename]
    obtain ⟨f', er⟩ := f.unpackEntry me e
    cases er with
    | none => exact ih f'
    | some x => rfl

/-- Opening a file at another address -/
theorem unpack_rename (me : DocId) (a : Archive) :
    unpack (ρ me) a = (rnDoc ρ (unpack me a).1, (unpack me a).2) := by
  unfold unpack
  have := unpackAll_rename (ρ := ρ) me a { relXmlns := "", tmplfs := some (zipFS a) }
  rw [show rnDoc ρ ({ relXmlns := "", tmplfs := some (zipFS a) } : Doc) =
    { relXmlns := "", tmplfs := some (zipFS a) } from rfl] at this
  rw [this]
  obtain ⟨f, er⟩ := ({ relXmlns := "", tmplfs := some (zipFS a) } : Doc).unpackAll me a
  cases er <;> rfl

end

end Docx
