import Verif.SpecXml
import Verif.Lemmas.XmlParts

/-!
# `norm x = x` exactly when there is nothing to lose in `x`
-/

namespace Docx

theorem digit_toInt (n : Int64) : digit n ↔ 0 ≤ n.toInt ∧ n.toInt ≤ 9 := by
  unfold digit
  rw [Int64.le_iff_toInt_le, Int64.le_iff_toInt_le]
  rfl

theorem normLookInt_range (n : Int64) (h0 : ¬ n < 0) : digit (normLookInt n) := by
  unfold normLookInt
  rw [if_neg h0]
  have h0' : ¬ n.toInt < 0 := by rw [Int64.lt_iff_toInt_lt] at h0; exact h0
  simp only [itoa, String.toList_ofList, intRep, if_neg h0']
  cases hr : natRep n.toInt.natAbs with
  | nil => exact absurd hr (natRep_ne_nil _)
  | cons c cs =>
    have := natRep_digits n.toInt.natAbs c (by rw [hr]; exact List.mem_cons_self ..)
    simp only [List.head?_cons, Option.map_some, Option.getD_some]
    have hk : ∀ k : Nat, k ≤ 9 → digit (Int64.ofNat k) := by
      intro k hk
      have : k = 0 ∨ k = 1 ∨ k = 2 ∨ k = 3 ∨ k = 4 ∨ k = 5 ∨ k = 6 ∨ k = 7 ∨ k = 8 ∨ k = 9 := by omega
      rcases this with h | h | h | h | h | h | h | h | h | h <;> subst h <;>
        exact ⟨by decide, by decide⟩
    exact hk _ (by omega)

theorem normLookInt_iff (n : Int64) : normLookInt n = n ↔ digit n := by
  constructor
  · intro h
    by_cases h0 : n < 0
    · exfalso
      unfold normLookInt at h
      rw [if_pos h0] at h
      rw [← h] at h0
      exact absurd h0 (by decide)
    · rw [← h]; exact normLookInt_range n h0
  · intro h
    rw [digit_toInt] at h
    have : n = 0 ∨ n = 1 ∨ n = 2 ∨ n = 3 ∨ n = 4 ∨ n = 5 ∨ n = 6 ∨ n = 7 ∨ n = 8 ∨ n = 9 := by
      have hi : n = Int64.ofInt n.toInt := by simp
      have : n.toInt = 0 ∨ n.toInt = 1 ∨ n.toInt = 2 ∨ n.toInt = 3 ∨ n.toInt = 4 ∨ n.toInt = 5 ∨
        n.toInt = 6 ∨ n.toInt = 7 ∨ n.toInt = 8 ∨ n.toInt = 9 := by omega
      rcases this with h | h | h | h | h | h | h | h | h | h <;> rw [h] at hi <;> subst hi <;> decide
    rcases this with h | h | h | h | h | h | h | h | h | h <;> subst h <;> decide

theorem normLook_iff (l : TblLook) : normLook l = l ↔ lookOk l := by
  cases l
  simp only [normLook, lookOk, TblLook.mk.injEq, normLookInt_iff, true_and]

theorem map_id_iff {α : Type} (f : α → α) : ∀ l : List α, l.map f = l ↔ ∀ x ∈ l, f x = x
  | [] => by simp
  | x :: xs => by simp [map_id_iff f xs]

theorem optmap_id_iff {α : Type} (f : α → α) (o : Option α) :
    o.map f = o ↔ ∀ x, o = some x → f x = x := by
  cases o <;> simp

theorem normPPr_iff (o : Option PPr) : o.map normPPr = o ↔ keptPPr o := by
  rw [optmap_id_iff]
  unfold keptPPr normPPr
  constructor
  · intro h p hp; have := h p hp; rw [← this]
  · intro h p hp; have := h p hp; cases p; simp_all

theorem normShapePr_iff (o : Option ShapePr) : o.map normShapePr = o ↔ keptShapePr o := by
  rw [optmap_id_iff]
  unfold keptShapePr normShapePr
  constructor
  · intro h p hp; have := h p hp; rw [← this]
  · intro h p hp
    have := h p hp
    rcases p with ⟨a, b, ⟨c, d⟩, e, f, g, i⟩
    simp_all

theorem normInnerItems_length (file : Option DocId) :
    ∀ gs : List GItem, (normInnerItems file gs).length ≤ gs.length
  | [] => by simp [normInnerItems]
  | g :: gs => by
    have := normInnerItems_length file gs
    cases g <;> simp only [normInnerItems, normInnerItem, List.length_append, List.length_cons,
      List.length_nil] <;> omega

mutual
theorem kept_para (file : Option DocId) (p : Para) : normPara file p = p ↔ keptPara file p := by
  match p with
  | ⟨props, children, f⟩ =>
    simp only [normPara, keptPara, Para.mk.injEq, normPPr_iff, kept_pChildren file children,
      eq_comm (a := file)]
theorem kept_pChildren (file : Option DocId) (cs : List PChild) :
    normPChildren file cs = cs ↔ keptPChildren file cs := by
  match cs with
  | [] => simp only [normPChildren, keptPChildren]
  | c :: cs =>
    simp only [normPChildren, keptPChildren, List.cons.injEq, kept_pChild file c,
      kept_pChildren file cs]
theorem kept_pChild (file : Option DocId) (c : PChild) :
    normPChild file c = c ↔ keptPChild file c := by
  match c with
  | .run r => simp only [normPChild, keptPChild, PChild.run.injEq, kept_run file r]
  | .link ⟨id, run⟩ =>
    simp only [normPChild, keptPChild, PChild.link.injEq, normLink, keptLink, Hyperlink.mk.injEq,
      kept_run none run, true_and]
  | .rpr p => simp only [normPChild, keptPChild]
theorem kept_run (file : Option DocId) (r : Run) : normRun file r = r ↔ keptRun file r := by
  match r with
  | ⟨a, b, c, children⟩ =>
    simp only [normRun, keptRun, Run.mk.injEq, kept_rChildren file children, true_and]
theorem kept_rChildren (file : Option DocId) (cs : List RChild) :
    normRChildren file cs = cs ↔ keptRChildren file cs := by
  match cs with
  | [] => simp only [normRChildren, keptRChildren]
  | c :: cs =>
    simp only [normRChildren, keptRChildren, List.cons.injEq, kept_rChild file c,
      kept_rChildren file cs]
theorem kept_rChild (file : Option DocId) (c : RChild) :
    normRChild file c = c ↔ keptRChild file c := by
  match c with
  | .text _ => simp only [normRChild, keptRChild]
  | .tab t => simp only [normRChild, keptRChild, RChild.tab.injEq, eq_comm]
  | .br _ => simp only [normRChild, keptRChild]
  | .drawing ⟨inl, anchor⟩ =>
    simp only [normRChild, keptRChild, RChild.drawing.injEq, normDrawing, keptDrawing,
      Drawing.mk.injEq, kept_inlineO file inl, kept_anchorO file anchor]
theorem kept_inlineO (file : Option DocId) (o : Option Inline) :
    normInlineO file o = o ↔ keptInlineO file o := by
  match o with
  | none => simp only [normInlineO, keptInlineO]
  | some ⟨a1, a2, a3, a4, a5, a6, a7, a8, g, f⟩ =>
    simp only [normInlineO, keptInlineO, normInline, keptInline, Option.some.injEq, Inline.mk.injEq,
      kept_graphicO file g, true_and, eq_comm (a := file)]
theorem kept_anchorO (file : Option DocId) (o : Option Anchor) :
    normAnchorO file o = o ↔ keptAnchorO file o := by
  match o with
  | none => simp only [normAnchorO, keptAnchorO]
  | some ⟨a1, a2, a3, a4, a5, a6, a7, a8, a9, a10, a11, a12, a13, a14, a15, a16, a17, a18, a19, g, f⟩ =>
    simp only [normAnchorO, keptAnchorO, normAnchor, keptAnchor, Option.some.injEq, Anchor.mk.injEq,
      kept_graphicO file g, true_and, eq_comm (a := file)]
theorem kept_graphicO (file : Option DocId) (o : Option Graphic) :
    normGraphicO file o = o ↔ keptGraphicO file o := by
  match o with
  | none => simp only [normGraphicO, keptGraphicO]
  | some ⟨a, d⟩ =>
    simp only [normGraphicO, keptGraphicO, normGraphic, keptGraphic, Option.some.injEq,
      Graphic.mk.injEq, kept_graphicDataO file d, true_and]
theorem kept_graphicDataO (file : Option DocId) (o : Option GraphicData) :
    normGraphicDataO file o = o ↔ keptGraphicDataO file o := by
  match o with
  | none => simp only [normGraphicDataO, keptGraphicDataO]
  | some ⟨a, b, shape, canvas, group⟩ =>
    simp only [normGraphicDataO, keptGraphicDataO, normGraphicData, keptGraphicData,
      Option.some.injEq, GraphicData.mk.injEq, kept_shapeO file shape, kept_canvasO file canvas,
      kept_groupO file group, true_and]
theorem kept_shapeO (file : Option DocId) (o : Option Shape) :
    normShapeO file o = o ↔ keptShapeO file o := by
  match o with
  | none => simp only [normShapeO, keptShapeO]
  | some s => simp only [normShapeO, keptShapeO, Option.some.injEq, kept_shape file s]
theorem kept_canvasO (file : Option DocId) (o : Option Canvas) :
    normCanvasO file o = o ↔ keptCanvasO file o := by
  match o with
  | none => simp only [normCanvasO, keptCanvasO]
  | some s => simp only [normCanvasO, keptCanvasO, Option.some.injEq, kept_canvas file s]
theorem kept_groupO (file : Option DocId) (o : Option Group) :
    normGroupO file o = o ↔ keptGroupO file o := by
  match o with
  | none => simp only [normGroupO, keptGroupO]
  | some s => simp only [normGroupO, keptGroupO, Option.some.injEq, kept_group file s]
theorem kept_shape (file : Option DocId) (s : Shape) : normShape file s = s ↔ keptShape file s := by
  match s with
  | ⟨a, b, c, spPr, none, e⟩ =>
    simp only [normShape, keptShape, Shape.mk.injEq, normShapePr_iff, normTextBoxO, keptTextBoxO,
      true_and, and_true]
  | ⟨a, b, c, spPr, some ⟨none⟩, e⟩ =>
    simp only [normShape, keptShape, Shape.mk.injEq, normShapePr_iff, normTextBoxO, keptTextBoxO,
      normTextBox, keptTextBox, normContentO, keptContentO, true_and, and_true]
  | ⟨a, b, c, spPr, some ⟨some ps⟩, e⟩ =>
    simp only [normShape, keptShape, Shape.mk.injEq, normShapePr_iff, normTextBoxO, keptTextBoxO,
      normTextBox, keptTextBox, normContentO, keptContentO, Option.some.injEq, TextBox.mk.injEq,
      kept_paras file ps, true_and, and_true]
theorem kept_paras (file : Option DocId) (cs : List Para) :
    normParas file cs = cs ↔ keptParas file cs := by
  match cs with
  | [] => simp only [normParas, keptParas]
  | c :: cs =>
    simp only [normParas, keptParas, List.cons.injEq, kept_para file c, kept_paras file cs]
theorem kept_canvas (file : Option DocId) (c : Canvas) :
    normCanvas file c = c ↔ keptCanvas file c := by
  match c with
  | ⟨a, b, items⟩ =>
    simp only [normCanvas, keptCanvas, Canvas.mk.injEq, kept_cItems file items, true_and]
theorem kept_cItems (file : Option DocId) (cs : List CItem) :
    normCItems file cs = cs ↔ keptCItems file cs := by
  match cs with
  | [] => simp only [normCItems, keptCItems]
  | .shape s :: cs =>
    simp only [normCItems, keptCItems, List.cons.injEq, normCItem, keptCItem, CItem.shape.injEq,
      kept_shape file s, kept_cItems file cs]
  | .pic _ :: cs =>
    simp only [normCItems, keptCItems, List.cons.injEq, normCItem, keptCItem, kept_cItems file cs]
  | .group s :: cs =>
    simp only [normCItems, keptCItems, List.cons.injEq, normCItem, keptCItem, CItem.group.injEq,
      kept_group file s, kept_cItems file cs]
theorem kept_group (file : Option DocId) (c : Group) : normGroup file c = c ↔ keptGroup file c := by
  match c with
  | ⟨a, b, elems⟩ =>
    simp only [normGroup, keptGroup, Group.mk.injEq, kept_gItems file elems, normShapePr_iff, true_and]
theorem kept_groupShape (file : Option DocId) (c : GroupShape) :
    normGroupShape file c = c ↔ keptGroupShape file c := by
  match c with
  | ⟨n, a, b, elems⟩ =>
    simp only [normGroupShape, keptGroupShape, GroupShape.mk.injEq, kept_innerItems file elems,
      normShapePr_iff, true_and]
theorem kept_gItems (file : Option DocId) (cs : List GItem) :
    normGItems file cs = cs ↔ keptGItems file cs := by
  match cs with
  | [] => simp only [normGItems, keptGItems]
  | .shape s :: cs =>
    simp only [normGItems, keptGItems, List.cons.injEq, normGItem, keptGItem, GItem.shape.injEq,
      kept_shape file s, kept_gItems file cs]
  | .pic ⟨x, a, b, c⟩ :: cs =>
    simp only [normGItems, keptGItems, List.cons.injEq, normGItem, keptGItem, kept_gItems file cs,
      GItem.pic.injEq, Picture.mk.injEq, and_true, eq_comm (a := x)]
  | .canvas s :: cs =>
    simp only [normGItems, keptGItems, List.cons.injEq, normGItem, keptGItem, GItem.canvas.injEq,
      kept_canvas file s, kept_gItems file cs]
  | .groupShape s :: cs =>
    simp only [normGItems, keptGItems, List.cons.injEq, normGItem, keptGItem,
      GItem.groupShape.injEq, kept_groupShape file s, kept_gItems file cs]
theorem kept_innerItems (file : Option DocId) (cs : List GItem) :
    normInnerItems file cs = cs ↔ keptInnerItems file cs := by
  match cs with
  | [] => simp only [normInnerItems, keptInnerItems]
  | .shape s :: cs =>
    simp only [normInnerItems, keptInnerItems, List.cons.injEq, normInnerItem, keptInnerItem,
      GItem.shape.injEq, kept_shape file s, kept_innerItems file cs, List.cons_append,
      List.nil_append]
  | .pic ⟨x, a, b, c⟩ :: cs =>
    simp only [normInnerItems, keptInnerItems, List.cons.injEq, normInnerItem, keptInnerItem,
      kept_innerItems file cs, GItem.pic.injEq, Picture.mk.injEq, and_true, eq_comm (a := x),
      List.cons_append, List.nil_append]
  | .canvas s :: cs =>
    simp only [normInnerItems, keptInnerItems, List.cons.injEq, normInnerItem, keptInnerItem,
      GItem.canvas.injEq, kept_canvas file s, kept_innerItems file cs, List.cons_append,
      List.nil_append]
  | .groupShape s :: cs =>
    simp only [normInnerItems, keptInnerItems, normInnerItem, keptInnerItem, List.nil_append,
      false_and, iff_false]
    intro h
    have h1 := normInnerItems_length file cs
    rw [h] at h1
    simp only [List.length_cons] at h1
    omega
end

theorem kept_cell (file : Option DocId) (c : Cell) : normCell file c = c ↔ keptCell file c := by
  cases c
  simp only [normCell, keptCell, Cell.mk.injEq, true_and, map_id_iff, kept_para, eq_comm (a := file)]

theorem kept_row (file : Option DocId) (c : Row) : normRow file c = c ↔ keptRow file c := by
  cases c
  simp only [normRow, keptRow, Row.mk.injEq, true_and, map_id_iff, kept_cell]

theorem kept_table (file : Option DocId) (t : Table) : normTable file t = t ↔ keptTable file t ∧
    ∀ pr l, t.props = some pr → pr.look = some l → lookOk l := by
  rcases t with ⟨props, grid, rows⟩
  simp only [normTable, keptTable, Table.mk.injEq, map_id_iff, optmap_id_iff, kept_row]
  have h1 : (∀ x, props = some x → normTblPr x = x) ↔
      ∀ pr l, props = some pr → pr.look = some l → lookOk l := by
    constructor
    · intro h pr l hp hl
      have := h pr hp
      have : (normTblPr pr).look = some (normLook l) := by simp [normTblPr, hl]
      rw [h pr hp, hl] at this
      exact (normLook_iff l).1 (Option.some.inj this).symm
    · intro h pr hp
      rcases pr with ⟨a, b, c, d, e, look⟩
      simp only [normTblPr, TblPr.mk.injEq, true_and]
      rw [optmap_id_iff]
      intro l hl
      exact (normLook_iff l).2 (h _ l hp hl)
  have h2 : (∀ x, grid = some x → x.filter Option.isSome = x) ↔ ∀ g, grid = some g → none ∉ g := by
    apply forall_congr'
    intro g
    apply imp_congr_right
    intro _
    rw [List.filter_eq_self]
    constructor
    · intro h hn; exact absurd (h _ hn) (by simp)
    · intro h a ha
      cases a with
      | none => exact absurd ha h
      | some _ => rfl
  rw [h1, h2]
  exact ⟨fun ⟨a, b, c⟩ => ⟨⟨b, c⟩, a⟩, fun ⟨⟨b, c⟩, a⟩ => ⟨a, b, c⟩⟩

theorem kept_body (file : Option DocId) (items : List BItem) :
    normBody file items = items ↔ keptBody file items ∧ looksOk items := by
  unfold normBody keptBody looksOk
  rw [map_id_iff]
  have h : ∀ i, normItem file i = i ↔ keptItem file i ∧
      ∀ t pr l, i = .table t → t.props = some pr → pr.look = some l → lookOk l := by
    intro i
    cases i with
    | para p => simp [normItem, keptItem, kept_para]
    | sect s => simp [normItem, keptItem]
    | table t =>
      simp only [normItem, keptItem, BItem.table.injEq, kept_table]
      constructor
      · rintro ⟨a, b⟩; exact ⟨a, fun t' pr l e => by subst e; exact b pr l⟩
      · rintro ⟨a, b⟩; exact ⟨a, fun pr l => b t pr l rfl⟩
  constructor
  · intro hh; exact ⟨fun i hi => ((h i).1 (hh i hi)).1, fun i hi => ((h i).1 (hh i hi)).2⟩
  · intro hh i hi; exact (h i).2 ⟨hh.1 i hi, hh.2 i hi⟩

end Docx
