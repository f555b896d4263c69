import Verif.Spec

/-! # C21 to C24, C27, C28, C30: selecting, dropping, comparing and printing -/

namespace Docx

/-! ## C21 -/

theorem keepLoop_eq {α : Type} (ty : α → String) (names : List String) (xs : List α) :
    keepLoop ty names xs = xs.filter fun x => decide (ty x ∈ names) := by
  induction xs with
  | nil => rfl
  | cons x xs ih =>
    simp only [keepLoop, ih, List.filter_cons]
    by_cases h : ty x ∈ names <;> simp [h]

/-- **C21.** `KeepElements` of a body, a paragraph and a run keeps exactly the elements whose type is
named, in order, and changes nothing else. -/
theorem C21_keep (names : List String) :
    (∀ items, keepBody names items = items.filter fun x => decide (x.typeName ∈ names)) ∧
    (∀ p : Para, p.keepElements names =
      { p with children := p.children.filter fun x => decide (x.typeName ∈ names) }) ∧
    (∀ r : Run, r.keepElements names =
      { r with children := r.children.filter fun x => decide (x.typeName ∈ names) }) :=
  ⟨fun _ => keepLoop_eq .., fun p => by rw [Para.keepElements, keepLoop_eq],
   fun r => by rw [Run.keepElements, keepLoop_eq]⟩

/-- **C21, idempotent.** -/
theorem C21_idempotent (names : List String) :
    (∀ items, keepBody names (keepBody names items) = keepBody names items) ∧
    (∀ p : Para, (p.keepElements names).keepElements names = p.keepElements names) ∧
    (∀ r : Run, (r.keepElements names).keepElements names = r.keepElements names) := by
  refine ⟨fun _ => ?_, fun _ => ?_, fun _ => ?_⟩
  · simp [keepBody, keepLoop_eq]
  · simp [Para.keepElements, keepLoop_eq]
  · simp [Run.keepElements, keepLoop_eq]

/-- **C21, names.** Only the set of names matters. -/
theorem C21_names (ns ms : List String) (h : ∀ n, n ∈ ns ↔ n ∈ ms) :
    (∀ items, keepBody ns items = keepBody ms items) ∧
    (∀ p : Para, p.keepElements ns = p.keepElements ms) ∧
    (∀ r : Run, r.keepElements ns = r.keepElements ms) := by
  refine ⟨fun _ => ?_, fun _ => ?_, fun _ => ?_⟩
  · simp [keepBody, keepLoop_eq, h]
  · simp [Para.keepElements, keepLoop_eq, h]
  · simp [Run.keepElements, keepLoop_eq, h]

/-- The type names are those of the Go types, one per kind of element. -/
example : keepBody ["*docx.Table"] [.para {}, .table {}, .sect {}] = [.table {}] := rfl
example : (({} : Para).keepElements []).children = [] := rfl

/-! ## C22 -/

theorem dropRChildren_eq (drop : Drawing → Bool) (cs : List RChild) :
    dropRChildren drop cs = cs.filter fun c => !c.isBad drop := by
  induction cs with
  | nil => rfl
  | cons c cs ih =>
    cases c with
    | drawing d =>
      simp only [dropRChildren, List.filter_cons, ih, RChild.isBad_drawing]
      by_cases h : drop d <;> simp [h]
    | _ => simp [dropRChildren, ih]

theorem dropPChildren_eq (drop : Drawing → Bool) (cs : List PChild) :
    dropPChildren drop cs = cs.map (PChild.without drop) := by
  induction cs with
  | nil => rfl
  | cons c cs ih =>
    cases c <;> simp [dropPChildren, ih, dropRChildren_eq, PChild.without]

theorem dropTest_eq (has : GraphicData → Bool) (d : Drawing) :
    dropTest has d = d.graphics.any has := by
  obtain ⟨inl, anchor⟩ := d
  unfold dropTest Drawing.inlineData Drawing.anchorData Drawing.graphics
  rcases inl with _ | ⟨_, _, _, _, _, _, _, _, _ | ⟨_, _ | gd⟩, _⟩ <;>
    rcases anchor with _ | ⟨_, _, _, _, _, _, _, _, _, _, _, _, _, _, _, _, _, _, _, _ | ⟨_, _ | gd'⟩, _⟩ <;>
    simp <;> first | done | (cases has gd <;> simp)

theorem dropTest_without {has : GraphicData → Bool} {ks : List Kind} (p : Para)
    (h : ∀ g, has g = ks.any fun k => g.isKind k) :
    { p with children := dropPChildren (dropTest has) p.children } = p.without (Drawing.ofKinds ks) := by
  rw [Para.without, dropPChildren_eq]
  have : dropTest has = Drawing.ofKinds ks := by
    funext d
    rw [dropTest_eq, Drawing.ofKinds]
    congr; funext g; exact h g
  rw [this]

/-- **C22.** The five calls remove from the runs exactly the drawings carrying a graphic of the named
kinds and keep everything else in order. -/
theorem C22_drop (p : Para) :
    p.dropCanvas = p.without (Drawing.ofKinds [.canvas]) ∧
    p.dropShape = p.without (Drawing.ofKinds [.shape]) ∧
    p.dropGroup = p.without (Drawing.ofKinds [.group]) ∧
    p.dropShapeAndCanvas = p.without (Drawing.ofKinds [.shape, .canvas]) ∧
    p.dropShapeAndCanvasAndGroup = p.without (Drawing.ofKinds [.shape, .canvas, .group]) := by
  refine ⟨?_, ?_, ?_, ?_, ?_⟩ <;> refine dropTest_without p ?_ <;> intro g <;>
    simp [GraphicData.isKind, Bool.or_assoc]

theorem without_without (b1 b2 : Drawing → Bool) (p : Para) :
    (p.without b1).without b2 = p.without fun d => b1 d || b2 d := by
  unfold Para.without
  simp only [List.map_map]
  congr 1
  refine List.map_congr_left ?_
  intro c _
  cases c with
  | run r =>
    simp only [Function.comp, PChild.without, List.filter_filter]
    congr 2
    refine List.filter_congr ?_
    intro x _
    cases x with
    | drawing d => simp [RChild.isBad, Bool.and_comm]
    | _ => rfl
  | _ => rfl

theorem ofKinds_append (ks ls : List Kind) (d : Drawing) :
    (d.ofKinds ks || d.ofKinds ls) = d.ofKinds (ks ++ ls) := by
  unfold Drawing.ofKinds
  rw [Bool.eq_iff_iff]
  simp only [Bool.or_eq_true, List.any_eq_true, List.any_append]
  constructor
  · rintro (⟨g, h1, h2⟩ | ⟨g, h1, h2⟩)
    · exact ⟨g, h1, .inl h2⟩
    · exact ⟨g, h1, .inr h2⟩
  · rintro ⟨g, h1, h2 | h2⟩
    · exact .inl ⟨g, h1, h2⟩
    · exact .inr ⟨g, h1, h2⟩

theorem without_kinds (p : Para) {ks ls : List Kind} (h : ∀ k, k ∈ ks ↔ k ∈ ls) :
    p.without (Drawing.ofKinds ks) = p.without (Drawing.ofKinds ls) := by
  have : Drawing.ofKinds ks = Drawing.ofKinds ls := by
    funext d
    unfold Drawing.ofKinds
    rw [Bool.eq_iff_iff]
    simp [h]
  rw [this]

/-- **C22, idempotent.** Calling a second time changes nothing. -/
theorem C22_idempotent (p : Para) :
    p.dropCanvas.dropCanvas = p.dropCanvas ∧ p.dropShape.dropShape = p.dropShape ∧
    p.dropGroup.dropGroup = p.dropGroup ∧
    p.dropShapeAndCanvas.dropShapeAndCanvas = p.dropShapeAndCanvas ∧
    p.dropShapeAndCanvasAndGroup.dropShapeAndCanvasAndGroup = p.dropShapeAndCanvasAndGroup := by
  simp [(C22_drop _).1, (C22_drop _).2.1, (C22_drop _).2.2.1, (C22_drop _).2.2.2.1,
    (C22_drop _).2.2.2.2, without_without]

/-- **C22, composition.** The combined calls are the single ones one after the other, in any order. -/
theorem C22_compose (p : Para) :
    p.dropShapeAndCanvas = p.dropShape.dropCanvas ∧ p.dropShapeAndCanvas = p.dropCanvas.dropShape ∧
    p.dropShapeAndCanvasAndGroup = p.dropShape.dropCanvas.dropGroup ∧
    p.dropShapeAndCanvasAndGroup = p.dropGroup.dropCanvas.dropShape := by
  simp only [(C22_drop _).1, (C22_drop _).2.1, (C22_drop _).2.2.1, (C22_drop _).2.2.2.1,
    (C22_drop _).2.2.2.2, without_without, ofKinds_append, List.cons_append, List.nil_append]
  refine ⟨trivial, ?_, trivial, ?_⟩
  · exact without_kinds p (by simp [or_comm])
  · exact without_kinds p (by intro k; simp [or_comm, or_left_comm])

/-- A paragraph with a shape, a picture and a text: `DropShape` removes the shape only. -/
example :
    let shape : Drawing := { inl := some { graphic := some (mkShapeGraphic 1 2 "" "rect" none) } }
    let pic : Drawing := { inl := some (mkInlinePic 1 1 "rId4" 1 1) }
    let p : Para := { children := [.run { children := [.drawing shape, .text { text := "a" }, .drawing pic] }] }
    shape.ofKinds [.shape] = true ∧ pic.ofKinds [.shape, .canvas, .group] = false ∧
    p.dropShape.children = [.run { children := [.text { text := "a" }, .drawing pic] }] := by
  refine ⟨rfl, rfl, rfl⟩

/-! ## C23 -/

theorem nilPicTest_iff (d : Drawing) : nilPicTest d = false ↔ d.allPictures := by
  obtain ⟨inl, anchor⟩ := d
  unfold nilPicTest Drawing.inlineData Drawing.anchorData Drawing.allPictures
  rcases inl with _ | ⟨_, _, _, _, _, _, _, _, _ | ⟨_, _ | ⟨_, _ | pic, _, _, _⟩⟩, _⟩ <;>
    rcases anchor with _ | ⟨_, _, _, _, _, _, _, _, _, _, _, _, _, _, _, _, _, _, _, _ |
      ⟨_, _ | ⟨_, _ | pic', _, _, _⟩⟩, _⟩ <;>
    simp

theorem mem_drawings_without (b : Drawing → Bool) (p : Para) :
    (p.without b).drawings = p.drawings.filter fun d => !b d := by
  unfold Para.without Para.drawings
  simp only [List.flatMap_map, List.filter_flatMap]
  congr
  funext c
  cases c with
  | run r =>
    simp only [PChild.without]
    induction r.children with
    | nil => rfl
    | cons x xs ih =>
      cases x with
      | drawing d =>
        by_cases h : b d <;> simp [h, ih, RChild.drawing?]
      | _ => simpa [List.filterMap_cons, RChild.drawing?] using ih
  | _ => rfl

theorem dropNilPicture_eq (p : Para) : p.dropNilPicture = p.without nilPicTest := by
  rw [Para.dropNilPicture, Para.without, dropPChildren_eq]

/-- **C23.** After `DropNilPicture` a drawing is in the runs of the paragraph exactly if it was there
before and every container it has holds a picture; the order is kept, and everything else is
unchanged. -/
theorem C23_dropNilPicture (p : Para) :
    (∀ d, d ∈ p.dropNilPicture.drawings ↔ d ∈ p.drawings ∧ d.allPictures) ∧
    p.dropNilPicture.drawings.Sublist p.drawings ∧
    (∃ bad, p.dropNilPicture = p.without bad) := by
  rw [dropNilPicture_eq]
  refine ⟨?_, ?_, ⟨_, rfl⟩⟩
  · intro d
    rw [mem_drawings_without, List.mem_filter, ← nilPicTest_iff]
    simp
  · rw [mem_drawings_without]; exact List.filter_sublist

example :
    let shape : Drawing := { inl := some { graphic := some (mkShapeGraphic 1 2 "" "rect" none) } }
    let pic : Drawing := { inl := some (mkInlinePic 1 1 "rId4" 1 1) }
    let p : Para := { children := [.run { children := [.drawing shape, .drawing {}, .drawing pic] }] }
    p.dropNilPicture.drawings = [pic] := rfl

/-! ## C24 -/

/-- The drop calls by name. -/
def dropTable : List (String × (Para → Para)) :=
  [("Canvas", Para.dropCanvas), ("Shape", Para.dropShape), ("Group", Para.dropGroup),
   ("ShapeAndCanvas", Para.dropShapeAndCanvas),
   ("ShapeAndCanvasAndGroup", Para.dropShapeAndCanvasAndGroup), ("NilPicture", Para.dropNilPicture)]

theorem dropDrawingOf_eq (name : String) (items : List BItem) :
    dropDrawingOf name items = mapParas (dropPara name) items := by
  induction items with
  | nil => rfl
  | cons x xs ih =>
    cases x <;> simp only [dropDrawingOf, ih] <;> rfl

/-- **C24.** `DropDrawingOf(name)` applies the drop call of that name to every paragraph of the body
and of every cell, and changes nothing else. -/
theorem C24_known (name : String) (g : Para → Para) (h : (name, g) ∈ dropTable) (items : List BItem) :
    dropDrawingOf name items = mapParas g items := by
  rw [dropDrawingOf_eq]
  congr
  funext p
  simp only [dropTable, List.mem_cons, Prod.mk.injEq, List.not_mem_nil, or_false] at h
  rcases h with ⟨rfl, rfl⟩ | ⟨rfl, rfl⟩ | ⟨rfl, rfl⟩ | ⟨rfl, rfl⟩ | ⟨rfl, rfl⟩ | ⟨rfl, rfl⟩ <;> rfl

theorem mapParas_id (items : List BItem) : mapParas (fun p => p) items = items := by
  unfold mapParas
  conv => rhs; rw [← List.map_id items]
  congr
  funext x
  cases x <;> simp

/-- **C24, unknown names.** Any other name changes nothing. -/
theorem C24_unknown (name : String) (h : name ∉ dropTable.map (·.1)) (items : List BItem) :
    dropDrawingOf name items = items := by
  rw [dropDrawingOf_eq]
  have : dropPara name = fun p => p := by
    funext p
    simp only [dropTable, List.map_cons, List.map_nil, List.mem_cons, List.not_mem_nil, or_false,
      not_or] at h
    obtain ⟨h1, h2, h3, h4, h5, h6⟩ := h
    simp [dropPara, dropMethod, h1, h2, h3, h4, h5, h6]
  rw [this, mapParas_id]

/-- **C24, every place.** At every location the paragraph is the dropped one. -/
theorem C24_everywhere (g : Para → Para) (items : List BItem) (i : Nat) :
    (∀ p, items[i]? = some (.para p) → (mapParas g items)[i]? = some (.para (g p))) ∧
    (∀ (t : Table) (r c j : Nat) (row : Row) (cell : Cell) (p : Para), items[i]? = some (.table t) →
      t.rows[r]? = some row → row.cells[c]? = some cell → cell.paras[j]? = some p →
      ∃ (t' : Table) (row' : Row) (cell' : Cell), (mapParas g items)[i]? = some (.table t') ∧
        t'.rows[r]? = some row' ∧ row'.cells[c]? = some cell' ∧ cell'.paras[j]? = some (g p)) := by
  constructor
  · intro p h; simp [mapParas, h]
  · intro t r c j row cell p h1 h2 h3 h4
    refine ⟨_, _, _, by simp [mapParas, h1]; rfl, by simp [h2]; rfl, by simp [h3]; rfl, by simp [h4]⟩

example : ("Shape", Para.dropShape) ∈ dropTable := by simp [dropTable]
example : "Shapes" ∉ dropTable.map (·.1) := by simp [dropTable]

/-! ## C27 -/

/-- Two runs have the same formatting: neither has properties, or both have and every property has
the same value. -/
def SameFormatting (r1 r2 : Run) : Prop :=
  (r1.rpr = none ∧ r2.rpr = none) ∨
  ∃ a b, r1.rpr = some a ∧ r2.rpr = some b ∧ ∀ φ, a.get φ = b.get φ

theorem ofOpt_inj {α : Type} {f : α → FVal} (hf : ∀ a b, f a = f b → a = b) (ha : ∀ a, f a ≠ .absent)
    {x y : Option α} (h : FVal.ofOpt f x = FVal.ofOpt f y) : x = y := by
  cases x <;> cases y
  · rfl
  · exact absurd h.symm (ha _)
  · exact absurd h (ha _)
  · rw [hf _ _ h]

theorem ofBool_inj {x y : Bool} (h : FVal.ofBool x = FVal.ofBool y) : x = y := by
  cases x <;> cases y <;> first | rfl | cases h

theorem get_inj {a b : RPr} (h : ∀ φ, a.get φ = b.get φ) : a = b := by
  obtain ⟨a1, a2, a3, a4, a5, a6, a7, a8, a9, a10, a11, a12, a13, a14, a15, a16⟩ := a
  obtain ⟨b1, b2, b3, b4, b5, b6, b7, b8, b9, b10, b11, b12, b13, b14, b15, b16⟩ := b
  have hs : ∀ x y : String, FVal.str x = FVal.str y → x = y := fun _ _ h => by cases h; rfl
  have hs' : ∀ x : String, FVal.str x ≠ .absent := fun _ h => by cases h
  have e1 : a1 = b1 := ofOpt_inj (fun _ _ h => by cases h; rfl) (fun _ h => by cases h) (h .fonts)
  have e2 : a2 = b2 := ofBool_inj (h .bold)
  have e3 : a3 = b3 := ofBool_inj (h .iCs)
  have e4 : a4 = b4 := ofBool_inj (h .italic)
  have e5 : a5 = b5 := ofOpt_inj hs hs' (h .highlight)
  have e6 : a6 = b6 := ofOpt_inj hs hs' (h .color)
  have e7 : a7 = b7 := ofOpt_inj hs hs' (h .size)
  have e8 : a8 = b8 := ofOpt_inj hs hs' (h .sizeCs)
  have e9 : a9 = b9 := ofOpt_inj (fun _ _ h => by cases h; rfl) (fun _ h => by cases h) (h .spacing)
  have e10 : a10 = b10 := ofOpt_inj hs hs' (h .runStyle)
  have e11 : a11 = b11 := ofOpt_inj hs hs' (h .style)
  have e12 : a12 = b12 := ofOpt_inj (fun _ _ h => by cases h; rfl) (fun _ h => by cases h) (h .shade)
  have e13 : a13 = b13 := ofOpt_inj (fun _ _ h => by cases h; rfl) (fun _ h => by cases h) (h .kern)
  have e14 : a14 = b14 := ofOpt_inj hs hs' (h .underline)
  have e15 : a15 = b15 := ofOpt_inj hs hs' (h .vertAlign)
  have e16 : a16 = b16 := ofOpt_inj hs hs' (h .strike)
  subst_vars; rfl

theorem sameOpt_iff {α : Type} [DecidableEq α] (a b : Option α) : sameOpt a b = true ↔ a = b := by
  cases a <;> cases b <;> simp [sameOpt]

theorem sameBool_iff (a b : Bool) : sameBool a b = true ↔ a = b := by
  cases a <;> cases b <;> simp [sameBool]

theorem sameRPr_iff (a b : RPr) : sameRPr a b = true ↔ a = b := by
  obtain ⟨a1, a2, a3, a4, a5, a6, a7, a8, a9, a10, a11, a12, a13, a14, a15, a16⟩ := a
  obtain ⟨b1, b2, b3, b4, b5, b6, b7, b8, b9, b10, b11, b12, b13, b14, b15, b16⟩ := b
  simp only [sameRPr, Bool.and_eq_true, sameOpt_iff, sameBool_iff, RPr.mk.injEq, and_assoc]

theorem mergeSame_iff (r1 r2 : Run) : mergeSamePropRuns r1 r2 = true ↔ r1.rpr = r2.rpr := by
  unfold mergeSamePropRuns
  split <;> simp_all [sameRPr_iff]

/-- **C27.** `MergeSamePropRuns` holds exactly when the two runs have the same formatting. -/
theorem C27_same (r1 r2 : Run) : mergeSamePropRuns r1 r2 = true ↔ SameFormatting r1 r2 := by
  rw [mergeSame_iff]
  unfold SameFormatting
  constructor
  · intro h
    cases h1 : r1.rpr with
    | none => left; exact ⟨rfl, by rw [← h, h1]⟩
    | some a => right; exact ⟨a, a, rfl, by rw [← h, h1], fun _ => rfl⟩
  · rintro (⟨h1, h2⟩ | ⟨a, b, h1, h2, h⟩)
    · rw [h1, h2]
    · rw [h1, h2, get_inj h]

/-- **C27, equivalence.** -/
theorem C27_equivalence : Equivalence fun r1 r2 => mergeSamePropRuns r1 r2 = true := by
  refine ⟨fun r => ?_, fun h => ?_, fun h1 h2 => ?_⟩
  · rw [mergeSame_iff]
  · rw [mergeSame_iff] at *; exact h.symm
  · rw [mergeSame_iff] at *; exact h1.trans h2

example : mergeSamePropRuns { rpr := some { bold := true } } { rpr := some { bold := true }, instr := "x" } = true ∧
    mergeSamePropRuns { rpr := some {} } {} = false ∧
    mergeSamePropRuns { rpr := some { size := some "20" } } { rpr := some { size := some "21" } } = false := by
  decide

/-! ## C28 -/

/-- The Go names of the run properties. -/
def fieldName : RField → String
  | .fonts => "Fonts" | .bold => "Bold" | .iCs => "ICs" | .italic => "Italic"
  | .highlight => "Highlight" | .color => "Color" | .size => "Size" | .sizeCs => "SizeCs"
  | .spacing => "Spacing" | .runStyle => "RunStyle" | .style => "Style" | .shade => "Shade"
  | .kern => "Kern" | .underline => "Underline" | .vertAlign => "VertAlign" | .strike => "Strike"

/-- All properties. -/
def allFields : List RField :=
  [.fonts, .bold, .iCs, .italic, .highlight, .color, .size, .sizeCs, .spacing, .runStyle, .style,
   .shade, .kern, .underline, .vertAlign, .strike]

theorem mem_allFields (φ : RField) : φ ∈ allFields := by cases φ <;> decide

theorem sameField_name (φ : RField) (a b : RPr) :
    sameField (fieldName φ) a b = some (decide (a.get φ = b.get φ)) := by
  have ho : ∀ {α : Type} [DecidableEq α] (f : α → FVal), (∀ a b, f a = f b → a = b) →
      (∀ a, f a ≠ .absent) → ∀ x y : Option α,
      some (sameOpt x y) = some (decide (FVal.ofOpt f x = FVal.ofOpt f y)) := by
    intro α _ f h1 h2 x y
    congr 1
    rw [Bool.eq_iff_iff, sameOpt_iff, decide_eq_true_eq]
    exact ⟨fun h => by rw [h], fun h => ofOpt_inj h1 h2 h⟩
  have hb : ∀ x y : Bool, some (sameBool x y) = some (decide (FVal.ofBool x = FVal.ofBool y)) := by
    decide
  have h1 : ∀ x y : String, FVal.str x = FVal.str y → x = y := fun _ _ h => by cases h; rfl
  have h2 : ∀ x : String, FVal.str x ≠ .absent := fun _ h => by cases h
  cases φ <;> simp only [sameField, fieldName, RPr.get, String.reduceEq, if_false, if_true] <;> first
    | exact hb _ _
    | exact ho .str h1 h2 _ _
    | exact ho .int (fun _ _ h => by cases h; rfl) (fun _ h => by cases h) _ _
    | exact ho .fonts (fun _ _ h => by cases h; rfl) (fun _ h => by cases h) _ _
    | exact ho .spacing (fun _ _ h => by cases h; rfl) (fun _ h => by cases h) _ _
    | exact ho .shade (fun _ _ h => by cases h; rfl) (fun _ h => by cases h) _ _

theorem sameField_none (n : String) (a b : RPr) :
    sameField n a b = none ↔ n ≠ "XMLName" ∧ ∀ φ, fieldName φ ≠ n := by
  constructor
  · intro h
    refine ⟨?_, ?_⟩
    · rintro rfl; simp [sameField] at h
    · rintro φ rfl; rw [sameField_name] at h; simp at h
  · rintro ⟨h0, h⟩
    have h' : ∀ φ, n ≠ fieldName φ := fun φ e => h φ e.symm
    have e0 := h' .fonts
    have e1 := h' .bold
    have e2 := h' .iCs
    have e3 := h' .italic
    have e4 := h' .highlight
    have e5 := h' .color
    have e6 := h' .size
    have e7 := h' .sizeCs
    have e8 := h' .spacing
    have e9 := h' .runStyle
    have e10 := h' .style
    have e11 := h' .shade
    have e12 := h' .kern
    have e13 := h' .underline
    have e14 := h' .vertAlign
    have e15 := h' .strike
    simp only [fieldName] at e0 e1 e2 e3 e4 e5 e6 e7 e8 e9 e10 e11 e12 e13 e14 e15
    simp only [sameField, h0, if_false, e0, e1, e2, e3, e4, e5, e6, e7, e8, e9, e10, e11, e12, e13, e14, e15]

theorem sameFields_known (φs : List RField) (a b : RPr) :
    sameFields a b (φs.map fieldName) = .ok (decide (∀ φ ∈ φs, a.get φ = b.get φ)) := by
  induction φs with
  | nil => simp [sameFields]
  | cons φ φs ih =>
    simp only [List.map_cons, sameFields, sameField_name]
    by_cases h : a.get φ = b.get φ <;> simp [h, ih]

/-- **C28, meaning.** For names of properties the rule holds exactly when neither run has properties,
or both have and the named ones are equal (`samePtr`, both runs sharing one property set, implies
equal values). -/
theorem C28_meaning (φs : List RField) (samePtr : Bool) (r1 r2 : Run)
    (hptr : samePtr = true → r1.rpr = r2.rpr) :
    ∃ v, mergeSamePropRunsOf (φs.map fieldName) samePtr r1 r2 = .ok v ∧
      (v = true ↔ (r1.rpr = none ∧ r2.rpr = none) ∨
        ∃ a b, r1.rpr = some a ∧ r2.rpr = some b ∧ ∀ φ ∈ φs, a.get φ = b.get φ) := by
  unfold mergeSamePropRunsOf
  split
  · exact ⟨_, rfl, by simp [*]⟩
  · exact ⟨_, rfl, by simp [*]⟩
  · exact ⟨_, rfl, by simp [*]⟩
  · rename_i a b h1 h2
    cases samePtr with
    | true =>
      have := hptr rfl
      rw [h1, h2] at this
      cases this
      exact ⟨_, rfl, by simp [h1, h2]⟩
    | false =>
      refine ⟨decide (∀ φ ∈ φs, a.get φ = b.get φ), ?_, ?_⟩
      · simp [sameFields_known]
      · simp [h1, h2]

/-- **C28, refinement.** With more names the rule merges less. -/
theorem C28_refines (φs ψs : List RField) (samePtr : Bool) (r1 r2 : Run)
    (hptr : samePtr = true → r1.rpr = r2.rpr) (hsub : ∀ φ ∈ φs, φ ∈ ψs)
    (h : mergeSamePropRunsOf (ψs.map fieldName) samePtr r1 r2 = .ok true) :
    mergeSamePropRunsOf (φs.map fieldName) samePtr r1 r2 = .ok true := by
  obtain ⟨v, hv, hv'⟩ := C28_meaning ψs samePtr r1 r2 hptr
  obtain ⟨u, hu, hu'⟩ := C28_meaning φs samePtr r1 r2 hptr
  rw [h] at hv; cases hv
  rw [hu]
  congr
  rw [hu']
  rcases hv'.1 rfl with h | ⟨a, b, h1, h2, h3⟩
  · exact .inl h
  · exact .inr ⟨a, b, h1, h2, fun φ hφ => h3 φ (hsub φ hφ)⟩

/-- **C28, all names.** With the names of all properties it is `MergeSamePropRuns`. -/
theorem C28_all (samePtr : Bool) (r1 r2 : Run) (hptr : samePtr = true → r1.rpr = r2.rpr) :
    mergeSamePropRunsOf (allFields.map fieldName) samePtr r1 r2 = .ok (mergeSamePropRuns r1 r2) := by
  obtain ⟨v, hv, hv'⟩ := C28_meaning allFields samePtr r1 r2 hptr
  rw [hv]
  congr
  have := C27_same r1 r2
  unfold SameFormatting at this
  rw [Bool.eq_iff_iff, hv', this]
  simp [mem_allFields]

/-- **C28, dependence.** The outcome depends only on the named properties. -/
theorem C28_only_named (φs : List RField) (r1 r2 r2' : Run) (a b b' : RPr) (h1 : r1.rpr = some a)
    (h2 : r2.rpr = some b) (h2' : r2'.rpr = some b') (h : ∀ φ ∈ φs, b.get φ = b'.get φ) :
    mergeSamePropRunsOf (φs.map fieldName) false r1 r2 =
      mergeSamePropRunsOf (φs.map fieldName) false r1 r2' := by
  simp only [mergeSamePropRunsOf, h1, h2, h2', Bool.false_eq_true, if_false, sameFields_known]
  congr 1
  rw [decide_eq_decide]
  constructor <;> intro h' φ hφ
  · rw [h' φ hφ, h φ hφ]
  · rw [h' φ hφ, h φ hφ]

/-- **C28, panic.** It panics exactly when two distinct property sets are compared and some name that
is no property is reached, that is, all names before it are properties with equal values. -/
theorem C28_panics_iff (ns : List String) (samePtr : Bool) (r1 r2 : Run) :
    mergeSamePropRunsOf ns samePtr r1 r2 = .panic ↔
      samePtr = false ∧ ∃ a b, r1.rpr = some a ∧ r2.rpr = some b ∧
        ∃ pre n post, ns = pre ++ n :: post ∧ (n ≠ "XMLName" ∧ ∀ φ, fieldName φ ≠ n) ∧
          ∀ m ∈ pre, m = "XMLName" ∨ ∃ φ, fieldName φ = m ∧ a.get φ = b.get φ := by
  have key : ∀ a b : RPr, sameFields a b ns = .panic ↔ ∃ pre n post, ns = pre ++ n :: post ∧
      (n ≠ "XMLName" ∧ ∀ φ, fieldName φ ≠ n) ∧
      ∀ m ∈ pre, m = "XMLName" ∨ ∃ φ, fieldName φ = m ∧ a.get φ = b.get φ := by
    intro a b
    induction ns with
    | nil => simp [sameFields]
    | cons n ns ih =>
      simp only [sameFields]
      split
      · rename_i h
        simp only [true_iff]
        exact ⟨[], n, ns, rfl, (sameField_none n a b).1 h, by simp⟩
      · rename_i h
        simp only [reduceCtorEq, false_iff]
        rintro ⟨pre, m, post, h1, h2, h3⟩
        cases pre with
        | nil =>
          simp only [List.nil_append, List.cons.injEq] at h1
          rw [h1.1, (sameField_none m a b).2 h2] at h; simp at h
        | cons x pre =>
          simp only [List.cons_append, List.cons.injEq] at h1
          rcases h3 x (by simp) with h4 | ⟨φ, h4, h5⟩
          · rw [h1.1, h4] at h; simp [sameField] at h
          · rw [h1.1, ← h4, sameField_name] at h; simp [h5] at h
      · rename_i h
        rw [ih]
        have hn : n = "XMLName" ∨ ∃ φ, fieldName φ = n ∧ a.get φ = b.get φ := by
          by_cases h0 : n = "XMLName"
          · exact .inl h0
          · right
            have : ¬ (n ≠ "XMLName" ∧ ∀ φ, fieldName φ ≠ n) := by
              rw [← sameField_none n a b, h]; simp
            have : ∃ φ, fieldName φ = n := by
              apply Classical.byContradiction
              intro h1
              exact this ⟨h0, fun φ e => h1 ⟨φ, e⟩⟩
            obtain ⟨φ, rfl⟩ := this
            rw [sameField_name] at h
            exact ⟨φ, rfl, by simpa using h⟩
        constructor
        · rintro ⟨pre, m, post, h1, h2, h3⟩
          refine ⟨n :: pre, m, post, by rw [h1]; rfl, h2, ?_⟩
          intro x hx
          simp only [List.mem_cons] at hx
          rcases hx with rfl | hx
          · exact hn
          · exact h3 x hx
        · rintro ⟨pre, m, post, h1, h2, h3⟩
          cases pre with
          | nil =>
            simp only [List.nil_append, List.cons.injEq] at h1
            rw [h1.1, (sameField_none m a b).2 h2] at h; simp at h
          | cons x pre =>
            simp only [List.cons_append, List.cons.injEq] at h1
            exact ⟨pre, m, post, h1.2, h2, fun y hy => h3 y (by simp [hy])⟩
  unfold mergeSamePropRunsOf
  split
  · simp [*]
  · simp [*]
  · simp [*]
  · rename_i a b h1 h2
    cases samePtr with
    | true => simp
    | false =>
      simp only [Bool.false_eq_true, if_false, key, true_and]
      constructor
      · intro h; exact ⟨a, b, h1, h2, h⟩
      · rintro ⟨a', b', e1, e2, h⟩
        rw [h1] at e1; rw [h2] at e2; cases e1; cases e2
        exact h

example : mergeSamePropRunsOf ["Bold", "Colour"] false { rpr := some {} } { rpr := some {} } = .panic := by
  decide
example : mergeSamePropRunsOf ["Bold", "Colour"] false { rpr := some { bold := true } } { rpr := some {} }
    = .ok false := by decide

/-! ## C30 -/

/-- The text of a cell in the output of `Table.String`: blank when the cell has no first paragraph
with content, otherwise the text of its first paragraph. -/
def CellText [HashEnv] (w : World) (c : Cell) (s : String) : Prop :=
  ((c.paras = [] ∨ ∃ p ps, c.paras = p :: ps ∧ p.children = []) ∧ s = "        |") ∨
  (∃ p ps x, c.paras = p :: ps ∧ p.children ≠ [] ∧ p.str w = .ok x ∧ s = " " ++ x ++ " |")

/-- `a` and `b` have the same length and `R` holds position by position. -/
inductive Pairwise2 {α β : Type} (R : α → β → Prop) : List α → List β → Prop where
  | nil : Pairwise2 R [] []
  | cons {a b as bs} : R a b → Pairwise2 R as bs → Pairwise2 R (a :: as) (b :: bs)

theorem cellStr_spec [HashEnv] {w : World} {c : Cell} {s : String} (h : c.str w = .ok s) :
    CellText w c s := by
  unfold Cell.str at h
  split at h
  · rename_i h0; simp only [Res.ok.injEq] at h; exact .inl ⟨.inl h0, h.symm⟩
  · rename_i p ps h0
    split at h
    · rename_i h1; simp only [Res.ok.injEq] at h; exact .inl ⟨.inr ⟨p, ps, h0, h1⟩, h.symm⟩
    · rename_i h1
      cases hp : p.str w with
      | ok x =>
        rw [hp] at h
        simp only [Res.bind_ok, Res.pure_eq, Res.ok.injEq] at h
        exact .inr ⟨p, ps, x, h0, h1, hp, h.symm⟩
      | err e => rw [hp] at h; simp at h
      | panic => rw [hp] at h; simp at h

theorem cellsStr_spec [HashEnv] {w : World} : ∀ {cs : List Cell} {s : String}, cellsStr w cs = .ok s →
    ∃ xs, Pairwise2 (CellText w) cs xs ∧ s = String.join xs := by
  intro cs
  induction cs with
  | nil => intro s h; simp only [cellsStr, Res.ok.injEq] at h; exact ⟨[], .nil, h.symm⟩
  | cons c cs ih =>
    intro s h
    simp only [cellsStr] at h
    cases hc : c.str w with
    | err e => rw [hc] at h; simp at h
    | panic => rw [hc] at h; simp at h
    | ok a =>
      cases hr : cellsStr w cs with
      | err e => rw [hc, hr] at h; simp at h
      | panic => rw [hc, hr] at h; simp at h
      | ok b =>
        rw [hc, hr] at h
        simp only [Res.bind_ok, Res.pure_eq, Res.ok.injEq] at h
        obtain ⟨xs, h1, h2⟩ := ih hr
        refine ⟨a :: xs, .cons (cellStr_spec hc) h1, ?_⟩
        rw [← h, h2]; simp

/-- The line of a row: a bar, then the texts of its cells. -/
def RowText [HashEnv] (w : World) (r : Row) (s : String) : Prop :=
  ∃ xs, Pairwise2 (CellText w) r.cells xs ∧ s = "|" ++ String.join xs

theorem rowsStr_spec [HashEnv] {w : World} : ∀ {rs : List Row} {s : String}, rowsStr w rs = .ok s →
    ∃ ls, Pairwise2 (RowText w) rs ls ∧ s = String.join (ls.map ("\n" ++ ·)) := by
  intro rs
  induction rs with
  | nil => intro s h; simp only [rowsStr, Res.ok.injEq] at h; exact ⟨[], .nil, h.symm⟩
  | cons r rs ih =>
    intro s h
    simp only [rowsStr] at h
    cases hc : cellsStr w r.cells with
    | err e => rw [hc] at h; simp at h
    | panic => rw [hc] at h; simp at h
    | ok a =>
      cases hr : rowsStr w rs with
      | err e => rw [hc, hr] at h; simp at h
      | panic => rw [hc, hr] at h; simp at h
      | ok b =>
        rw [hc, hr] at h
        simp only [Res.bind_ok, Res.pure_eq, Res.ok.injEq] at h
        obtain ⟨xs, h1, h2⟩ := ih hr
        obtain ⟨ys, h3, h4⟩ := cellsStr_spec hc
        refine ⟨("|" ++ a) :: xs, .cons ⟨ys, h3, by rw [h4]⟩ h1, ?_⟩
        rw [← h, h2]
        simp only [List.map_cons, String.join_cons]
        rw [← String.append_assoc]
        rfl

/-- **C30, empty.** `Table.String` is the empty text exactly when there is no row or the first row has
no cell. -/
theorem C30_empty_iff [HashEnv] (w : World) (t : Table) :
    t.str w = .ok "" ↔ (t.rows = [] ∨ ∃ r rs, t.rows = r :: rs ∧ r.cells = []) := by
  unfold Table.str
  split
  · rename_i h; simp [h]
  · rename_i r rs h
    split
    · rename_i h0
      simp only [true_iff]
      exact .inr ⟨r, rs, h, List.length_eq_zero_iff.1 h0⟩
    · rename_i h0
      constructor
      · intro h'
        cases hr : rowsStr w t.rows with
        | err e => rw [hr] at h'; simp at h'
        | panic => rw [hr] at h'; simp at h'
        | ok b =>
          rw [hr] at h'
          simp only [Res.bind_ok, Res.pure_eq, Res.ok.injEq] at h'
          have := congrArg String.toList h'
          simp at this
      · rintro (h1 | ⟨r', rs', h1, h2⟩)
        · rw [h1] at h; simp at h
        · rw [h1] at h
          simp only [List.cons.injEq] at h
          rw [← h.1, h2] at h0; simp at h0

/-- **C30, shape.** Otherwise, when it returns, it is a header line with one mark per cell of the first
row, followed by exactly one line per row, each made of the texts of the cells of that row. -/
theorem C30_lines [HashEnv] (w : World) (t : Table) (r : Row) (rs : List Row) (hr : t.rows = r :: rs)
    (hc : r.cells ≠ []) (s : String) (h : t.str w = .ok s) :
    ∃ lines, Pairwise2 (RowText w) t.rows lines ∧
      s = "| " ++ String.join (List.replicate r.cells.length " :----: |") ++
        String.join (lines.map ("\n" ++ ·)) := by
  unfold Table.str at h
  rw [hr] at h
  simp only at h
  rw [if_neg (by simpa using hc)] at h
  cases hb : rowsStr w (r :: rs) with
  | err e => rw [hb] at h; simp at h
  | panic => rw [hb] at h; simp at h
  | ok b =>
    rw [hb] at h
    simp only [Res.bind_ok, Res.pure_eq, Res.ok.injEq] at h
    obtain ⟨ls, h1, h2⟩ := rowsStr_spec hb
    refine ⟨ls, by rw [hr]; exact h1, ?_⟩
    have hh : ∀ n, headerCells n = String.join (List.replicate n " :----: |") := by
      intro n
      induction n with
      | zero => rfl
      | succ n ih => rw [headerCells, ih, List.replicate_succ, String.join_cons]
    rw [← h, h2, hh]

/-- A table of two rows prints as a header and two lines. -/
example [HashEnv] : ({ rows := [
      { cells := [{ paras := [({} : Para).addText "a" |>.1] }, {}] },
      { cells := [{ paras := [({} : Para).addText "b" |>.1] }] }] } : Table).str []
    = .ok "|  :----: | :----: |\n| a |        |\n| b |" := rfl

end Docx
