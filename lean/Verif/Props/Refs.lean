import Verif.SpecRefs
import Verif.Lemmas.RefsYields
import Verif.Props.Ns
import Verif.Props.Text

/-!
# C60: the references of a saved document resolve

`refsOf (mDocument f.items)` are the relationship ids the saved main part refers to, `f.rels` the
relationships that are saved with it.
-/

set_option linter.unusedSectionVars false

namespace Docx

theorem resolve_iff {rels : List Rel} {items : List BItem} :
    RefsResolve rels (mDocument items) ↔ ∀ x ∈ items, ItemRefs (HasRel rels) x := by
  unfold RefsResolve
  rw [rf_mDocument, forall_mem_flatMap]
  exact Iff.rfl

/-- C60 for every history of API calls, splitting and appending included: every id that the main part
of a document of it refers to has an entry in the relationships of that document. -/
theorem C60_built [ImgEnv] (os : List Op) (w : World) (ho : ∀ o ∈ os, o.Calls)
    (h : run [] os = .ok w) : ∀ f ∈ w, RefsResolve f.rels (mDocument f.items) := by
  intro f hf
  obtain ⟨d, hd⟩ := List.getElem?_of_mem hf
  refine resolve_iff.2 (run_sound (w := []) ?_ ?_ ?_ h d f hd).refs
  · intro o ho'
    have := ho o ho'
    cases o <;> first | exact trivial | exact this.elim
  · intro g hg; cases hg
  · intro d g hg; simp at hg

/-! ## Filters of exported data -/

theorem mem_keepLoop {α : Type} {ty : α → String} {names : List String} {x : α} :
    ∀ {l : List α}, x ∈ keepLoop ty names l → x ∈ l
  | [], h => h
  | a :: l, h => by
    rw [keepLoop] at h
    split at h
    · rcases List.mem_cons.1 h with rfl | h
      · exact List.mem_cons_self
      · exact List.mem_cons_of_mem _ (mem_keepLoop h)
    · exact List.mem_cons_of_mem _ (mem_keepLoop h)

theorem keepBody_refs (names : List String) : KeepsRefs (keepBody names) where
  refs := fun _ _ h x hx => h x (mem_keepLoop hx)
  owns := fun _ _ h x hx => h x (mem_keepLoop hx)
  draws := fun _ h x hx => h x (mem_keepLoop hx)

theorem dropPara_form (name : String) (p : Para) :
    dropPara name p = p ∨ ∃ t, dropPara name p = { p with children := dropPChildren t p.children } := by
  unfold dropPara dropMethod
  split
  · rename_i f hf
    repeat' split at hf
    all_goals first
      | (cases hf; done)
      | (obtain rfl := Option.some.inj hf; exact .inr ⟨_, rfl⟩)
  · exact .inl rfl

theorem dropRChildren_draws (t : Drawing → Bool) : ∀ (cs : List RChild) (d : Drawing),
    d ∈ (dropRChildren t cs).filterMap RChild.drawing? → d ∈ cs.filterMap RChild.drawing?
  | [], _, h => h
  | c :: cs, d, h => by
    cases c <;> simp only [dropRChildren] at h
    case drawing e =>
      split at h
      · rw [List.filterMap_cons_some (f := RChild.drawing?) (b := e) rfl]
        exact List.mem_cons_of_mem _ (dropRChildren_draws t cs d h)
      · rw [List.filterMap_cons_some (f := RChild.drawing?) (b := e) rfl] at h ⊢
        rcases List.mem_cons.1 h with rfl | h
        · exact List.mem_cons_self
        · exact List.mem_cons_of_mem _ (dropRChildren_draws t cs d h)
    all_goals
      rw [List.filterMap_cons_none rfl] at h ⊢
      exact dropRChildren_draws t cs d h

theorem drop_run_refs (t : Drawing → Bool) (r : Run) (id : String)
    (h : id ∈ refsOf (mRun { r with children := dropRChildren t r.children })) : id ∈ refsOf (mRun r) := by
  rw [rf_run_draws, List.mem_flatMap] at *
  obtain ⟨d, hd, hid⟩ := h
  exact ⟨d, dropRChildren_draws t _ d hd, hid⟩

theorem dropPChildren_refs (t : Drawing → Bool) (id : String) : ∀ cs : List PChild,
    id ∈ (dropPChildren t cs).flatMap (fun c => refsOf (mPChild c)) →
    id ∈ cs.flatMap (fun c => refsOf (mPChild c))
  | [], h => h
  | c :: cs, h => by
    cases c <;> simp only [dropPChildren, List.flatMap_cons, List.mem_append] at h ⊢
    case run r =>
      rcases h with h | h
      · simp only [mPChild] at h ⊢
        exact .inl (drop_run_refs t r id h)
      · exact .inr (dropPChildren_refs t id cs h)
    all_goals
      rcases h with h | h
      · exact .inl h
      · exact .inr (dropPChildren_refs t id cs h)

theorem dropPChildren_draws (t : Drawing → Bool) (d : Drawing) : ∀ cs : List PChild,
    d ∈ (dropPChildren t cs).flatMap PChild.draws → d ∈ cs.flatMap PChild.draws
  | [], h => h
  | c :: cs, h => by
    cases c <;> simp only [dropPChildren, List.flatMap_cons, List.mem_append] at h ⊢
    case run r =>
      rcases h with h | h
      · exact .inl (dropRChildren_draws t _ d h)
      · exact .inr (dropPChildren_draws t d cs h)
    all_goals
      rcases h with h | h
      · exact .inl h
      · exact .inr (dropPChildren_draws t d cs h)

theorem dropPara_file (name : String) (p : Para) : (dropPara name p).file = p.file := by
  rcases dropPara_form name p with h | ⟨t, h⟩ <;> rw [h]

theorem dropPara_refs {ok : String → Prop} (name : String) (p : Para) (h : ParaRefs ok p) :
    ParaRefs ok (dropPara name p) := by
  rcases dropPara_form name p with e | ⟨t, e⟩
  · rw [e]; exact h
  · intro id hid
    refine h id ?_
    rw [e, rf_mPara] at hid
    rw [rf_mPara]
    exact dropPChildren_refs t id _ hid

theorem dropPara_draws (name : String) (p : Para) (d : Drawing) (h : d ∈ (dropPara name p).draws) :
    d ∈ p.draws := by
  rcases dropPara_form name p with e | ⟨t, e⟩
  · rw [e] at h; exact h
  · rw [e] at h
    rcases p with ⟨a, cs, f⟩
    exact dropPChildren_draws t d _ h

/-- What becomes of one element of the body -/
def dropItem (name : String) : BItem → BItem
  | .para p => .para (dropPara name p)
  | .table t => .table { t with rows := t.rows.map (dropRow name) }
  | .sect s => .sect s

theorem dropDrawingOf_map (name : String) : ∀ items, dropDrawingOf name items = items.map (dropItem name)
  | [] => rfl
  | .para p :: is => by rw [dropDrawingOf, dropDrawingOf_map name is]; rfl
  | .table p :: is => by rw [dropDrawingOf, dropDrawingOf_map name is]; rfl
  | .sect p :: is => by rw [dropDrawingOf, dropDrawingOf_map name is]; rfl

theorem dropDrawingOf_refs (name : String) : KeepsRefs (dropDrawingOf name) where
  refs := by
    intro ok items h x hx
    rw [dropDrawingOf_map] at hx
    obtain ⟨y, hy, rfl⟩ := List.mem_map.1 hx
    have := h y hy
    cases y with
    | para p => exact itemRefs_para.2 (dropPara_refs name p (itemRefs_para.1 this))
    | sect s => exact itemRefs_sect
    | table t =>
      refine itemRefs_table.2 ?_
      have h1 := itemRefs_table.1 this
      intro r hr c hc p hp
      obtain ⟨r, hr', rfl⟩ := List.mem_map.1 hr
      obtain ⟨c, hc', rfl⟩ := List.mem_map.1 hc
      obtain ⟨p, hp', rfl⟩ := List.mem_map.1 hp
      exact dropPara_refs name p (h1 r hr' c hc' p hp')
  owns := by
    intro d items h x hx
    rw [dropDrawingOf_map] at hx
    obtain ⟨y, hy, rfl⟩ := List.mem_map.1 hx
    have := h y hy
    cases y with
    | para p => exact (dropPara_file name p).trans this
    | sect s => exact trivial
    | table t =>
      intro r hr c hc
      obtain ⟨r, hr', rfl⟩ := List.mem_map.1 hr
      obtain ⟨c, hc', rfl⟩ := List.mem_map.1 hc
      refine ⟨(this r hr' c hc').1, fun p hp => ?_⟩
      obtain ⟨p, hp', rfl⟩ := List.mem_map.1 hp
      exact (dropPara_file name p).trans ((this r hr' c hc').2 p hp')
  draws := by
    intro items h x hx
    rw [dropDrawingOf_map] at hx
    obtain ⟨y, hy, rfl⟩ := List.mem_map.1 hx
    have h1 := h y hy
    cases y with
    | para p => exact fun d hd => h1 d (dropPara_draws name p d hd)
    | sect s => exact fun d hd => h1 d hd
    | table t =>
      intro d hd
      refine h1 d ?_
      simp only [dropItem, BItem.draws, Row.draws, Cell.draws, List.mem_flatMap, List.mem_map] at hd ⊢
      obtain ⟨_, ⟨r, hr, rfl⟩, c', hc', p', hp', hd⟩ := hd
      obtain ⟨c, hc, rfl⟩ := List.mem_map.1 hc'
      obtain ⟨p, hp, rfl⟩ := List.mem_map.1 hp'
      exact ⟨r, hr, c, hc, p, hp, dropPara_draws name p d hd⟩

/-- The calls of `Op.Calls`, and the filters of exported bodies: `KeepElements`, `DropDrawingOf` -/
inductive Op.Filters : Op → Prop
  | call {o : Op} (h : o.Calls) : o.Filters
  | keep (d : DocId) (names : List String) : (Op.edit d (keepBody names)).Filters
  | drop (d : DocId) (name : String) : (Op.edit d (dropDrawingOf name)).Filters

theorem Op.Filters.refsOk {o : Op} (h : o.Filters) : o.RefsOk := by
  cases h with
  | call h => cases o <;> first | exact trivial | exact h.elim
  | keep d names => exact keepBody_refs names
  | drop d name => exact dropDrawingOf_refs name

/-- C60, partial: the histories may begin with documents that have been parsed (or made in any other
way), and filter bodies.  The references of the documents they begin with must resolve, and their
drawings must refer to pictures in the usual way only (`Plain`).  Missing: links and pictures in text
boxes, canvases and groups (`C60_textbox_dangling`), and arbitrary changes of exported data. -/
theorem C60_history_partial [ImgEnv] (os : List Op) (w0 w : World) (ho : ∀ o ∈ os, o.Filters)
    (hown : ∀ (d : DocId) f, w0[d]? = some f → ∀ x ∈ f.items, ItemOf d x)
    (hdraw : ∀ f ∈ w0, ∀ x ∈ f.items, ∀ g ∈ x.draws, Plain g)
    (href : ∀ f ∈ w0, RefsResolve f.rels (mDocument f.items))
    (h : run w0 os = .ok w) : ∀ f ∈ w, RefsResolve f.rels (mDocument f.items) := by
  intro f hf
  obtain ⟨d, hd⟩ := List.getElem?_of_mem hf
  exact resolve_iff.2 (run_sound (fun o h => (ho o h).refsOk) hdraw
    (fun d g hg => ⟨hown d g hg, resolve_iff.1 (href g (List.mem_of_getElem? hg))⟩) h d f hd).refs

/-! ## Parsed files -/

/-- C60, partial: if all links of a file have ids of its relationships and no anchors, and all its
pictures are embedded ones with ids of its relationships (`refToks`), then what is read of it, also if
reading stops with an error, refers only to ids of its relationships.  Missing: anchors and linked
pictures, for which it is false. -/
theorem C60_parsed_partial [GoEnv] (rels : List Rel) (file : Option DocId) (toks : List Tok)
    (hne : ∀ r ∈ rels, r.id ≠ "") (h : refToks (rels.map (·.id)) toks) :
    RefsResolve rels (mDocument (decodeDocument file [] toks).val) := by
  refine resolve_iff.2 fun x hx => ?_
  have hne' : "" ∉ rels.map (·.id) := by
    intro hm
    obtain ⟨r, hr, he⟩ := List.mem_map.1 hm
    exact hne r hr he
  refine ItemRefs.mono ?_ (decodeDocument_R hne' file (fun _ h => by cases h) toks h x hx)
  intro id hid
  obtain ⟨r, hr, he⟩ := List.mem_map.1 hid
  exact ⟨r, hr, he⟩

/-- A paragraph with the given children -/
def refDoc (kids : List Node) : Node :=
  .elem ⟨"w", "document"⟩ [] [.elem ⟨"w", "body"⟩ [] [.elem ⟨"w", "p"⟩ [] kids]]

/-- A link to a bookmark of the document: it has no relationship id -/
def anchorLink : Node :=
  refDoc [.elem ⟨"w", "hyperlink"⟩ [⟨⟨"w", "anchor"⟩, "top"⟩]
    [.elem ⟨"w", "r"⟩ [] [.elem ⟨"w", "t"⟩ [] [.text "Back"]]]]

/-- A linked picture: the file has a relationship for `r:link`, not for `r:embed` -/
def linkedPicture : Node :=
  refDoc [.elem ⟨"w", "r"⟩ [] [.elem ⟨"w", "drawing"⟩ [] [.elem ⟨"wp", "inline"⟩ []
    [.elem ⟨"a", "graphic"⟩ [] [.elem ⟨"a", "graphicData"⟩ [⟨⟨"", "uri"⟩, "p"⟩]
      [.elem ⟨"pic", "pic"⟩ [] [.elem ⟨"pic", "blipFill"⟩ []
        [.elem ⟨"a", "blip"⟩ [⟨⟨"r", "link"⟩, "rId9"⟩] []]]]]]]]]

/-- A document with a link in a text box, and the relationship of the link -/
def textBoxLink : Doc :=
  let link : Hyperlink := { id := "rId4", run := { children := [.text { text := "x" }] } }
  let sh : Shape := { textBox := some { content := some [{ children := [.link link], file := some 0 }] } }
  let i : Inline := { graphic := some { data := some { uri := "s", shape := some sh } }, file := some 0 }
  { Doc.new with
    items := [.para { children := [.run { children := [.drawing { inl := some i }] }], file := some 0 }]
    rels := Doc.new.rels ++ [{ id := "rId4", type := relHyperlink, target := "http://x", targetMode := "External" }] }

section
local instance rfGoEnv : GoEnv := ⟨fun _ => none, fun _ => false, fun _ => false⟩
local instance rfImgEnv : ImgEnv := ⟨fun _ => none⟩

/-- C60 is false of a parsed link to a bookmark: the file has no references at all, it is read without
an error, and the saved main part refers to the name of the bookmark as if it were a relationship. -/
theorem C60_anchor_dangling : refsOf anchorLink = [] ∧
    (decodeDocument (some 0) [] (partToks anchorLink)).err = none ∧
    refsOf (mDocument (decodeDocument (some 0) [] (partToks anchorLink)).val) = ["top"] := by
  decide +kernel

/-- C60 is false of a parsed picture that is linked, not embedded: the reference of the file is lost and
the saved main part refers to the empty id. -/
theorem C60_linked_dangling : refsOf linkedPicture = ["rId9"] ∧
    (decodeDocument (some 0) [] (partToks linkedPicture)).err = none ∧
    refsOf (mDocument (decodeDocument (some 0) [] (partToks linkedPicture)).val) = [""] := by
  decide +kernel

/-- C60 is false of appending a document with a link in a text box to another one: the link keeps the
id it had in the other document. -/
theorem C60_textbox_dangling : RefsResolve textBoxLink.rels (mDocument textBoxLink.items) ∧
    ∃ a b, run [textBoxLink] [.new, .append 1 0] = .ok [a, b] ∧
      refsOf (mDocument b.items) = ["rId4"] ∧ ¬ RefsResolve b.rels (mDocument b.items) := by
  refine ⟨by decide +kernel, _, _, rfl, by decide +kernel, by decide +kernel⟩

/-- the hypotheses of `C60_parsed_partial` are met: a file with a link and a picture -/
example : let toks := partToks (mDocument [.para { children :=
      [.run (drawingRun { inl := some (mkInlinePic 1 1 "rId4" 2 3) }), .link { id := "rId5", run := {} }] }])
    refToks ["rId4", "rId5"] toks ∧
    refsOf (mDocument (decodeDocument (some 0) [] toks).val) = ["rId4", "rId5"] := by
  decide +kernel

end

section
local instance rfPngEnv : ImgEnv := ⟨fun _ => some (10, 10, "png")⟩

/-- a history with a link, an append and a picture: the documents have references -/
example : (match run [] [.new, .addParagraph 0, .addLink 0 (.body 0) "t" "http://x", .new, .append 1 0,
      .addInlineDrawing 0 (.body 0) [1]] with
    | .ok w => w.map fun f => refsOf (mDocument f.items)
    | _ => []) = [["rId4", "rId5"], ["rId4"]] := by
  decide +kernel

/-- the hypotheses of `C60_history_partial` are met by a document with a link, which is filtered -/
example : let f : Doc := { Doc.new with
      items := [.para { children := [.link { id := "rId1", run := {} }], file := some 0 }] }
    RefsResolve f.rels (mDocument f.items) ∧ refsOf (mDocument f.items) = ["rId1"] ∧
    (∀ x ∈ f.items, x.draws = []) ∧
    (Op.edit 0 (dropDrawingOf "Shape")).Filters ∧ (Op.append 1 0).Filters := by
  refine ⟨by decide +kernel, by decide +kernel, ?_, .drop _ _, .call trivial⟩
  intro x hx
  obtain rfl := List.mem_singleton.1 hx
  rfl
end

end Docx
