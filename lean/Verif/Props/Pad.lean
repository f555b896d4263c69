import Verif.Props.Ignore
import Verif.Props.Content
import Verif.Lemmas.Pack

/-!
# White space and comments between elements (C67)

`Pad`, `rigid`, `textual`, `altTight` and `indent` are in `Verif.SpecXml`.
-/

namespace Docx

set_option linter.unusedSectionVars false

variable [GoEnv]

/-- What is read does not depend on what is before the root element. -/
theorem C67_prolog (file : Option DocId) (s : List BItem) (pre pre' : List Node)
    (hp : pre.all (fun n => !n.isElem) = true) (hp' : pre'.all (fun n => !n.isElem) = true)
    (root : Node) (hr : root.isElem = true) (post : List Tok) :
    decodeDocument file s (toksL pre' ++ root.toks ++ post) =
      decodeDocument file s (toksL pre ++ root.toks ++ post) := by
  have hlen : ∀ pre : List Node, pre.all (fun n => !n.isElem) = true → pre.length ≤ (toksL pre).length := by
    intro pre
    induction pre with
    | nil => intro _; simp
    | cons n pre ih =>
      intro h
      simp only [List.all_cons, Bool.and_eq_true] at h
      have := ih h.2
      cases n with
      | elem => cases h.1
      | text => simp [toksL, Node.toks]; omega
      | other => simp [toksL, Node.toks]; omega
  cases root with
  | text => cases hr
  | other => cases hr
  | elem q as ks =>
    simp only [decodeDocument_eq, toks_elem, List.cons_append, List.append_assoc, List.nil_append]
    have h1 := hlen pre hp
    have h2 := hlen pre' hp'
    rw [rootN_tree _ _ pre _ _ _ _ hp (by simp only [List.length_append]; omega),
      rootN_tree _ _ pre' _ _ _ _ hp' (by simp only [List.length_append]; omega)]

/-- C67: inserting comments, processing instructions and character data between elements, at any depth,
changes neither the body that is read nor whether and how parsing fails.  This holds for any content of
the document and for anything before and after the root element.

Missing: insertions inside `rigid` elements and directly inside `AlternateContent`, for which the property
is false (see below), and documents that already have white space or comments directly inside an
`AlternateContent`. -/
theorem C67_pad_partial (file : Option DocId) (s : List BItem) (pre pre' : List Node) (post : List Tok)
    (hp : pre.all (fun n => !n.isElem) = true) (hp' : pre'.all (fun n => !n.isElem) = true)
    (q : QName) (as : List Attr) (ks ks' : List Node)
    (hq : q.loc ∉ rigid) (hqa : q.loc ≠ "AlternateContent") (hqt : q.loc ∉ textual)
    (ht : altTightL ks) (h : Pad true ks ks') :
    (decodeDocument file s (toksL pre' ++ (Node.elem q as ks').toks ++ post)).val =
        (decodeDocument file s (toksL pre ++ (Node.elem q as ks).toks ++ post)).val ∧
      (decodeDocument file s (toksL pre' ++ (Node.elem q as ks').toks ++ post)).err =
        (decodeDocument file s (toksL pre ++ (Node.elem q as ks).toks ++ post)).err := by
  rw [C67_prolog file s [] pre' rfl hp' _ rfl post, C67_prolog file s [] pre rfl hp _ rfl post]
  simp only [toksL, List.nil_append]
  let _ : Gaps := ⟨true⟩
  have ht : InsT [] ((Node.elem q as ks).toks ++ post) ((Node.elem q as ks').toks ++ post) := by
    simp only [List.append_assoc, toks_elem, List.cons_append, List.nil_append]
    refine .start (pad_toks rfl h ht (not_inAlt_cons hqa) ?_ (loose_cons hq (by simp)) .refl)
    intro _ p hp
    cases hp
    exact hqt
  have := decodeWithin_sim (((Node.elem q as ks).toks ++ post).length +
    ((Node.elem q as ks').toks ++ post).length + 1) file s ht
  have e1 := C40_bound_irrelevant file s ((Node.elem q as ks).toks ++ post)
    (((Node.elem q as ks).toks ++ post).length + ((Node.elem q as ks').toks ++ post).length + 1) (by omega)
  have e2 := C40_bound_irrelevant file s ((Node.elem q as ks').toks ++ post)
    (((Node.elem q as ks).toks ++ post).length + ((Node.elem q as ks').toks ++ post).length + 1) (by omega)
  rw [← e1, ← e2]
  exact ⟨this.val.symm, this.err.symm⟩

omit [GoEnv] in
/-- Nothing inserted -/
theorem Pad.refl : ∀ (v : Bool) (ks : List Node), Pad v ks ks
  | _, [] => .nil
  | v, _ :: ks => .keep (Pad.refl v ks)

omit [GoEnv] in
theorem pad_end {ws : String} {ks ks' : List Node} (h : Pad true ks ks') :
    Pad true ks (ks' ++ [.text ws]) := by
  generalize hv : true = v at h
  induction h with
  | nil => subst hv; exact .space .nil
  | comment _ ih => exact .comment (ih hv)
  | space _ ih => exact .space (ih hv)
  | keep _ ih => exact .keep (ih hv)
  | inside hq hqa hi _ _ ih => exact .inside hq hqa hi (ih hv)

omit [GoEnv] in
mutual
theorem pad_indent (ws : Nat → String) : ∀ (n : Node) (d : Nat) {ks ks' : List Node}, Pad true ks ks' →
    Pad true (n :: ks) (indent ws d n :: ks')
  | .text s, d, ks, ks', h => .keep h
  | .other, d, ks, ks', h => .keep h
  | .elem q as kids, d, ks, ks', h => by
    rw [indent]
    split
    · exact .keep h
    · rename_i hc
      simp only [not_or] at hc
      refine .inside hc.1 hc.2.2.1 ?_ h
      rw [decide_eq_true hc.2.1]
      exact pad_end (pad_indentL ws kids (d + 1))
theorem pad_indentL (ws : Nat → String) : ∀ (ks : List Node) (d : Nat), Pad true ks (indentL ws d ks)
  | [], d => .nil
  | n :: ks, d => .space (pad_indent ws n d (pad_indentL ws ks d))
end

/-- C67: a document that was indented, with any line breaks and indentation, is read as before. -/
theorem C67_indent_partial (file : Option DocId) (s : List BItem) (ws : Nat → String) (d : Nat)
    (q : QName) (as : List Attr) (ks : List Node) (ht : altTight (.elem q as ks)) :
    (decodeDocument file s (indent ws d (.elem q as ks)).toks).val =
        (decodeDocument file s (Node.elem q as ks).toks).val ∧
      (decodeDocument file s (indent ws d (.elem q as ks)).toks).err =
        (decodeDocument file s (Node.elem q as ks).toks).err := by
  rw [indent]
  split
  · exact ⟨rfl, rfl⟩
  · rename_i hc
    simp only [not_or] at hc
    rw [altTight] at ht
    have := C67_pad_partial file s [] [] [] rfl rfl q as ks (indentL ws (d + 1) ks ++ [.text (ws d)]) hc.1
      hc.2.2.1 hc.2.1 ht.2 (pad_end (pad_indentL ws ks (d + 1)))
    simpa only [toksL, List.nil_append, List.append_nil] using this

/-! ## A case -/

/-- `<w:document><w:body><w:p><w:pPr><w:tabs><w:tab w:val="left" w:pos="100"/></w:tabs></w:pPr>
<w:r><w:t>hi</w:t></w:r></w:p></w:body></w:document>` -/
def padDoc : Node :=
  .elem ⟨"w", "document"⟩ [] [.elem ⟨"w", "body"⟩ [] [.elem ⟨"w", "p"⟩ []
    [.elem ⟨"w", "pPr"⟩ [] [.elem ⟨"w", "tabs"⟩ [] [.elem ⟨"w", "tab"⟩ [⟨⟨"w", "val"⟩, "left"⟩] []]],
      .elem ⟨"w", "r"⟩ [] [.elem ⟨"w", "t"⟩ [] [.text "hi"]]]]]

omit [GoEnv] in
/-- The hypothesis of `C67_indent_partial` holds, and every element but the text and the tab is broken up. -/
example : altTight padDoc ∧ indent (fun d => if d = 0 then "\n" else "\n ") 0 padDoc =
    .elem ⟨"w", "document"⟩ [] [.text "\n ", .elem ⟨"w", "body"⟩ [] [.text "\n ", .elem ⟨"w", "p"⟩ []
      [.text "\n ", .elem ⟨"w", "pPr"⟩ [] [.text "\n ", .elem ⟨"w", "tabs"⟩ [] [.text "\n ",
        .elem ⟨"w", "tab"⟩ [⟨⟨"w", "val"⟩, "left"⟩] [], .text "\n "], .text "\n "],
        .text "\n ", .elem ⟨"w", "r"⟩ [] [.text "\n ", .elem ⟨"w", "t"⟩ [] [.text "hi"], .text "\n "],
        .text "\n "], .text "\n "], .text "\n"] := by
  refine ⟨?_, rfl⟩
  simp [padDoc, altTight, altTightL]

/-- What is read from an indented document -/
example : (decodeDocument none [] (indent (fun _ => "\n") 0 (Node.elem ⟨"w", "document"⟩ [] plainBody)).toks).val =
    [.para { children := [.run { children := [.text { text := "hi" }] }] }] := by
  rw [(C67_indent_partial none [] (fun _ => "\n") 0 _ _ _ (by simp [plainBody, altTight, altTightL])).1]
  rfl

omit [GoEnv] in
/-- Comments too -/
example : Pad true [.elem ⟨"w", "body"⟩ [] [.elem ⟨"w", "p"⟩ [] []]]
    [.other, .elem ⟨"w", "body"⟩ [] [.elem ⟨"w", "p"⟩ [] [.other, .text "\n"], .text " ", .other]] :=
  .comment (.inside (by decide) (by decide) (.inside (by decide) (by decide) (.comment (.space .nil))
    (.space (.comment .nil))) .nil)

/-! ## Cases in which it is false -/

/-- C67 is false inside elements that have only attributes: with white space in `<w:cols></w:cols>` the
document cannot be read. -/
theorem C67_leaf_fails (ws : String) :
    (decodeDocument none [] (Node.elem ⟨"w", "document"⟩ [] [.elem ⟨"w", "body"⟩ []
      [.elem ⟨"w", "sectPr"⟩ [] [.elem ⟨"w", "cols"⟩ [] []]]]).toks).err = none ∧
    (decodeDocument none [] (Node.elem ⟨"w", "document"⟩ [] [.elem ⟨"w", "body"⟩ []
      [.elem ⟨"w", "sectPr"⟩ [] [.elem ⟨"w", "cols"⟩ [] [.text ws]]]]).toks).err = some .notConsumed ∧
    (decodeDocument none [] (Node.elem ⟨"w", "document"⟩ [] [.elem ⟨"w", "body"⟩ []
      [.elem ⟨"w", "sectPr"⟩ [] [.elem ⟨"w", "cols"⟩ [] [.other]]]]).toks).err = some .notConsumed :=
  ⟨rfl, rfl, rfl⟩

/-- C67 is false inside texts: a comment in a text takes away what is before it. -/
theorem C67_text_cut (file : Option DocId) (a b : String) :
    (decodeDocument file [] (docWith [pWith [rWith [tWith [.text a, .text b]]]]).toks).err = none ∧
    (decodeDocument file [] (docWith [pWith [rWith [tWith [.text a, .other, .text b]]]]).toks).val.map
      itemContent = [.para { parts := [.run { pieces := [.text b] }] }] :=
  ⟨(C46_last file _).1, (C46_last file _).2⟩

/-- C67 is false inside an `AlternateContent` (see `C45_fails` for any content): -/
theorem C67_alt_fails (file : Option DocId) (ws : String) (kids : List Node) :
    (decodeDocument file [] (docWith (pWith [rWith [acWith (.text ws :: kids)]] :: [])).toks).err =
      some .eof :=
  C45_fails file ws kids [] []

end Docx
