import Verif.Lemmas.XmlSimAll
import Verif.Props.Xml

/-!
# Elements the library does not support are ignored (C43)

`Ins`, `known` and `fragile` are in `Verif.SpecXml`.
-/

namespace Docx

set_option linter.unusedSectionVars false

variable [GoEnv]

/-- C43: inserting elements of unknown names, with any attributes and content, any number of times,
at any depth outside `fragile` elements, changes neither the body that is read nor whether and how
parsing fails.  This holds for any other content of the document, with bad numbers or unbalanced
tags after the root too, and for anything before and after the root element. -/
theorem C43_unknown_ignored (file : Option DocId) (s : List BItem) (pre post : List Tok)
    (hp : ∀ t ∈ pre, t = .other ∨ ∃ c, t = .chars c) (q : QName) (as : List Attr) (ks ks' : List Node)
    (hq : q.loc ∉ fragile) (h : Ins ks ks') :
    (decodeDocument file s (pre ++ (Node.elem q as ks').toks ++ post)).val =
        (decodeDocument file s (pre ++ (Node.elem q as ks).toks ++ post)).val ∧
      (decodeDocument file s (pre ++ (Node.elem q as ks').toks ++ post)).err =
        (decodeDocument file s (pre ++ (Node.elem q as ks).toks ++ post)).err := by
  let _ : Gaps := ⟨false⟩
  have ht : InsT [] (pre ++ (Node.elem q as ks).toks ++ post)
      (pre ++ (Node.elem q as ks').toks ++ post) := by
    simp only [List.append_assoc, toks_elem, List.cons_append, List.nil_append]
    refine insT_prolog hp (.start (ins_toks rfl h ⟨by simp, ?_⟩ .refl))
    intro p hp
    rw [List.mem_singleton.mp hp]
    exact hq
  have := decodeWithin_sim ((pre ++ (Node.elem q as ks).toks ++ post).length +
    (pre ++ (Node.elem q as ks').toks ++ post).length + 1) file s ht
  have e1 := C40_bound_irrelevant file s (pre ++ (Node.elem q as ks).toks ++ post)
    ((pre ++ (Node.elem q as ks).toks ++ post).length +
      (pre ++ (Node.elem q as ks').toks ++ post).length + 1) (by omega)
  have e2 := C40_bound_irrelevant file s (pre ++ (Node.elem q as ks').toks ++ post)
    ((pre ++ (Node.elem q as ks).toks ++ post).length +
      (pre ++ (Node.elem q as ks').toks ++ post).length + 1) (by omega)
  rw [← e1, ← e2]
  exact ⟨this.val.symm, this.err.symm⟩

omit [GoEnv] in
/-- C43: the elements named in the property may have such children. -/
theorem C43_containers : ∀ l ∈ ["document", "body", "p", "r", "tbl", "tr", "tc"], l ∉ fragile := by
  decide

omit [GoEnv] in
/-- C43: one element, inserted at one place among the children of one element, is a case of `Ins`. -/
theorem C43_insert_one (q : QName) (as : List Attr) (kids a b : List Node) (h : q.loc ∉ known) :
    Ins (a ++ b) (a ++ .elem q as kids :: b) := by
  have hr : ∀ ks : List Node, Ins ks ks := by
    intro ks
    induction ks with
    | nil => exact .nil
    | cons n ks ih => exact .keep ih
  induction a with
  | nil => exact .insert h (hr b)
  | cons n a ih => exact .keep ih

omit [GoEnv] in
/-- C43: and so is such an insertion further down. -/
theorem C43_insert_below (q : QName) (as : List Attr) (kids kids' a b : List Node)
    (hq : q.loc ∉ fragile) (h : Ins kids kids') :
    Ins (a ++ .elem q as kids :: b) (a ++ .elem q as kids' :: b) := by
  have hr : ∀ ks : List Node, Ins ks ks := by
    intro ks
    induction ks with
    | nil => exact .nil
    | cons n ks ih => exact .keep ih
  induction a with
  | nil => exact .inside hq h (hr b)
  | cons n a ih => exact .keep ih

/-! ## A case

A bookmark in the body, a proofing mark in a paragraph and a field mark with content in a run. -/

/-- `<w:body><w:p><w:r><w:t>hi</w:t></w:r></w:p></w:body>` -/
def plainBody : List Node :=
  [.elem ⟨"w", "body"⟩ [] [.elem ⟨"w", "p"⟩ [] [.elem ⟨"w", "r"⟩ [] [.elem ⟨"w", "t"⟩ [] [.text "hi"]]]]]

/-- The same with insertions -/
def markedBody : List Node :=
  [.elem ⟨"w", "background"⟩ [] [],
    .elem ⟨"w", "body"⟩ []
      [.elem ⟨"w", "bookmarkStart"⟩ [⟨⟨"w", "id"⟩, "0"⟩] [],
        .elem ⟨"w", "p"⟩ []
          [.elem ⟨"w", "proofErr"⟩ [] [],
            .elem ⟨"w", "r"⟩ []
              [.elem ⟨"w", "fldChar"⟩ [] [.elem ⟨"w", "t"⟩ [] [.text "lost"], .text "x", .other],
                .elem ⟨"w", "t"⟩ [] [.text "hi"]]]]]

omit [GoEnv] in
/-- The hypotheses of `C43_unknown_ignored` hold. -/
example : Ins plainBody markedBody :=
  .insert (by decide)
    (.inside (by decide)
      (.insert (by decide)
        (.inside (by decide)
          (.insert (by decide)
            (.inside (by decide) (.insert (by decide) (.keep .nil)) .nil)) .nil)) .nil)

/-- What is read -/
example : (decodeDocument none [] (Node.elem ⟨"w", "document"⟩ [] markedBody).toks).val =
    [.para { children := [.run { children := [.text { text := "hi" }] }] }] := by
  have h := (C43_unknown_ignored none [] [] [] (by simp) ⟨"w", "document"⟩ [] plainBody markedBody
    (by decide) (.insert (by decide)
    (.inside (by decide)
      (.insert (by decide)
        (.inside (by decide)
          (.insert (by decide)
            (.inside (by decide) (.insert (by decide) (.keep .nil)) .nil)) .nil)) .nil))).1
  simp only [List.nil_append, List.append_nil] at h
  rw [h]
  rfl

/-- Inside a fragile element an unknown element is not ignored.  A section whose columns have their
own widths, `<w:cols><w:col .../></w:cols>`, makes parsing fail, and it would not without the
`w:col`. -/
theorem C43_not_inside_leaf (as : List Attr) :
    (decodeDocument none [] (Node.elem ⟨"w", "document"⟩ [] [.elem ⟨"w", "body"⟩ []
      [.elem ⟨"w", "sectPr"⟩ [] [.elem ⟨"w", "cols"⟩ [] []]]]).toks).err = none ∧
    (decodeDocument none [] (Node.elem ⟨"w", "document"⟩ [] [.elem ⟨"w", "body"⟩ []
      [.elem ⟨"w", "sectPr"⟩ [] [.elem ⟨"w", "cols"⟩ [] [.elem ⟨"w", "col"⟩ as []]]]]).toks).err =
      some .notConsumed :=
  ⟨rfl, rfl⟩

/-- The same for a picture with a hyperlink: `<wp:docPr id="1"><a:hlinkClick .../></wp:docPr>` -/
theorem C43_not_inside_docPr (as : List Attr) :
    (decodeDocument none [] (Node.elem ⟨"w", "document"⟩ [] [.elem ⟨"w", "body"⟩ []
      [.elem ⟨"w", "p"⟩ [] [.elem ⟨"w", "r"⟩ [] [.elem ⟨"w", "drawing"⟩ [] [.elem ⟨"wp", "inline"⟩ []
        [.elem ⟨"wp", "docPr"⟩ [] [.elem ⟨"a", "hlinkClick"⟩ as []]]]]]]]).toks).err =
      some .notConsumed :=
  rfl

end Docx
