import Verif.Lemmas.XmlOutline
import Verif.Props.Xml

/-!
# Bad numbers (C44)

`numsOk`, `xmlOutline` and `itemOutline` are in `Verif.SpecXml`.
-/

namespace Docx

set_option linter.unusedSectionVars false

variable [GoEnv]

/-- C44, partial: if all the attributes that should be numbers are, and parsing reports no error, the
body has one item for every paragraph, table and section element of the file, in order; every table
has all its rows, cells and paragraphs, and every paragraph all its runs and hyperlinks.
Missing: files with bad numbers, for which this is false (`C44_truncated`). -/
theorem C44_all_kept_partial (file : Option DocId) (s : List BItem) (pre post : List Tok)
    (hp : ∀ t ∈ pre, t = .other ∨ ∃ c, t = .chars c) (q : QName) (as : List Attr) (ks : List Node)
    (hok : numsOkL ks)
    (he : (decodeDocument file s (pre ++ (Node.elem q as ks).toks ++ post)).err = none) :
    (decodeDocument file s (pre ++ (Node.elem q as ks).toks ++ post)).val.map itemOutline =
      s.map itemOutline ++ xmlOutline ks := by
  unfold decodeDocument at he ⊢
  generalize (pre ++ (Node.elem q as ks).toks ++ post).length + 1 = k at he ⊢
  generalize hk : k = j at he ⊢
  clear hk
  have key : ∀ n, (rootN (fun _ => decodeElement (unDocument (decs j) file s)) s n
      ⟨pre ++ (Node.elem q as ks).toks ++ post, [], false⟩).err = none →
      (rootN (fun _ => decodeElement (unDocument (decs j) file s)) s n
      ⟨pre ++ (Node.elem q as ks).toks ++ post, [], false⟩).val.map itemOutline =
      s.map itemOutline ++ xmlOutline ks := by
    clear he
    induction pre with
    | nil =>
      intro n he
      cases n with
      | zero => cases he
      | succ n =>
        have ht : Dec.token ⟨[] ++ (Node.elem q as ks).toks ++ post, [], false⟩ =
            (.ok (.start q as), ⟨toksL ks ++ .stop q :: post, [.elem q], false⟩) := by
          simp only [toks_elem, List.cons_append, List.nil_append, List.append_assoc]
          rfl
        rw [rootN, ht] at he ⊢
        simp only at he ⊢
        obtain ⟨h1, h2⟩ := decodeElement_parts he
        rw [h2]
        exact unDocument_reads (decs_fine j) file s q ks post [] hok h1
    | cons t pre ih =>
      intro n he
      cases n with
      | zero => cases he
      | succ n =>
        have ih' := ih (fun t ht => hp t (List.mem_cons_of_mem _ ht)) n
        rcases hp t (List.mem_cons_self ..) with rfl | ⟨c, rfl⟩
        · rw [rootN] at he ⊢
          exact ih' he
        · rw [rootN] at he ⊢
          exact ih' he
  exact key j he

/-! ## Files in which a bad number hides the rest -/

/-- Is this an element with one of these names? -/
def named (ls : List String) : Node → Prop
  | .elem q _ _ => q.loc ∈ ls
  | _ => False

theorem takes_unnamed {σ : Type} {k : Nat} {step : σ → String → List Attr → Dec → Out σ} {s : σ}
    (hg : StepGood k step) {ls : List String} (hs : ∀ l as, l ∉ ls → step s l as = skipTo s)
    (ks : List Node) (hk : ∀ n ∈ ks, ¬ named ls n) : Takes step s ks s := by
  induction ks with
  | nil => exact TakesC.nil
  | cons n ks ih =>
    refine TakesC.cons ?_ (ih fun m hm => hk m (List.mem_cons_of_mem _ hm))
    have hn := hk n (List.mem_cons_self ..)
    cases n with
    | elem q as kids => exact takes_skip hg rfl (hs q.loc as hn)
    | text c => exact takes_text hg c rfl
    | other => exact takes_other hg

/-- A document whose first paragraph has `w:spacing` with a `w:line` attribute, `pk` in that paragraph
and `bs` after it -/
def spacedDoc (v : String) (pk bs : List Node) : Node :=
  .elem ⟨"w", "document"⟩ [] [.elem ⟨"w", "body"⟩ []
    (.elem ⟨"w", "p"⟩ []
      (.elem ⟨"w", "pPr"⟩ [] [.elem ⟨"w", "spacing"⟩ [⟨⟨"w", "line"⟩, v⟩] []] :: pk) :: bs)]

/-- C44 is false: if the `w:line` of the first paragraph is not a number, such as `auto`, parsing
reports no error, but everything after it is lost, whatever it is: the body has one empty
paragraph. -/
theorem C44_truncated (file : Option DocId) (v : String) (hv : (getInt v).2 = some .expected)
    (pk bs : List Node) (hp : ∀ n ∈ pk, ¬ named ["p", "tbl", "sectPr"] n)
    (hb : ∀ n ∈ bs, ¬ named ["body"] n) :
    (decodeDocument file [] (spacedDoc v pk bs).toks).err = none ∧
    (decodeDocument file [] (spacedDoc v pk bs).toks).val =
      [.para { props := some { spacing := some { line := (getInt v).1 } }, file := file }] := by
  have h1 : ∀ R S, decodeElement (unSpacing [⟨⟨"w", "line"⟩, v⟩]) ⟨.stop ⟨"w", "spacing"⟩ :: R,
      .elem ⟨"w", "spacing"⟩ :: S, false⟩ = ⟨{ line := (getInt v).1 }, some .expected,
        ⟨.stop ⟨"w", "spacing"⟩ :: R, .elem ⟨"w", "spacing"⟩ :: .mark :: S, false⟩⟩ := by
    intro R S
    simp [decodeElement, unSpacing, leaf, attrs, spacingAttr, intAttr, hv, Dec.pushEOF, pushMark,
      Dec.popEOF]
  have h2 : ∀ R S, decodeElement unPPr ⟨.start ⟨"w", "spacing"⟩ [⟨⟨"w", "line"⟩, v⟩] ::
      .stop ⟨"w", "spacing"⟩ :: R, .elem ⟨"w", "pPr"⟩ :: S, false⟩ =
      ⟨{ spacing := some { line := (getInt v).1 } }, none, ⟨R, .elem ⟨"w", "pPr"⟩ :: .mark :: S, false⟩⟩ := by
    intro R S
    simp only [decodeElement, Dec.pushEOF, pushMark, unPPr, loop]
    rw [loopC_eq (pprStep_good 0), tok_start]
    simp only [pprStep, sub, h1, tolerate]
    rw [loopC_eq (pprStep_good 0), tok_stop]
    simp only
    rw [loopC_eq (pprStep_good 0), tok_mark]
    rfl
  have h3 : ∀ R S, decodeElement (unPara D file) ⟨.start ⟨"w", "pPr"⟩ [] ::
      .start ⟨"w", "spacing"⟩ [⟨⟨"w", "line"⟩, v⟩] :: .stop ⟨"w", "spacing"⟩ :: .stop ⟨"w", "pPr"⟩ :: R,
      .elem ⟨"w", "p"⟩ :: S, false⟩ =
      ⟨{ props := some { spacing := some { line := (getInt v).1 } }, file := file }, none,
        ⟨R, .elem ⟨"w", "p"⟩ :: .mark :: S, false⟩⟩ := by
    intro R S
    simp only [decodeElement, Dec.pushEOF, pushMark, unPara, loop]
    rw [loopC_eq (paraStep_good (D_good 0) file), tok_start]
    simp only [paraStep, sub, h2, tolerate]
    rw [loopC_eq (paraStep_good (D_good 0) file), tok_stop]
    simp only
    rw [loopC_eq (paraStep_good (D_good 0) file), tok_mark]
    rfl
  have h4 : ∀ R S, decodeElement (unBody D file []) ⟨.start ⟨"w", "p"⟩ [] :: .start ⟨"w", "pPr"⟩ [] ::
      .start ⟨"w", "spacing"⟩ [⟨⟨"w", "line"⟩, v⟩] :: .stop ⟨"w", "spacing"⟩ :: .stop ⟨"w", "pPr"⟩ ::
      (toksL pk ++ .stop ⟨"w", "p"⟩ :: R), .elem ⟨"w", "body"⟩ :: S, false⟩ =
      ⟨[.para { props := some { spacing := some { line := (getInt v).1 } }, file := file }], none,
        ⟨R, .elem ⟨"w", "body"⟩ :: .mark :: S, false⟩⟩ := by
    intro R S
    simp only [decodeElement, Dec.pushEOF, pushMark, unBody, loop]
    rw [loopC_eq (bodyStep_good (D_good 0) file), tok_start]
    simp only [bodyStep, sub, h3, tolerate, List.nil_append]
    rw [takes_unnamed (bodyStep_good (D_good 0) file) (ls := ["p", "tbl", "sectPr"]) ?_ pk hp,
      loopC_end (bodyStep_good (D_good 0) file)]
    · rfl
    · intro l as hl
      unfold bodyStep
      split
      · exact absurd (by decide) hl
      · exact absurd (by decide) hl
      · exact absurd (by decide) hl
      · rfl
  have h5 : decodeDocument file [] (spacedDoc v pk bs).toks =
      ⟨[.para { props := some { spacing := some { line := (getInt v).1 } }, file := file }], none,
        ⟨[.stop ⟨"w", "document"⟩], [.elem ⟨"w", "document"⟩, .mark], false⟩⟩ := by
    rw [decodeDocument_eq]
    simp only [spacedDoc, toks_elem, toksL_cons, toksL_nil, List.append_nil, List.cons_append,
      List.append_assoc, List.nil_append, List.length_cons]
    rw [rootN]
    show decodeElement (unDocument D file []) ⟨_, [.elem ⟨"w", "document"⟩], false⟩ = _
    simp only [decodeElement, Dec.pushEOF, pushMark, unDocument, loop]
    rw [loopC_eq (documentStep_good (D_good 0) file), tok_start]
    simp only [documentStep, sub, h4, tolerate]
    rw [takes_unnamed (documentStep_good (D_good 0) file) (ls := ["body"]) ?_ bs hb,
      loopC_end (documentStep_good (D_good 0) file)]
    · rfl
    · intro l as hl
      unfold documentStep
      split
      · exact absurd (by decide) hl
      · rfl
  rw [h5]
  exact ⟨rfl, rfl⟩

/-- `auto` is such a value. -/
example (h : GoEnv.parseFloat "auto" = none) : (getInt "auto").2 = some .expected := by
  simp only [getInt, h]
  rfl

/-- So the paragraphs of this file do not all arrive, although parsing reports no error. -/
example (h : GoEnv.parseFloat "auto" = none) :
    let ks := [Node.elem ⟨"w", "r"⟩ [] [.elem ⟨"w", "t"⟩ [] [.text "hello"]]]
    let bs := [Node.elem ⟨"w", "p"⟩ [] ks, .elem ⟨"w", "p"⟩ [] ks]
    (decodeDocument none [] (spacedDoc "auto" ks bs).toks).err = none ∧
    (decodeDocument none [] (spacedDoc "auto" ks bs).toks).val.map itemOutline = [.para []] ∧
    xmlOutline (spacedDoc "auto" ks bs).kids = [.para [.run], .para [.run], .para [.run]] := by
  intro ks bs
  have he : (getInt "auto").2 = some .expected := by
    simp only [getInt, h]
    rfl
  have := C44_truncated none "auto" he ks bs (by simp [ks, named]) (by simp [bs, named])
  refine ⟨this.1, ?_, rfl⟩
  rw [this.2]
  rfl

/-- With a number they do; the hypotheses of `C44_all_kept_partial` hold. -/
theorem spaced_seven : (decodeDocument none []
    (spacedDoc "7" [] [Node.elem ⟨"w", "p"⟩ [] []]).toks).err = none := by rfl

example :
    numsOk (spacedDoc "7" [] [Node.elem ⟨"w", "p"⟩ [] []]) ∧
      (decodeDocument none [] (spacedDoc "7" [] [Node.elem ⟨"w", "p"⟩ [] []]).toks).val.map itemOutline =
        [.para [], .para []] := by
  have h7 : (getInt "7").2 = none := rfl
  have hn : numsOk (spacedDoc "7" [] [Node.elem ⟨"w", "p"⟩ [] []]) := by
    simp [spacedDoc, numsOk, numsOkL, attrsOk, numLike, h7]
  refine ⟨hn, ?_⟩
  have h := C44_all_kept_partial none [] [] [] (by simp) ⟨"w", "document"⟩ [] _ hn.2
    (by rw [List.nil_append, List.append_nil]; exact spaced_seven)
  rw [List.nil_append, List.append_nil] at h
  exact h

end Docx
