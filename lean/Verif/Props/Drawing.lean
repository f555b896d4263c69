import Verif.SpecKept
import Verif.Lemmas.DrawFull
import Verif.Lemmas.SavedNums
import Verif.Props.Round
import Verif.Props.Content

/-!
# C71: drawings, and everything else, are read and written as in the file

`xmlItems` (`Verif.SpecDrawing`) says what is in an XML document, including the drawings.
-/

namespace Docx

set_option linter.unusedSectionVars false

section
variable [GoEnv]

/-- C71, partial: parsing a file without an error gives exactly the body items that are written in it,
with all pictures, shapes, text boxes, canvases and groups and their sizes, positions and references, to
any depth.
Missing: files with bad numbers (`C44_truncated`) or with white space or comments at the beginning of
an `AlternateContent` (`C45_fails`, `C45_lost`), for which it is false. -/
theorem C71_read_partial (file : Option DocId) (s : List BItem) (pre post : List Tok)
    (hp : ∀ t ∈ pre, t = .other ∨ ∃ c, t = .chars c) (q : QName) (as : List Attr) (ks : List Node)
    (hok : numsOkL ks) (hal : altsOkL ks)
    (he : (decodeDocument file s (pre ++ (Node.elem q as ks).toks ++ post)).err = none)
    (K : Nat) (hK : (pre ++ (Node.elem q as ks).toks ++ post).length < K) :
    (decodeDocument file s (pre ++ (Node.elem q as ks).toks ++ post)).val = s ++ xmlItems K file ks := by
  unfold decodeDocument at he ⊢
  generalize hk : (pre ++ (Node.elem q as ks).toks ++ post).length + 1 = k at he ⊢
  have hkK : k ≤ K := by omega
  clear hK hk
  generalize hj : k = j at he ⊢
  rw [hj] at hkK
  clear hj
  have key : ∀ n, (rootN (fun _ => decodeElement (unDocument (decs j) file s)) s n
      ⟨pre ++ (Node.elem q as ks).toks ++ post, [], false⟩).err = none →
      (rootN (fun _ => decodeElement (unDocument (decs j) file s)) s n
      ⟨pre ++ (Node.elem q as ks).toks ++ post, [], false⟩).val = s ++ xmlItems K file ks := by
    clear he
    induction pre with
    | nil =>
      intro n he
      cases n with
      | zero => cases he
      | succ n =>
        have ht : Dec.token ⟨[] ++ (Node.elem q as ks).toks ++ post, [], false⟩ =
            (.ok (.start q as), ⟨toksL ks ++ .stop q :: post, [.elem q], false⟩) := by
          simp only [toks_elem, List.cons_append, List.nil_append, List.append_assoc]
          rfl
        rw [rootN, ht] at he ⊢
        simp only at he ⊢
        obtain ⟨h1, h2⟩ := decodeElement_parts he
        rw [h2]
        have h3 := unDocument_B (decs_read j K hkK) file s q ks post [] hok hal
        rw [inCtx_one] at h3
        exact h3 h1
    | cons t pre ih =>
      intro n he
      cases n with
      | zero => cases he
      | succ n =>
        have ih' := ih (fun t ht => hp t (List.mem_cons_of_mem _ ht)) n
        rcases hp t (List.mem_cons_self ..) with rfl | ⟨c, rfl⟩
        · rw [rootN] at he ⊢
          exact ih' he
        · rw [rootN] at he ⊢
          exact ih' he
  exact key j he

theorem saved_shape (items : List BItem) : saved items =
    [.other, .chars "\n"] ++ (Node.elem ⟨"w", "document"⟩ docAttrs (mDocument items).kids).toks ++ [] := by
  rw [List.append_nil]
  rfl

theorem prolog_ok : ∀ t ∈ [Tok.other, .chars "\n"], t = .other ∨ ∃ c, t = .chars c := by
  intro t ht
  simp only [List.mem_cons, List.not_mem_nil, or_false] at ht
  rcases ht with rfl | rfl
  · exact .inl rfl
  · exact .inr ⟨_, rfl⟩

/-- C71: what is written for a document, with any drawings, says what is in the document, apart from the
things listed in `Verif.SpecXml`. -/
theorem C71_written (file : Option DocId) (items : List BItem) (K : Nat) (hK : (saved items).length < K) :
    xmlItems K file (mDocument items).kids = normBody file items := by
  have h := C41_round_trip file items
  unfold roundTrip at h
  have hv : (decodeDocument file [] (saved items)).val = normBody file items := by rw [h]
  have he : (decodeDocument file [] (saved items)).err = none := by rw [h]
  rw [saved_shape] at hv he hK
  rw [C71_read_partial file [] _ _ prolog_ok _ _ _ (sav_document items).1 (sav_document items).2 he K hK,
    List.nil_append] at hv
  exact hv

/-- C71, partial: what is written for a document says exactly what is in the document.  Missing: documents
with the things listed in `Verif.SpecXml`, which are not written. -/
theorem C71_written_exact_partial (file : Option DocId) (items : List BItem) (hk : keptBody file items)
    (hl : looksOk items) (K : Nat) (hK : (saved items).length < K) :
    xmlItems K file (mDocument items).kids = items := by
  rw [C71_written file items K hK]
  exact (kept_body file items).2 ⟨hk, hl⟩

/-- C71, partial: a file that is opened without an error and saved again says the same, including its
drawings.  Missing: as for `C71_read_partial`, and files with flags other than 0 and 1 in
`w:tblLook` (`C42_look_unstable`). -/
theorem C71_resaved_partial (pre post : List Tok)
    (hp : ∀ t ∈ pre, t = .other ∨ ∃ c, t = .chars c) (q : QName) (as : List Attr) (ks : List Node)
    (hok : numsOkL ks) (hal : altsOkL ks)
    (he : (decodeDocument none [] (pre ++ (Node.elem q as ks).toks ++ post)).err = none)
    (hl : looksOk (decodeDocument none [] (pre ++ (Node.elem q as ks).toks ++ post)).val)
    (K : Nat) (hK : (pre ++ (Node.elem q as ks).toks ++ post).length < K)
    (hK' : (saved (decodeDocument none [] (pre ++ (Node.elem q as ks).toks ++ post)).val).length < K) :
    xmlItems K none (resaved (pre ++ (Node.elem q as ks).toks ++ post)).kids = xmlItems K none ks := by
  rw [resaved, C71_written_exact_partial none _ (C42_parsed_kept none _) hl K hK',
    C71_read_partial none [] pre post hp q as ks hok hal he K hK, List.nil_append]

end

/-! ## The hypotheses can be met -/

/-- A file with a picture in the text and a picture beside it with a text box in a shape -/
def drawingFile : List Node :=
  let w (l : String) (as : List Attr) (ks : List Node) := Node.elem ⟨"w", l⟩ as ks
  let wp (l : String) (as : List Attr) (ks : List Node) := Node.elem ⟨"wp", l⟩ as ks
  let a (l : String) (as : List Attr) (ks : List Node) := Node.elem ⟨"a", l⟩ as ks
  let at' (l v : String) : Attr := ⟨⟨"", l⟩, v⟩
  [w "body" [] [pWith [
    rWith [w "drawing" [] [wp "inline" [at' "distT" "7"] [
      wp "extent" [at' "cx" "300", at' "cy" "200"] [],
      a "graphic" [] [a "graphicData" [at' "uri" "u"] [
        Node.elem ⟨"pic", "pic"⟩ [] [Node.elem ⟨"pic", "blipFill"⟩ [] [
          a "blip" [⟨⟨"r", "embed"⟩, "rId9"⟩] []]]]]]]],
    rWith [w "drawing" [] [wp "anchor" [at' "behindDoc" "1"] [
      wp "positionH" [at' "relativeFrom" "page"] [wp "posOffset" [] [.text "-42"]],
      a "graphic" [] [a "graphicData" [] [
        Node.elem ⟨"wps", "wsp"⟩ [] [Node.elem ⟨"wps", "txbx"⟩ [] [w "txbxContent" [] [
          pWith [rWith [tWith [.text "in a box"]]]]]]]]]]]]]]

local instance drawEnv : GoEnv := ⟨fun _ => none, fun _ => false, fun _ => false⟩

/-- The hypotheses of `C71_read_partial` hold for it, and this is what is in it. -/
example : numsOkL drawingFile ∧ altsOkL drawingFile ∧
    (decodeDocument (some 0) [] (Node.elem ⟨"w", "document"⟩ [] drawingFile).toks).err = none ∧
    (decodeDocument (some 0) [] (Node.elem ⟨"w", "document"⟩ [] drawingFile).toks).val =
    [.para { file := some 0, children := [
      .run { children := [.drawing { inl := some {
        distT := 7, extent := some { cx := 300, cy := 200 }, file := some 0
        graphic := some { data := some { uri := "u", pic := some {
          blipFill := some { blip := { embed := "rId9" } } } } } } }] },
      .run { children := [.drawing { anchor := some {
        behindDoc := 1, file := some 0
        positionH := some { relativeFrom := "page", posOffset := -42 }
        graphic := some { data := some { shape := some { textBox := some { content := some [
          { file := some 0, children := [.run { children := [.text { text := "in a box" }] }] }] } } } } } }] }] }] := by
  have h1 : numsOkL drawingFile := by
    have n1 : numLike "7" := by unfold numLike; decide +kernel
    have n2 : numLike "300" := by unfold numLike; decide +kernel
    have n3 : numLike "200" := by unfold numLike; decide +kernel
    have n4 : numLike "1" := by unfold numLike; decide +kernel
    simp [drawingFile, pWith, rWith, tWith, numsOk, numsOkL, attrsOk, numeric, n1, n2, n3, n4]
  have h2 : altsOkL drawingFile := by
    simp [drawingFile, pWith, rWith, tWith, altsOk, altsOkL]
  have h3 : (decodeDocument (some 0) [] (Node.elem ⟨"w", "document"⟩ [] drawingFile).toks).err = none := by
    decide +kernel
  refine ⟨h1, h2, h3, ?_⟩
  have h := C71_read_partial (some 0) [] [] [] (by simp) ⟨"w", "document"⟩ [] drawingFile h1 h2
    (by rw [List.nil_append, List.append_nil]; exact h3) 100 (by decide)
  rw [List.nil_append, List.append_nil] at h
  rw [h]
  rfl

/-- The hypotheses of `C71_resaved_partial` and `C71_written_exact_partial` hold for it as well. -/
example :
    let items := (decodeDocument none [] (Node.elem ⟨"w", "document"⟩ [] drawingFile).toks).val
    keptBody none items ∧ looksOk items ∧ items ≠ [] := by
  intro items
  refine ⟨C42_parsed_kept none _, ?_, ?_⟩
  · intro i hi
    have : items.all (fun i => match i with | .table _ => false | _ => true) = true := by
      decide +kernel
    have := List.all_eq_true.1 this i hi
    intro t _ _ hit
    subst hit
    cases this
  · have : items.length = 1 := by decide +kernel
    intro h
    rw [h] at this
    cases this

end Docx
