import Verif.Lemmas.XmlRound
import Verif.Lemmas.XmlKept
import Verif.Lemmas.XmlYields

/-!
# Saving and parsing again (C41, C42)

`saved items` are the tokens of the `word/document.xml` written for a body, `decodeDocument` parses
such a part.  What is lost on the way is spelled out in `Verif.SpecXml`.
-/

namespace Docx

set_option linter.unusedSectionVars false

variable [GoEnv]

/-- The tokens of the `word/document.xml` written for a body -/
def saved (items : List BItem) : List Tok := partToks (mDocument items)

/-- The body after saving and parsing into a fresh document -/
def roundTrip (file : Option DocId) (items : List BItem) : Out (List BItem) :=
  decodeDocument file [] (saved items)

/-- C41: saving any document, of any size and nesting, and parsing it succeeds, reads the part to
its end, and gives the document without the things listed in `Verif.SpecXml`. -/
theorem C41_round_trip (file : Option DocId) (items : List BItem) :
    roundTrip file items = ⟨normBody file items, none, ⟨[], [], false⟩⟩ := by
  have h := decode_root (q := ⟨"w", "document"⟩) (as := docAttrs) (rt_document file items [])
    [.other, .chars "\n"] [] (by
      intro t ht
      simp only [List.mem_cons, List.not_mem_nil, or_false] at ht
      rcases ht with rfl | rfl
      · exact .inl rfl
      · exact .inr ⟨_, rfl⟩)
  simp only [List.append_nil, List.nil_append] at h
  exact h

/-- C41, partial: a document in which there is nothing to lose comes back unchanged: same items, same
order, same properties, same text.  Missing: documents with numbering, attributes on tabs inside
runs, `avLst` on shapes, name-space attributes on pictures in groups, group shapes in group shapes,
nil grid columns, or numbers of more than one digit in `tblLook`. -/
theorem C41_identity_partial (file : Option DocId) (items : List BItem)
    (h : keptBody file items) (hl : looksOk items) :
    (roundTrip file items).err = none ∧ (roundTrip file items).val = items := by
  rw [C41_round_trip]
  exact ⟨rfl, (kept_body file items).2 ⟨h, hl⟩⟩

/-- C41: and these are exactly the documents that come back unchanged. -/
theorem C41_identity_exactly (file : Option DocId) (items : List BItem) :
    (roundTrip file items).val = items ↔ keptBody file items ∧ looksOk items := by
  rw [C41_round_trip]
  exact kept_body file items

theorem numPrStep_good (k : Nat) : StepGood k numPrStep := by
  intro s l as
  unfold numPrStep
  split <;> first
    | exact good_skipTo _ _
    | exact good_flat _ _ (by simp)

/-- C41: the numbering alone, saved and read as a `NumProperties`, is the same.  (`Parse` does not read
it, see `C41_numbering_lost`.) -/
theorem C41_numbering_alone (n : NumPr) :
    decodeElement unNumPr ⟨(mNumPr n).toks.tail, [.elem ⟨"w", "numPr"⟩], false⟩ =
      ⟨n, none, ⟨[], [], false⟩⟩ := by
  have h : Takes numPrStep {} (mNumPr n).kids n :=
    (takes_valN (loc := "numId") (numPrStep_good 0) n.numId (fun z => ({ numId := z } : NumPr)) fun _ _ => rfl) |>.append
    (takes_valN (loc := "ilvl") (numPrStep_good 0) n.ilvl (fun z => ({ numId := n.numId, ilvl := z } : NumPr)) fun _ _ => rfl)
  have := decodes_loop (numPrStep_good 0) h ⟨"w", "numPr"⟩ [] []
  simp only [mNumPr, el, toks_elem, List.tail_cons, List.append_assoc]
  exact this

/-- C41 is false in general: a numbered paragraph loses its numbering. -/
theorem C41_numbering_lost : ∃ (items : List BItem), (roundTrip (some 0) items).err = none ∧
    (roundTrip (some 0) items).val ≠ items := by
  refine ⟨[.para { props := some { numPr := some { numId := some "1", ilvl := some "0" } }, file := some 0 }], ?_, ?_⟩
  · rw [C41_round_trip]
  · intro h
    have := ((C41_identity_exactly _ _).1 h).1 _ (List.mem_cons_self ..)
    simp only [keptItem, keptPara, keptPPr, Option.some.injEq, forall_eq', reduceCtorEq, false_and] at this

theorem runTexts_norm (file : Option DocId) (r : Run) : runTexts (normRun file r) = runTexts r := by
  have h : ∀ cs : List RChild, runTexts { children := normRChildren file cs } =
      runTexts { children := cs } := by
    intro cs
    induction cs with
    | nil => simp [normRChildren]
    | cons c cs ih =>
      unfold runTexts at ih ⊢
      simp only at ih
      cases c <;> simp [normRChildren, normRChild, ih]
  rcases r with ⟨a, b, c, cs⟩
  simp only [normRun]
  exact h cs

theorem paraTexts_norm (file : Option DocId) (p : Para) :
    paraTexts (normPara file p) = paraTexts p := by
  have h : ∀ cs : List PChild, paraTexts { children := normPChildren file cs } =
      paraTexts { children := cs } := by
    intro cs
    induction cs with
    | nil => simp [normPChildren]
    | cons c cs ih =>
      unfold paraTexts at ih ⊢
      simp only at ih
      cases c with
      | run r => simp [normPChildren, normPChild, ih, runTexts_norm]
      | link h =>
        rcases h with ⟨id, r⟩
        simp [normPChildren, normPChild, normLink, ih, runTexts_norm]
      | rpr _ => simp [normPChildren, normPChild, ih]
  rcases p with ⟨a, cs, c⟩
  simp only [normPara]
  exact h cs

/-- C41: the text survives in every document: the same items in the same order, with the same
paragraphs, and the same texts in them. -/
theorem C41_text_kept (file : Option DocId) (items : List BItem) :
    bodyTexts (roundTrip file items).val = bodyTexts items := by
  rw [C41_round_trip]
  simp only [bodyTexts, normBody, List.map_map]
  apply List.map_congr_left
  intro i _
  cases i with
  | para p => simp [normItem, paraTexts_norm]
  | sect s => rfl
  | table t =>
    simp only [Function.comp, normItem, normTable, List.map_map]
    apply List.map_congr_left
    intro r _
    simp only [Function.comp, normRow, List.map_map]
    apply List.map_congr_left
    intro c _
    simp only [Function.comp, normCell, List.map_map]
    apply List.map_congr_left
    intro p _
    exact paraTexts_norm file p

/-- C42: whatever is parsed, from any token stream, has nothing to lose but digits of `tblLook`. -/
theorem C42_parsed_kept (file : Option DocId) (toks : List Tok) :
    keptBody file (decodeDocument file [] toks).val :=
  decodeDocument_yields file (fun _ h => by cases h) toks

/-- C42, partial: saving a parsed document and parsing it again gives the same document.  Missing:
documents in which a number of `tblLook` is not a single digit. -/
theorem C42_stable_partial (file : Option DocId) (toks : List Tok)
    (hl : looksOk (decodeDocument file [] toks).val) :
    (roundTrip file (decodeDocument file [] toks).val).err = none ∧
    (roundTrip file (decodeDocument file [] toks).val).val = (decodeDocument file [] toks).val :=
  C41_identity_partial file _ (C42_parsed_kept file toks) hl

theorem normLookInt_twice (n : Int64) : digit (normLookInt (normLookInt n)) := by
  by_cases h : n < 0
  · have : normLookInt n = 253 := by unfold normLookInt; rw [if_pos h]
    rw [this]
    exact ⟨by decide, by decide⟩
  · rw [(normLookInt_iff _).2 (normLookInt_range n h)]
    exact normLookInt_range n h

theorem looksOk_twice (file : Option DocId) (items : List BItem) :
    looksOk (normBody file (normBody file items)) := by
  intro i hi t pr l he hp hl
  simp only [normBody, List.map_map, List.mem_map, Function.comp] at hi
  obtain ⟨j, _, hj⟩ := hi
  cases j with
  | para p => simp only [normItem] at hj; rw [← hj] at he; cases he
  | sect s => simp only [normItem] at hj; rw [← hj] at he; cases he
  | table t0 =>
    simp only [normItem] at hj
    rw [← hj] at he
    simp only [BItem.table.injEq] at he
    subst he
    simp only [normTable, Option.map_map, Option.map_eq_some_iff, Function.comp] at hp
    obtain ⟨pr0, _, rfl⟩ := hp
    simp only [normTblPr, Option.map_map, Option.map_eq_some_iff, Function.comp] at hl
    obtain ⟨l0, _, rfl⟩ := hl
    exact ⟨normLookInt_twice _, normLookInt_twice _, normLookInt_twice _, normLookInt_twice _,
      normLookInt_twice _, normLookInt_twice _⟩

/-- C42: for every document whatsoever, nothing more is lost after the second round trip. -/
theorem C42_stable_after_two (file : Option DocId) (items : List BItem) :
    let once := (roundTrip file items).val
    let twice := (roundTrip file once).val
    (roundTrip file twice).val = twice := by
  intro once twice
  rw [C41_identity_exactly]
  constructor
  · exact C42_parsed_kept file _
  · show looksOk (roundTrip file (roundTrip file items).val).val
    rw [C41_round_trip, C41_round_trip]
    exact looksOk_twice file items

private def q (s : String) : QName := ⟨"w", s⟩

/-- A table whose `tblLook` says `firstRow="true"` -/
def trueLook : List Tok :=
  [.start (q "document") [], .start (q "body") [], .start (q "tbl") [], .start (q "tblPr") [],
    .start (q "tblLook") [⟨q "firstRow", "true"⟩], .stop (q "tblLook"), .stop (q "tblPr"),
    .stop (q "tbl"), .stop (q "body"), .stop (q "document")]

/-- C42 is false in general: `firstRow="true"` is parsed as 68, saved as `68` and parsed again
as 6. -/
theorem C42_look_unstable :
    (decodeDocument (some 0) [] trueLook).err = none ∧
    (roundTrip (some 0) (decodeDocument (some 0) [] trueLook).val).val ≠
      (decodeDocument (some 0) [] trueLook).val := by
  have hd : decodeDocument (some 0) [] trueLook =
      ⟨[.table { props := some { look := some { firstRow := 68 } } }], none, ⟨[], [], false⟩⟩ := by rfl
  rw [hd]
  refine ⟨rfl, fun h => ?_⟩
  have := ((C41_identity_exactly _ _).1 h).2 _ (List.mem_cons_self ..) _ _ _ rfl rfl rfl
  exact absurd this.1.2 (by decide)

/-- A document with a heading, a hyperlink with a drawing, and a table, in which there is nothing to
lose -/
private def sample : List BItem :=
  [ .para {
      props := some { style := some "Heading1", spacing := some { line := -240 } }
      children := [
        .run { rpr := some { bold := true }, children := [.text ⟨"preserve", " a\tb "⟩, .tab {}] },
        .link { id := "rId7", run := { children := [.text ⟨"", "x"⟩] } },
        .run { children := [.drawing { inl := some {
          extent := some ⟨914400, 914400⟩
          graphic := some { xmlA := "a", data := some { uri := "u", canvas := some { items := [
            .shape { textBox := some { content := some [{ file := some 0 }] } },
            .pic { xmlPic := "p" }] } } }
          file := some 0 } }] } ]
      file := some 0 },
    .table {
      props := some { look := some { firstRow := 1 }, width := some ⟨5000, "pct"⟩ }
      grid := some [some 100, some 200]
      rows := [{ cells := [{ paras := [{ file := some 0 }], file := some 0 }] }] },
    .sect { pgSz := some ⟨11906, 16838⟩ } ]

private theorem sample_kept : keptBody (some 0) sample ∧ looksOk sample := by
  refine (kept_body (some 0) sample).1 ?_
  rfl

example : (roundTrip (some 0) sample).val = sample :=
  (C41_identity_partial (some 0) sample sample_kept.1 sample_kept.2).2

/-- A parsed document that meets the hypothesis of `C42_stable_partial` -/
example : looksOk (decodeDocument (some 0) [] (saved sample)).val := by
  have h := C41_round_trip (some 0) sample
  unfold roundTrip at h
  rw [h]
  show looksOk (normBody (some 0) sample)
  rw [(kept_body _ _).2 sample_kept]
  exact sample_kept.2

end Docx
