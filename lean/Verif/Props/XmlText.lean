import Verif.Lemmas.XmlPrint
import Verif.Props.Round

/-!
# XML text (C48), and saving and parsing at the level of bytes

`clean`, `printable`, `strings` and `xmlText` are in `Verif.SpecText`.
-/

namespace Docx

set_option linter.unusedSectionVars false

variable [GoEnv]

theorem clean_iff (s : String) : clean s = s ↔ xmlText s := by
  have h : clean s = s ↔ s.toList.map cleanChar = s.toList := by
    constructor
    · intro h
      have := congrArg String.toList h
      simpa [clean] using this
    · intro h
      rw [clean, h, String.ofList_toList]
  rw [h, xmlText]
  generalize s.toList = cs
  induction cs with
  | nil => simp
  | cons c cs ih =>
    simp only [List.map_cons, List.cons.injEq, List.mem_cons, forall_eq_or_imp]
    refine and_congr ?_ ih
    unfold cleanChar
    split
    · rename_i h; simp [h]
    · rename_i h
      simp only [h, Bool.false_eq_true, iff_false]
      intro e
      apply h
      rw [← e]
      decide

/-- C48: whatever strings are written as an attribute value and as the text of an element, reading the
bytes gives the element with the same strings, in which only the characters that XML cannot write are
replaced by U+FFFD. -/
theorem C48_lossless (q a : QName) (hq : nameOk q = true) (ha : nameOk a = true) (v s : String)
    (hs : s ≠ "") :
    lex (xmlBytes (.elem q [⟨a, v⟩] [.text s])) =
      [.other, .chars "\n", .start q [⟨a, clean v⟩], .chars (clean s), .stop q] := by
  rw [lex_xmlBytes]
  · simp [Node.clean, cleanL, Node.toks, toksL]
  · simp [Node.printable, printableL, hq, ha, hs]

/-- C48: the strings are the same exactly if all their characters are allowed in XML, and replacing
them is done with after the first time. -/
theorem C48_identity (s : String) : (clean s = s ↔ xmlText s) ∧ clean (clean s) = clean s := by
  refine ⟨clean_iff s, (clean_iff _).2 ?_⟩
  intro c hc
  rw [clean, String.toList_ofList] at hc
  exact (List.all_eq_true.mp (xmlChar_clean s.toList)) c hc

/-- C48: no string can break out of its place: what is written for it has no `<`, no `>` and no quote. -/
theorem C48_no_markup (s : String) : ∀ c ∈ escape s, c ≠ '<' ∧ c ≠ '>' ∧ c ≠ '"' ∧ c ≠ '\'' := by
  intro c hc
  obtain ⟨d, _, hd⟩ := List.mem_flatMap.mp hc
  clear hc
  unfold escChar at hd
  repeat' split at hd
  all_goals first
    | (revert hd; revert c; decide)
    | (rcases List.mem_singleton.mp hd with rfl; exact ⟨by assumption, by assumption, by assumption, by assumption⟩)
    | (rcases List.mem_singleton.mp hd with rfl; decide)

/-- C48: every tree with ordinary names, of any depth, is read back from its bytes. -/
theorem C48_tree (q : QName) (as : List Attr) (kids : List Node)
    (h : (Node.elem q as kids).printable = true) :
    lex (xmlBytes (.elem q as kids)) = .other :: .chars "\n" :: (Node.elem q as kids).clean.toks :=
  lex_xmlBytes q as kids h

mutual
theorem clean_node : ∀ n : Node, (∀ s ∈ n.strings, xmlText s) → n.clean = n
  | .elem q as kids, h => by
    have h1 : as.map (fun a => (⟨a.name, clean a.val⟩ : Attr)) = as := by
      have : as.map (fun a => (⟨a.name, clean a.val⟩ : Attr)) = as.map id := by
        apply List.map_congr_left
        intro a ha
        have := (clean_iff a.val).2 (h _ (by
          rw [Node.strings]
          exact List.mem_append_left _ (List.mem_map.mpr ⟨a, ha, rfl⟩)))
        rw [this]
        rfl
      rw [this, List.map_id]
    rw [Node.clean, h1, clean_nodes kids fun s hs => h s (by
      rw [Node.strings]
      exact List.mem_append_right _ hs)]
  | .text s, h => by
    rw [Node.clean, (clean_iff s).2 (h s (by simp [Node.strings]))]
  | .other, _ => rfl
theorem clean_nodes : ∀ ns : List Node, (∀ s ∈ stringsL ns, xmlText s) → cleanL ns = ns
  | [], _ => rfl
  | n :: ns, h => by
    rw [cleanL, clean_node n fun s hs => h s (by rw [stringsL]; exact List.mem_append_left _ hs),
      clean_nodes ns fun s hs => h s (by rw [stringsL]; exact List.mem_append_right _ hs)]
end

/-- C48: the bytes written for a document are read as the tokens of the document, with all its strings
cleaned. -/
theorem C48_document (items : List BItem) :
    lex (xmlBytes (mDocument items)) = partToks (mDocument items).clean :=
  lex_xmlBytes _ _ _ (pok_mDocument items).1

/-- C48: and as exactly the tokens of the document if its strings hold XML characters only. -/
theorem C48_document_same (items : List BItem) (h : ∀ s ∈ (mDocument items).strings, xmlText s) :
    lex (xmlBytes (mDocument items)) = partToks (mDocument items) := by
  rw [C48_document, clean_node _ h]

/-- C48: the same for the relationships. -/
theorem C48_rels (x : String) (rs : List Rel) :
    lex (xmlBytes (mRels x rs)) = partToks (mRels x rs).clean :=
  lex_xmlBytes _ _ _ (pok_mRels x rs).1

/-- C41 in terms of bytes: writing a document of any size whose strings hold XML characters only and
decoding the bytes gives the document without the things listed in `Verif.SpecXml`, and no error. -/
theorem C41_bytes (file : Option DocId) (items : List BItem)
    (h : ∀ s ∈ (mDocument items).strings, xmlText s) :
    decodeDocument file [] (lex (xmlBytes (mDocument items))) =
      ⟨normBody file items, none, ⟨[], [], false⟩⟩ := by
  rw [C48_document_same items h]
  exact C41_round_trip file items

/-! ## Examples -/

/-- A string with markup, quotes, line breaks, a tab, other scripts and an emoji is safe; a control
character is not. -/
example : clean "a<b>&\"'\r\n\t中文😀]]>" = "a<b>&\"'\r\n\t中文😀]]>" ∧ clean "a\x01b" = "a\uFFFDb" := by
  decide

/-- What is written for it -/
example : String.ofList (escape "a<b>&\"'\r\n\t") = "a&lt;b&gt;&amp;&#34;&#39;&#xD;&#xA;&#x9;" := by decide

/-- The bytes of a small element and the tokens they are read as -/
example : (Node.elem ⟨"w", "t"⟩ [⟨⟨"xml", "space"⟩, "a\"b"⟩] [.text "x<y"]).chars =
    "<w:t xml:space=\"a&#34;b\">x&lt;y</w:t>".toList := by decide

/-- A document with such texts satisfies the hypothesis of `C41_bytes`. -/
example : ∀ s ∈ (mDocument [.para { children := [.run { children := [.text { text := "x<y\n" }] }] }]).strings,
    xmlText s := by
  unfold xmlText
  decide

/-- The lexer on other input: comments, CDATA, empty-element tags, entities, line ends; and a raw `<` in
an attribute value, which is an error. -/
example : lexR ("<a b='1'/><!-- x --><![CDATA[<&]]>&lt;\r\n&#65;".toList.map some) =
    [.start ⟨"", "a"⟩ [⟨⟨"", "b"⟩, "1"⟩], .stop ⟨"", "a"⟩, .other, .chars "<&", .chars "<\nA"] ∧
    lexR ("<a b=\"<\">".toList.map some) = [.bad] := by
  constructor <;> rfl

end Docx
