import Verif.Theme
import Verif.Props.Forms

/-!
# The two files of the default theme as XML
-/

namespace Docx

/-- An empty element as the theme has it -/
def emptyTag (q : QName) (as : List Attr) : List Char :=
  ['<'] ++ q.chars ++ as.flatMap Attr.chars ++ ['/', '>']

/-- Empty elements on lines of their own -/
def lineTags : List (QName × List Attr) → List Char
  | [] => "\n".toList
  | (q, as) :: es => "\n".toList ++ "    ".toList ++ emptyTag q as ++ lineTags es

/-- The same as a tree -/
def lineNodes : List (QName × List Attr) → List Node
  | [] => [.text "\n"]
  | (q, as) :: es => .text "\n    " :: .elem q as [] :: lineNodes es

theorem lineBreak_spelled : Spelled .between "\n".toList "\n".toList :=
  .self (.inr (.inl rfl)) (by decide) ⟨by decide, by decide⟩ .nil

theorem indent_spelled : Spelled .between "\n    ".toList "\n    ".toList :=
  .self (.inr (.inl rfl)) (by decide) ⟨by decide, by decide⟩
    (.self (.inr (.inr (.inr (.inl ⟨by decide, by decide⟩)))) (by decide) ⟨by decide, by decide⟩
    (.self (.inr (.inr (.inr (.inl ⟨by decide, by decide⟩)))) (by decide) ⟨by decide, by decide⟩
    (.self (.inr (.inr (.inr (.inl ⟨by decide, by decide⟩)))) (by decide) ⟨by decide, by decide⟩
    (.self (.inr (.inr (.inr (.inl ⟨by decide, by decide⟩)))) (by decide) ⟨by decide, by decide⟩ .nil))))

theorem without_of {w : List Char} (h : '>' ∉ w) : Without "]]>" w := by
  intro a b he
  exact h (by rw [he]; simp)

theorem emptyTag_form [GoEnv] (q : QName) (as : List Attr) (hq : nameOk q = true) (ha : ∀ a ∈ as, nameOk a.name = true)
    (hv : ∀ a ∈ as, xmlText a.val) : Form (.elem q as []) (emptyTag q as) := by
  have := Form.empty (b := []) hq (attrForms_chars as ha hv) (by intro c hc; cases hc)
  simpa [emptyTag] using this

theorem lineTags_forms [GoEnv] : ∀ es : List (QName × List Attr),
    (∀ e ∈ es, nameOk e.1 = true ∧ ∀ a ∈ e.2, nameOk a.name = true ∧ xmlText a.val) →
    Forms (lineNodes es) (lineTags es)
  | [], _ => by
    have := Forms.text (s := "\n") lineBreak_spelled (by decide) (without_of (by decide)) (.inl rfl) .nil
    simpa [lineNodes, lineTags] using this
  | (q, as) :: es, h => by
    obtain ⟨h1, h2⟩ := h (q, as) (by simp)
    have f := emptyTag_form q as h1 (fun a ha => (h2 a ha).1) (fun a ha => (h2 a ha).2)
    have ih := lineTags_forms es fun e he => h e (by simp [he])
    have e : "\n".toList ++ "    ".toList = "\n    ".toList := by decide
    rw [lineNodes, lineTags, List.append_assoc, e]
    exact .text indent_spelled (by decide) (without_of (by decide)) (.inr rfl) (.cons f ih)

/-- The declaration that the files of the theme have -/
def themeHeader : List Char := "<?xml version=\"1.0\" encoding=\"UTF-8\" standalone=\"yes\"?>".toList

theorem misc_themeHeader : Misc themeHeader := by
  have := Misc.declaration (b := [' ']) (b' := []) (w := " encoding=\"UTF-8\"".toList)
    (w' := " standalone=\"yes\"".toList) (quote := '"')
    (by simp) (by intro c hc; exact .inl (List.mem_singleton.1 hc)) (.inl rfl)
    (.some (b := [' ']) (v := "UTF-8".toList) (quote := '"') (by simp)
      (by intro c hc; exact .inl (List.mem_singleton.1 hc)) (by unfold Utf8Name; decide) (.inl rfl))
    (.some (b := [' ']) (v := "yes".toList) (quote := '"') (by simp)
      (by intro c hc; exact .inl (List.mem_singleton.1 hc)) (.inl rfl) (.inl rfl))
    (by intro c hc; cases hc)
  exact this

theorem themeFile_forms [GoEnv] (q : QName) (as : List Attr) (es : List (QName × List Attr)) (hq : nameOk q = true)
    (ha : ∀ a ∈ as, nameOk a.name = true ∧ xmlText a.val)
    (h : ∀ e ∈ es, nameOk e.1 = true ∧ ∀ a ∈ e.2, nameOk a.name = true ∧ xmlText a.val) :
    Forms ([.other, .text "\n"] ++ .elem q as (lineNodes es) :: [])
      (themeHeader ++ ("\n".toList ++ (['<'] ++ q.chars ++ as.flatMap Attr.chars ++ ['>'] ++ lineTags es ++
        ['<', '/'] ++ q.chars ++ ['>']))) := by
  have f := Form.elem (b := []) (b' := []) hq
    (attrForms_chars as (fun a h => (ha a h).1) (fun a h => (ha a h).2)) (by intro c hc; cases hc)
    (lineTags_forms es h) (by intro c hc; cases hc)
  have f1 := Forms.cons f .nil
  simp only [List.append_nil] at f1
  exact .cons (.misc misc_themeHeader)
    (.text lineBreak_spelled (by decide) (without_of (by decide)) (.inr rfl) f1)

theorem flat_nil {a : String} {w : List Char} (h : a.toList = w) :
    [a].flatMap String.toList = ([] : List (QName × List Attr)).flatMap
      (fun e => "    ".toList ++ emptyTag e.1 e.2 ++ "\n".toList) ++ w := by
  simp [h]

theorem flat_cons {a : String} {as : List String} {q : QName} {at' : List Attr} {es : List (QName × List Attr)}
    {w : List Char} (h : a.toList = "    ".toList ++ emptyTag q at' ++ "\n".toList)
    (ih : as.flatMap String.toList =
      es.flatMap (fun e => "    ".toList ++ emptyTag e.1 e.2 ++ "\n".toList) ++ w) :
    (a :: as).flatMap String.toList =
      ((q, at') :: es).flatMap (fun e => "    ".toList ++ emptyTag e.1 e.2 ++ "\n".toList) ++ w := by
  rw [List.flatMap_cons, List.flatMap_cons, ih, h]; simp only [List.append_assoc]

theorem lineTags_flat : ∀ es : List (QName × List Attr),
    lineTags es = "\n".toList ++ es.flatMap (fun e => "    ".toList ++ emptyTag e.1 e.2 ++ "\n".toList)
  | [] => by simp [lineTags]
  | e :: es => by rw [lineTags, lineTags_flat es, List.flatMap_cons]; simp only [List.append_assoc]

theorem themeFile_lines {a b : String} {as : List String} {q : QName} {at' : List Attr}
    {es : List (QName × List Attr)} (ha : a.toList = themeHeader ++ "\n".toList)
    (hb : b.toList = ['<'] ++ q.chars ++ at'.flatMap Attr.chars ++ ['>'] ++ "\n".toList)
    (h : as.flatMap String.toList =
      es.flatMap (fun e => "    ".toList ++ emptyTag e.1 e.2 ++ "\n".toList) ++ (['<', '/'] ++ q.chars ++ ['>'])) :
    (a :: b :: as).flatMap String.toList = themeHeader ++ ("\n".toList ++ (['<'] ++ q.chars ++
      at'.flatMap Attr.chars ++ ['>'] ++ lineTags es ++ ['<', '/'] ++ q.chars ++ ['>'])) := by
  rw [List.flatMap_cons, List.flatMap_cons, ha, hb, h, lineTags_flat]
  simp only [List.append_assoc]

/-- An attribute without prefix -/
def themeAttr (n v : String) : Attr := ⟨⟨"", n⟩, v⟩

/-- The entries of the types file -/
def defaultTypes : List (QName × List Attr) :=
  [(⟨"", "Default"⟩, [themeAttr "Extension" "jpeg", themeAttr "ContentType" "image/jpeg"]),
   (⟨"", "Default"⟩, [themeAttr "Extension" "png", themeAttr "ContentType" "image/png"]),
   (⟨"", "Default"⟩, [themeAttr "Extension" "webp", themeAttr "ContentType" "image/webp"]),
   (⟨"", "Default"⟩, [themeAttr "Extension" "rels", themeAttr "ContentType" "application/vnd.openxmlformats-package.relationships+xml"]),
   (⟨"", "Default"⟩, [themeAttr "Extension" "xml", themeAttr "ContentType" "application/xml"]),
   (⟨"", "Override"⟩, [themeAttr "PartName" "/word/document.xml", themeAttr "ContentType" "application/vnd.openxmlformats-officedocument.wordprocessingml.document.main+xml"]),
   (⟨"", "Override"⟩, [themeAttr "PartName" "/word/styles.xml", themeAttr "ContentType" "application/vnd.openxmlformats-officedocument.wordprocessingml.styles+xml"]),
   (⟨"", "Override"⟩, [themeAttr "PartName" "/word/fontTable.xml", themeAttr "ContentType" "application/vnd.openxmlformats-officedocument.wordprocessingml.fontTable+xml"]),
   (⟨"", "Override"⟩, [themeAttr "PartName" "/word/theme/theme1.xml", themeAttr "ContentType" "application/vnd.openxmlformats-officedocument.theme+xml"]),
   (⟨"", "Override"⟩, [themeAttr "PartName" "/docProps/core.xml", themeAttr "ContentType" "application/vnd.openxmlformats-package.core-properties+xml"]),
   (⟨"", "Override"⟩, [themeAttr "PartName" "/docProps/app.xml", themeAttr "ContentType" "application/vnd.openxmlformats-officedocument.extended-properties+xml"])]

/-- The entries of the root relationships -/
def defaultRoots : List (QName × List Attr) :=
  [(⟨"", "Relationship"⟩, [themeAttr "Id" "rId3", themeAttr "Type" "http://schemas.openxmlformats.org/officeDocument/2006/relationships/extended-properties", themeAttr "Target" "docProps/app.xml"]),
   (⟨"", "Relationship"⟩, [themeAttr "Id" "rId2", themeAttr "Type" "http://schemas.openxmlformats.org/package/2006/relationships/metadata/core-properties", themeAttr "Target" "docProps/core.xml"]),
   (⟨"", "Relationship"⟩, [themeAttr "Id" "rId1", themeAttr "Type" "http://schemas.openxmlformats.org/officeDocument/2006/relationships/officeDocument", themeAttr "Target" "word/document.xml"])]

/-- Names and values of the entries can be written. -/
def tagOk (e : QName × List Attr) : Bool :=
  nameOk e.1 && e.2.all fun a => nameOk a.name && a.val.toList.all xmlChar

theorem tagOk_all {es : List (QName × List Attr)} (h : es.all tagOk = true) :
    ∀ e ∈ es, nameOk e.1 = true ∧ ∀ a ∈ e.2, nameOk a.name = true ∧ xmlText a.val := by
  intro e he
  have := List.all_eq_true.1 h e he
  simp only [tagOk, Bool.and_eq_true, List.all_eq_true] at this
  exact ⟨this.1, fun a ha => ⟨(this.2 a ha).1, fun c hc => (this.2 a ha).2 c hc⟩⟩

theorem defaultTypes_ok : defaultTypes.all tagOk = true := by decide +kernel

private theorem typesLine_open : "<Types xmlns=\"http://schemas.openxmlformats.org/package/2006/content-types\">\n".toList =
    ['<'] ++ (⟨"", "Types"⟩ : QName).chars ++ [(⟨⟨"", "xmlns"⟩, "http://schemas.openxmlformats.org/package/2006/content-types"⟩ : Attr)].flatMap Attr.chars ++ ['>'] ++ "\n".toList := by
  decide +kernel

private theorem typesLine_0 : "    <Default Extension=\"jpeg\" ContentType=\"image/jpeg\"/>\n".toList =
    "    ".toList ++ emptyTag ⟨"", "Default"⟩ [themeAttr "Extension" "jpeg", themeAttr "ContentType" "image/jpeg"] ++ "\n".toList := by
  decide +kernel

private theorem typesLine_1 : "    <Default Extension=\"png\" ContentType=\"image/png\"/>\n".toList =
    "    ".toList ++ emptyTag ⟨"", "Default"⟩ [themeAttr "Extension" "png", themeAttr "ContentType" "image/png"] ++ "\n".toList := by
  decide +kernel

private theorem typesLine_2 : "    <Default Extension=\"webp\" ContentType=\"image/webp\"/>\n".toList =
    "    ".toList ++ emptyTag ⟨"", "Default"⟩ [themeAttr "Extension" "webp", themeAttr "ContentType" "image/webp"] ++ "\n".toList := by
  decide +kernel

private theorem typesLine_3 : "    <Default Extension=\"rels\" ContentType=\"application/vnd.openxmlformats-package.relationships+xml\"/>\n".toList =
    "    ".toList ++ emptyTag ⟨"", "Default"⟩ [themeAttr "Extension" "rels", themeAttr "ContentType" "application/vnd.openxmlformats-package.relationships+xml"] ++ "\n".toList := by
  decide +kernel

private theorem typesLine_4 : "    <Default Extension=\"xml\" ContentType=\"application/xml\"/>\n".toList =
    "    ".toList ++ emptyTag ⟨"", "Default"⟩ [themeAttr "Extension" "xml", themeAttr "ContentType" "application/xml"] ++ "\n".toList := by
  decide +kernel

private theorem typesLine_5 : "    <Override PartName=\"/word/document.xml\" ContentType=\"application/vnd.openxmlformats-officedocument.wordprocessingml.document.main+xml\"/>\n".toList =
    "    ".toList ++ emptyTag ⟨"", "Override"⟩ [themeAttr "PartName" "/word/document.xml", themeAttr "ContentType" "application/vnd.openxmlformats-officedocument.wordprocessingml.document.main+xml"] ++ "\n".toList := by
  decide +kernel

private theorem typesLine_6 : "    <Override PartName=\"/word/styles.xml\" ContentType=\"application/vnd.openxmlformats-officedocument.wordprocessingml.styles+xml\"/>\n".toList =
    "    ".toList ++ emptyTag ⟨"", "Override"⟩ [themeAttr "PartName" "/word/styles.xml", themeAttr "ContentType" "application/vnd.openxmlformats-officedocument.wordprocessingml.styles+xml"] ++ "\n".toList := by
  decide +kernel

private theorem typesLine_7 : "    <Override PartName=\"/word/fontTable.xml\" ContentType=\"application/vnd.openxmlformats-officedocument.wordprocessingml.fontTable+xml\"/>\n".toList =
    "    ".toList ++ emptyTag ⟨"", "Override"⟩ [themeAttr "PartName" "/word/fontTable.xml", themeAttr "ContentType" "application/vnd.openxmlformats-officedocument.wordprocessingml.fontTable+xml"] ++ "\n".toList := by
  decide +kernel

private theorem typesLine_8 : "    <Override PartName=\"/word/theme/theme1.xml\" ContentType=\"application/vnd.openxmlformats-officedocument.theme+xml\"/>\n".toList =
    "    ".toList ++ emptyTag ⟨"", "Override"⟩ [themeAttr "PartName" "/word/theme/theme1.xml", themeAttr "ContentType" "application/vnd.openxmlformats-officedocument.theme+xml"] ++ "\n".toList := by
  decide +kernel

private theorem typesLine_9 : "    <Override PartName=\"/docProps/core.xml\" ContentType=\"application/vnd.openxmlformats-package.core-properties+xml\"/>\n".toList =
    "    ".toList ++ emptyTag ⟨"", "Override"⟩ [themeAttr "PartName" "/docProps/core.xml", themeAttr "ContentType" "application/vnd.openxmlformats-package.core-properties+xml"] ++ "\n".toList := by
  decide +kernel

private theorem typesLine_10 : "    <Override PartName=\"/docProps/app.xml\" ContentType=\"application/vnd.openxmlformats-officedocument.extended-properties+xml\"/>\n".toList =
    "    ".toList ++ emptyTag ⟨"", "Override"⟩ [themeAttr "PartName" "/docProps/app.xml", themeAttr "ContentType" "application/vnd.openxmlformats-officedocument.extended-properties+xml"] ++ "\n".toList := by
  decide +kernel

theorem defaultTypes_forms [GoEnv] : Forms ([.other, .text "\n"] ++ .elem ⟨"", "Types"⟩
    [⟨⟨"", "xmlns"⟩, "http://schemas.openxmlformats.org/package/2006/content-types"⟩] (lineNodes defaultTypes) :: [])
    (defaultTypesLines.flatMap String.toList) := by
  have h := tagOk_all (es := [(⟨"", "Types"⟩, [⟨⟨"", "xmlns"⟩, "http://schemas.openxmlformats.org/package/2006/content-types"⟩])])
    (by decide +kernel) _ (List.mem_singleton.2 rfl)
  have := themeFile_forms ⟨"", "Types"⟩ [⟨⟨"", "xmlns"⟩, "http://schemas.openxmlformats.org/package/2006/content-types"⟩]
    defaultTypes h.1 h.2 (tagOk_all defaultTypes_ok)
  rw [defaultTypesLines, themeFile_lines (by decide +kernel) typesLine_open
    (flat_cons typesLine_0 (flat_cons typesLine_1 (flat_cons typesLine_2 (flat_cons typesLine_3 (flat_cons typesLine_4 (flat_cons typesLine_5 (flat_cons typesLine_6 (flat_cons typesLine_7 (flat_cons typesLine_8 (flat_cons typesLine_9 (flat_cons typesLine_10 (flat_nil (by decide +kernel)))))))))))))]
  exact this

theorem defaultRoots_ok : defaultRoots.all tagOk = true := by decide +kernel

private theorem rootLine_open : "<Relationships xmlns=\"http://schemas.openxmlformats.org/package/2006/relationships\">\n".toList =
    ['<'] ++ (⟨"", "Relationships"⟩ : QName).chars ++ [(⟨⟨"", "xmlns"⟩, "http://schemas.openxmlformats.org/package/2006/relationships"⟩ : Attr)].flatMap Attr.chars ++ ['>'] ++ "\n".toList := by
  decide +kernel

private theorem rootLine_0 : "    <Relationship Id=\"rId3\" Type=\"http://schemas.openxmlformats.org/officeDocument/2006/relationships/extended-properties\" Target=\"docProps/app.xml\"/>\n".toList =
    "    ".toList ++ emptyTag ⟨"", "Relationship"⟩ [themeAttr "Id" "rId3", themeAttr "Type" "http://schemas.openxmlformats.org/officeDocument/2006/relationships/extended-properties", themeAttr "Target" "docProps/app.xml"] ++ "\n".toList := by
  decide +kernel

private theorem rootLine_1 : "    <Relationship Id=\"rId2\" Type=\"http://schemas.openxmlformats.org/package/2006/relationships/metadata/core-properties\" Target=\"docProps/core.xml\"/>\n".toList =
    "    ".toList ++ emptyTag ⟨"", "Relationship"⟩ [themeAttr "Id" "rId2", themeAttr "Type" "http://schemas.openxmlformats.org/package/2006/relationships/metadata/core-properties", themeAttr "Target" "docProps/core.xml"] ++ "\n".toList := by
  decide +kernel

private theorem rootLine_2 : "    <Relationship Id=\"rId1\" Type=\"http://schemas.openxmlformats.org/officeDocument/2006/relationships/officeDocument\" Target=\"word/document.xml\"/>\n".toList =
    "    ".toList ++ emptyTag ⟨"", "Relationship"⟩ [themeAttr "Id" "rId1", themeAttr "Type" "http://schemas.openxmlformats.org/officeDocument/2006/relationships/officeDocument", themeAttr "Target" "word/document.xml"] ++ "\n".toList := by
  decide +kernel

theorem defaultRoots_forms [GoEnv] : Forms ([.other, .text "\n"] ++ .elem ⟨"", "Relationships"⟩
    [⟨⟨"", "xmlns"⟩, "http://schemas.openxmlformats.org/package/2006/relationships"⟩] (lineNodes defaultRoots) :: [])
    (defaultRootLines.flatMap String.toList) := by
  have h := tagOk_all (es := [(⟨"", "Relationships"⟩, [⟨⟨"", "xmlns"⟩, "http://schemas.openxmlformats.org/package/2006/relationships"⟩])])
    (by decide +kernel) _ (List.mem_singleton.2 rfl)
  have := themeFile_forms ⟨"", "Relationships"⟩ [⟨⟨"", "xmlns"⟩, "http://schemas.openxmlformats.org/package/2006/relationships"⟩]
    defaultRoots h.1 h.2 (tagOk_all defaultRoots_ok)
  rw [defaultRootLines, themeFile_lines (by decide +kernel) rootLine_open
    (flat_cons rootLine_0 (flat_cons rootLine_1 (flat_cons rootLine_2 (flat_nil (by decide +kernel)))))]
  exact this

end Docx
