import Verif.Api
import Verif.XmlText

/-!
# The default theme

The files of the theme are embedded in the library.  Two of them say what the package consists of; these
are written out here.  The others (styles, theme, fonts, properties) are not modelled.
-/

namespace Docx

/-- fs.go:32-40 `DefaultTemplateFilesList` -/
def defaultTemplateFiles : List String :=
  ["_rels/.rels", "docProps/app.xml", "docProps/core.xml", "word/theme/theme1.xml", "word/fontTable.xml",
   "word/styles.xml", "[Content_Types].xml"]

/-- theme.go:36-38 `WithDefaultTheme`; `fs` is `TemplateXMLFS` (fs.go:25-29) -/
def Doc.withDefaultTheme (fs : FS) (f : Doc) : Doc := f.useTemplate "default" defaultTemplateFiles (some fs)

/-- xml/default/[Content_Types].xml:1-14, line by line -/
def defaultTypesLines : List String :=
  ["<?xml version=\"1.0\" encoding=\"UTF-8\" standalone=\"yes\"?>\n",
   "<Types xmlns=\"http://schemas.openxmlformats.org/package/2006/content-types\">\n",
   "    <Default Extension=\"jpeg\" ContentType=\"image/jpeg\"/>\n",
   "    <Default Extension=\"png\" ContentType=\"image/png\"/>\n",
   "    <Default Extension=\"webp\" ContentType=\"image/webp\"/>\n",
   "    <Default Extension=\"rels\" ContentType=\"application/vnd.openxmlformats-package.relationships+xml\"/>\n",
   "    <Default Extension=\"xml\" ContentType=\"application/xml\"/>\n",
   "    <Override PartName=\"/word/document.xml\" ContentType=\"application/vnd.openxmlformats-officedocument.wordprocessingml.document.main+xml\"/>\n",
   "    <Override PartName=\"/word/styles.xml\" ContentType=\"application/vnd.openxmlformats-officedocument.wordprocessingml.styles+xml\"/>\n",
   "    <Override PartName=\"/word/fontTable.xml\" ContentType=\"application/vnd.openxmlformats-officedocument.wordprocessingml.fontTable+xml\"/>\n",
   "    <Override PartName=\"/word/theme/theme1.xml\" ContentType=\"application/vnd.openxmlformats-officedocument.theme+xml\"/>\n",
   "    <Override PartName=\"/docProps/core.xml\" ContentType=\"application/vnd.openxmlformats-package.core-properties+xml\"/>\n",
   "    <Override PartName=\"/docProps/app.xml\" ContentType=\"application/vnd.openxmlformats-officedocument.extended-properties+xml\"/>\n",
   "</Types>"]

/-- xml/default/_rels/.rels:1-6, line by line -/
def defaultRootLines : List String :=
  ["<?xml version=\"1.0\" encoding=\"UTF-8\" standalone=\"yes\"?>\n",
   "<Relationships xmlns=\"http://schemas.openxmlformats.org/package/2006/relationships\">\n",
   "    <Relationship Id=\"rId3\" Type=\"http://schemas.openxmlformats.org/officeDocument/2006/relationships/extended-properties\" Target=\"docProps/app.xml\"/>\n",
   "    <Relationship Id=\"rId2\" Type=\"http://schemas.openxmlformats.org/package/2006/relationships/metadata/core-properties\" Target=\"docProps/core.xml\"/>\n",
   "    <Relationship Id=\"rId1\" Type=\"http://schemas.openxmlformats.org/officeDocument/2006/relationships/officeDocument\" Target=\"word/document.xml\"/>\n",
   "</Relationships>"]

/-- `TemplateXMLFS` (fs.go:25-29) as far as the default theme goes: the two files above and the others, whose
contents are left open.  Embedded files can always be read to their end. -/
structure Embedded (fs : FS) : Prop where
  types : fs "xml/default/[Content_Types].xml" = .ok ⟨utf8 (defaultTypesLines.flatMap String.toList), none⟩
  roots : fs "xml/default/_rels/.rels" = .ok ⟨utf8 (defaultRootLines.flatMap String.toList), none⟩
  others : ∀ n ∈ defaultTemplateFiles, ∃ b, fs ("xml/default/" ++ n) = .ok ⟨b, none⟩

end Docx
