import Verif.SpecText

/-!
# Well-formed XML (C92)
-/

namespace Docx

/-- The constraints of XML 1.0 on a sequence of tags and texts.  `st` are the elements that are open, `root`
tells that the root element has been seen.  Names are ordinary ones; no element has an attribute twice
(section 3.1, unique attribute specifications); every end tag matches the last open start tag; there is one
root element, and outside of it nothing but white space and comments; no element is left open; nothing is unreadable. -/
def wellToks : List QName → Bool → List Tok → Prop
  | [], root, [] => root = true
  | _ :: _, _, [] => False
  | st, root, .start q as :: r => nameOk q = true ∧ (∀ a ∈ as, nameOk a.name = true) ∧ (as.map (·.name)).Nodup ∧
      (st = [] → root = false) ∧ wellToks (q :: st) true r
  | [], _, .stop _ :: _ => False
  | q' :: st, root, .stop q :: r => q = q' ∧ wellToks st root r
  | [], root, .chars s :: r => (∀ c ∈ s.toList, c ∈ [' ', '\t', '\n', '\r']) ∧ wellToks [] root r
  | q :: st, root, .chars _ :: r => wellToks (q :: st) root r
  | st, root, .other :: r => wellToks st root r
  | _, _, .bad :: _ => False

end Docx
