import Verif.Lemmas.Forms
import Verif.Props.Pack
import Verif.Props.Content

/-!
# C74: however the XML is written, it is read the same

`Form`, `Forms` and `Rewritten` are in `Verif.SpecForms`.
-/

namespace Docx

set_option linter.unusedSectionVars false

variable [GoEnv]

theorem unpackAll_rewritten (me : DocId) {a a' : Archive} (h : Rewritten a a') : ∀ (f : Doc),
    f.unpackAll me a' = f.unpackAll me a := by
  induction h with
  | nil => intro f; rfl
  | same _ ih =>
    intro f
    rw [Doc.unpackAll, Doc.unpackAll]
    split
    · exact ih _
    · rfl
  | @xml name ns w w' a a' hn h1 h2 _ ih =>
    intro f
    have he : f.unpackEntry me ⟨name, .ok ⟨utf8 w', none⟩⟩ = f.unpackEntry me ⟨name, .ok ⟨utf8 w, none⟩⟩ := by
      have : lex (utf8 w') = lex (utf8 w) := by rw [lex_file h1, lex_file h2]
      unfold Doc.unpackEntry
      rcases hn with rfl | rfl
      · simp only
        have n1 : ¬ ("word/document.xml" = relsName) := by decide
        have n2 : "word/document.xml" = documentName := rfl
        rw [if_neg n1, if_pos n2, if_neg n1, if_pos n2]
        simp only [Doc.parseDocument, Stream.toks, this]
      · simp only
        have n1 : "word/_rels/document.xml.rels" = relsName := rfl
        rw [if_pos n1, if_pos n1]
        simp only [Doc.parseRels, Stream.toks, this]
    rw [Doc.unpackAll, Doc.unpackAll, he]
    split
    · exact ih _
    · rfl

/-- Nothing in reading the entries depends on the file system of the archive. -/
theorem unpackAll_tmplfs (me : DocId) (fs : Option FS) : ∀ (a : Archive) (f : Doc),
    ({ f with tmplfs := fs } : Doc).unpackAll me a =
      ({ (f.unpackAll me a).1 with tmplfs := fs }, (f.unpackAll me a).2) := by
  intro a
  induction a with
  | nil => intro f; rfl
  | cons e a ih =>
    intro f
    have he : ({ f with tmplfs := fs } : Doc).unpackEntry me e =
        ({ (f.unpackEntry me e).1 with tmplfs := fs }, (f.unpackEntry me e).2) := by
      unfold Doc.unpackEntry
      split
      · unfold Doc.parseRels
        cases e.file with
        | error x => rfl
        | ok s =>
          simp only
          split <;> rfl
      split
      · unfold Doc.parseDocument
        cases e.file with
        | error x => rfl
        | ok s => rfl
      split
      · unfold Doc.parseMedia
        cases e.file with
        | error x => rfl
        | ok s =>
          simp only
          split <;> rfl
      · rfl
    rw [Doc.unpackAll, Doc.unpackAll, he]
    rcases f.unpackEntry me e with ⟨f', _ | x⟩
    · exact ih f'
    · rfl

/-- **C74.** If the document or the table of relationships of a package is written in another way (other
quotes, white space in tags, references for characters, empty-element tags, CDATA sections, line ends,
another declaration), opening it gives the same document, or the same error. -/
theorem C74_same (me : DocId) (a a' : Archive) (h : Rewritten a a') :
    (unpack me a').2 = (unpack me a).2 ∧
    ({ (unpack me a').1 with tmplfs := none } : Doc) = { (unpack me a).1 with tmplfs := none } := by
  have h1 := unpackAll_tmplfs me (some (zipFS a')) a { relXmlns := "" }
  have h2 := unpackAll_tmplfs me (some (zipFS a)) a { relXmlns := "" }
  have h3 := unpackAll_rewritten me h { relXmlns := "", tmplfs := some (zipFS a') }
  unfold unpack
  rw [h3, h1, h2]
  rcases ({ relXmlns := "" } : Doc).unpackAll me a with ⟨f, _ | x⟩ <;> exact ⟨rfl, rfl⟩

/-- **C74, content (partial).** However `word/document.xml` is written, what is read from it is the
content of its tree.  Missing: see `C58_content_partial`. -/
theorem C74_content_partial (me : DocId) (pre post : Archive) (f : Doc) (w : List Char) (before after : List Node)
    (q : QName) (as : List Attr) (ks : List Node)
    (hopen : unpack me (pre ++ ⟨"word/document.xml", .ok ⟨utf8 w, none⟩⟩ :: post) = (f, none))
    (hone : "word/document.xml" ∉ pre.map (·.name) ∧ "word/document.xml" ∉ post.map (·.name))
    (hw : Forms (before ++ .elem q as ks :: after) w) (hb : before.all (fun n => !n.isElem) = true)
    (hok : numsOkL ks) (hal : altsOkL ks) :
    f.items.map itemContent = xmlContent lastPiece ks := by
  obtain ⟨k, hk, rfl⟩ := unpack_ok hopen
  obtain ⟨f1, f2, h1, h2, h3⟩ := unpackAll_split hk
  have e1 : f1.items = [] := ((unpackAll_ok h1).2.2.2.2.2.2.2.2.2.2.1 hone.1).1
  have e3 : k.items = f2.items := ((unpackAll_ok h3).2.2.2.2.2.2.2.2.2.2.1 hone.2).1
  show k.items.map itemContent = _
  rw [e3]
  unfold Doc.unpackEntry at h2
  have n1 : ¬ ("word/document.xml" = relsName) := by decide
  have n2 : "word/document.xml" = documentName := rfl
  simp only [if_neg n1, if_pos n2] at h2
  simp only [Doc.parseDocument, Stream.toks, lex_file hw, Prod.mk.injEq, e1] at h2
  obtain ⟨h2, h4⟩ := h2
  have ht : ∀ (ns ms : List Node), toksL (ns ++ ms) = toksL ns ++ toksL ms := by
    intro ns ms
    induction ns with
    | nil => rfl
    | cons n ns ih => rw [List.cons_append, toksL, toksL, ih, List.append_assoc]
  rw [ht, toksL, ← List.append_assoc] at h2 h4
  have := C58_content_partial (some me) [] (toksL before) (toksL after) ?_ q as ks hok hal h4
  · rw [← h2]; exact this
  · clear h2 h4 hw ht
    induction before with
    | nil => intro t h; cases h
    | cons n ns ih =>
      rw [List.all_cons, Bool.and_eq_true] at hb
      intro t h
      rw [toksL] at h
      rcases List.mem_append.1 h with h | h
      · cases n with
        | elem => cases hb.1
        | text s => exact .inr ⟨s, List.mem_singleton.1 h⟩
        | other => exact .inl (List.mem_singleton.1 h)
      · exact ih hb.2 t h

/-! ## What the library writes is one of the ways -/

theorem allowed_xmlChar {c : Char} (h : xmlChar c = true) : Allowed c := by
  have e9 : c.toNat = 9 → c = '\t' := fun h => by rw [← Char.ofNat_toNat c, h]
  have e10 : c.toNat = 10 → c = '\n' := fun h => by rw [← Char.ofNat_toNat c, h]
  have e13 : c.toNat = 13 → c = '\r' := fun h => by rw [← Char.ofNat_toNat c, h]
  simp only [xmlChar, Bool.or_eq_true, beq_iff_eq, Bool.and_eq_true, decide_eq_true_eq] at h
  rcases h with ((((h | h) | h) | h) | h) | h
  · exact .inl (e9 h)
  · exact .inr (.inl (e10 h))
  · exact .inr (.inr (.inl (e13 h)))
  · exact .inr (.inr (.inr (.inl h)))
  · exact .inr (.inr (.inr (.inr (.inl h))))
  · exact .inr (.inr (.inr (.inr (.inr h.1))))

/-- The escaped text is a way to write it. -/
theorem spelled_escape {p : Spot} (hp : p = .between ∨ p = .value '"') : ∀ s : List Char, (∀ c ∈ s, xmlChar c = true) →
    Spelled p s (s.flatMap escChar) := by
  intro s
  induction s with
  | nil => intro _; exact .nil
  | cons c s ih =>
    intro hs
    have ih := ih (fun c hc => hs c (by simp [hc]))
    have ha := allowed_xmlChar (hs c (by simp))
    have hc : p ≠ .cdata := by rcases hp with rfl | rfl <;> simp
    rw [List.flatMap_cons]
    have dig : ∀ (b : Nat) (c : Char) (d : Nat), d < b → "0123456789ABCDEF".toList[d]? = some c → Digit b c d :=
      fun b c d h1 h2 => ⟨h1, .inr h2⟩
    by_cases e1 : c = '"'
    · subst e1
      have r : Reference '"' ("&#".toList ++ (['3'] ++ ['4']) ++ [';']) :=
        .dec (Numeral.more (n := 3) (d := 4) (.one (dig 10 '3' 3 (by decide) rfl)) (dig 10 '4' 4 (by decide) rfl))
      exact .reference hc ha r ih
    by_cases e2 : c = '\''
    · subst e2
      have r : Reference '\'' ("&#".toList ++ (['3'] ++ ['9']) ++ [';']) :=
        .dec (Numeral.more (n := 3) (d := 9) (.one (dig 10 '3' 3 (by decide) rfl)) (dig 10 '9' 9 (by decide) rfl))
      exact .reference hc ha r ih
    by_cases e3 : c = '&'
    · subst e3; exact .reference hc ha .amp ih
    by_cases e4 : c = '<'
    · subst e4; exact .reference hc ha .lt ih
    by_cases e5 : c = '>'
    · subst e5; exact .reference hc ha .gt ih
    by_cases e6 : c = '\t'
    · subst e6; exact .reference hc ha (.hex (.one (dig 16 '9' 9 (by decide) rfl))) ih
    by_cases e7 : c = '\n'
    · subst e7; exact .reference hc ha (.hex (.one (dig 16 'A' 10 (by decide) rfl))) ih
    by_cases e8 : c = '\r'
    · subst e8; exact .reference hc ha (.hex (.one (dig 16 'D' 13 (by decide) rfl))) ih
    have hesc : escChar c = [c] := by
      unfold escChar
      rw [if_neg e1, if_neg e2, if_neg e3, if_neg e4, if_neg e5, if_neg e6, if_neg e7, if_neg e8,
        if_pos (hs c (by simp))]
    rw [hesc]
    refine .self ha e8 ?_ ih
    rcases hp with rfl | rfl
    · exact ⟨e4, e3⟩
    · exact ⟨e4, e3, e1⟩

theorem attrForms_chars : ∀ as : List Attr, (∀ a ∈ as, nameOk a.name = true) → (∀ a ∈ as, xmlText a.val) →
    AttrForms as (as.flatMap Attr.chars) := by
  intro as
  induction as with
  | nil => intro _ _; exact .nil
  | cons a as ih =>
    intro h1 h2
    have := AttrForms.cons (b := [' ']) (b1 := []) (b2 := []) (h1 a (by simp)) (by simp)
      (by intro c hc; exact .inl (List.mem_singleton.1 hc)) (by intro c hc; cases hc) (by intro c hc; cases hc)
      (.inl rfl) (spelled_escape (.inr rfl) a.val.toList (h2 a (by simp)))
      (ih (fun a ha => h1 a (by simp [ha])) (fun a ha => h2 a (by simp [ha])))
    rw [List.flatMap_cons]
    simpa [Attr.chars, escape] using this

theorem escape_without (s : String) : Without "]]>" (escape s) := by
  intro a b he
  have : ∀ c ∈ escape s, c ≠ '>' := fun c hc => (C48_no_markup s c hc).2.1
  exact this '>' (by rw [he]; simp) rfl

mutual
theorem form_chars : ∀ n : Node, n.printable = true → n.isText = false → (∀ s ∈ n.strings, xmlText s) → Form n n.chars
  | .elem q as kids, h, _, hs => by
    simp only [Node.printable, Bool.and_eq_true, List.all_eq_true] at h
    obtain ⟨⟨hq, ha⟩, hk⟩ := h
    simp only [Node.strings, List.mem_append, List.mem_map] at hs
    have := Form.elem (b := []) (b' := []) hq (attrForms_chars as ha fun a h => hs _ (.inl ⟨a, h, rfl⟩))
      (by intro c hc; cases hc) (forms_chars kids hk fun s h => hs s (.inr h)) (by intro c hc; cases hc)
    simpa [Node.chars] using this
  | .text _, _, h, _ => by cases h
  | .other, h, _, _ => by cases h
theorem forms_chars : ∀ ns : List Node, printableL ns = true → (∀ s ∈ stringsL ns, xmlText s) → Forms ns (charsL ns)
  | [], _, _ => .nil
  | n :: ns, h, hs => by
    simp only [printableL, Bool.and_eq_true] at h
    obtain ⟨⟨h1, h2⟩, h3⟩ := h
    simp only [stringsL, List.mem_append] at hs
    have ih := forms_chars ns h3 fun s h => hs s (.inr h)
    cases n with
    | elem q as kids => exact .cons (form_chars _ h1 rfl fun s h => hs s (.inl h)) ih
    | other => cases h1
    | text s =>
      refine .text (spelled_escape (.inl rfl) s.toList (hs s (.inl (by simp [Node.strings])))) ?_ (escape_without s) ?_ ih
      · simp only [Node.printable, bne_iff_ne, ne_eq] at h1
        cases hl : s.toList with
        | nil =>
          have := String.ofList_toList (s := s)
          rw [hl] at this
          exact absurd this.symm h1
        | cons c cs =>
          intro he
          rw [Node.chars, escape, hl, List.flatMap_cons] at he
          have : escChar c = [] := (List.append_eq_nil_iff.1 he).1
          unfold escChar at this
          revert this
          repeat' split
          all_goals first | decide | (intro h; cases h)
      · cases ns with
        | nil => exact .inl rfl
        | cons m ns =>
          cases m with
          | elem q as kids => exact .inr (by simp [charsL, Node.chars])
          | text s => cases h2
          | other => simp [printableL, Node.printable] at h3
end

/-- The declaration that the library writes -/
theorem misc_header : Misc "<?xml version=\"1.0\" encoding=\"UTF-8\"?>".toList := by
  have := Misc.declaration (b := [' ']) (b' := []) (w := " encoding=\"UTF-8\"".toList) (w' := []) (quote := '"')
    (by simp) (by intro c hc; exact .inl (List.mem_singleton.1 hc)) (.inl rfl)
    (.some (b := [' ']) (v := "UTF-8".toList) (quote := '"') (by simp)
      (by intro c hc; exact .inl (List.mem_singleton.1 hc)) (by unfold Utf8Name; decide) (.inl rfl))
    .none (by intro c hc; cases hc)
  exact this

/-- **C74, saved files.** What the library saves is one of the ways to write the declaration, a line break
and the tree of the document. -/
theorem C74_saved (n : Node) (hn : n.isElem = true) (hp : n.printable = true) (hs : ∀ s ∈ n.strings, xmlText s) :
    ∃ w, xmlBytes n = utf8 w ∧ Forms [.other, .text "\n", n] w := by
  refine ⟨_, rfl, ?_⟩
  have ht : n.isText = false := by cases n <;> first | rfl | cases hn
  have h1 : Forms [n] (n.chars ++ []) := .cons (form_chars n hp ht hs) .nil
  have h2 : Forms [.text "\n", n] ("\n".toList ++ (n.chars ++ [])) :=
    .text (.self (.inr (.inl rfl)) (by decide) ⟨by decide, by decide⟩ .nil) (by decide) (by
      intro a b h
      have := congrArg List.length h
      simp at this
      omega) (.inr (by
        obtain ⟨l, hl⟩ := form_cons (form_chars n hp ht hs)
        rw [hl]; rfl)) h1
  have h3 := Forms.cons (.misc misc_header) h2
  rw [List.append_nil] at h3
  have hh : xmlHeader.toList = "<?xml version=\"1.0\" encoding=\"UTF-8\"?>".toList ++ "\n".toList := by decide
  rw [hh, List.append_assoc]
  exact h3

/-- **C74, saved files.** So both parts of a saved package that the library reads again may be rewritten: -/
theorem C74_parts (f : Doc) (hr : GoodRels f) (hi : ∀ s ∈ (mDocument f.items).strings, xmlText s) :
    (∃ w, xmlBytes (mDocument f.items) = utf8 w ∧ Forms [.other, .text "\n", mDocument f.items] w) ∧
    (∃ w, xmlBytes (mRels f.relXmlns f.rels) = utf8 w ∧ Forms [.other, .text "\n", mRels f.relXmlns f.rels] w) := by
  refine ⟨C74_saved _ rfl (pok_mDocument f.items).1 hi, C74_saved _ rfl (pok_mRels f.relXmlns f.rels).1 ?_⟩
  exact mRels_strings hr.1 fun r hm => ⟨goodId_xmlText (hr.2 r hm).1, (hr.2 r hm).2⟩

/-- **C74, saved files.** If another program writes the XML of a saved package in its own way, the package
is still read back as C50 says. -/
theorem C74_restored (f : Doc) (out : Saved) (h : Saves f out none) (me : DocId) (hr : GoodRels f)
    (hi : ∀ s ∈ (mDocument f.items).strings, xmlText s) (ht : ∀ n ∈ f.tmpfslst, isMediaName n = false)
    (a : Archive) (ha : Rewritten (reread out) a) :
    ∃ g, unpack me a = (g, none) ∧ g.rels = f.rels ∧ g.relXmlns = f.relXmlns ∧
      (∀ n, g.getMedia n = .ok (lastMedia n f.media)) ∧
      (∀ n, n ∈ g.tmpfslst ↔ n ∈ f.tmpfslst ∧ isOtherName n = true) ∧ g.tmpfslst.Nodup ∧
      g.items = normBody (some me) f.items := by
  obtain ⟨g, h0, h1, h2, h3, h4, h5, h6⟩ := C50_restored f out h me hr hi ht
  obtain ⟨e1, e2⟩ := C74_same me _ a ha
  rw [h0] at e1 e2
  refine ⟨(unpack me a).1, Prod.ext rfl e1, ?_⟩
  simp only [Doc.mk.injEq] at e2
  refine ⟨?_, ?_, fun n => ?_, ?_, ?_, ?_⟩
  · rw [e2.2.1]; exact h1
  · rw [e2.2.2.2.2.2.2.2.2.2.2.2]; exact h2
  · have := h3 n
    unfold Doc.getMedia at this ⊢
    rw [e2.2.2.1, e2.2.2.2.1]; exact this
  · rw [e2.2.2.2.2.2.2.2.2.2.2.1]; exact h4
  · rw [e2.2.2.2.2.2.2.2.2.2.2.1]; exact h5
  · rw [e2.1]; exact h6

/-- **C74, a limit.** Text before a CDATA section is one text with it in XML; here only the section is
read. -/
theorem C74_section_cut (me : DocId) (a b : String) (w : List Char)
    (hw : Forms [docWith [pWith [rWith [tWith [.text a, .text b]]]]] w) :
    ∃ g, unpack me [⟨"word/document.xml", .ok ⟨utf8 w, none⟩⟩] = (g, none) ∧
      g.items.map itemContent = [.para { parts := [.run { pieces := [.text b] }] }] := by
  have h := C46_last (some me) [.text a, .text b]
  have e : (docWith [pWith [rWith [tWith [.text a, .text b]]]]).toks =
    toksL [docWith [pWith [rWith [tWith [.text a, .text b]]]]] := by simp [toksL]
  rw [e, ← lex_file hw] at h
  have n1 : ¬ ("word/document.xml" = relsName) := by decide
  have n2 : "word/document.xml" = documentName := rfl
  simp only [unpack, Doc.unpackAll, Doc.unpackEntry, if_neg n1, if_pos n2, Doc.parseDocument, Stream.toks]
  rw [h.1]
  exact ⟨_, rfl, h.2⟩

/-! ## Examples -/

/-- A way to write `[.other, .text "\n", <w:p><w:t x="a>b">1 < 2</w:t><w:br></w:br></w:p>]` -/
def oddly : List Char :=
  "<?xml version='1.0' standalone='yes' ?>\r\n<w:p\n><w:t\tx = 'a>&#x62;'>1 &lt; &#0050;</w:t ><w:br /></w:p>".toList

/-- Another one -/
def otherwise' : List Char :=
  "<!DOCTYPE p [<!ENTITY e '>'>]>\n<w:p><w:t x=\"a&gt;b\"><![CDATA[1 < 2]]></w:t><w:br></w:br></w:p>".toList

/-- What both stand for -/
def bothMean : List Node :=
  [.other, .text "\n", .elem ⟨"w", "p"⟩ [] [.elem ⟨"w", "t"⟩ [⟨⟨"", "x"⟩, "a>b"⟩] [.text "1 < 2"],
    .elem ⟨"w", "br"⟩ [] []]]

theorem self_spelled (p : Spot) : ∀ (cs : List Char), (∀ c ∈ cs, 0x20 ≤ c.toNat ∧ c.toNat ≤ 0x7F ∧ p.takes c) →
    ∀ {s w}, Spelled p s w → Spelled p (cs ++ s) (cs ++ w)
  | [], _, _, _, h => h
  | c :: cs, hc, s, w, h => by
    obtain ⟨h1, h2, h3⟩ := hc c (by simp)
    refine .self (.inr (.inr (.inr (.inl ⟨h1, by omega⟩)))) ?_ h3 (self_spelled p cs (fun c h => hc c (by simp [h])) h)
    intro e; rw [e] at h1; exact absurd h1 (by decide)

theorem oddly_ok : Forms bothMean oddly := by
  have blank1 : ∀ c : Char, c = ' ' ∨ c = '\t' ∨ c = '\n' ∨ c = '\r' → Blank [c] := by
    intro c h d hd; rw [List.mem_singleton.1 hd]; exact h
  have none : Blank [] := by intro c hc; cases hc
  have dig : ∀ (b : Nat) (c : Char) (d : Nat), d < b → "0123456789ABCDEF".toList[d]? = some c → Digit b c d :=
    fun b c d h1 h2 => ⟨h1, .inr h2⟩
  have head : Misc "<?xml version='1.0' standalone='yes' ?>".toList :=
    Misc.declaration (b := [' ']) (b' := [' ']) (w := []) (w' := " standalone='yes'".toList) (quote := '\'')
      (by simp) (blank1 _ (.inl rfl)) (.inr rfl) .none
      (.some (b := [' ']) (v := "yes".toList) (quote := '\'') (by simp) (blank1 _ (.inl rfl)) (.inl rfl) (.inr rfl))
      (blank1 _ (.inl rfl))
  have val : Spelled (.value '\'') "a>b".toList "a>&#x62;".toList := by
    have r : Reference 'b' ("&#x".toList ++ (['6'] ++ ['2']) ++ [';']) :=
      .hex (Numeral.more (n := 6) (d := 2) (.one (dig 16 '6' 6 (by decide) rfl)) (dig 16 '2' 2 (by decide) rfl))
    exact self_spelled _ ['a', '>'] (by simp [Spot.takes]) (.reference (by simp) (allowed_xmlChar rfl) r .nil)
  have txt : Spelled .between "1 < 2".toList "1 &lt; &#0050;".toList := by
    have r : Reference '2' ("&#".toList ++ ([('0' : Char)] ++ ['0'] ++ ['5'] ++ ['0']) ++ [';']) :=
      .dec (Numeral.more (n := 5) (d := 0) (.more (n := 0) (d := 5) (.more (n := 0) (d := 0)
        (.one (dig 10 '0' 0 (by decide) rfl)) (dig 10 '0' 0 (by decide) rfl)) (dig 10 '5' 5 (by decide) rfl))
        (dig 10 '0' 0 (by decide) rfl))
    exact self_spelled _ ['1', ' '] (by simp [Spot.takes]) (.reference (by simp) (allowed_xmlChar rfl) .lt
      (self_spelled _ [' '] (by simp [Spot.takes]) (.reference (by simp) (allowed_xmlChar rfl) r .nil)))
  have kids : Forms [.text "1 < 2"] ("1 &lt; &#0050;".toList ++ []) :=
    .text txt (by decide) (by
      intro a b h
      have h1 : '>' ∉ "1 &lt; &#0050;".toList := by decide
      exact h1 (by rw [h]; simp)) (.inl rfl) .nil
  have t : Form (.elem ⟨"w", "t"⟩ [⟨⟨"", "x"⟩, "a>b"⟩] [.text "1 < 2"])
      "<w:t\tx = 'a>&#x62;'>1 &lt; &#0050;</w:t >".toList :=
    .elem (b := []) (b' := [' ']) (by decide) (.cons (a := ⟨⟨"", "x"⟩, "a>b"⟩) (b := ['\t']) (b1 := [' ']) (b2 := [' '])
      (by decide) (by simp) (blank1 _ (.inr (.inl rfl))) (blank1 _ (.inl rfl)) (blank1 _ (.inl rfl)) (.inr rfl) val .nil)
      none kids (blank1 _ (.inl rfl))
  have br : Form (.elem ⟨"w", "br"⟩ [] []) "<w:br />".toList :=
    .empty (b := [' ']) (by decide) .nil (blank1 _ (.inl rfl))
  have p : Form (.elem ⟨"w", "p"⟩ [] [.elem ⟨"w", "t"⟩ [⟨⟨"", "x"⟩, "a>b"⟩] [.text "1 < 2"], .elem ⟨"w", "br"⟩ [] []])
      "<w:p\n><w:t\tx = 'a>&#x62;'>1 &lt; &#0050;</w:t ><w:br /></w:p>".toList :=
    .elem (b := ['\n']) (b' := []) (by decide) .nil (blank1 _ (.inr (.inr (.inl rfl))))
      (.cons t (.cons br .nil)) none
  have nl : Spelled .between "\n".toList ['\r', '\n'] := .crlf .nil
  exact .cons (.misc head) (.text nl (by simp) (by
    intro a b h
    have := congrArg List.length h
    simp at this
    omega) (.inr rfl) (.cons p .nil))

theorem otherwise_ok : Forms bothMean otherwise' := by
  have none : Blank [] := by intro c hc; cases hc
  have plain : ∀ (cs : List Char), (∀ c ∈ cs, c ≠ '<' ∧ c ≠ '>' ∧ c ≠ '"' ∧ c ≠ '\'') → ∀ {w}, TypeDecl w →
      TypeDecl (cs ++ w) := by
    intro cs
    induction cs with
    | nil => intro _ w h; exact h
    | cons c cs ih =>
      intro hc w h
      obtain ⟨h1, h2, h3, h4⟩ := hc c (by simp)
      exact .char h1 h2 h3 h4 (ih (fun c h => hc c (by simp [h])) h)
  have decl : Misc "<!DOCTYPE p [<!ENTITY e '>'>]>".toList :=
    .documentType (plain " p [".toList (by decide) (.declaration (v := "!ENTITY e '>'".toList) (by
      intro r h
      rw [show "!ENTITY e '>'".toList = '!' :: 'E' :: "NTITY e '>'".toList from rfl,
        show "!--".toList = ['!', '-', '-'] from rfl] at h
      injection h with _ h
      injection h with h _
      exact absurd h (by decide))
      (plain "!ENTITY e ".toList (by decide) (.quoted (quote := '\'') (v := ['>']) (.inr rfl) (by simp) .nil))
      (plain [']'] (by decide) .nil)))
  have val : Spelled (.value '"') "a>b".toList "a&gt;b".toList :=
    self_spelled _ ['a'] (by simp [Spot.takes]) (.reference (by simp) (allowed_xmlChar rfl) .gt
      (self_spelled _ ['b'] (by simp [Spot.takes]) .nil))
  have txt : Spelled .cdata "1 < 2".toList "1 < 2".toList :=
    self_spelled _ "1 < 2".toList (by simp [Spot.takes]) .nil
  have sec : Form (.text "1 < 2") "<![CDATA[1 < 2]]>".toList := .cdata txt (by
    intro a b h
    have h1 : '>' ∉ "1 < 2".toList := by decide
    exact h1 (by rw [h]; simp))
  have t : Form (.elem ⟨"w", "t"⟩ [⟨⟨"", "x"⟩, "a>b"⟩] [.text "1 < 2"])
      "<w:t x=\"a&gt;b\"><![CDATA[1 < 2]]></w:t>".toList :=
    .elem (b := []) (b' := []) (by decide) (.cons (a := ⟨⟨"", "x"⟩, "a>b"⟩) (b := [' ']) (b1 := []) (b2 := [])
      (by decide) (by simp) (by intro c hc; exact .inl (List.mem_singleton.1 hc)) none none (.inl rfl) val .nil)
      none (.cons sec .nil) none
  have br : Form (.elem ⟨"w", "br"⟩ [] []) "<w:br></w:br>".toList :=
    .elem (b := []) (b' := []) (by decide) .nil none .nil none
  have p : Form (.elem ⟨"w", "p"⟩ [] [.elem ⟨"w", "t"⟩ [⟨⟨"", "x"⟩, "a>b"⟩] [.text "1 < 2"], .elem ⟨"w", "br"⟩ [] []])
      "<w:p><w:t x=\"a&gt;b\"><![CDATA[1 < 2]]></w:t><w:br></w:br></w:p>".toList :=
    .elem (b := []) (b' := []) (by decide) .nil none (.cons t (.cons br .nil)) none
  have nl : Spelled .between "\n".toList ['\n'] :=
    .self (.inr (.inl rfl)) (by decide) ⟨by decide, by decide⟩ .nil
  exact .cons (.misc decl) (.text nl (by simp) (by
    intro a b h
    have := congrArg List.length h
    simp at this
    omega) (.inr rfl) (.cons p .nil))

/-- `C74_same` applies to a package with these two. -/
example : Rewritten [⟨"x", .ok ⟨[1], none⟩⟩, ⟨"word/document.xml", .ok ⟨utf8 oddly, none⟩⟩]
    [⟨"x", .ok ⟨[1], none⟩⟩, ⟨"word/document.xml", .ok ⟨utf8 otherwise', none⟩⟩] ∧ oddly ≠ otherwise' :=
  ⟨.same (.xml (.inl rfl) oddly_ok otherwise_ok .nil), by decide⟩

/-- `C74_saved`, `C74_parts` and `C74_restored` apply to a document with text, a link and media. -/
example : ∃ (f : Doc) (out : Saved) (a : Archive), Saves f out none ∧ GoodRels f ∧
    (∀ s ∈ (mDocument f.items).strings, xmlText s) ∧ (∀ n ∈ f.tmpfslst, isMediaName n = false) ∧
    Rewritten (reread out) a ∧ f.items ≠ [] := by
  obtain ⟨h1, h2, h3, out, h4, _⟩ := c50doc_ok
  refine ⟨c50doc, out, reread out, h4, h1, h2, h3, ?_, by decide⟩
  generalize reread out = a
  induction a with
  | nil => exact .nil
  | cons e a ih => exact .same ih

/-- For the examples below: `<w:t>a<![CDATA[b]]></w:t>` -/
theorem section_forms : ∃ w, Forms [docWith [pWith [rWith [tWith [.text "a", .text "b"]]]]] w := by
  have none : Blank [] := by intro c hc; cases hc
  have one : ∀ c : Char, 0x20 ≤ c.toNat ∧ c.toNat ≤ 0x7F → ∀ p : Spot, p.takes c → Spelled p [c] [c] :=
    fun c h p hp => self_spelled p [c] (by intro d hd; rw [List.mem_singleton.1 hd]; exact ⟨h.1, h.2, hp⟩) .nil
  have short : ∀ c : Char, Without "]]>" [c] := by
    intro c a b h
    have := congrArg List.length h
    simp at this
    omega
  have wrap : ∀ {q ns w}, nameOk q = true → Forms ns w → ∃ w', Forms [.elem q [] ns] w' := fun h h' =>
    ⟨_, .cons (.elem h .nil none h' none) .nil⟩
  obtain ⟨_, h⟩ := wrap (q := ⟨"w", "t"⟩) (by decide)
    (.text (s := "a") (one 'a' (by decide) .between ⟨by decide, by decide⟩) (by simp) (short 'a') (.inr rfl)
      (.cons (.cdata (s := "b") (one 'b' (by decide) .cdata trivial) (short 'b')) .nil))
  obtain ⟨_, h⟩ := wrap (q := ⟨"w", "r"⟩) (by decide) h
  obtain ⟨_, h⟩ := wrap (q := ⟨"w", "p"⟩) (by decide) h
  obtain ⟨_, h⟩ := wrap (q := ⟨"w", "body"⟩) (by decide) h
  exact wrap (q := ⟨"w", "document"⟩) (by decide) h

/-- `C74_section_cut` and `C74_content_partial` apply to it. -/
example (me : DocId) : ∃ f w, Forms [docWith [pWith [rWith [tWith [.text "a", .text "b"]]]]] w ∧
    unpack me ([] ++ ⟨"word/document.xml", .ok ⟨utf8 w, none⟩⟩ :: []) = (f, none) ∧
    numsOkL [.elem ⟨"w", "body"⟩ [] [pWith [rWith [tWith [.text "a", .text "b"]]]]] ∧
    altsOkL [.elem ⟨"w", "body"⟩ [] [pWith [rWith [tWith [.text "a", .text "b"]]]]] := by
  obtain ⟨w, hw⟩ := section_forms
  obtain ⟨g, hg, _⟩ := C74_section_cut me "a" "b" w hw
  exact ⟨g, w, hw, hg, by simp [numsOkL, numsOk, attrsOk, pWith, rWith, tWith], by simp [altsOkL, altsOk, pWith, rWith, tWith]⟩

end Docx
