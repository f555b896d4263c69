import Verif.SpecCut
import Verif.Lemmas.Cut
import Verif.Lemmas.CutLex
import Verif.Lemmas.CutRels
import Verif.Props.Forms

/-!
# Parts that are cut short, unreadable or foreign (C75, C76)
-/

namespace Docx

set_option linter.unusedSectionVars false

variable [GoEnv]

/-! ## What was read of a part that is cut short -/

theorem stop_prefix {c r P T : List Tok} {q : QName} (h : c ++ [.stop q] ++ r = P ++ T) (hT : ∀ q, .stop q ∉ T) :
    ∃ P', P = c ++ [.stop q] ++ P' := by
  rcases List.append_eq_append_iff.mp h with ⟨a, e, _⟩ | ⟨a, e, _⟩
  · exact ⟨a, e⟩
  · rcases List.eq_nil_or_concat a with rfl | ⟨a', t, rfl⟩
    · exact ⟨[], by rw [List.append_nil] at e ⊢; exact e.symm⟩
    · exfalso
      rw [List.concat_eq_append, ← List.append_assoc] at e
      have := List.append_inj_right' e rfl
      injection this with this
      subst this
      rename_i hT'
      subst hT'
      exact hT q (by simp)

theorem toks_cut (bs more : Bytes) (err : Option Err) :
    ∃ P T U, (⟨bs, err⟩ : Stream).toks = P ++ T ∧ (∀ q, .stop q ∉ T) ∧
      (⟨bs ++ more, none⟩ : Stream).toks = P ++ U ∧ (more ≠ [] → U ≠ []) := by
  obtain ⟨P, T, U, h1, h2, h3, h4⟩ := lex_cut bs more
  have hT : ∀ q, Tok.stop q ∉ T := by
    intro q hq
    rcases h2 with rfl | rfl | ⟨s, rfl⟩ <;> simp at hq
  cases err with
  | none => exact ⟨P, T, U, h1, hT, h3, h4⟩
  | some x =>
    refine ⟨P, T ++ [.bad], U, ?_, ?_, h3, h4⟩
    · show lex bs ++ [.bad] = _
      rw [h1, List.append_assoc]
    · intro q hq
      rcases List.mem_append.1 hq with hq | hq
      · exact hT q hq
      · simp at hq

/-- If the document part is read from its beginning, all of it reads the same; if all of it was needed, nothing is
missing. -/
theorem decodeDocument_cut (file : Option DocId) (s : List BItem) (bs more : Bytes) (err : Option Err)
    (h : (decodeDocument file s (⟨bs, err⟩ : Stream).toks).err = none) :
    (decodeDocument file s (⟨bs ++ more, none⟩ : Stream).toks).val = (decodeDocument file s (⟨bs, err⟩ : Stream).toks).val ∧
    (decodeDocument file s (⟨bs ++ more, none⟩ : Stream).toks).err = none ∧
    (more ≠ [] → (decodeDocument file s (⟨bs ++ more, none⟩ : Stream).toks).dec.rest ≠ []) := by
  obtain ⟨P, T, U, h1, h2, h3, h4⟩ := toks_cut bs more err
  obtain ⟨c, q, c1, c2⟩ := decodeDocument_local file s _ h
  obtain ⟨P', rfl⟩ := stop_prefix (c1.symm.trans h1) h2
  rw [h3, List.append_assoc]
  obtain ⟨d1, d2, d3⟩ := c2 (P' ++ U)
  refine ⟨d1, d2, fun hm => ?_⟩
  rw [d3]
  intro e
  exact h4 hm (List.append_eq_nil_iff.mp e).2

theorem decodeRels_cut (x : String) (s : List Rel) (bs more : Bytes) (err : Option Err)
    (h : (decodeRels x s (⟨bs, err⟩ : Stream).toks).err = none) :
    (decodeRels x s (⟨bs ++ more, none⟩ : Stream).toks).val = (decodeRels x s (⟨bs, err⟩ : Stream).toks).val ∧
    (decodeRels x s (⟨bs ++ more, none⟩ : Stream).toks).err = none ∧
    (more ≠ [] → (decodeRels x s (⟨bs ++ more, none⟩ : Stream).toks).dec.rest ≠ []) := by
  obtain ⟨P, T, U, h1, h2, h3, h4⟩ := toks_cut bs more err
  obtain ⟨c, q, c1, c2⟩ := decodeRels_local x s _ h
  obtain ⟨P', rfl⟩ := stop_prefix (c1.symm.trans h1) h2
  rw [h3, List.append_assoc]
  obtain ⟨d1, d2, d3⟩ := c2 (P' ++ U)
  refine ⟨d1, d2, fun hm => ?_⟩
  rw [d3]
  intro e
  exact h4 hm (List.append_eq_nil_iff.mp e).2

theorem documentEntry (f : Doc) (me : DocId) (s : Except Err Stream) :
    f.unpackEntry me ⟨"word/document.xml", s⟩ = f.parseDocument me ⟨"word/document.xml", s⟩ := by
  unfold Doc.unpackEntry
  have n1 : ¬ ("word/document.xml" = relsName) := by decide
  have n2 : "word/document.xml" = documentName := rfl
  simp only
  rw [if_neg n1, if_pos n2]

theorem relsEntry (f : Doc) (me : DocId) (s : Except Err Stream) :
    f.unpackEntry me ⟨"word/_rels/document.xml.rels", s⟩ = f.parseRels ⟨"word/_rels/document.xml.rels", s⟩ := by
  unfold Doc.unpackEntry
  have n1 : "word/_rels/document.xml.rels" = relsName := rfl
  simp only
  rw [if_pos n1]

theorem unpackEntry_cut (me : DocId) {name : String} (hn : ReadPart name) (bs more : Bytes) (err : Option Err) (f g : Doc)
    (h : f.unpackEntry me ⟨name, .ok ⟨bs, err⟩⟩ = (g, none)) :
    f.unpackEntry me ⟨name, .ok ⟨bs ++ more, none⟩⟩ = (g, none) := by
  rcases hn with rfl | rfl
  · rw [documentEntry] at h ⊢
    simp only [Doc.parseDocument, Prod.mk.injEq] at h ⊢
    obtain ⟨e1, e2, _⟩ := decodeDocument_cut (some me) f.items bs more err h.2
    rw [e1, e2]
    exact ⟨h.1, rfl⟩
  · rw [relsEntry] at h ⊢
    simp only [Doc.parseRels] at h ⊢
    rcases hd : decodeRels xmlnsR f.rels (⟨bs, err⟩ : Stream).toks with ⟨⟨x, rs⟩, _ | e, d⟩
    · obtain ⟨e1, e2, _⟩ := decodeRels_cut xmlnsR f.rels bs more err (by rw [hd])
      rw [hd] at h e1
      rcases hd' : decodeRels xmlnsR f.rels (⟨bs ++ more, none⟩ : Stream).toks with ⟨⟨x', rs'⟩, _ | e, d'⟩
      · rw [hd'] at e1
        simp only [Prod.mk.injEq] at e1
        obtain ⟨rfl, rfl⟩ := e1
        exact h
      · rw [hd'] at e2
        cases e2
    · rw [hd] at h
      cases h

theorem unpackAll_cut (me : DocId) {a a' : Archive} (h : CutShort a a') : ∀ (f g : Doc),
    f.unpackAll me a = (g, none) → f.unpackAll me a' = (g, none) := by
  induction h with
  | nil => intro f g h; exact h
  | @same e a a' _ ih =>
    intro f g h
    rw [Doc.unpackAll] at h ⊢
    split at h
    · exact ih _ _ h
    · cases h
  | @cut name bs more err a a' hn _ ih =>
    intro f g h
    rw [Doc.unpackAll] at h ⊢
    rcases he : f.unpackEntry me ⟨name, .ok ⟨bs, err⟩⟩ with ⟨f', _ | x⟩
    · rw [he] at h
      rw [unpackEntry_cut me hn bs more err f f' he]
      exact ih _ _ h
    · rw [he] at h
      cases h

/-- **C75.** A package in which the document or the table of relationships is cut short (or in which its reading
breaks off) is either reported, or read as the same document as the whole package. -/
theorem C75_same (me : DocId) (a a' : Archive) (h : CutShort a a') (hok : (unpack me a).2 = none) :
    (unpack me a').2 = none ∧
    ({ (unpack me a').1 with tmplfs := none } : Doc) = { (unpack me a).1 with tmplfs := none } := by
  have h1 := unpackAll_tmplfs me (some (zipFS a)) a { relXmlns := "" }
  have h2 := unpackAll_tmplfs me (some (zipFS a')) a' { relXmlns := "" }
  unfold unpack at hok ⊢
  rw [h1] at hok ⊢
  rw [h2]
  rcases hu : ({ relXmlns := "" } : Doc).unpackAll me a with ⟨f, _ | x⟩
  · rw [unpackAll_cut me h _ _ hu]
    exact ⟨rfl, rfl⟩
  · rw [hu] at hok
    cases hok

/-! ## All of the root element is needed -/

theorem decode_all (file : Option DocId) (s : List BItem) (pre post : List Tok)
    (hp : ∀ t ∈ pre, t = .other ∨ ∃ c, t = .chars c) (q : QName) (as : List Attr) (ks : List Node)
    (hok : numsOkL ks) (he : (decodeDocument file s (pre ++ (Node.elem q as ks).toks ++ post)).err = none) :
    (decodeDocument file s (pre ++ (Node.elem q as ks).toks ++ post)).dec.rest = post := by
  unfold decodeDocument at he ⊢
  generalize (pre ++ (Node.elem q as ks).toks ++ post).length + 1 = k at he ⊢
  generalize hk : k = j at he ⊢
  clear hk
  have key : ∀ n, (rootN (fun _ => decodeElement (unDocument (decs j) file s)) s n
      ⟨pre ++ (Node.elem q as ks).toks ++ post, [], false⟩).err = none →
      (rootN (fun _ => decodeElement (unDocument (decs j) file s)) s n
      ⟨pre ++ (Node.elem q as ks).toks ++ post, [], false⟩).dec.rest = post := by
    clear he
    induction pre with
    | nil =>
      intro n he
      cases n with
      | zero => cases he
      | succ n =>
        have ht : Dec.token ⟨[] ++ (Node.elem q as ks).toks ++ post, [], false⟩ =
            (.ok (.start q as), ⟨toksL ks ++ .stop q :: post, [.elem q], false⟩) := by
          simp only [toks_elem, List.cons_append, List.nil_append, List.append_assoc]
          rfl
        rw [rootN, ht] at he ⊢
        simp only at he ⊢
        have hf := unDocument_fine (decs_fine j) file s [(ks, q)] post [] (.cons hok .nil)
        rw [inCtx_one] at hf
        unfold decodeElement at he ⊢
        simp only [show Dec.pushEOF ⟨toksL ks ++ .stop q :: post, [.elem q], false⟩ =
          ⟨toksL ks ++ .stop q :: post, [.elem q, .mark], false⟩ from rfl] at he ⊢
        rcases ho : unDocument (decs j) file s ⟨toksL ks ++ .stop q :: post, [.elem q, .mark], false⟩ with ⟨v, _ | e, d⟩
        · rw [ho] at he hf
          obtain ⟨c, _, hc⟩ := hf.inside rfl
          simp only at hc
          subst hc
          cases c with
          | nil => rfl
          | cons x c =>
            simp [inCtx, ctxStk, Dec.popEOF] at he
        · rw [ho] at he
          simp at he
    | cons t pre ih =>
      intro n he
      cases n with
      | zero => cases he
      | succ n =>
        have ih' := ih (fun t ht => hp t (List.mem_cons_of_mem _ ht)) n
        rcases hp t (List.mem_cons_self ..) with rfl | ⟨c, rfl⟩
        · rw [rootN] at he ⊢
          exact ih' he
        · rw [rootN] at he ⊢
          exact ih' he
  exact key _ he

theorem toksL_app (ns ms : List Node) : toksL (ns ++ ms) = toksL ns ++ toksL ms := by
  induction ns with
  | nil => rfl
  | cons n ns ih => rw [List.cons_append, toksL, toksL, ih, List.append_assoc]

theorem before_toks {before : List Node} (hb : before.all (fun n => !n.isElem) = true) :
    ∀ t ∈ toksL before, t = .other ∨ ∃ c, t = .chars c := by
  induction before with
  | nil => intro t h; cases h
  | cons n ns ih =>
    rw [List.all_cons, Bool.and_eq_true] at hb
    intro t h
    rw [toksL] at h
    rcases List.mem_append.1 h with h | h
    · cases n with
      | elem => cases hb.1
      | text s => exact .inr ⟨s, by simpa [Node.toks] using h⟩
      | other => exact .inl (by simpa [Node.toks] using h)
    · exact ih hb.2 t h

/-- **C75, documents.** If `word/document.xml` breaks off anywhere before the end of its root element, opening the
package reports an error.  (Numbers that cannot be read are the exception, see `C44`.) -/
theorem C75_reported (me : DocId) (pre post : Archive) (w : List Char) (bs more : Bytes) (err : Option Err)
    (before : List Node) (q : QName) (as : List Attr) (ks : List Node)
    (hw : Forms (before ++ [.elem q as ks]) w) (hb : before.all (fun n => !n.isElem) = true) (hok : numsOkL ks)
    (hcut : utf8 w = bs ++ more) (hmore : more ≠ []) :
    (unpack me (pre ++ ⟨"word/document.xml", .ok ⟨bs, err⟩⟩ :: post)).2 ≠ none := by
  intro h
  obtain ⟨k, hk, _⟩ := unpack_ok (f := (unpack me (pre ++ ⟨"word/document.xml", .ok ⟨bs, err⟩⟩ :: post)).1)
    (Prod.ext rfl h)
  obtain ⟨f1, f2, _, h2, _⟩ := unpackAll_split hk
  rw [documentEntry] at h2
  simp only [Doc.parseDocument, Prod.mk.injEq] at h2
  obtain ⟨_, e2, e3⟩ := decodeDocument_cut (some me) f1.items bs more err h2.2
  refine e3 hmore ?_
  rw [← hcut] at e2 ⊢
  simp only [Stream.toks, lex_file hw, toksL_app] at e2 ⊢
  have ht : toksL [Node.elem q as ks] = (Node.elem q as ks).toks ++ [] := rfl
  rw [ht, ← List.append_assoc] at e2 ⊢
  exact decode_all _ _ _ _ (before_toks hb) q as ks hok e2

/-- **C75, relationships.** The same for the table of relationships. -/
theorem C75_relationships (me : DocId) (pre post : Archive) (w : List Char) (bs more : Bytes) (err : Option Err)
    (before : List Node) (q : QName) (as : List Attr) (ks : List Node)
    (hw : Forms (before ++ [.elem q as ks]) w) (hb : before.all (fun n => !n.isElem) = true)
    (hcut : utf8 w = bs ++ more) (hmore : more ≠ []) :
    (unpack me (pre ++ ⟨"word/_rels/document.xml.rels", .ok ⟨bs, err⟩⟩ :: post)).2 ≠ none := by
  intro h
  obtain ⟨k, hk, _⟩ := unpack_ok
    (f := (unpack me (pre ++ ⟨"word/_rels/document.xml.rels", .ok ⟨bs, err⟩⟩ :: post)).1) (Prod.ext rfl h)
  obtain ⟨f1, f2, _, h2, _⟩ := unpackAll_split hk
  rw [relsEntry] at h2
  simp only [Doc.parseRels] at h2
  rcases hd : decodeRels xmlnsR f1.rels (⟨bs, err⟩ : Stream).toks with ⟨⟨x, rs⟩, _ | e, d⟩
  · obtain ⟨_, _, e3⟩ := decodeRels_cut xmlnsR f1.rels bs more err (by rw [hd])
    refine e3 hmore ?_
    rw [← hcut]
    simp only [Stream.toks, lex_file hw, toksL_app]
    have ht : toksL [Node.elem q as ks] = (Node.elem q as ks).toks ++ [] := rfl
    rw [ht, ← List.append_assoc, decodeRels_tree _ _ _ _ _ _ _ hb]
  · rw [hd] at h2
    cases h2

/-- **C75, saved packages.** If the document or the table of relationships of a saved package is cut anywhere,
opening the package reports an error. -/
theorem C75_saved (f : Doc) (out : Saved) (h : Saves f out none) (me : DocId) (hr : GoodRels f)
    (hi : ∀ s ∈ (mDocument f.items).strings, xmlText s) (pre post : Archive) (name : String) (hn : ReadPart name)
    (bs more : Bytes) (err : Option Err) (hmore : more ≠ [])
    (hout : reread out = pre ++ ⟨name, .ok ⟨bs ++ more, none⟩⟩ :: post) :
    (unpack me (pre ++ ⟨name, .ok ⟨bs, err⟩⟩ :: post)).2 ≠ none := by
  obtain ⟨c1, c2, _, _⟩ := C49_contents f out h
  have hd := C49_distinct f out none h
  have uniq : ∀ {n b b'}, (n, b) ∈ out → (n, b') ∈ out → b = b' := by
    intro n b b' h1 h2
    obtain ⟨i, hi, e1⟩ := List.getElem_of_mem h1
    obtain ⟨j, hj, e2⟩ := List.getElem_of_mem h2
    have : i = j := (List.getElem?_inj (by simpa using hi) hd).1 (by simp [hi, hj, e1, e2])
    subst this
    rw [e1] at e2
    cases e2; rfl
  have hmem : (name, bs ++ more) ∈ out := by
    have : (⟨name, .ok ⟨bs ++ more, none⟩⟩ : Entry) ∈ reread out := by rw [hout]; simp
    obtain ⟨⟨n, b⟩, hp, e⟩ := List.mem_map.1 this
    simp only [Entry.mk.injEq, Except.ok.injEq, Stream.mk.injEq, and_true] at e
    rw [e.1, e.2] at hp
    exact hp
  obtain ⟨⟨w, hw, hf⟩, ⟨w', hw', hf'⟩⟩ := C74_parts f hr hi
  rcases hn with rfl | rfl
  · intro hu
    obtain ⟨k, hk, _⟩ := unpack_ok (f := (unpack me (pre ++ ⟨"word/document.xml", .ok ⟨bs, err⟩⟩ :: post)).1)
      (Prod.ext rfl hu)
    obtain ⟨f1, f2, _, h2, _⟩ := unpackAll_split hk
    rw [documentEntry] at h2
    simp only [Doc.parseDocument, Prod.mk.injEq] at h2
    obtain ⟨_, _, e3⟩ := decodeDocument_cut (some me) f1.items bs more err h2.2
    refine e3 hmore ?_
    rw [uniq hmem c1, hw]
    simp only [Stream.toks, lex_file hf]
    have := decode_root (q := ⟨"w", "document"⟩) (as := docAttrs) (rt_document (some me) f.items f1.items)
      [.other, .chars "\n"] [] (by simp)
    have e : toksL [.other, .text "\n", mDocument f.items] =
        [.other, .chars "\n"] ++ (mDocument f.items).toks ++ [] := by
      simp [toksL, Node.toks]
    have e' : mDocument f.items = .elem ⟨"w", "document"⟩ docAttrs (mDocument f.items).kids := rfl
    rw [← e'] at this
    rw [e, this]
  · have : utf8 w' = bs ++ more := by rw [← hw', ← uniq hmem c2]
    exact C75_relationships me pre post w' bs more err [.other, .text "\n"] _ _ _ hf' rfl this hmore

/-- **C75, unreadable parts.** If the document, the table of relationships or a media file cannot be opened, or the
reading of a media file breaks off, opening the package reports an error. -/
theorem C75_unreadable (me : DocId) (a : Archive) (e : Entry) (he : e ∈ a)
    (hbad : (ReadPart e.name ∧ ∃ x, e.file = .error x) ∨
      ((∃ n, e.name = "word/media/" ++ n) ∧ ((∃ x, e.file = .error x) ∨ ∃ bs x, e.file = .ok ⟨bs, some x⟩))) :
    (unpack me a).2 ≠ none := by
  intro hu
  obtain ⟨pre, post, rfl⟩ := List.append_of_mem he
  obtain ⟨k, hk, _⟩ := unpack_ok (f := (unpack me (pre ++ e :: post)).1) (Prod.ext rfl hu)
  obtain ⟨f1, f2, _, h2, _⟩ := unpackAll_split hk
  obtain ⟨name, file⟩ := e
  rcases hbad with ⟨hn | hn, x, hx⟩ | ⟨⟨n, hn⟩, hx⟩
  · simp only at hn hx
    subst hn; subst hx
    rw [documentEntry] at h2
    cases h2
  · simp only at hn hx
    subst hn; subst hx
    rw [relsEntry] at h2
    cases h2
  · simp only at hn hx
    have := (unpackEntry_ok h2).2.2.1 ((isMediaName_iff _).2 ⟨n, hn⟩)
    rcases hx with ⟨x, rfl⟩ | ⟨bs, x, rfl⟩ <;> cases this

/-! ## Foreign declarations -/

theorem isUtf8Name_iff (v : List Char) : isUtf8Name (v.map some) = true ↔ Utf8Name v := by
  unfold isUtf8Name Utf8Name
  rw [allChars_map]
  simp

/-- A declaration whose data is refused -/
theorem lex_refused {b d : List Char} (hb : b ≠ []) (hb1 : Blank b) (hv : Without "?>" ('v' :: d))
    (hno : xmlDeclOk (('v' :: d).map some) = false) (more : Bytes) :
    lex (utf8 ("<?xml".toList ++ b ++ 'v' :: d ++ "?>".toList) ++ more) = [.bad] := by
  rw [lex_eq_lexR, runes_utf8_append]
  generalize runes more = rest
  have e : ("<?xml".toList ++ b ++ 'v' :: d ++ "?>".toList).map some ++ rest = some '<' :: some '?' ::
      ("xml".toList.map some ++ (b.map some ++ (('v' :: d).map some ++ some '?' :: some '>' :: rest))) := by
    simp
  rw [e, lexR_cons]
  have ht : ∀ l, lexTok (some '<' :: some '?' :: l) = lexPI l := fun _ => rfl
  rw [ht]
  obtain ⟨c, b0, rfl⟩ : ∃ c b0, b = c :: b0 := by
    cases b with
    | nil => exact absurd rfl hb
    | cons c b => exact ⟨c, b, rfl⟩
  have hc : inName (some c) = false := by rcases hb1 c (by simp) with rfl | rfl | rfl | rfl <;> rfl
  have hp : lexPI ("xml".toList.map some ++ ((c :: b0).map some ++ (('v' :: d).map some ++ some '?' :: some '>' :: rest))) =
      none := by
    unfold lexPI
    have hn := lexName_plain (t := "xml") (by decide) (some c) hc (b0.map some ++
      (('v' :: d).map some ++ some '?' :: some '>' :: rest))
    rw [List.map_cons, List.cons_append, hn]
    simp only
    rw [show (some c :: (b0.map some ++ (('v' :: d).map some ++ some '?' :: some '>' :: rest))).dropWhile isXmlSpace =
        ('v' :: d).map some ++ some '?' :: some '>' :: rest from blank_drop hb1 (r := some 'v') rfl _]
    rw [lexInstr_form _ none [] rest (fun h => by cases h) hv]
    simp only
    rw [if_pos]
    exact ⟨trivial, by rw [List.reverse_nil, List.nil_append, hno]; decide⟩
  rw [hp]

theorem lex_foreign {w : List Char} (h : ForeignDecl w) (more : Bytes) : lex (utf8 w ++ more) = [.bad] := by
  cases h with
  | @version b v tail quote h1 h2 h3 h4 h5 h6 h7 =>
    have e : "version=".toList ++ [quote] ++ v ++ [quote] ++ tail =
        'v' :: ("ersion=".toList ++ [quote] ++ v ++ [quote] ++ tail) := rfl
    rw [e] at h7 ⊢
    refine lex_refused h1 h2 h7 ?_ more
    have hv := procInst_hit 'v' "ersion".toList h3 h6 (tail.map some)
    have e2 : ('v' :: ("ersion=".toList ++ [quote] ++ v ++ [quote] ++ tail)).map some =
        ('v' :: "ersion".toList).map some ++ (some '=' :: some quote :: (v.map some ++ (some quote :: tail.map some))) := by
      simp
    unfold xmlDeclOk
    rw [e2, show "version".toList = 'v' :: "ersion".toList from rfl, hv]
    have n1 : (v.map (some : Char → Rune)).isEmpty = false := by
      cases v with
      | nil => exact absurd rfl h4
      | cons => rfl
    have n2 : (v.map (some : Char → Rune) == "1.0".toList.map some) = false := by
      rw [beq_eq_false_iff_ne]
      intro he
      have := congrArg allChars he
      rw [allChars_map, allChars_map] at this
      exact h5 (Option.some.inj this)
    simp only [n1, n2, Bool.or_self, Bool.false_and]
  | @encoding b b' v tail quote quote' h1 h2 h3 h4 h5 h6 h7 h8 h9 h10 =>
    have e : "version=".toList ++ [quote] ++ "1.0".toList ++ [quote] ++ b' ++ "encoding=".toList ++ [quote'] ++ v ++
        [quote'] ++ tail = 'v' :: ("ersion=".toList ++ [quote] ++ "1.0".toList ++ [quote] ++ b' ++ "encoding=".toList ++
        [quote'] ++ v ++ [quote'] ++ tail) := rfl
    rw [e] at h10 ⊢
    refine lex_refused h1 h2 h10 ?_ more
    have hv := procInst_hit 'e' "ncoding".toList h6 h9 (tail.map some)
    have e2 : ('v' :: ("ersion=".toList ++ [quote] ++ "1.0".toList ++ [quote] ++ b' ++ "encoding=".toList ++
        [quote'] ++ v ++ [quote'] ++ tail)).map some =
        "version=".toList.map some ++ some quote :: ("1.0".toList.map some ++ some quote :: (b'.map some ++
        (('e' :: "ncoding".toList).map some ++ (some '=' :: some quote' :: (v.map some ++ (some quote' :: tail.map some)))))) := by
      simp
    have henc : ∀ l, procInst "encoding".toList ("version=".toList.map some ++ some quote :: ("1.0".toList.map some ++
        some quote :: l)) = procInst "encoding".toList l := by
      intro l
      rcases h3 with rfl | rfl <;> rfl
    have hsp := procInst_blank (p := 'e') (ps := "ncoding".toList) (by decide) h5
      (('e' :: "ncoding".toList).map some ++ (some '=' :: some quote' :: (v.map some ++ (some quote' :: tail.map some))))
    have he : procInst "encoding".toList (('v' :: ("ersion=".toList ++ [quote] ++ "1.0".toList ++ [quote] ++ b' ++
        "encoding=".toList ++ [quote'] ++ v ++ [quote'] ++ tail)).map some) = v.map some := by
      rw [e2, henc]
      exact hsp.trans hv
    unfold xmlDeclOk
    rw [he]
    have n1 : (v.map (some : Char → Rune)).isEmpty = false := by
      cases v with
      | nil => exact absurd rfl h7
      | cons => rfl
    have n2 : isUtf8Name (v.map some) = false := by
      cases hh : isUtf8Name (v.map some) with
      | false => rfl
      | true => exact absurd ((isUtf8Name_iff v).1 hh) h8
    simp only [n1, n2, Bool.or_self, Bool.and_false]

/-- **C76.** A package whose document or table of relationships is declared as XML of another version than 1.0, or in
another encoding than UTF-8, is refused, not misread. -/
theorem C76_refused (me : DocId) (a : Archive) (name : String) (hn : ReadPart name) (w : List Char) (more : Bytes)
    (err : Option Err) (hw : ForeignDecl w) (he : (⟨name, .ok ⟨utf8 w ++ more, err⟩⟩ : Entry) ∈ a) :
    (unpack me a).2 ≠ none := by
  intro hu
  obtain ⟨pre, post, rfl⟩ := List.append_of_mem he
  obtain ⟨k, hk, _⟩ := unpack_ok (f := (unpack me (pre ++ ⟨name, .ok ⟨utf8 w ++ more, err⟩⟩ :: post)).1) (Prod.ext rfl hu)
  obtain ⟨f1, f2, _, h2, _⟩ := unpackAll_split hk
  have ht : ∃ l, (⟨utf8 w ++ more, err⟩ : Stream).toks = .bad :: l := by
    cases err with
    | none => exact ⟨[], lex_foreign hw more⟩
    | some x => exact ⟨[.bad], by simp only [Stream.toks, lex_foreign hw more]; rfl⟩
  obtain ⟨l, ht⟩ := ht
  rcases hn with rfl | rfl
  · rw [documentEntry] at h2
    simp only [Doc.parseDocument, ht, Prod.mk.injEq] at h2
    cases h2.2
  · rw [relsEntry] at h2
    simp only [Doc.parseRels, ht] at h2
    cases h2

/-! ## The theorems apply -/

/-- For the examples: `oddly` of `Verif.Props.Forms`, cut in the middle of its text -/
theorem oddly_cut : ∃ bs more, utf8 oddly = bs ++ more ∧ more ≠ [] ∧ 60 ≤ bs.length :=
  ⟨(utf8 oddly).take 60, (utf8 oddly).drop 60, (List.take_append_drop _ _).symm, by decide, by decide⟩

/-- `C75_reported` and `C75_relationships` apply to a file that breaks off in the middle. -/
example : ∃ (w : List Char) (bs more : Bytes) (before : List Node) (q : QName) (as : List Attr) (ks : List Node),
    Forms (before ++ [.elem q as ks]) w ∧ before.all (fun n => !n.isElem) = true ∧ numsOkL ks ∧ utf8 w = bs ++ more ∧
      more ≠ [] ∧ 60 ≤ bs.length := by
  obtain ⟨bs, more, h1, h2, h3⟩ := oddly_cut
  refine ⟨oddly, bs, more, [.other, .text "\n"], _, _, _, oddly_ok, rfl, ?_, h1, h2, h3⟩
  refine ⟨⟨?_, trivial, trivial⟩, ⟨?_, trivial⟩, trivial⟩
  · intro a ha hn
    rw [List.mem_singleton.1 ha] at hn
    exact absurd hn (by decide)
  · intro a ha
    cases ha

/-- A package that breaks off after the root element, before the line break at the end: here the document is read. -/
example (me : DocId) : CutShort [⟨"word/document.xml", .ok ⟨utf8 "<w:document/>".toList, some .io⟩⟩]
    [⟨"word/document.xml", .ok ⟨utf8 "<w:document/>".toList ++ utf8 "\n".toList, none⟩⟩] ∧
    (unpack me [⟨"word/document.xml", .ok ⟨utf8 "<w:document/>".toList, some .io⟩⟩]).2 = none :=
  ⟨.cut (.inl rfl) .nil, rfl⟩

/-- `C75_saved` applies to a document with text, a link and media. -/
example : ∃ (f : Doc) (out : Saved) (pre post : Archive) (bs more : Bytes), Saves f out none ∧ GoodRels f ∧
    (∀ s ∈ (mDocument f.items).strings, xmlText s) ∧ more ≠ [] ∧ bs.length = 41 ∧
    reread out = pre ++ ⟨"word/document.xml", .ok ⟨bs ++ more, none⟩⟩ :: post := by
  obtain ⟨h1, h2, h3, out, h4, _⟩ := c50doc_ok
  obtain ⟨c1, _⟩ := C49_contents c50doc out h4
  have hm : (⟨"word/document.xml", .ok ⟨xmlBytes (mDocument c50doc.items), none⟩⟩ : Entry) ∈ reread out :=
    List.mem_map.2 ⟨_, c1, rfl⟩
  obtain ⟨pre, post, e⟩ := List.append_of_mem hm
  have hl : 41 < (xmlBytes (mDocument c50doc.items)).length := by
    unfold xmlBytes
    rw [show utf8 (xmlHeader.toList ++ (mDocument c50doc.items).chars) = utf8 xmlHeader.toList ++
      utf8 (mDocument c50doc.items).chars from List.flatMap_append, List.length_append]
    have e1 : (utf8 xmlHeader.toList).length = 39 := by decide
    obtain ⟨l, e2⟩ : ∃ l, (mDocument c50doc.items).chars = "<w:".toList ++ l := ⟨_, rfl⟩
    rw [e2, show utf8 ("<w:".toList ++ l) = utf8 "<w:".toList ++ utf8 l from List.flatMap_append, List.length_append]
    have e3 : (utf8 "<w:".toList).length = 3 := by decide
    omega
  refine ⟨c50doc, out, pre, post, (xmlBytes (mDocument c50doc.items)).take 41, (xmlBytes (mDocument c50doc.items)).drop 41,
    h4, h1, h2, ?_, ?_, ?_⟩
  · intro h
    have := congrArg List.length h
    rw [List.length_drop, List.length_nil] at this
    omega
  · rw [List.length_take]; omega
  · rw [List.take_append_drop]; exact e

/-- `C75_unreadable` applies to a picture whose data is damaged. -/
example : ∃ (a : Archive) (e : Entry), e ∈ a ∧ (∃ n, e.name = "word/media/" ++ n) ∧ ∃ bs x, e.file = .ok ⟨bs, some x⟩ :=
  ⟨[⟨"x", .ok ⟨[], none⟩⟩, ⟨"word/media/a.png", .ok ⟨[1, 2], some .io⟩⟩], ⟨"word/media/a.png", .ok ⟨[1, 2], some .io⟩⟩,
    by simp, ⟨"a.png", rfl⟩, _, _, rfl⟩

/-- `C76_refused` applies to these declarations. -/
example : ForeignDecl "<?xml version=\"1.1\"?>".toList ∧
    ForeignDecl "<?xml version='1.0' encoding='ISO-8859-1' standalone='yes'?>".toList := by
  have sp : Blank [' '] := by intro c hc; exact .inl (List.mem_singleton.1 hc)
  constructor
  · exact ForeignDecl.version (b := [' ']) (v := "1.1".toList) (tail := []) (quote := '"') (by decide) sp (.inl rfl)
      (by decide) (by decide) (by decide) (without_of_not_mem (by decide))
  · exact ForeignDecl.encoding (b := [' ']) (b' := [' ']) (v := "ISO-8859-1".toList) (tail := " standalone='yes'".toList)
      (quote := '\'') (quote' := '\'') (by decide) sp (.inr rfl) (by decide) sp (.inr rfl) (by decide)
      (by unfold Utf8Name; decide) (by decide) (without_of_not_mem (by decide))

end Docx
