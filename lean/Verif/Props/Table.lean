import Verif.SpecTable
import Verif.Lemmas.Evo
import Verif.Props.Forms

/-!
# C77: the table of relationships is where the standard puts it
-/

set_option linter.unusedSectionVars false

namespace Docx

section

variable [GoEnv]

/-! ## Lemmas -/

theorem Evo.relXmlns {f g : Doc} (e : Evo f g) : g.relXmlns = f.relXmlns := by
  induction e with
  | refl => rfl
  | items _ _ ih => exact ih
  | template _ _ _ _ ih => exact ih
  | link _ _ ih => exact ih
  | image _ _ _ ih => exact ih
  | docID _ ih => exact ih
  | incID _ _ ih => exact ih

theorem Evo.standard {f g : Doc} (e : Evo f g) (h : ∀ r ∈ f.rels, Standard r) : ∀ r ∈ g.rels, Standard r := by
  induction e with
  | refl => exact h
  | items _ _ ih => exact ih
  | template _ _ _ _ ih => exact ih
  | link l _ ih =>
    intro r hr
    rcases List.mem_append.1 hr with hr | hr
    · exact ih r hr
    · rw [List.mem_singleton.1 hr]; exact .link _ _
  | image fmt d _ ih =>
    intro r hr
    rcases List.mem_append.1 hr with hr | hr
    · exact ih r hr
    · rw [List.mem_singleton.1 hr]; exact .image _ _
  | docID _ ih => exact ih
  | incID _ _ ih => exact ih

theorem base_standard {b : Doc} (h : Base b) : b.relXmlns = tableSpace ∧ ∀ r ∈ b.rels, Standard r := by
  have hb : ∀ r ∈ baseRels, Standard r := by
    intro r hr
    simp only [baseRels, List.mem_cons, List.not_mem_nil, or_false] at hr
    rcases hr with rfl | rfl | rfl
    · exact .styles "rId1"
    · exact .theme "rId2"
    · exact .fonts "rId3"
  rcases h with rfl | ⟨_, _, rfl⟩ | ⟨_, rfl⟩ <;> exact ⟨rfl, hb⟩

theorem allInL_rels (ns : String) : ∀ rs : List Rel, allInL ns ns (rs.map mRel)
  | [] => trivial
  | r :: rs => by
    refine ⟨⟨rfl, ?_, trivial⟩, allInL_rels ns rs⟩
    unfold defaultSpace
    rw [List.find?_eq_none.2]
    intro a ha
    simp only [strA, strO, List.mem_append, List.mem_cons, List.not_mem_nil, or_false] at ha
    rcases ha with ((rfl | rfl) | rfl) | ha
    · simp
    · simp
    · simp
    · split at ha
      · simp at ha
      · simp only [List.mem_cons, List.not_mem_nil, or_false] at ha
        rw [ha]; simp

theorem table_saved {f : Doc} {out : Saved} (h : Saves f out none) : TableIn f out f.relXmlns := by
  refine ⟨_, _, _, (C49_contents f out h).2.1, rfl, ?_, rfl, rfl, allInL_rels _ _⟩
  rw [List.map_map]
  rfl

theorem relsXmlns_none {x : String} : ∀ {as : List Attr}, (∀ a ∈ as, a.name.loc ≠ "xmlns") → relsXmlns x as = x := by
  intro as h
  unfold relsXmlns
  induction as with
  | nil => rfl
  | cons a as ih =>
    rw [List.foldl_cons, if_neg (h a (by simp))]
    exact ih fun b hb => h b (by simp [hb])

theorem relsXmlns_some {v : String} : ∀ {as : List Attr} {x : String}, (∃ a ∈ as, a.name.loc = "xmlns") →
    (∀ a ∈ as, a.name.loc = "xmlns" → a.val = v) → relsXmlns x as = v := by
  intro as
  induction as with
  | nil => intro x h; obtain ⟨a, ha, _⟩ := h; cases ha
  | cons a as ih =>
    intro x h hv
    unfold relsXmlns
    rw [List.foldl_cons]
    by_cases c : ∃ b ∈ as, b.name.loc = "xmlns"
    · exact ih c fun b hb => hv b (by simp [hb])
    · have e : a.name.loc = "xmlns" := by
        obtain ⟨b, hb, e⟩ := h
        rcases List.mem_cons.1 hb with rfl | hb
        · exact e
        · exact absurd ⟨b, hb, e⟩ c
      rw [if_pos e, hv a (by simp) e]
      exact relsXmlns_none fun b hb hc => c ⟨b, hb, hc⟩

/-- What Parse makes of the name space of the table -/
theorem unpack_table {me : DocId} {pre post : Archive} {f : Doc} {w : List Char} {before after : List Node}
    {q : QName} {as : List Attr} {ks : List Node}
    (h : unpack me (pre ++ ⟨"word/_rels/document.xml.rels", .ok ⟨utf8 w, none⟩⟩ :: post) = (f, none))
    (hlast : "word/_rels/document.xml.rels" ∉ post.map (·.name))
    (hw : Forms (before ++ .elem q as ks :: after) w) (hb : before.all (fun n => !n.isElem) = true) :
    f.relXmlns = relsXmlns xmlnsR as := by
  obtain ⟨k, hk, rfl⟩ := unpack_ok h
  obtain ⟨f1, f2, h1, h2, h3⟩ := unpackAll_split hk
  have e3 : k.relXmlns = f2.relXmlns := ((unpackAll_ok h3).2.2.2.2.2.2.2.2.1 hlast).2.2
  show k.relXmlns = _
  rw [e3]
  replace h2 : f1.parseRels ⟨"word/_rels/document.xml.rels", .ok ⟨utf8 w, none⟩⟩ = (f2, none) := h2
  rw [parseRels_tree f1 _ ⟨utf8 w, none⟩ before q as ks (toksL after) rfl ?_ hb] at h2
  · simp only [Prod.mk.injEq] at h2
    rw [← h2.1]
  · show lex (utf8 w) = _
    rw [lex_file hw, toksL_append, toksL, List.append_assoc]

/-- No call changes the name space of the table of a document. -/
theorem run_relXmlns [ImgEnv] {w0 w : World} {os : List Op} (h : run w0 os = .ok w) {d : DocId} {f0 f : Doc}
    (h0 : w0[d]? = some f0) (hf : w[d]? = some f) : f.relXmlns = f0.relXmlns := by
  obtain ⟨f', hf', e⟩ := (run_wevo h).old d f0 h0
  rw [hf] at hf'
  cases hf'
  exact e.relXmlns

/-! ## The property -/

/-- **C77, new documents.** Whatever is called, the saved table of a document made by New, LoadBodyItems or
Split is in the name space of tables, and all its relationships have the type of the standard. -/
theorem C77_built [ImgEnv] (w0 w : World) (os : List Op) (h : run w0 os = .ok w)
    (d : DocId) (hd : w0.length ≤ d) (f : Doc) (hf : w[d]? = some f) :
    (∀ r ∈ f.rels, Standard r) ∧ ∀ out, Saves f out none → TableIn f out tableSpace := by
  obtain ⟨b, hb, e⟩ := (run_wevo h).new d f hf hd
  refine ⟨e.standard (base_standard hb).2, fun out ho => ?_⟩
  have := table_saved ho
  rwa [e.relXmlns, (base_standard hb).1] at this

/-- **C77, opened documents (partial).** If the table of a package declares its name space at the root as
the default one, then whatever is called after Parse, the table saved for the document is in this name
space.  Missing: tables that use a prefix, and packages without a table, where it is false
(`C77_prefixed`, `C77_missing`). -/
theorem C77_opened_partial [ImgEnv] (pre post : Archive) (f0 : Doc) (cs : List Char) (before after : List Node)
    (q : QName) (as : List Attr) (ks : List Node) (w0 w : World) (os : List Op)
    (hopen : unpack w0.length (pre ++ ⟨"word/_rels/document.xml.rels", .ok ⟨utf8 cs, none⟩⟩ :: post) = (f0, none))
    (hlast : "word/_rels/document.xml.rels" ∉ post.map (·.name))
    (hcs : Forms (before ++ .elem q as ks :: after) cs) (hb : before.all (fun n => !n.isElem) = true)
    (hns : ∃ a ∈ as, a.name.loc = "xmlns") (hall : ∀ a ∈ as, a.name.loc = "xmlns" → a.val = tableSpace)
    (h : run (w0 ++ [f0]) os = .ok w) (f : Doc) (hf : w[w0.length]? = some f)
    (out : Saved) (ho : Saves f out none) : TableIn f out tableSpace := by
  have := table_saved ho
  rwa [run_relXmlns h List.getElem?_concat_length hf, unpack_table hopen hlast hcs hb, relsXmlns_some hns hall] at this

/-- **C77 fails for packages without a table**: the table that is saved for them is in no name space,
whatever links and pictures were added. -/
theorem C77_missing [ImgEnv] (a : Archive) (f0 : Doc) (w0 w : World) (os : List Op)
    (hopen : unpack w0.length a = (f0, none)) (hno : "word/_rels/document.xml.rels" ∉ a.map (·.name))
    (h : run (w0 ++ [f0]) os = .ok w) (f : Doc) (hf : w[w0.length]? = some f)
    (out : Saved) (ho : Saves f out none) : TableIn f out "" := by
  have := table_saved ho
  obtain ⟨k, hk, rfl⟩ := unpack_ok hopen
  have e : k.relXmlns = "" := ((unpackAll_ok hk).2.2.2.2.2.2.2.2.1 hno).2.2
  rw [run_relXmlns h List.getElem?_concat_length hf] at this
  show TableIn f out ""
  rw [← e]
  exact this

/-- **C77 fails for tables that use a prefix** for their name space: they are saved in the name space of
references. -/
theorem C77_prefixed [ImgEnv] (pre post : Archive) (f0 : Doc) (cs : List Char) (before after : List Node)
    (q : QName) (as : List Attr) (ks : List Node) (w0 w : World) (os : List Op)
    (hopen : unpack w0.length (pre ++ ⟨"word/_rels/document.xml.rels", .ok ⟨utf8 cs, none⟩⟩ :: post) = (f0, none))
    (hlast : "word/_rels/document.xml.rels" ∉ post.map (·.name))
    (hcs : Forms (before ++ .elem q as ks :: after) cs) (hb : before.all (fun n => !n.isElem) = true)
    (hns : ∀ a ∈ as, a.name.loc ≠ "xmlns")
    (h : run (w0 ++ [f0]) os = .ok w) (f : Doc) (hf : w[w0.length]? = some f)
    (out : Saved) (ho : Saves f out none) : TableIn f out referenceSpace := by
  have := table_saved ho
  rwa [run_relXmlns h List.getElem?_concat_length hf, unpack_table hopen hlast hcs hb, relsXmlns_none hns] at this

/-- A package that only has a document -/
def bareDocument : Archive :=
  [⟨"word/document.xml", .ok ⟨utf8 "<w:document><w:body/></w:document>".toList, none⟩⟩]

/-- A package whose table uses a prefix -/
def prefixedTable : Archive :=
  [⟨"word/_rels/document.xml.rels", .ok ⟨utf8 "<p:Relationships xmlns:p=\"u\"/>".toList, none⟩⟩]

theorem fst_none {p : Doc × Option Err} (h : p.2 = none) : p = (p.1, none) := by
  rw [← h]

/-- What is saved for a document that has nothing but relationships and items -/
theorem saves_bare (f : Doc) (h1 : f.tmpfslst = []) (h2 : f.media = []) :
    ∃ out, Saves f out none ∧ Stored out "word/_rels/document.xml.rels" (xmlBytes (mRels f.relXmlns f.rels)) := by
  have hf : f.files = .ok [(relsName, ⟨xmlBytes (mRels f.relXmlns f.rels), none⟩),
      (documentName, ⟨xmlBytes (mDocument f.items), none⟩)] := by
    unfold Doc.files
    rw [h1, h2]
    rfl
  have hw : ∀ p ∈ [(relsName, (⟨xmlBytes (mRels f.relXmlns f.rels), none⟩ : Stream)),
      (documentName, ⟨xmlBytes (mDocument f.items), none⟩)], Writable p := by
    intro p hp
    simp only [List.mem_cons, List.not_mem_nil, or_false] at hp
    rcases hp with rfl | rfl
    · exact ⟨show relsName.utf8ByteSize ≤ 65535 by decide, fun h => absurd (show isDirName relsName = true from h) (by decide), rfl⟩
    · exact ⟨show documentName.utf8ByteSize ≤ 65535 by decide, fun h => absurd (show isDirName documentName = true from h) (by decide), rfl⟩
  exact ⟨_, saves_of hf (.refl _) (Prod.ext (packAll_fst _ hw) ((packAll_none _).2 hw)), List.mem_cons_self⟩

/-- A package that has only a table is opened, if the ids are as Parse wants them. -/
theorem opens_table {me : DocId} {w : List Char} {q : QName} {as : List Attr} {ks : List Node}
    (hw : Forms [.other, .text "\n", .elem q as ks] w) (hk : (scanIds 0 (relsOf ks)).2 = none) :
    ∃ f, unpack me ([] ++ ⟨"word/_rels/document.xml.rels", .ok ⟨utf8 w, none⟩⟩ :: []) = (f, none) := by
  have h : ∀ f : Doc, f.rels = [] → f.rID = 0 →
      ∃ g, f.parseRels ⟨"word/_rels/document.xml.rels", .ok ⟨utf8 w, none⟩⟩ = (g, none) := by
    intro f h1 h2
    rw [parseRels_tree f _ ⟨utf8 w, none⟩ [.other, .text "\n"] q as ks [] rfl ?_ rfl, h1, h2, List.nil_append, hk]
    · exact ⟨_, rfl⟩
    · show lex (utf8 w) = _
      rw [lex_file hw]
      simp [toksL]
  obtain ⟨g, hg⟩ := h ({ relXmlns := "", tmplfs := some (zipFS ([] ++ ⟨"word/_rels/document.xml.rels", .ok ⟨utf8 w, none⟩⟩ :: [])) } : Doc) rfl rfl
  have hg' : Doc.unpackAll ({ relXmlns := "", tmplfs := some (zipFS ([] ++ ⟨"word/_rels/document.xml.rels", .ok ⟨utf8 w, none⟩⟩ :: [])) } : Doc) me ([] ++ ⟨"word/_rels/document.xml.rels", .ok ⟨utf8 w, none⟩⟩ :: []) = (g, none) := by
    replace hg : Doc.unpackEntry ({ relXmlns := "", tmplfs := some (zipFS ([] ++ ⟨"word/_rels/document.xml.rels", .ok ⟨utf8 w, none⟩⟩ :: [])) } : Doc) me ⟨"word/_rels/document.xml.rels", .ok ⟨utf8 w, none⟩⟩ = (g, none) := hg
    show Doc.unpackAll _ me [_] = _
    rw [Doc.unpackAll, hg]
    rfl
  refine ⟨{ g with imageID := 100000 }, ?_⟩
  unfold unpack
  rw [hg']

/-- `C77_opened_partial` applies to a package with three relationships. -/
example (me : DocId) : ∃ f w q as ks,
    unpack me ([] ++ ⟨"word/_rels/document.xml.rels", .ok ⟨utf8 w, none⟩⟩ :: []) = (f, none) ∧
    Forms ([.other, .text "\n"] ++ .elem q as ks :: []) w ∧ (∃ a ∈ as, a.name.loc = "xmlns") ∧
    (∀ a ∈ as, a.name.loc = "xmlns" → a.val = tableSpace) ∧ ks.length = 3 := by
  obtain ⟨w, _, hw⟩ := C74_saved (mRels tableSpace baseRels) rfl (pok_mRels _ _).1 (by unfold xmlText; decide)
  obtain ⟨f, hf⟩ := opens_table (me := me) hw (by decide)
  exact ⟨f, w, _, _, _, hf, hw, ⟨_, List.mem_singleton.2 rfl, rfl⟩,
    by intro a ha _; rw [List.mem_singleton.1 ha], rfl⟩

/-- `C77_prefixed` applies to a package whose table uses the prefix `p`. -/
example (me : DocId) : ∃ f w q as ks,
    unpack me ([] ++ ⟨"word/_rels/document.xml.rels", .ok ⟨utf8 w, none⟩⟩ :: []) = (f, none) ∧
    Forms ([.other, .text "\n"] ++ .elem q as ks :: []) w ∧ (∀ a ∈ as, a.name.loc ≠ "xmlns") ∧
    relsOf ks = [⟨"rId3", "t", "u", ""⟩] := by
  obtain ⟨w, _, hw⟩ := C74_saved (.elem ⟨"p", "Relationships"⟩ [⟨⟨"xmlns", "p"⟩, tableSpace⟩]
    [.elem ⟨"p", "Relationship"⟩ [⟨⟨"", "Id"⟩, "rId3"⟩, ⟨⟨"", "Type"⟩, "t"⟩, ⟨⟨"", "Target"⟩, "u"⟩] []]) rfl
    (by decide) (by unfold xmlText; decide)
  obtain ⟨f, hf⟩ := opens_table (me := me) hw (by decide)
  exact ⟨f, w, _, _, _, hf, hw, by decide, by decide⟩

/-- `C77_built` applies to a document with a link. -/
example [ImgEnv] : ∃ w f, run [] [.new, .addParagraph 0, .addLink 0 (.body 0) "t" "u"] = .ok w ∧
    w[0]? = some f ∧ f.rels.length = 4 := ⟨_, _, rfl, rfl, rfl⟩

end

local instance tableEnv : GoEnv := ⟨fun _ => none, fun _ => false, fun _ => false⟩

/-- What is saved for a package without a table -/
theorem C77_bare : ∃ f out, unpack 0 bareDocument = (f, none) ∧ Saves f out none ∧
    Stored out "word/_rels/document.xml.rels"
      (utf8 "<?xml version=\"1.0\" encoding=\"UTF-8\"?>\n<Relationships xmlns=\"\"></Relationships>".toList) := by
  have h : unpack 0 bareDocument = ((unpack 0 bareDocument).1, none) := fst_none (by decide +kernel)
  obtain ⟨out, ho, hs⟩ := saves_bare (unpack 0 bareDocument).1 (by decide +kernel) (by decide +kernel)
  refine ⟨_, out, h, ho, ?_⟩
  have e : xmlBytes (mRels (unpack 0 bareDocument).1.relXmlns (unpack 0 bareDocument).1.rels) =
      utf8 "<?xml version=\"1.0\" encoding=\"UTF-8\"?>\n<Relationships xmlns=\"\"></Relationships>".toList := by
    decide +kernel
  rwa [e] at hs

/-- What is saved for a package whose table uses a prefix -/
theorem C77_prefix : ∃ f out, unpack 0 prefixedTable = (f, none) ∧ Saves f out none ∧
    Stored out "word/_rels/document.xml.rels"
      (utf8 ("<?xml version=\"1.0\" encoding=\"UTF-8\"?>\n<Relationships xmlns=\"http://schemas.openxmlformats.org" ++
        "/officeDocument/2006/relationships\"></Relationships>").toList) := by
  have h : unpack 0 prefixedTable = ((unpack 0 prefixedTable).1, none) := fst_none (by decide +kernel)
  obtain ⟨out, ho, hs⟩ := saves_bare (unpack 0 prefixedTable).1 (by decide +kernel) (by decide +kernel)
  refine ⟨_, out, h, ho, ?_⟩
  have e : xmlBytes (mRels (unpack 0 prefixedTable).1.relXmlns (unpack 0 prefixedTable).1.rels) =
      utf8 ("<?xml version=\"1.0\" encoding=\"UTF-8\"?>\n<Relationships xmlns=\"http://schemas.openxmlformats.org" ++
        "/officeDocument/2006/relationships\"></Relationships>").toList := by
    decide +kernel
  rwa [e] at hs

end Docx
