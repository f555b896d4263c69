import Verif.SpecParts
import Verif.Lemmas.KeepTheme
import Verif.Lemmas.ThemeForms
import Verif.Props.PackKeep

/-!
# C78, C79: every part has a type, and the root relationships lead to the document
-/

namespace Docx

variable [GoEnv]

/-! ## Lemmas -/

/-- What a document with a template saves under the name of a template file -/
theorem saved_file {f : Doc} {out : Saved} (h : Saves f out none) {fs : FS} (hfs : f.tmplfs = some fs) {n : String}
    (hn : n ∈ f.tmpfslst) (ho : isOtherName n = true) :
    ∃ b, fs (if f.template = "" then n else "xml/" ++ f.template ++ "/" ++ n) = .ok ⟨b, none⟩ ∧ Stored out n b := by
  simp only [isOtherName, Bool.and_eq_true, bne_iff_ne, ne_eq, Bool.not_eq_true'] at ho
  obtain ⟨fs', b, h1, h2, h3⟩ := (C49_contents f out h).2.2.2 n hn ho.1.1 ho.1.2 (by
    intro m _ e
    have := (isMediaName_iff n).2 ⟨m.name, e⟩
    rw [ho.2] at this
    cases this)
  rw [hfs] at h1
  cases h1
  exact ⟨b, h2, h3⟩

theorem addPicture_media [ImgEnv] {f : Doc} {pic : Bytes} {pw ph : Int64} {fmt : String}
    (h : ImgEnv.decodeSize pic = some (pw, ph, fmt)) :
    (f.addPicture pic).1.media = f.media ++ [⟨imageName (f.imageID + 1) fmt, pic⟩] := by
  unfold Doc.addPicture
  rw [h]
  simp only
  split <;> rfl

/-- The template of a document is the default theme of the library. -/
def Themed (fs : FS) (f : Doc) : Prop :=
  f.template = "default" ∧ f.tmplfs = some fs ∧ f.tmpfslst = defaultTemplateFiles

theorem themed_types {f : Doc} {fs : FS} (hf : Themed fs f) (he : Embedded fs) {out : Saved} (h : Saves f out none) :
    HasXml out "[Content_Types].xml" "Types" (lineNodes defaultTypes) := by
  obtain ⟨h1, h2, h3⟩ := hf
  obtain ⟨b, hb, hs⟩ := saved_file h h2 (n := "[Content_Types].xml") (by rw [h3]; decide) (by decide)
  rw [h1] at hb
  have e : (if "default" = "" then "[Content_Types].xml" else "xml/" ++ "default" ++ "/" ++ "[Content_Types].xml") =
    "xml/default/[Content_Types].xml" := by decide
  rw [e, he.types] at hb
  cases hb
  exact ⟨_, _, _, _, _, hs, defaultTypes_forms, by decide, rfl⟩

theorem themed_roots {f : Doc} {fs : FS} (hf : Themed fs f) (he : Embedded fs) {out : Saved} (h : Saves f out none) :
    HasXml out "_rels/.rels" "Relationships" (lineNodes defaultRoots) := by
  obtain ⟨h1, h2, h3⟩ := hf
  obtain ⟨b, hb, hs⟩ := saved_file h h2 (n := "_rels/.rels") (by rw [h3]; decide) (by decide)
  rw [h1] at hb
  have e : (if "default" = "" then "_rels/.rels" else "xml/" ++ "default" ++ "/" ++ "_rels/.rels") =
    "xml/default/_rels/.rels" := by decide
  rw [e, he.roots] at hb
  cases hb
  exact ⟨_, _, _, _, _, hs, defaultRoots_forms, by decide, rfl⟩

theorem extensionOf_append {s e : String} (p : String) (h : extensionOf s = some e) : extensionOf (p ++ s) = some e := by
  unfold extensionOf at h ⊢
  simp only at h ⊢
  split at h
  · cases h
  rename_i hn
  rw [not_or] at hn
  have ht : (p ++ s).toList.reverse.takeWhile (· ≠ '.') = s.toList.reverse.takeWhile (· ≠ '.') := by
    rw [String.toList_append, List.reverse_append, List.takeWhile_append, if_neg]
    intro hl
    exact hn.1 (by rw [hl, List.length_reverse])
  rw [ht, if_neg]
  · exact h
  · rw [not_or]
    refine ⟨fun hl => hn.1 ?_, hn.2⟩
    have h1 : (s.toList.reverse.takeWhile (· ≠ '.')).length ≤ s.toList.reverse.length :=
      (List.takeWhile_sublist _).length_le
    rw [String.toList_append, List.length_append] at hl
    rw [List.length_reverse] at h1
    omega

/-- The extension of the name of a picture is its format. -/
theorem extensionOf_image (n : UInt64) {fmt : String} (h1 : '.' ∉ fmt.toList) (h2 : '/' ∉ fmt.toList) :
    extensionOf (imageName n fmt) = some fmt := by
  have e : extensionOf ("." ++ fmt) = some fmt := by
    unfold extensionOf
    have ht : ("." ++ fmt).toList.reverse.takeWhile (· ≠ '.') = fmt.toList.reverse := by
      rw [String.toList_append, List.reverse_append, List.takeWhile_append_of_pos]
      · have : ".".toList.reverse = ['.'] := by decide
        rw [this]; simp
      · intro c hc
        simp only [List.mem_reverse] at hc
        simp only [ne_eq, decide_not, Bool.not_eq_eq_eq_not, Bool.not_true, decide_eq_false_iff_not]
        rintro rfl
        exact h1 hc
    simp only [ht]
    rw [if_neg]
    · simp
    · rw [not_or]
      refine ⟨?_, by simpa using h2⟩
      rw [String.toList_append, List.length_append, List.length_reverse]
      have : ".".toList.length = 1 := by decide
      omega
  unfold imageName
  rw [String.append_assoc]
  exact extensionOf_append _ e

/-- The name given by an entry for a single part lies in the media folder. -/
def mediaEntry : Node → Bool
  | .elem _ as _ => (attrOf "PartName" as).any fun p => "/word/media/".toList.isPrefixOf (lowered p)
  | _ => false

theorem overrides_media {n : Node} (h : mediaEntry n = false) {part : String} (hp : isMediaName part = true) :
    overrides part n = false := by
  cases n with
  | text s => rfl
  | other => rfl
  | elem q as kids =>
    simp only [mediaEntry] at h
    simp only [overrides]
    cases ha : attrOf "PartName" as with
    | none => simp
    | some p =>
      rw [ha] at h
      simp only [Option.any_some, Bool.and_eq_false_imp, decide_eq_true_eq, decide_eq_false_iff_not] at h ⊢
      intro _ e
      rw [e] at h
      obtain ⟨x, rfl⟩ := (isMediaName_iff part).1 hp
      have : lowered ("/" ++ (mediaFolder ++ x)) = "/word/media/".toList ++ lowered x := by
        unfold lowered
        rw [String.toList_append, String.toList_append, List.map_append, List.map_append, ← List.append_assoc]
        rfl
      rw [this, List.isPrefixOf_iff_prefix.2 (List.prefix_append _ _)] at h
      cases h

/-- The type of a media part comes from its extension. -/
theorem typeOf_media {types : List Node} (h : ∀ n ∈ types, ∀ part, isMediaName part = true → overrides part n = false)
    {name ext : String} (he : extensionOf name = some ext) :
    typeOf types ("word/media/" ++ name) = (types.find? (covers ext)).bind contentType := by
  unfold typeOf
  have : types.find? (overrides ("word/media/" ++ name)) = none := by
    rw [List.find?_eq_none]
    intro n hn
    rw [h n hn ("word/media/" ++ name) ((isMediaName_iff _).2 ⟨name, rfl⟩)]
    decide
  rw [this, extensionOf_append "word/media/" he]

theorem defaultTypes_media : ∀ n ∈ lineNodes defaultTypes, ∀ part, isMediaName part = true → overrides part n = false := by
  have : (lineNodes defaultTypes).all (fun n => !mediaEntry n) = true := by decide +kernel
  intro n hn part hp
  exact overrides_media (by simpa using List.all_eq_true.1 this n hn) hp

omit [GoEnv] in
theorem themed_kept [ImgEnv] {w0 w : World} {os : List Op} {d : DocId} {g f : Doc} {fs : FS}
    (h0 : w0[d]? = some (g.withDefaultTheme fs)) (hu : ∀ t l fs', .useTemplate d t l fs' ∉ os)
    (h : run w0 os = .ok w) (hf : w[d]? = some f) : Themed fs f := by
  obtain ⟨f', hf', e1, e2, e3⟩ := run_keep hu h _ h0
  rw [hf] at hf'
  cases hf'
  exact ⟨e1, e2, e3⟩

/-- A file of an opened package other than document, relationships and media is saved as it was. -/
theorem opened_file {me : DocId} {a : Archive} {f0 f : Doc} {n : String} {b : Bytes}
    (hopen : unpack me a = (f0, none)) (hn : (a.map (·.name)).Nodup)
    (hp : ∀ e ∈ a, plainPath e.name = true) (ht : ⟨n, .ok ⟨b, none⟩⟩ ∈ a) (ho : isOtherName n = true)
    (hsame : SameTheme f0 f) {out : Saved} (hs : Saves f out none) : Stored out n b := by
  obtain ⟨p1, _, _, _, p5, p6⟩ := C55_places _ a f0 hopen
  obtain ⟨e1, e2, e3⟩ := hsame
  rw [p6] at e1
  rw [p5] at e2
  rw [p1] at e3
  obtain ⟨b', hb', hst⟩ := saved_file hs e2 (n := n) (by
    rw [e3, List.mem_filter]
    exact ⟨List.mem_map.2 ⟨_, ht, rfl⟩, ho⟩) ho
  rw [if_pos e1, zipFS_plain hn hp ht] at hb'
  cases hb'
  exact hst

theorem opened_types {me : DocId} {a : Archive} {f0 f : Doc} {cs : List Char}
    {before after : List Node} {q : QName} {as : List Attr} {types : List Node}
    (hopen : unpack me a = (f0, none)) (hn : (a.map (·.name)).Nodup)
    (hp : ∀ e ∈ a, plainPath e.name = true) (ht : ⟨"[Content_Types].xml", .ok ⟨utf8 cs, none⟩⟩ ∈ a)
    (hcs : Forms (before ++ .elem q as types :: after) cs) (hb : ∀ n ∈ before ++ after, n.isElem = false)
    (hq : q.loc = "Types") (hsame : SameTheme f0 f) {out : Saved} (hs : Saves f out none) :
    HasXml out "[Content_Types].xml" "Types" types ∧ f.tmpfslst = (a.map (·.name)).filter isOtherName :=
  ⟨⟨cs, before, after, q, as, opened_file hopen hn hp ht (by decide) hsame hs, hcs, hb, hq⟩,
    hsame.2.2.trans (C55_places _ a f0 hopen).1⟩

/-! ## C78 -/

/-- **C78, documents with the default theme (partial).** After WithDefaultTheme, whatever is called, if all
pictures are of the formats jpeg, png and webp, then the saved archive has a file of content types which gives
the parts of the document the types of the standard, each picture the type of its format, and there are no
other parts.  Missing: pictures of other formats, for which it is false (`C78_format`). -/
theorem C78_default_partial [ImgEnv] (w0 w : World) (os : List Op) (d : DocId) (g f : Doc) (fs : FS) (he : Embedded fs)
    (h0 : w0[d]? = some (g.withDefaultTheme fs)) (hu : ∀ t l fs', .useTemplate d t l fs' ∉ os)
    (h : run w0 os = .ok w) (hf : w[d]? = some f) (out : Saved) (hs : Saves f out none)
    (hm : ∀ m ∈ f.media, ∃ ext ∈ ["jpeg", "png", "webp"], extensionOf m.name = some ext) :
    ∃ types, HasXml out "[Content_Types].xml" "Types" types ∧
      (∀ p ∈ standardParts, p.1 ∈ out.map (·.1) ∧ typeOf types p.1 = some p.2) ∧
      (∀ n ∈ out.map (·.1), n = "[Content_Types].xml" ∨ n ∈ standardParts.map (·.1) ∨
        ∃ ext ∈ ["jpeg", "png", "webp"], extensionOf n = some ext ∧ isMediaName n = true ∧
          typeOf types n = some ("image/" ++ ext)) := by
  have ht := themed_kept h0 hu h hf
  refine ⟨_, themed_types ht he hs, ?_, ?_⟩
  · intro p hp
    refine ⟨?_, ?_⟩
    · rw [C49_exactly f out hs, ht.2.2]
      have : ∀ p ∈ standardParts, p.1 ∈ defaultTemplateFiles ∨ p.1 = "word/document.xml" ∨
        p.1 = "word/_rels/document.xml.rels" := by decide
      rcases this p hp with h | h | h
      · exact .inl h
      · exact .inr (.inl h)
      · exact .inr (.inr (.inl h))
    · have : ∀ p ∈ standardParts, typeOf (lineNodes defaultTypes) p.1 = some p.2 := by decide +kernel
      exact this p hp
  · intro n hn
    rw [C49_exactly f out hs, ht.2.2] at hn
    rcases hn with hn | rfl | rfl | ⟨m, hmm, rfl⟩
    · have : ∀ n ∈ defaultTemplateFiles, n = "[Content_Types].xml" ∨ n ∈ standardParts.map (·.1) := by decide
      rcases this n hn with h | h
      · exact .inl h
      · exact .inr (.inl h)
    · exact .inr (.inl (by decide))
    · exact .inr (.inl (by decide))
    · obtain ⟨ext, h1, h2⟩ := hm m hmm
      refine .inr (.inr ⟨ext, h1, extensionOf_append _ h2, (isMediaName_iff _).2 ⟨m.name, rfl⟩, ?_⟩)
      rw [typeOf_media defaultTypes_media h2]
      have : ∀ ext ∈ ["jpeg", "png", "webp"],
        ((lineNodes defaultTypes).find? (covers ext)).bind contentType = some ("image/" ++ ext) := by decide +kernel
      exact this ext h1

/-- **C78 fails for other formats**: a document with the default theme and a picture of a format other than
jpeg, png and webp is saved with a part that has no type. -/
theorem C78_format [ImgEnv] (f : Doc) (fs : FS) (he : Embedded fs) (pic : Bytes) (pw ph : Int64) (fmt : String)
    (p : Para) (hpic : ImgEnv.decodeSize pic = some (pw, ph, fmt)) (h1 : '.' ∉ fmt.toList) (h2 : '/' ∉ fmt.toList)
    (hfmt : lowered fmt ∉ ["jpeg", "png", "webp", "rels", "xml"].map String.toList) (out : Saved)
    (hs : Saves ((p.addInlineDrawing f pic).1.withDefaultTheme fs) out none) :
    ∃ types n, HasXml out "[Content_Types].xml" "Types" types ∧ n ∈ out.map (·.1) ∧ isMediaName n = true ∧
      typeOf types n = none := by
  refine ⟨_, "word/media/" ++ imageName (f.imageID + 1) fmt, themed_types ⟨rfl, rfl, rfl⟩ he hs, ?_,
    (isMediaName_iff _).2 ⟨_, rfl⟩, ?_⟩
  · rw [C49_exactly _ out hs]
    refine .inr (.inr (.inr ⟨⟨imageName (f.imageID + 1) fmt, pic⟩, ?_, rfl⟩))
    show _ ∈ ((p.addInlineDrawing f pic).1).media
    rw [addInlineDrawing_fst, addPicture_media hpic]
    simp
  · rw [typeOf_media defaultTypes_media (extensionOf_image _ h1 h2)]
    have : (lineNodes defaultTypes).find? (covers fmt) = none := by
      rw [List.find?_eq_none]
      intro n hn hc
      refine hfmt ?_
      cases n with
      | text s => cases hc
      | other => cases hc
      | elem q as kids =>
        simp only [covers, Bool.and_eq_true, decide_eq_true_eq] at hc
        cases ha : attrOf "Extension" as with
        | none => rw [ha] at hc; simp at hc
        | some e =>
          rw [ha] at hc
          simp only [Option.any_some, decide_eq_true_eq] at hc
          have key : (lineNodes defaultTypes).all (fun n => match n with
            | .elem _ as _ => (attrOf "Extension" as).all fun e =>
                (["jpeg", "png", "webp", "rels", "xml"].map String.toList).contains (lowered e)
            | _ => true) = true := by decide +kernel
          have := List.all_eq_true.1 key _ hn
          simp only [ha, Option.all_some] at this
          rw [← hc.2]
          exact List.contains_iff_mem.1 this
    rw [this]; rfl

/-- **C78, opened documents (partial).** The file of content types of an opened package is saved as it was,
whatever is called.  So all saved parts have a type if the parts of the package, the document and its
relationships, and the pictures have one.  Missing: added pictures of a format which the package has no type
for, where it is false (`C78_undeclared`). -/
theorem C78_opened_partial [ImgEnv] (w0 w : World) (os : List Op) (a : Archive) (f0 f : Doc) (cs : List Char)
    (before after : List Node) (q : QName) (as : List Attr) (types : List Node)
    (hopen : unpack w0.length a = (f0, none)) (hn : (a.map (·.name)).Nodup)
    (hp : ∀ e ∈ a, plainPath e.name = true) (ht : ⟨"[Content_Types].xml", .ok ⟨utf8 cs, none⟩⟩ ∈ a)
    (hcs : Forms (before ++ .elem q as types :: after) cs) (hb : ∀ n ∈ before ++ after, n.isElem = false)
    (hq : q.loc = "Types") (hu : ∀ t l fs, .useTemplate w0.length t l fs ∉ os)
    (h : run (w0 ++ [f0]) os = .ok w) (hf : w[w0.length]? = some f) (out : Saved) (hs : Saves f out none) :
    HasXml out "[Content_Types].xml" "Types" types ∧
    ((∀ n ∈ a.map (·.name), n ≠ "[Content_Types].xml" → (typeOf types n).isSome) →
      (typeOf types "word/document.xml").isSome → (typeOf types "word/_rels/document.xml.rels").isSome →
      (∀ m ∈ f.media, (typeOf types ("word/media/" ++ m.name)).isSome) →
      ∀ n ∈ out.map (·.1), n ≠ "[Content_Types].xml" → (typeOf types n).isSome) := by
  obtain ⟨f', hf', hsame⟩ := run_keep hu h f0 List.getElem?_concat_length
  rw [hf] at hf'
  cases hf'
  obtain ⟨t1, t2⟩ := opened_types hopen hn hp ht hcs hb hq hsame hs
  refine ⟨t1, fun k1 k2 k3 k4 n hn hne => ?_⟩
  rw [C49_exactly f out hs, t2] at hn
  rcases hn with hn | rfl | rfl | ⟨m, hm, rfl⟩
  · exact k1 n (List.mem_filter.1 hn).1 hne
  · exact k2
  · exact k3
  · exact k4 m hm

/-- **C78 fails for formats that the package has no type for**: after Parse and AddInlineDrawing of such a
picture, the saved archive has a part without a type, although the file of types was complete before. -/
theorem C78_undeclared [ImgEnv] (a : Archive) (f0 : Doc) (cs : List Char)
    (before after : List Node) (q : QName) (as : List Attr) (types : List Node)
    (me : DocId) (hopen : unpack me a = (f0, none)) (hn : (a.map (·.name)).Nodup)
    (hp : ∀ e ∈ a, plainPath e.name = true) (ht : ⟨"[Content_Types].xml", .ok ⟨utf8 cs, none⟩⟩ ∈ a)
    (hcs : Forms (before ++ .elem q as types :: after) cs) (hb : ∀ n ∈ before ++ after, n.isElem = false)
    (hq : q.loc = "Types") (hall : ∀ n ∈ a.map (·.name), n ≠ "[Content_Types].xml" → (typeOf types n).isSome)
    (hov : ∀ n ∈ types, ∀ part, isMediaName part = true → overrides part n = false)
    (pic : Bytes) (pw ph : Int64) (fmt : String) (hpic : ImgEnv.decodeSize pic = some (pw, ph, fmt))
    (h1 : '.' ∉ fmt.toList) (h2 : '/' ∉ fmt.toList) (hfmt : ∀ n ∈ types, covers fmt n = false) (p : Para)
    (out : Saved) (hs : Saves (p.addInlineDrawing f0 pic).1 out none) :
    HasXml out "[Content_Types].xml" "Types" types ∧
    ∃ n ∈ out.map (·.1), isMediaName n = true ∧ n ∉ a.map (·.name) ∧ typeOf types n = none := by
  have hty : typeOf types ("word/media/" ++ imageName (f0.imageID + 1) fmt) = none := by
    rw [typeOf_media hov (extensionOf_image _ h1 h2)]
    have : types.find? (covers fmt) = none := by
      rw [List.find?_eq_none]
      intro n hn hc
      rw [hfmt n hn] at hc
      cases hc
    rw [this]; rfl
  refine ⟨(opened_types hopen hn hp ht hcs hb hq (by rw [addInlineDrawing_fst]; exact addPicture_keep f0 pic) hs).1,
    "word/media/" ++ imageName (f0.imageID + 1) fmt, ?_, (isMediaName_iff _).2 ⟨_, rfl⟩, fun hin => ?_, hty⟩
  · rw [C49_exactly _ out hs]
    refine .inr (.inr (.inr ⟨⟨imageName (f0.imageID + 1) fmt, pic⟩, ?_, rfl⟩))
    rw [addInlineDrawing_fst, addPicture_media hpic]
    simp
  · have := hall _ hin (by
      intro e
      have h1 := congrArg isMediaName e
      have h2 : isMediaName ("word/media/" ++ imageName (f0.imageID + 1) fmt) = true := (isMediaName_iff _).2 ⟨_, rfl⟩
      rw [h2] at h1
      revert h1
      decide)
    rw [hty] at this
    cases this

/-! ## C79 -/

/-- **C79, documents with the default theme.** Whatever is called after WithDefaultTheme, the root
relationships of the saved archive name exactly one document, `word/document.xml`, which holds the body;
and all parts they name are in the archive. -/
theorem C79_default [ImgEnv] (w0 w : World) (os : List Op) (d : DocId) (g f : Doc) (fs : FS) (he : Embedded fs)
    (h0 : w0[d]? = some (g.withDefaultTheme fs)) (hu : ∀ t l fs', .useTemplate d t l fs' ∉ os)
    (h : run w0 os = .ok w) (hf : w[d]? = some f) (out : Saved) (hs : Saves f out none) :
    ∃ kids, HasXml out "_rels/.rels" "Relationships" kids ∧
      (∀ r ∈ relsOf kids, r.target ∈ out.map (·.1) ∧ r.targetMode = "") ∧ ((relsOf kids).map (·.id)).Nodup ∧
      ((relsOf kids).filter (·.type = documentRelation)).map (·.target) = ["word/document.xml"] ∧
      Stored out "word/document.xml" (xmlBytes (mDocument f.items)) := by
  have ht := themed_kept h0 hu h hf
  refine ⟨_, themed_roots ht he hs, ?_, by decide +kernel, by decide +kernel, (C49_contents f out hs).1⟩
  intro r hr
  have : ∀ r ∈ relsOf (lineNodes defaultRoots), (r.target ∈ defaultTemplateFiles ∨ r.target = "word/document.xml") ∧
    r.targetMode = "" := by decide +kernel
  obtain ⟨k1, k2⟩ := this r hr
  refine ⟨?_, k2⟩
  rw [C49_exactly f out hs, ht.2.2]
  rcases k1 with k | k
  · exact .inl k
  · exact .inr (.inl k)

/-- **C79, opened documents (partial).** If the root relationships of the package name `word/document.xml` as the
document, then so do those of the saved archive, whatever is called, and it holds the body.  Missing: packages
that have the document elsewhere, for which it is false (`C79_elsewhere`). -/
theorem C79_opened_partial [ImgEnv] (w0 w : World) (os : List Op) (a : Archive) (f0 f : Doc) (cs : List Char)
    (before after : List Node) (q : QName) (as : List Attr) (kids : List Node)
    (hopen : unpack w0.length a = (f0, none)) (hn : (a.map (·.name)).Nodup)
    (hp : ∀ e ∈ a, plainPath e.name = true) (ht : ⟨"_rels/.rels", .ok ⟨utf8 cs, none⟩⟩ ∈ a)
    (hcs : Forms (before ++ .elem q as kids :: after) cs) (hb : ∀ n ∈ before ++ after, n.isElem = false)
    (hq : q.loc = "Relationships")
    (hdoc : ((relsOf kids).filter (·.type = documentRelation)).map (·.target) = ["word/document.xml"])
    (hu : ∀ t l fs, .useTemplate w0.length t l fs ∉ os)
    (h : run (w0 ++ [f0]) os = .ok w) (hf : w[w0.length]? = some f) (out : Saved) (hs : Saves f out none) :
    ∃ kids', HasXml out "_rels/.rels" "Relationships" kids' ∧
      ((relsOf kids').filter (·.type = documentRelation)).map (·.target) = ["word/document.xml"] ∧
      Stored out "word/document.xml" (xmlBytes (mDocument f.items)) := by
  obtain ⟨f', hf', hsame⟩ := run_keep hu h f0 List.getElem?_concat_length
  rw [hf] at hf'
  cases hf'
  exact ⟨kids, ⟨cs, before, after, q, as, opened_file hopen hn hp ht (by decide) hsame hs, hcs, hb, hq⟩, hdoc,
    (C49_contents f out hs).1⟩

/-- **C79 fails for packages that have the document elsewhere**: if the root relationships name another part, and
there is no `word/document.xml`, then Parse gives an empty document without an error, and whatever is called
before WriteTo, readers of the saved archive find the old document. -/
theorem C79_elsewhere [ImgEnv] (w0 w : World) (os : List Op) (a : Archive) (f0 f : Doc) (cs : List Char)
    (before after : List Node) (q : QName) (as : List Attr) (kids : List Node) (main : String) (b : Bytes)
    (hopen : unpack w0.length a = (f0, none)) (hn : (a.map (·.name)).Nodup)
    (hp : ∀ e ∈ a, plainPath e.name = true) (ht : ⟨"_rels/.rels", .ok ⟨utf8 cs, none⟩⟩ ∈ a)
    (hcs : Forms (before ++ .elem q as kids :: after) cs) (hb : ∀ n ∈ before ++ after, n.isElem = false)
    (hq : q.loc = "Relationships")
    (hdoc : ((relsOf kids).filter (·.type = documentRelation)).map (·.target) = [main])
    (hmain : ⟨main, .ok ⟨b, none⟩⟩ ∈ a) (ho : isOtherName main = true) (hno : "word/document.xml" ∉ a.map (·.name))
    (hu : ∀ t l fs, .useTemplate w0.length t l fs ∉ os)
    (h : run (w0 ++ [f0]) os = .ok w) (hf : w[w0.length]? = some f) (out : Saved) (hs : Saves f out none) :
    f0.items = [] ∧ ∃ kids', HasXml out "_rels/.rels" "Relationships" kids' ∧
      ((relsOf kids').filter (·.type = documentRelation)).map (·.target) = [main] ∧ Stored out main b := by
  obtain ⟨f', hf', hsame⟩ := run_keep hu h f0 List.getElem?_concat_length
  rw [hf] at hf'
  cases hf'
  exact ⟨(C55_document _ a f0 hopen).1 hno, kids,
    ⟨cs, before, after, q, as, opened_file hopen hn hp ht (by decide) hsame hs, hcs, hb, hq⟩, hdoc,
    opened_file hopen hn hp hmain ho hsame hs⟩

/-! ## The hypotheses can be met -/

/-- An instance of the file system of the theme -/
def partsFS : FS := fun n =>
  if n = "xml/default/[Content_Types].xml" then .ok ⟨utf8 (defaultTypesLines.flatMap String.toList), none⟩
  else if n = "xml/default/_rels/.rels" then .ok ⟨utf8 (defaultRootLines.flatMap String.toList), none⟩
  else .ok ⟨[60, 120, 47, 62], none⟩

omit [GoEnv] in
theorem partsFS_embedded : Embedded partsFS := by
  refine ⟨rfl, ?_, ?_⟩
  · unfold partsFS; rw [if_neg (by decide), if_pos rfl]
  · intro n _
    unfold partsFS
    split
    · exact ⟨_, rfl⟩
    · split <;> exact ⟨_, rfl⟩

/-- Pictures are taken to be of the format `png` if they begin with 1, and of the format `gif` otherwise. -/
local instance partsImg : ImgEnv := ⟨fun b => some (10, 10, if b.head? = some 1 then "png" else "gif")⟩

/-- A themed document saves. -/
theorem themed_saves {fs : FS} (he : Embedded fs) {f : Doc} (hf : Themed fs f)
    (hm : ∀ m ∈ f.media, ("word/media/" ++ m.name).utf8ByteSize ≤ 65535 ∧ isDirName ("word/media/" ++ m.name) = false) :
    ∃ out, Saves f out none := by
  obtain ⟨h1, h2, h3⟩ := hf
  obtain ⟨out, e, h⟩ := C53_returns f (.inl (by rw [h2]; simp))
  have := C53_success f (fun n hn => by
    rw [h3] at hn
    obtain ⟨b, hb⟩ := he.others n hn
    refine ⟨fs, b, h2, ?_⟩
    rw [h1, if_neg (by decide)]
    exact hb) (fun n hn => by
      rw [h3] at hn
      have : ∀ n ∈ defaultTemplateFiles, n.utf8ByteSize ≤ 65535 ∧ isDirName n = false := by decide
      exact this n hn) hm out e h
  subst this
  exact ⟨out, h⟩

/-- A paragraph and a picture in a new document with the default theme -/
example : ∃ (w : World) (f : Doc) (out : Saved),
    run [Doc.new.withDefaultTheme partsFS] [.addParagraph 0, .addInlineDrawing 0 (.body 0) [1, 2]] = .ok w ∧
    w[0]? = some f ∧ f.media.map (·.name) = ["image1.png"] ∧
    (∀ m ∈ f.media, ∃ ext ∈ ["jpeg", "png", "webp"], extensionOf m.name = some ext) ∧ Saves f out none := by
  have hw : ∃ w f, run [Doc.new.withDefaultTheme partsFS] [.addParagraph 0, .addInlineDrawing 0 (.body 0) [1, 2]] = .ok w ∧
    w[0]? = some f ∧ f.media = [⟨"image1.png", [1, 2]⟩] := ⟨_, _, rfl, rfl, rfl⟩
  obtain ⟨w, f, h1, h2, h3⟩ := hw
  have ht : Themed partsFS f := themed_kept (w0 := [Doc.new.withDefaultTheme partsFS]) rfl (by simp) h1 h2
  obtain ⟨out, ho⟩ := themed_saves partsFS_embedded ht (by rw [h3]; decide)
  exact ⟨w, f, out, h1, h2, by rw [h3]; decide, by rw [h3]; decide, ho⟩

/-- A picture of the format `gif` -/
example : (∃ out, Saves ((({} : Para).addInlineDrawing Doc.new [2]).1.withDefaultTheme partsFS) out none) ∧
    ImgEnv.decodeSize [2] = some (10, 10, "gif") ∧
    lowered "gif" ∉ ["jpeg", "png", "webp", "rels", "xml"].map String.toList := by
  refine ⟨themed_saves partsFS_embedded ⟨rfl, rfl, rfl⟩ ?_, rfl, by decide⟩
  have : ((({} : Para).addInlineDrawing Doc.new [2]).1.withDefaultTheme partsFS).media = [⟨"image1.gif", [2]⟩] := rfl
  rw [this]
  decide

/-- The types of a small package -/
def smallTypes : List Node :=
  [.elem ⟨"", "Default"⟩ [⟨⟨"", "Extension"⟩, "xml"⟩, ⟨⟨"", "ContentType"⟩, "application/xml"⟩] [],
   .elem ⟨"", "Default"⟩ [⟨⟨"", "Extension"⟩, "rels"⟩, ⟨⟨"", "ContentType"⟩, "application/xml"⟩] []]

/-- The root relationships of a small package -/
def smallRoots (main : String) : List Node :=
  [.elem ⟨"", "Relationship"⟩ [⟨⟨"", "Id"⟩, "rId1"⟩, ⟨⟨"", "Type"⟩, documentRelation⟩, ⟨⟨"", "Target"⟩, main⟩] []]

/-- A small package that has the document somewhere -/
def smallPackage (main : String) : Archive :=
  [⟨"[Content_Types].xml", .ok ⟨utf8 (Node.elem ⟨"", "Types"⟩ [] smallTypes).chars, none⟩⟩,
   ⟨"_rels/.rels", .ok ⟨utf8 (Node.elem ⟨"", "Relationships"⟩ [] (smallRoots main)).chars, none⟩⟩,
   ⟨main, .ok ⟨[60, 120, 47, 62], none⟩⟩]

theorem single_forms (n : Node) (hn : n.isElem = true) (hp : n.printable = true) (hs : ∀ s ∈ n.strings, xmlText s) :
    Forms ([] ++ n :: []) n.chars := by
  have ht : n.isText = false := by cases n <;> first | rfl | cases hn
  have : Forms [n] (n.chars ++ []) := .cons (form_chars n hp ht hs) .nil
  simpa using this

theorem small_opens : ∃ f0, unpack 0 (smallPackage "word/document2.xml") = (f0, none) ∧ f0.imageID = 100000 :=
  ⟨_, rfl, rfl⟩

theorem small_plain : ((smallPackage "word/document2.xml").map (·.name)).Nodup ∧
    (∀ e ∈ smallPackage "word/document2.xml", plainPath e.name = true) := by
  refine ⟨by decide, ?_⟩
  intro e he
  have : ∀ n ∈ (smallPackage "word/document2.xml").map (·.name), plainPath n = true := by decide
  exact this _ (List.mem_map.2 ⟨e, he, rfl⟩)

/-- What is made from the small package saves. -/
theorem small_saves {f0 f : Doc} (h : unpack 0 (smallPackage "word/document2.xml") = (f0, none)) (hs : SameTheme f0 f)
    (hm : ∀ m ∈ f.media, ("word/media/" ++ m.name).utf8ByteSize ≤ 65535 ∧ isDirName ("word/media/" ++ m.name) = false) :
    ∃ out, Saves f out none := by
  obtain ⟨p1, _, _, _, p5, p6⟩ := C55_places _ _ f0 h
  obtain ⟨e1, e2, e3⟩ := hs
  rw [p6] at e1
  rw [p5] at e2
  have e3' : f.tmpfslst = ["[Content_Types].xml", "_rels/.rels", "word/document2.xml"] := by
    rw [e3, p1]; decide
  obtain ⟨out, e, ho⟩ := C53_returns f (.inl (by rw [e2]; simp))
  have hopen : ∀ n ∈ ["[Content_Types].xml", "_rels/.rels", "word/document2.xml"],
      ∃ b, zipFS (smallPackage "word/document2.xml") n = .ok ⟨b, none⟩ := by
    intro n hn
    have : ∃ b, (⟨n, .ok ⟨b, none⟩⟩ : Entry) ∈ smallPackage "word/document2.xml" := by
      simp only [List.mem_cons, List.not_mem_nil, or_false] at hn
      rcases hn with rfl | rfl | rfl
      · exact ⟨_, .head _⟩
      · exact ⟨_, .tail _ (.head _)⟩
      · exact ⟨_, .tail _ (.tail _ (.head _))⟩
    obtain ⟨b, hb⟩ := this
    exact ⟨b, zipFS_plain small_plain.1 small_plain.2 hb⟩
  have := C53_success f (fun n hn => by
    rw [e3'] at hn
    obtain ⟨b, hb⟩ := hopen n hn
    exact ⟨_, b, e2, by rw [if_pos e1, hb]⟩) (fun n hn => by
      rw [e3'] at hn
      have : ∀ n ∈ ["[Content_Types].xml", "_rels/.rels", "word/document2.xml"],
        n.utf8ByteSize ≤ 65535 ∧ isDirName n = false := by decide
      exact this n hn) hm out e ho
  subst this
  exact ⟨out, ho⟩

/-- A package with the document in `word/document2.xml` is opened and saved. -/
example : ∃ f0 out, unpack 0 (smallPackage "word/document2.xml") = (f0, none) ∧ Saves f0 out none ∧
    Forms ([] ++ .elem ⟨"", "Relationships"⟩ [] (smallRoots "word/document2.xml") :: [])
      (Node.elem ⟨"", "Relationships"⟩ [] (smallRoots "word/document2.xml")).chars ∧
    ((relsOf (smallRoots "word/document2.xml")).filter (·.type = documentRelation)).map (·.target) =
      ["word/document2.xml"] ∧ ((smallPackage "word/document2.xml").map (·.name)).Nodup ∧
    (∀ e ∈ smallPackage "word/document2.xml", plainPath e.name = true) ∧ isOtherName "word/document2.xml" = true ∧
    "word/document.xml" ∉ (smallPackage "word/document2.xml").map (·.name) := by
  obtain ⟨f0, h0, _⟩ := small_opens
  obtain ⟨out, ho⟩ := small_saves h0 (.refl f0) (by
    rw [(C55_places _ _ f0 h0).2.1]
    have : mediaIn (smallPackage "word/document2.xml") = [] := by rfl
    rw [this]; simp)
  refine ⟨f0, out, h0, ho, single_forms _ rfl (by decide) ?_, by decide, small_plain.1, small_plain.2, by decide, by decide⟩
  have : ∀ s ∈ (Node.elem ⟨"", "Relationships"⟩ [] (smallRoots "word/document2.xml")).strings,
      s.toList.all xmlChar = true := by decide
  intro s hs c hc
  exact List.all_eq_true.1 (this s hs) c hc

/-- It has no type for the pictures of the format `png`; with one it is saved. -/
example : ∃ f0 out, unpack 0 (smallPackage "word/document2.xml") = (f0, none) ∧
    Saves (({} : Para).addInlineDrawing f0 [1]).1 out none ∧
    Forms ([] ++ .elem ⟨"", "Types"⟩ [] smallTypes :: []) (Node.elem ⟨"", "Types"⟩ [] smallTypes).chars ∧
    (∀ n ∈ (smallPackage "word/document2.xml").map (·.name), n ≠ "[Content_Types].xml" → (typeOf smallTypes n).isSome) ∧
    (∀ n ∈ smallTypes, ∀ part, isMediaName part = true → overrides part n = false) ∧
    ImgEnv.decodeSize [1] = some (10, 10, "png") ∧ ∀ n ∈ smallTypes, covers "png" n = false := by
  obtain ⟨f0, h0, hi⟩ := small_opens
  have hmed : f0.media = [] := (C55_places _ _ f0 h0).2.1.trans rfl
  obtain ⟨out, ho⟩ := small_saves (f := (({} : Para).addInlineDrawing f0 [1]).1) h0
    (by rw [addInlineDrawing_fst]; exact addPicture_keep f0 [1]) (by
      rw [addInlineDrawing_fst, addPicture_media (fmt := "png") (pw := 10) (ph := 10) rfl, hmed, hi]
      decide +kernel)
  refine ⟨f0, out, h0, ho, single_forms _ rfl (by decide) ?_, by decide +kernel, ?_, rfl, by decide⟩
  · have : ∀ s ∈ (Node.elem ⟨"", "Types"⟩ [] smallTypes).strings, s.toList.all xmlChar = true := by decide
    intro s hs c hc
    exact List.all_eq_true.1 (this s hs) c hc
  · intro n hn part hp
    have : ∀ n ∈ smallTypes, mediaEntry n = false := by decide
    exact overrides_media (this n hn) hp

omit [GoEnv] in
/-- A package with the document in its usual place is opened. -/
example : letI : GoEnv := ⟨fun _ => none, fun _ => false, fun _ => false⟩
    (∃ f0, unpack 0 (smallPackage "word/document.xml") = (f0, none)) ∧
    ((relsOf (smallRoots "word/document.xml")).filter (·.type = documentRelation)).map (·.target) =
      ["word/document.xml"] ∧ ((smallPackage "word/document.xml").map (·.name)).Nodup ∧
    (∀ n ∈ (smallPackage "word/document.xml").map (·.name), plainPath n = true ∧ (typeOf smallTypes n).isSome) ∧
    (typeOf smallTypes "word/_rels/document.xml.rels").isSome := by
  refine ⟨?_, by decide, by decide, by decide +kernel, by decide +kernel⟩
  exact ⟨_, Prod.ext rfl (by decide +kernel)⟩

end Docx
