import Verif.SpecTargets
import Verif.Props.Parts

/-!
# C85: the relationships of a saved document lead to parts of the package
-/

namespace Docx

/-! ## Lemmas -/

theorem targetPart_media (n : String) : targetPart ("media/" ++ n) = "word/media/" ++ n := by
  have h : ("media/" ++ n).toList = 'm' :: ('e' :: 'd' :: 'i' :: 'a' :: '/' :: n.toList) := by
    rw [String.toList_append]; rfl
  unfold targetPart
  rw [h]
  apply String.toList_injective
  show ("word/" ++ ("media/" ++ n)).toList = _
  simp only [String.toList_append]
  rfl

/-- What the calls on a document do to its relationships and media -/
structure TableGrew (f g : Doc) : Prop where
  rels : ∃ new, g.rels = f.rels ++ new ∧ ∀ r ∈ new, r.targetMode = "External" ∨
    ∃ m ∈ g.media, r.target = "media/" ++ m.name
  media : ∃ new, g.media = f.media ++ new

theorem TableGrew.refl (f : Doc) : TableGrew f f := ⟨⟨[], by simp, by simp⟩, ⟨[], by simp⟩⟩

theorem TableGrew.same {f g h : Doc} (a : TableGrew f g) (h1 : h.rels = g.rels) (h2 : h.media = g.media) : TableGrew f h := by
  obtain ⟨⟨n, e, k⟩, ⟨n', e'⟩⟩ := a
  exact ⟨⟨n, h1.trans e, by rw [h2]; exact k⟩, ⟨n', h2.trans e'⟩⟩

theorem Evo.added {f g : Doc} (h : Evo f g) : TableGrew f g := by
  induction h with
  | refl => exact .refl _
  | items l _ ih => exact ih.same rfl rfl
  | template t l tf _ ih => exact ih.same rfl rfl
  | docID _ ih => exact ih.same rfl rfl
  | incID n _ ih => exact ih.same rfl rfl
  | link l _ ih =>
    obtain ⟨⟨n, e, k⟩, ⟨n', e'⟩⟩ := ih
    rename_i g _
    refine ⟨⟨n ++ [⟨ridOf (g.rID + 1), relHyperlink, l, relTargetMode⟩], ?_, ?_⟩, ⟨n', e'⟩⟩
    · simp only [Doc.addLinkRelation, e, List.append_assoc]
    · intro r hr
      rcases List.mem_append.1 hr with hr | hr
      · exact k r hr
      · rw [List.mem_singleton.1 hr]; exact .inl rfl
  | image fmt d _ ih =>
    rename_i g _
    obtain ⟨⟨n, e, k⟩, ⟨n', e'⟩⟩ := ih
    refine ⟨⟨n ++ [⟨ridOf (g.rID + 1), relImage, "media/" ++ imageName (g.imageID + 1) fmt, ""⟩], ?_, ?_⟩,
      ⟨n' ++ [⟨imageName (g.imageID + 1) fmt, d⟩], ?_⟩⟩
    · simp only [Doc.addImage, Doc.addMedia, Doc.addImageRelation, e, List.append_assoc]
    · intro r hr
      have hmed : (g.addImage fmt d).1.media = g.media ++ [⟨imageName (g.imageID + 1) fmt, d⟩] := rfl
      rw [hmed]
      rcases List.mem_append.1 hr with hr | hr
      · rcases k r hr with h | ⟨m, hm, h⟩
        · exact .inl h
        · exact .inr ⟨m, List.mem_append_left _ hm, h⟩
      · rw [List.mem_singleton.1 hr]
        exact .inr ⟨_, List.mem_append_right _ (List.mem_singleton.2 rfl), rfl⟩
    · show g.media ++ _ = _
      rw [e', List.append_assoc]

variable [GoEnv]

/-- The relationships of a document that came from a new one lead to parts exactly if it has the three parts. -/
theorem base_leads {f : Doc} (h : ∃ b, Base b ∧ Evo b f) {out : Saved} (hs : Saves f out none) :
    (∀ r ∈ f.rels, Leads (out.map (·.1)) r) ↔ ∀ n ∈ newParts, n ∈ f.tmpfslst := by
  obtain ⟨b, hb, e⟩ := h
  obtain ⟨⟨new, hr, hn⟩, _⟩ := e.added
  rw [(base_rels hb).1] at hr
  have hx := C49_exactly f out hs
  have hpart : ∀ n ∈ newParts, (n ∈ out.map (·.1) ↔ n ∈ f.tmpfslst) := by
    intro n hnp
    rw [hx]
    constructor
    · rintro (h | rfl | rfl | ⟨m, _, rfl⟩)
      · exact h
      · exact absurd hnp (by decide)
      · exact absurd hnp (by decide)
      · have h1 : isMediaName ("word/media/" ++ m.name) = true := (isMediaName_iff _).2 ⟨_, rfl⟩
        have : ∀ n ∈ newParts, isMediaName n = false := by decide
        rw [this _ hnp] at h1
        cases h1
    · exact .inl
  constructor
  · intro h n hnp
    rw [← hpart n hnp]
    have : ∀ n ∈ newParts, ∃ r ∈ baseRels, r.targetMode ≠ "External" ∧ targetPart r.target = n := by decide
    obtain ⟨r, h1, h2, rfl⟩ := this n hnp
    exact (h r (by rw [hr]; exact List.mem_append_left _ h1)).resolve_left h2
  · intro h r hm
    rw [hr] at hm
    rcases List.mem_append.1 hm with hm | hm
    · have : ∀ r ∈ baseRels, targetPart r.target ∈ newParts := by decide
      exact .inr ((hpart _ (this r hm)).2 (h _ (this r hm)))
    · rcases hn r hm with h | ⟨m, hm, h⟩
      · exact .inl h
      · refine .inr ?_
        rw [h, targetPart_media, hx]
        exact .inr (.inr (.inr ⟨m, hm, rfl⟩))

omit [GoEnv] in
/-- The documents of a split have the template of the document that is split. -/
theorem splitLoop_theme {sep} {f : Doc} {d : DocId} : ∀ {n : Nat} {is : List BItem} {w w' : World} {docs docs'} {g : Doc},
    splitLoop sep f n w docs is = .ok (w', docs') → w.length ≤ d → w'[d]? = some g → SameTheme (splitDoc f) g := by
  intro n
  induction n with
  | zero => intro is w w' docs docs' g h; simp [splitLoop] at h
  | succ n ih =>
    intro is w w' docs docs' g h hd hg
    cases is with
    | nil =>
      simp only [splitLoop, Res.ok.injEq, Prod.mk.injEq] at h
      rw [← h.1, List.getElem?_eq_none hd] at hg
      cases hg
    | cons i is =>
      simp only [splitLoop] at h
      obtain ⟨⟨w1, c⟩, h1, h2⟩ := Res.bind_eq_ok.1 h
      have hlen : w1.length ≤ w.length + 1 := by
        refine Nat.le_of_not_lt fun hlt => ?_
        obtain ⟨b, hb, _⟩ := (splitFill_wevo (B := fun _ => False) h1).new (w.length + 1) w1[w.length + 1]
          (List.getElem?_eq_getElem hlt) (by simp)
        exact hb
      have key : ∀ g1, w1[d]? = some g1 → SameTheme (splitDoc f) g1 := by
        intro g1 hg1
        have hlt := lt_of_getElem? hg1
        have he : d = w.length := by simp only [DocId] at *; omega
        subst he
        obtain ⟨g', hg', hs⟩ := splitFill_keep (d := w.length) h1 (splitDoc f) List.getElem?_concat_length
        rw [hg1] at hg'
        cases hg'
        exact hs
      simp only at h2
      split at h2
      · rcases Nat.lt_or_ge d w1.length with hlt | hge
        · obtain ⟨g', hg', hs⟩ := splitLoop_keep (d := d) h2 w1[d] (List.getElem?_eq_getElem hlt)
          rw [hg] at hg'
          cases hg'
          have h0 := key _ (List.getElem?_eq_getElem hlt)
          exact ⟨hs.1.trans h0.1, hs.2.1.trans h0.2.1, hs.2.2.trans h0.2.2⟩
        · exact ih h2 hge hg
      · simp only [Res.pure_eq, Res.ok.injEq, Prod.mk.injEq] at h2
        rw [← h2.1] at hg
        exact key g hg

/-! ## C85 -/

/-- **C85.** The table of the saved archive holds the relationships of the document, if their texts can be
written in XML. -/
theorem C85_table (f : Doc) (out : Saved) (hs : Saves f out none) (hx : xmlText f.relXmlns)
    (hr : ∀ r ∈ f.rels, xmlText r.id ∧ xmlText r.type ∧ xmlText r.target ∧ xmlText r.targetMode) :
    HasTable out f.rels := by
  obtain ⟨w, hw, hf⟩ := C74_saved (mRels f.relXmlns f.rels) rfl (pok_mRels _ _).1 (mRels_strings hx hr)
  have hst := (C49_contents f out hs).2.1
  rw [hw] at hst
  refine ⟨f.rels.map mRel, ⟨w, [.other, .text "\n"], [], _, _, hst, hf, ?_, rfl⟩, relsOf_mRel _⟩
  intro n hn
  simp only [List.append_nil, List.mem_cons, List.not_mem_nil, or_false] at hn
  rcases hn with rfl | rfl <;> rfl

/-- **C85, built documents.** Take any history of calls on any documents and a document made in it, by New,
LoadBodyItems or a split.  The relationships of what it saves all lead to parts exactly if the list of
template files has the styles, the theme and the fonts.  So with the default theme they do. -/
theorem C85_built [ImgEnv] (w0 w : World) (os : List Op) (h : run w0 os = .ok w) (d : DocId) (hd : w0.length ≤ d)
    (f : Doc) (hf : w[d]? = some f) (out : Saved) (hs : Saves f out none) :
    (∀ r ∈ f.rels, Leads (out.map (·.1)) r) ↔ ∀ n ∈ newParts, n ∈ f.tmpfslst :=
  base_leads ((run_wevo h).new d f hf hd) hs

/-- **C85, documents with the default theme.** They lead to parts, whatever was called before and after
WithDefaultTheme. -/
theorem C85_default [ImgEnv] (w0 w1 w : World) (os os' : List Op) (h : run w0 os = .ok w1) (d : DocId)
    (hd : w0.length ≤ d) (g : Doc) (hg : w1[d]? = some g) (fs : FS)
    (h' : run (w1.set d (g.withDefaultTheme fs)) os' = .ok w) (hu : ∀ t l fs', .useTemplate d t l fs' ∉ os')
    (f : Doc) (hf : w[d]? = some f) (out : Saved) (hs : Saves f out none) :
    ∀ r ∈ f.rels, Leads (out.map (·.1)) r := by
  obtain ⟨b, hb, e⟩ := (run_wevo h).new d g hg hd
  have hset : (w1.set d (g.withDefaultTheme fs))[d]? = some (g.withDefaultTheme fs) := by
    simp [lt_of_getElem? hg]
  obtain ⟨f', hf', e'⟩ := (run_wevo h').old d _ hset
  rw [hf] at hf'
  cases hf'
  obtain ⟨f', hf', e1, e2, e3⟩ := run_keep hu h' _ hset
  rw [hf] at hf'
  cases hf'
  refine (base_leads ⟨b, hb, (e.template _ _ _).trans e'⟩ hs).2 ?_
  rw [e3]
  show ∀ n ∈ newParts, n ∈ defaultTemplateFiles
  decide

/-- **C85, opened documents.** If the relationships of an opened package lead to parts of the package, those of
what is saved lead to parts of the saved package, whatever is called, and every part of the package is still
there. -/
theorem C85_opened [ImgEnv] (w0 w : World) (os : List Op) (a : Archive) (f0 f : Doc)
    (hopen : unpack w0.length a = (f0, none)) (hl : ∀ r ∈ f0.rels, Leads (a.map (·.name)) r)
    (hu : ∀ t l fs, .useTemplate w0.length t l fs ∉ os)
    (h : run (w0 ++ [f0]) os = .ok w) (hf : w[w0.length]? = some f) (out : Saved) (hs : Saves f out none) :
    (∀ r ∈ f.rels, Leads (out.map (·.1)) r) ∧ ∀ n ∈ a.map (·.name), n ∈ out.map (·.1) := by
  obtain ⟨f', hf', _, _, e3⟩ := run_keep hu h f0 List.getElem?_concat_length
  rw [hf] at hf'
  cases hf'
  obtain ⟨f', hf', e⟩ := (run_wevo h).old _ f0 List.getElem?_concat_length
  rw [hf] at hf'
  cases hf'
  obtain ⟨⟨new, hr, hn⟩, ⟨newm, hm⟩⟩ := e.added
  obtain ⟨p1, p2, _⟩ := C55_places _ a f0 hopen
  have hx := C49_exactly f out hs
  have hall : ∀ n ∈ a.map (·.name), n ∈ out.map (·.1) := by
    intro n hna
    rw [hx]
    cases ho : isOtherName n with
    | true =>
      left
      rw [e3, p1]
      exact List.mem_filter.2 ⟨hna, ho⟩
    | false =>
      rcases (C55_kinds_disjoint n).2.2.2 ho with rfl | rfl | hmed
      · exact .inr (.inl rfl)
      · exact .inr (.inr (.inl rfl))
      · obtain ⟨x, rfl⟩ := (isMediaName_iff n).1 hmed
        obtain ⟨en, hen, he⟩ := List.mem_map.1 hna
        refine .inr (.inr (.inr ⟨⟨x, en.content.getD []⟩, ?_, rfl⟩))
        rw [hm, p2]
        refine List.mem_append_left _ (List.mem_map.2 ⟨en, List.mem_filter.2 ⟨hen, by rw [he]; exact hmed⟩, ?_⟩)
        congr 1
        rw [he, String.toList_append]
        have : mediaFolder.toList.length = "word/media/".toList.length := rfl
        rw [← this, List.drop_left]
        simp
  refine ⟨fun r hrm => ?_, hall⟩
  rw [hr] at hrm
  rcases List.mem_append.1 hrm with hrm | hrm
  · rcases hl r hrm with h | h
    · exact .inl h
    · exact .inr (hall _ h)
  · rcases hn r hrm with h | ⟨m, hm, h⟩
    · exact .inl h
    · refine .inr ?_
      rw [h, targetPart_media, hx]
      exact .inr (.inr (.inr ⟨m, hm, rfl⟩))

/-- **C85, splitting.** The documents a split of an opened document gives have relationships that lead to parts
exactly if the package has the styles, the theme and the fonts at the places of a new document; whether the
package refers to them does not matter.  So for a package without a theme all of them are damaged. -/
theorem C85_split (w0 w : World) (a : Archive) (f0 : Doc) (hopen : unpack w0.length a = (f0, none))
    (sep : World → Para → Res Bool) (ds : List DocId)
    (h : World.splitByParagraph (w0 ++ [f0]) w0.length sep = .ok (w, ds)) (d : DocId) (hd : w0.length < d) (f : Doc)
    (hf : w[d]? = some f) (out : Saved) (hs : Saves f out none) :
    (∀ r ∈ f.rels, Leads (out.map (·.1)) r) ↔ ∀ n ∈ newParts, n ∈ a.map (·.name) := by
  unfold World.splitByParagraph at h
  rw [List.getElem?_concat_length] at h
  simp only at h
  have hlen : (w0 ++ [f0]).length ≤ d := by simp; omega
  rw [base_leads ((splitLoop_wevo (base_split f0) h).new d f hf hlen) hs, (splitLoop_theme h hlen hf).2.2]
  show (∀ n ∈ newParts, n ∈ f0.tmpfslst) ↔ _
  rw [(C55_places _ a f0 hopen).1]
  have : ∀ n ∈ newParts, isOtherName n = true := by decide
  constructor
  · exact fun h n hn => (List.mem_filter.1 (h n hn)).1
  · exact fun h n hn => List.mem_filter.2 ⟨h n hn, this n hn⟩

/-- **C85 fails for documents without a theme**: what a document made by New saves before a theme is chosen has
relationships to parts that are missing, and no content types and root relationships either. -/
theorem C85_bare [ImgEnv] (w0 w : World) (os : List Op) (h : run w0 (.new :: os) = .ok w)
    (hu : ∀ t l fs, .useTemplate w0.length t l fs ∉ os) (f : Doc) (hf : w[w0.length]? = some f)
    (out : Saved) (hs : Saves f out none) :
    (∀ n ∈ newParts, ∃ r ∈ f.rels, targetPart r.target = n ∧ ¬ Leads (out.map (·.1)) r) ∧
      "[Content_Types].xml" ∉ out.map (·.1) ∧ "_rels/.rels" ∉ out.map (·.1) := by
  have h' : run (w0 ++ [Doc.new]) os = .ok w := h
  obtain ⟨f', hf', _, _, e3⟩ := run_keep hu h' _ List.getElem?_concat_length
  rw [hf] at hf'
  cases hf'
  obtain ⟨f', hf', e⟩ := (run_wevo h').old _ _ List.getElem?_concat_length
  rw [hf] at hf'
  cases hf'
  obtain ⟨⟨new, hr, _⟩, _⟩ := e.added
  have hno : ∀ n, isOtherName n = true → n ∉ out.map (·.1) := by
    intro n ho
    rw [C49_exactly f out hs, e3]
    rintro (h | rfl | rfl | ⟨m, _, rfl⟩)
    · cases h
    · revert ho; decide
    · revert ho; decide
    · have := (C55_kinds_disjoint ("word/media/" ++ m.name)).2.2.1 ((isMediaName_iff _).2 ⟨_, rfl⟩)
      rw [ho] at this
      cases this
  refine ⟨fun n hn => ?_, hno _ (by decide), hno _ (by decide)⟩
  have k : ∀ n ∈ newParts, isOtherName n = true ∧ ∃ r ∈ baseRels, targetPart r.target = n ∧ r.targetMode ≠ "External" := by
    decide
  obtain ⟨ho, r, h1, h2, h3⟩ := k n hn
  refine ⟨r, by rw [hr]; exact List.mem_append_left _ h1, h2, ?_⟩
  rintro (h | h)
  · exact h3 h
  · rw [h2] at h; exact hno _ ho h

/-! ## The hypotheses can be met -/

local instance targetsImg : ImgEnv := ⟨fun _ => some (10, 10, "png")⟩

/-- A new document with a link and a picture, saved with and without the default theme -/
example : ∃ (w w' : World) (g f : Doc) (out out' : Saved),
    run [] [.new, .addParagraph 0, .addLink 0 (.body 0) "a" "http://x", .addInlineDrawing 0 (.body 0) [1]] = .ok w ∧
    w[0]? = some g ∧ Saves g out none ∧
    run (w.set 0 (g.withDefaultTheme partsFS)) [.addInlineDrawing 0 (.body 0) [2]] = .ok w' ∧ w'[0]? = some f ∧
    f.rels.length = 6 ∧ Saves f out' none ∧ HasTable out' f.rels := by
  have hw : ∃ w w' g f,
    run [] [.new, .addParagraph 0, .addLink 0 (.body 0) "a" "http://x", .addInlineDrawing 0 (.body 0) [1]] = .ok w ∧
    w[0]? = some g ∧ g.media = [⟨"image1.png", [1]⟩] ∧ g.tmpfslst = [] ∧
    run (w.set 0 (g.withDefaultTheme partsFS)) [.addInlineDrawing 0 (.body 0) [2]] = .ok w' ∧ w'[0]? = some f ∧
    f.media = [⟨"image1.png", [1]⟩, ⟨"image2.png", [2]⟩] ∧ f.relXmlns = Doc.new.relXmlns ∧
    f.rels = baseRels ++ [⟨"rId4", relHyperlink, "http://x", "External"⟩, ⟨"rId5", relImage, "media/image1.png", ""⟩,
      ⟨"rId6", relImage, "media/image2.png", ""⟩] := ⟨_, _, _, _, rfl, rfl, rfl, rfl, rfl, rfl, rfl, rfl, rfl⟩
  obtain ⟨w, w', g, f, h1, h2, h3, h4, h5, h6, h7, h8, h9⟩ := hw
  obtain ⟨out, e, ho⟩ := C53_returns g (.inr h4)
  have := C53_success g (by rw [h4]; simp) (by rw [h4]; simp) (by rw [h3]; decide) out e ho
  subst this
  have ht : Themed partsFS f := themed_kept (g := g) (d := 0) (by simp [lt_of_getElem? h2]) (by simp) h5 h6
  obtain ⟨out', ho'⟩ := themed_saves partsFS_embedded ht (by rw [h7]; decide)
  refine ⟨w, w', g, f, out, out', h1, h2, ho, h5, h6, by rw [h9]; rfl, ho', C85_table f out' ho' ?_ ?_⟩
  · rw [h8]; unfold xmlText; decide +kernel
  · rw [h9]; unfold xmlText; decide +kernel

/-- A package with an empty paragraph, a style sheet and a relationship to it -/
def lonePackage : Archive :=
  [⟨"word/document.xml", .ok ⟨utf8 (Node.elem ⟨"w", "document"⟩ [] [.elem ⟨"w", "body"⟩ [] [.elem ⟨"w", "p"⟩ [] []]]).chars, none⟩⟩,
   ⟨"word/_rels/document.xml.rels", .ok ⟨utf8 (Node.elem ⟨"", "Relationships"⟩ []
     [.elem ⟨"", "Relationship"⟩ [⟨⟨"", "Id"⟩, "rId1"⟩, ⟨⟨"", "Target"⟩, "styles.xml"⟩] []]).chars, none⟩⟩,
   ⟨"word/styles.xml", .ok ⟨[60, 120, 47, 62], none⟩⟩]

omit [GoEnv] in
/-- It can be opened, saved, and split into documents that can be saved. -/
example : letI : GoEnv := ⟨fun _ => none, fun _ => false, fun _ => false⟩
    ∃ (f0 f : Doc) (w : World) (out out' : Saved), unpack 0 lonePackage = (f0, none) ∧
      (∀ r ∈ f0.rels, Leads (lonePackage.map (·.name)) r) ∧ Saves f0 out none ∧
      World.splitByParagraph [f0] 0 (fun _ _ => .ok true) = .ok (w, [1]) ∧ w[1]? = some f ∧ Saves f out' none ∧
      ¬ ∀ n ∈ newParts, n ∈ lonePackage.map (·.name) := by
  letI : GoEnv := ⟨fun _ => none, fun _ => false, fun _ => false⟩
  obtain ⟨f0, h0⟩ : ∃ f0, unpack 0 lonePackage = (f0, none) := ⟨_, Prod.ext rfl (by decide +kernel)⟩
  obtain ⟨p, hi, hc⟩ : ∃ p, f0.items = [.para p] ∧ p.children = [] := by
    have : (match (unpack 0 lonePackage).1.items with
      | [.para p] => p.children.isEmpty
      | _ => false) = true := by decide +kernel
    rw [h0] at this
    simp only at this
    split at this
    · rename_i p hp
      exact ⟨p, hp, by simpa using this⟩
    · cases this
  have hr : f0.rels = [⟨"rId1", "", "styles.xml", ""⟩] := by
    have : (unpack 0 lonePackage).1.rels = [⟨"rId1", "", "styles.xml", ""⟩] := by decide +kernel
    rw [h0] at this; exact this
  obtain ⟨p1, p2, _, _, p5, p6⟩ := C55_places 0 lonePackage f0 h0
  have p1' : f0.tmpfslst = ["word/styles.xml"] := p1.trans (by decide)
  have p2' : f0.media = [] := p2.trans rfl
  have hplain : (lonePackage.map (·.name)).Nodup ∧ ∀ e ∈ lonePackage, plainPath e.name = true := by
    refine ⟨by decide, ?_⟩
    intro e he
    have : ∀ n ∈ lonePackage.map (·.name), plainPath n = true := by decide
    exact this _ (List.mem_map.2 ⟨e, he, rfl⟩)
  have save : ∀ f : Doc, SameTheme f0 f → f.media = [] → ∃ out, Saves f out none := by
    intro f ⟨e1, e2, e3⟩ hm
    obtain ⟨out, e, ho⟩ := C53_returns f (.inl (by rw [e2, p5]; simp))
    have := C53_success f (fun n hn => by
      rw [e3, p1'] at hn
      refine ⟨_, [60, 120, 47, 62], e2.trans p5, ?_⟩
      rw [if_pos (e1.trans p6), List.mem_singleton.1 hn]
      exact zipFS_plain hplain.1 hplain.2 (.tail _ (.tail _ (.head _)))) (by rw [e3, p1']; decide)
      (by rw [hm]; simp) out e ho
    subst this
    exact ⟨out, ho⟩
  obtain ⟨out, ho⟩ := save f0 (.refl _) p2'
  have hsp : World.splitByParagraph [f0] 0 (fun _ _ => .ok true) =
      .ok ([f0, { splitDoc f0 with items := [.para { p with children := [], file := some 1 }] }], [1]) := by
    unfold World.splitByParagraph
    simp only [List.getElem?_cons_zero, hi]
    obtain ⟨_, cs, _⟩ := p
    simp only at hc
    subst hc
    rfl
  obtain ⟨out', ho'⟩ := save { splitDoc f0 with items := [.para { p with children := [], file := some 1 }] } ⟨rfl, rfl, rfl⟩ rfl
  refine ⟨f0, _, _, out, out', h0, ?_, ho, hsp, rfl, ho', by decide⟩
  rw [hr]
  intro r hr
  rw [List.mem_singleton.1 hr]
  exact .inr (by decide)

end Docx
