import Verif.SpecSource
import Verif.Props.Targets
import Verif.Props.PackKeep
import Verif.Props.Split

/-!
# C88: saving a document over the file it was opened from
-/

namespace Docx

section

variable [GoEnv] [ImgEnv]

/-- Nothing can be read from an emptied file. -/
theorem emptied_fails (a : Archive) (n : String) (b : Bytes) : zipFS (emptied a) n ≠ .ok ⟨b, none⟩ := by
  unfold zipFS
  split
  · exact nofun
  · split
    · simp
    · split
      · rename_i e he
        have hm := List.mem_of_find?_eq_some he
        obtain ⟨e0, _, rfl⟩ := List.mem_map.1 hm
        split
        · simp
        · exact nofun
      · split
        · simp
        · exact nofun

theorem openedFrom_theme {a : Archive} {d : DocId} {w' : World} {g : Doc} (h : OpenedFrom a d w' g) :
    g.template = "" ∧ g.tmplfs = some (zipFS a) ∧ g.tmpfslst = (a.map (·.name)).filter isOtherName := by
  obtain ⟨w, f, os, hd, hu, hno, hr, hg⟩ := h
  subst hd
  obtain ⟨g', hg', hs⟩ := run_keep hno hr f (by simp)
  rw [hg] at hg'
  obtain rfl := Option.some.inj hg'
  obtain ⟨p1, _, _, _, p5, p6⟩ := C55_places _ _ _ hu
  exact ⟨hs.1.trans p6, hs.2.1.trans p5, hs.2.2.trans p1⟩

theorem other_not {n : String} (h : isOtherName n = true) : n ≠ "word/document.xml" ∧
    n ≠ "word/_rels/document.xml.rels" ∧ ∀ x, n ≠ "word/media/" ++ x := by
  refine ⟨?_, ?_, ?_⟩
  · rintro rfl; revert h; decide
  · rintro rfl; revert h; decide
  · rintro x rfl
    have hm : isMediaName ("word/media/" ++ x) = true := (isMediaName_iff _).2 ⟨x, rfl⟩
    simp [isOtherName, hm] at h

/-- No document with template files that come from the emptied file can be saved. -/
theorem over_fails {a : Archive} {g : Doc} {n : String} (hn : n ∈ g.tmpfslst) (ho : isOtherName n = true)
    {out : Saved} {e : Option Err} (h : SavesOver a g out e) : e ≠ none := by
  rintro rfl
  obtain ⟨_, _, _, h4⟩ := C49_contents _ _ h
  obtain ⟨o1, o2, o3⟩ := other_not ho
  obtain ⟨fs, b, hfs, hb, _⟩ := h4 n hn o1 o2 (fun m _ => o3 m.name)
  change some (zipFS (emptied a)) = some fs at hfs
  obtain rfl := Option.some.inj hfs
  exact emptied_fails a _ b hb

/-- **C88, false of the code.** Whatever file was opened, and whatever was called since: if the package has
a part besides the document, its relationships and the media (every real one has), then saving the document
over its own file returns an error. -/
theorem C88_overwritten (a : Archive) (d : DocId) (w : World) (g : Doc) (h : OpenedFrom a d w g) (x : Entry)
    (hx : x ∈ a) (ho : isOtherName x.name = true) (out : Saved) (e : Option Err) (hs : SavesOver a g out e) :
    e ≠ none := by
  obtain ⟨_, _, h3⟩ := openedFrom_theme h
  refine over_fails (n := x.name) ?_ ho hs
  rw [h3, List.mem_filter]
  exact ⟨List.mem_map.2 ⟨x, hx, rfl⟩, ho⟩

/-- **C88, false of the code.** If the names are plain paths, the error comes before anything is written: the
file, which held the package, is then an archive without entries.  Opening it gives an empty document and
no error. -/
theorem C88_lost (a : Archive) (d : DocId) (w : World) (g : Doc) (h : OpenedFrom a d w g)
    (hn : (a.map (·.name)).Nodup) (hp : ∀ e ∈ a, plainPath e.name = true) (x : Entry) (hx : x ∈ a)
    (ho : isOtherName x.name = true) (out : Saved) (e : Option Err) (hs : SavesOver a g out e) :
    out = [] ∧ e ≠ none ∧ ∀ me, ∃ f, unpack me (reread out) = (f, none) ∧ f.items = [] ∧ f.rels = [] ∧ f.media = [] := by
  refine ⟨?_, C88_overwritten a d w g h x hx ho out e hs, ?_⟩
  all_goals
    have hout : out = [] := by
      obtain ⟨h1, _, h3⟩ := openedFrom_theme h
      have hm : x.name ∈ g.tmpfslst := by
        rw [h3, List.mem_filter]
        exact ⟨List.mem_map.2 ⟨x, hx, rfl⟩, ho⟩
      have hz : zipFS (emptied a) x.name = .error .eof := by
        have := zipFS_plain (a := emptied a) (e := ⟨x.name, .error .eof⟩)
          (by unfold emptied; rw [List.map_map]; exact hn)
          (by
            intro e he
            obtain ⟨e0, h0, rfl⟩ := List.mem_map.1 he
            exact hp e0 h0)
          (List.mem_map.2 ⟨x, hx, rfl⟩)
        exact this
      cases hs with
      | noFile _ => rfl
      | @order m l hf _ =>
        unfold Doc.files at hf
        rcases openTmpl_err (f := g.withSource (emptied a)) (fs := zipFS (emptied a)) rfl g.tmpfslst []
          with ⟨m', _, h5⟩ | ⟨_, _, _, y, _, _, _, h5⟩
        · obtain ⟨s, hs⟩ := h5 x.name hm
          have : (g.withSource (emptied a)).tmplPath x.name = x.name := by
            unfold Doc.tmplPath Doc.withSource
            simp only [h1, if_pos]
          rw [this, hz] at hs
          cases hs
        · rw [show (g.withSource (emptied a)).tmpfslst = g.tmpfslst from rfl, h5] at hf
          cases hf
  · exact hout
  · intro me
    rw [hout]
    exact ⟨_, rfl, rfl, rfl, rfl⟩

/-- **C88, the documents of a split.** They depend on the file of the document that was split in the same
way. -/
theorem C88_split_overwritten (a : Archive) (d : DocId) (w w' : World) (g : Doc) (h : OpenedFrom a d w g)
    (sep : World → Para → Res Bool) (ds : List DocId) (hsp : w.splitByParagraph d sep = .ok (w', ds))
    (nd : DocId) (hnd : nd ∈ ds) (part : Doc) (hpart : w'[nd]? = some part) (x : Entry)
    (hx : x ∈ a) (ho : isOtherName x.name = true) (out : Saved) (e : Option Err) (hs : SavesOver a part out e) :
    e ≠ none := by
  obtain ⟨_, _, h3⟩ := openedFrom_theme h
  obtain ⟨_, _, _, _, _, _, _, hg⟩ := id h
  have hle : w.length ≤ nd := by
    obtain ⟨_, _, _, hr, _⟩ := C32_partition w w' d g sep ds hg hsp
    rw [hr] at hnd
    exact (List.mem_range'_1.1 hnd).1
  unfold World.splitByParagraph at hsp
  rw [hg] at hsp
  have ht := splitLoop_theme hsp hle hpart
  refine over_fails (n := x.name) ?_ ho hs
  rw [ht.2.2]
  show x.name ∈ g.tmpfslst
  rw [h3, List.mem_filter]
  exact ⟨List.mem_map.2 ⟨x, hx, rfl⟩, ho⟩

/-- **C88, what does not depend on the file.** Whatever the file holds by now, as long as saving succeeds the
document, its relationships and the media are saved as they are in memory; every other part is saved as
the file has it at that time. -/
theorem C88_from_memory (a a' : Archive) (d : DocId) (w : World) (g : Doc) (h : OpenedFrom a d w g)
    (out : Saved) (hs : Saves (g.withSource a') out none) :
    Stored out "word/document.xml" (xmlBytes (mDocument g.items)) ∧
    Stored out "word/_rels/document.xml.rels" (xmlBytes (mRels g.relXmlns g.rels)) ∧
    (∀ n m, lastMedia n g.media = some m → Stored out ("word/media/" ++ n) m.data) ∧
    ∀ x ∈ a, isOtherName x.name = true → ∃ b, zipFS a' x.name = .ok ⟨b, none⟩ ∧ Stored out x.name b := by
  obtain ⟨c1, c2, c3, c4⟩ := C49_contents _ _ hs
  obtain ⟨h1, _, h3⟩ := openedFrom_theme h
  refine ⟨c1, c2, c3, ?_⟩
  intro x hx ho
  obtain ⟨o1, o2, o3⟩ := other_not ho
  obtain ⟨fs, b, hfs, hb, hst⟩ := c4 x.name (by
    show x.name ∈ g.tmpfslst
    rw [h3, List.mem_filter]
    exact ⟨List.mem_map.2 ⟨x, hx, rfl⟩, ho⟩) o1 o2 (fun m _ => o3 m.name)
  change some (zipFS a') = some fs at hfs
  obtain rfl := Option.some.inj hfs
  rw [show (g.withSource a').template = "" from h1, if_pos rfl] at hb
  exact ⟨b, hb, hst⟩

/-- **C88 (partial).** A document can be saved over its own file as well as elsewhere if the package has only
the document, its relationships and media.  Missing: all other documents, see `C88_overwritten`. -/
theorem C88_saved_partial (a : Archive) (d : DocId) (w : World) (g : Doc) (h : OpenedFrom a d w g)
    (hno : ∀ x ∈ a, isOtherName x.name = false) (out : Saved) (e : Option Err) :
    SavesOver a g out e ↔ Saves g out e := by
  have hl : g.tmpfslst = [] := by
    rw [(openedFrom_theme h).2.2, List.filter_eq_nil_iff]
    intro n hn
    obtain ⟨x, hx, rfl⟩ := List.mem_map.1 hn
    rw [hno x hx]; decide
  have hf : (g.withSource (emptied a)).files = g.files := by
    unfold Doc.files Doc.withSource
    simp only [hl, Doc.openTmpl]
  constructor
  · intro hs
    cases hs with
    | noFile h => exact .noFile (hf ▸ h)
    | order h hl => exact .order (hf ▸ h) hl
  · intro hs
    cases hs with
    | noFile h => exact .noFile (by rw [hf]; exact h)
    | order h hl => exact .order (by rw [hf]; exact h) hl

/-- The call returns: it does not panic. -/
theorem C88_returns (a : Archive) (g : Doc) : ∃ out e, SavesOver a g out e := C53_returns _ (.inl nofun)

end

/-! ## Cases -/

/-- A package with styles and a picture -/
def sourcePackage : Archive :=
  [⟨"word/document.xml", .ok ⟨utf8 (mDocument []).chars, none⟩⟩, ⟨"word/media/a.png", .ok ⟨[1], none⟩⟩,
   ⟨"word/styles.xml", .ok ⟨[60, 120, 47, 62], none⟩⟩]

local instance sourceEnv : GoEnv := ⟨fun _ => none, fun _ => false, fun _ => false⟩
local instance sourceImg : ImgEnv := ⟨fun _ => none⟩

theorem source_opens : ∃ f, unpack 0 sourcePackage = (f, none) := by
  have h0 : (unpack 0 sourcePackage).2 = none := by decide +kernel
  rcases hu : unpack 0 sourcePackage with ⟨g, e⟩
  rw [hu] at h0
  obtain rfl : e = none := h0
  exact ⟨g, rfl⟩

/-- It is opened, a paragraph is added, and it is saved over its file: everything is gone. -/
example : ∃ w g, OpenedFrom sourcePackage 0 w g ∧ g.items.length = 1 ∧
    (∃ out e, SavesOver sourcePackage g out e) ∧ (∀ out e, SavesOver sourcePackage g out e → out = []) ∧
    ∃ out, Saves g out none := by
  obtain ⟨f, hf⟩ := source_opens
  have hr : run ([] ++ [f]) [.addParagraph 0] =
      .ok [{ f with items := f.items ++ [.para { file := some 0 }] }] := rfl
  have hit : f.items = [] := by
    have : (unpack 0 sourcePackage).1.items.length = 0 := by decide +kernel
    rw [hf] at this
    exact List.length_eq_zero_iff.1 this
  have ho : OpenedFrom sourcePackage 0 [{ f with items := f.items ++ [.para { file := some 0 }] }]
      { f with items := f.items ++ [.para { file := some 0 }] } :=
    ⟨[], f, [.addParagraph 0], rfl, hf, by simp, hr, rfl⟩
  refine ⟨_, _, ho, by simp [hit], C88_returns _ _, ?_, ?_⟩
  · intro out e hs
    exact (C88_lost _ _ _ _ ho (by decide) (by decide +kernel) ⟨"word/styles.xml", .ok ⟨[60, 120, 47, 62], none⟩⟩
      (by simp [sourcePackage]) (by decide +kernel) out e hs).1
  · obtain ⟨out, e, hs⟩ := C53_returns { f with items := f.items ++ [.para { file := some 0 }] }
      (.inl (by rw [(openedFrom_theme ho).2.1]; simp))
    have ht := openedFrom_theme ho
    have hl : f.tmpfslst = ["word/styles.xml"] := ht.2.2.trans (by decide +kernel)
    have hm : f.media = [⟨"a.png", [1]⟩] := by
      have : (unpack 0 sourcePackage).1.media = [⟨"a.png", [1]⟩] := by decide +kernel
      rw [hf] at this; exact this
    have hz : zipFS sourcePackage "word/styles.xml" = .ok ⟨[60, 120, 47, 62], none⟩ :=
      zipFS_plain (a := sourcePackage) (e := ⟨"word/styles.xml", .ok ⟨[60, 120, 47, 62], none⟩⟩)
        (by decide) (by decide +kernel) (by simp [sourcePackage])
    refine ⟨out, ?_⟩
    have := C53_success _ ?_ ?_ ?_ out e hs
    · exact this ▸ hs
    · intro n hn
      rw [show ({ f with items := f.items ++ [.para { file := some 0 }] } : Doc).tmpfslst = f.tmpfslst from rfl, hl,
        List.mem_singleton] at hn
      subst hn
      refine ⟨_, [60, 120, 47, 62], ht.2.1, ?_⟩
      rw [ht.1, if_pos rfl]
      exact hz
    · show ∀ n ∈ f.tmpfslst, _
      rw [hl]; decide +kernel
    · show ∀ m ∈ f.media, _
      rw [hm]; decide +kernel

end Docx
