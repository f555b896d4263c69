import Verif.Props.Pack

/-!
# C57: parsing a file and saving it keeps its other parts

The vocabulary is in `Verif.SpecPack`.
-/

set_option linter.unusedSectionVars false

namespace Docx

variable [GoEnv]

/-- Opening the name of an entry in an archive with different plain paths gives that entry -/
theorem zipFS_plain {a : Archive} (hn : (a.map (·.name)).Nodup)
    (hp : ∀ e ∈ a, plainPath e.name = true) {e : Entry} (he : e ∈ a) : zipFS a e.name = e.file := by
  have hpn := hp _ he
  obtain ⟨h1, h2⟩ := validPath_plain hpn
  unfold zipFS
  rw [if_neg (by simp [h1]), if_neg h2]
  have : a.find? (fun x => toValidName x.name == e.name) = some e := by
    clear hpn h1 h2
    induction a with
    | nil => simp at he
    | cons p a ih =>
      simp only [List.map_cons, List.nodup_cons] at hn
      have hpp := toValidName_plain (hp p (by simp))
      rcases List.mem_cons.1 he with rfl | he
      · simp [hpp]
      · have : p.name ≠ e.name := fun h => hn.1 (h ▸ List.mem_map.2 ⟨_, he, rfl⟩)
        rw [List.find?_cons_of_neg]
        · exact ih hn.2 (fun q hq => hp q (by simp [hq])) he
        · simp [hpp, this]
  rw [this]
  simp only
  rw [isDirName_plain hpn]
  rfl

theorem content_some {e : Entry} {b : Bytes} (h : e.content = some b) : e.file = .ok ⟨b, none⟩ := by
  unfold Entry.content at h
  split at h
  · rename_i x hx
    cases h
    exact hx
  · cases h

theorem mem_mediaIn_archive {a : Archive} {e : Entry} {b : Bytes} {n : String} (he : e ∈ a)
    (hn : e.name = "word/media/" ++ n) (hb : e.content = some b) : (⟨n, b⟩ : Media) ∈ mediaIn a := by
  unfold mediaIn
  refine List.mem_map.2 ⟨e, List.mem_filter.2 ⟨he, (isMediaName_iff _).2 ⟨n, hn⟩⟩, ?_⟩
  rw [hn, afterFolder, hb]
  rfl

theorem mediaIn_archive_nodup {a : Archive} (h : (a.map (·.name)).Nodup) :
    ((mediaIn a).map (·.name)).Nodup := by
  have key : ((a.filter fun e => isMediaName e.name).map (·.name)).Nodup :=
    (List.filter_sublist.map _).nodup h
  have hmem : ∀ e ∈ a.filter (fun e => isMediaName e.name), isMediaName e.name = true :=
    fun e he => (List.mem_filter.1 he).2
  unfold mediaIn
  generalize a.filter (fun e => isMediaName e.name) = es at *
  rw [List.map_map]
  induction es with
  | nil => simp
  | cons e es ih =>
    simp only [List.map_cons, List.nodup_cons, List.mem_cons, forall_eq_or_imp] at key hmem ⊢
    refine ⟨?_, ih key.2 hmem.2⟩
    intro hin
    apply key.1
    obtain ⟨e', he', heq⟩ := List.mem_map.1 hin
    obtain ⟨x, hx⟩ := (isMediaName_iff _).1 hmem.1
    obtain ⟨y, hy⟩ := (isMediaName_iff _).1 (hmem.2 e' he')
    have h2 : mediaFolder = "word/media/" := rfl
    rw [h2] at hx hy
    simp only [Function.comp, hx, hy, afterFolder] at heq
    refine List.mem_map.2 ⟨e', he', ?_⟩
    rw [hx, hy, heq]

/-- C57: an archive whose entries have different names, all plain paths of at most 65535 bytes, and can
be read: if Parse accepts it, then saving the result succeeds, in whatever order, and the saved archive
has for every name other than the document and its relationships exactly the bytes of the original. -/
theorem C57_others_kept_partial (me : DocId) (a : Archive) (f : Doc) (h : unpack me a = (f, none))
    (hn : (a.map (·.name)).Nodup) (hp : ∀ e ∈ a, plainPath e.name = true ∧ e.name.utf8ByteSize ≤ 65535)
    (hc : ∀ e ∈ a, ∃ b, e.content = some b) (out : Saved) (x : Option Err) (hs : Saves f out x) :
    x = none ∧ ∀ n b, n ≠ "word/document.xml" → n ≠ "word/_rels/document.xml.rels" →
      (Stored out n b ↔ ∃ e ∈ a, e.name = n ∧ e.content = some b) := by
  obtain ⟨p1, p2, p3, p4, p5, p6⟩ := C55_places me a f h
  have hopen : ∀ n ∈ f.tmpfslst, ∃ e ∈ a, e.name = n ∧ zipFS a n = e.file := by
    intro n hm
    rw [p1, List.mem_filter] at hm
    obtain ⟨e, he, rfl⟩ := List.mem_map.1 hm.1
    exact ⟨e, he, rfl, zipFS_plain hn (fun e he => (hp e he).1) he⟩
  have hmed : ∀ m ∈ f.media, ∃ e ∈ a, e.name = "word/media/" ++ m.name ∧ e.content = some m.data := by
    intro m hm
    rw [p2] at hm
    obtain ⟨e, he, rfl⟩ := List.mem_map.1 hm
    obtain ⟨he, hmn⟩ := List.mem_filter.1 he
    obtain ⟨y, hy⟩ := (isMediaName_iff _).1 hmn
    have h2 : mediaFolder = "word/media/" := rfl
    rw [h2] at hy
    obtain ⟨b, hb⟩ := hc e he
    refine ⟨e, he, ?_, ?_⟩
    · simp only [hy, afterFolder]
    · simp only [hb, Option.getD_some]
  have hx : x = none := by
    refine C53_success f (fun n hm => ?_) (fun n hm => ?_) (fun m hm => ?_) out x hs
    · obtain ⟨e, he, rfl, ho⟩ := hopen n hm
      obtain ⟨b, hb⟩ := hc e he
      exact ⟨_, b, p5, by rw [if_pos p6, ho, content_some hb]⟩
    · obtain ⟨e, he, rfl, ho⟩ := hopen n hm
      exact ⟨(hp e he).2, isDirName_plain (hp e he).1⟩
    · obtain ⟨e, he, hen, _⟩ := hmed m hm
      rw [← hen]
      exact ⟨(hp e he).2, isDirName_plain (hp e he).1⟩
  subst hx
  refine ⟨rfl, fun n b hd hr => ?_⟩
  obtain ⟨c1, c2, c3, c4⟩ := C49_contents f out hs
  have hex := C49_exactly f out hs
  have hdis := C49_distinct f out none hs
  have uniq : ∀ {n b b'}, (n, b) ∈ out → (n, b') ∈ out → b = b' := by
    intro n b b' h1 h2
    obtain ⟨i, hi, e1⟩ := List.getElem_of_mem h1
    obtain ⟨j, hj, e2⟩ := List.getElem_of_mem h2
    have : i = j := (List.getElem?_inj (by simpa using hi) hdis).1 (by
      simp [hi, hj, e1, e2])
    subst this
    rw [e1] at e2
    cases e2; rfl
  -- every entry is stored
  have fwd : ∀ e ∈ a, e.name = n → ∀ b, e.content = some b → Stored out n b := by
    rintro e he rfl b hb
    cases hmn : isMediaName e.name with
    | true =>
      obtain ⟨y, hy⟩ := (isMediaName_iff _).1 hmn
      have hin := mem_mediaIn_archive he hy hb
      rw [← p2] at hin
      have hnd : (f.media.map (·.name)).Nodup := by rw [p2]; exact mediaIn_archive_nodup hn
      have := c3 y _ (lastMedia_of_nodup hnd hin)
      rw [hy]
      exact this
    | false =>
      have ho : isOtherName e.name = true := by
        cases h : isOtherName e.name with
        | true => rfl
        | false =>
          rcases (C55_kinds_disjoint e.name).2.2.2 h with h | h | h
          · exact absurd h hd
          · exact absurd h hr
          · rw [hmn] at h; cases h
      have hnt : e.name ∈ f.tmpfslst := by
        rw [p1, List.mem_filter]
        exact ⟨List.mem_map.2 ⟨_, he, rfl⟩, ho⟩
      obtain ⟨fs, b', x1, x2, x3⟩ := c4 _ hnt hd hr (by
        intro m _ e
        rw [(isMediaName_iff _).2 ⟨m.name, e⟩] at hmn
        cases hmn)
      rw [p5] at x1
      cases x1
      rw [if_pos p6, zipFS_plain hn (fun e he => (hp e he).1) he, content_some hb] at x2
      cases x2
      exact x3
  constructor
  · intro hb
    have hin : ∃ e ∈ a, e.name = n := by
      rcases (hex n).1 (List.mem_map.2 ⟨_, hb, rfl⟩) with h | h | h | ⟨m, hm, h⟩
      · obtain ⟨e, he, hen, _⟩ := hopen n h
        exact ⟨e, he, hen⟩
      · exact absurd h hd
      · exact absurd h hr
      · obtain ⟨e, he, hen, _⟩ := hmed m hm
        exact ⟨e, he, hen.trans h.symm⟩
    obtain ⟨e, he, hen⟩ := hin
    obtain ⟨b', hb'⟩ := hc e he
    have := fwd e he hen b' hb'
    rw [uniq hb this]
    exact ⟨e, he, hen, hb'⟩
  · rintro ⟨e, he, hen, hb⟩
    exact fwd e he hen b hb

/-- The saved document `c50doc` (a body, relationships, two media files, a style sheet): the hypotheses
hold. -/
example : ∃ (a : Archive) (f : Doc), unpack 0 a = (f, none) ∧ (a.map (·.name)).Nodup ∧
    (∀ e ∈ a, plainPath e.name = true ∧ e.name.utf8ByteSize ≤ 65535) ∧ (∀ e ∈ a, ∃ b, e.content = some b) ∧
    a.length = 5 := by
  obtain ⟨h1, h2, h3, out, h4, h5, h6⟩ := c50doc_ok
  obtain ⟨g, hg, _⟩ := C50_restored c50doc out h4 0 h1 h2 h3
  refine ⟨reread out, g, hg, by rw [reread_names]; exact C49_distinct _ _ _ h4, ?_, ?_, by simpa [reread] using h6⟩
  · intro e he
    obtain ⟨p, hp, rfl⟩ := List.mem_map.1 he
    exact h5 p hp
  · intro e he
    obtain ⟨p, hp, rfl⟩ := List.mem_map.1 he
    exact ⟨p.2, rfl⟩

/-- C57 is false of the code for archives with directory entries: any archive that Parse accepts and that
has, besides, an entry `n` for a directory (a name ending with a slash) is accepted, but WriteTo of the
result always fails and writes no part. -/
theorem C57_directories_fail (me : DocId) (a : Archive) (f : Doc) (h : unpack me a = (f, none))
    (e : Entry) (he : e ∈ a) (ho : isOtherName e.name = true) (hd : isDirName e.name = true)
    (out : Saved) (x : Option Err) (hs : Saves f out x) : out = [] ∧ x ≠ none := by
  obtain ⟨p1, p2, p3, p4, p5, p6⟩ := C55_places me a f h
  have hn : e.name ∈ f.tmpfslst := by
    rw [p1, List.mem_filter]
    exact ⟨List.mem_map.2 ⟨_, he, rfl⟩, ho⟩
  have hv : validPath e.name = false := by
    unfold isDirName at hd
    unfold validPath
    have hne : (e.name == ".") = false := by
      cases hb : e.name == "." with
      | false => rfl
      | true =>
        rw [beq_iff_eq] at hb
        rw [hb] at hd
        exact absurd hd (by decide)
    rw [hne, Bool.false_or]
    have key : ∀ cs : List Char, cs.getLast? = some '/' → ∃ y ys, splitSlash cs = y :: ys ∧ [] ∈ ys := by
      intro cs
      induction cs with
      | nil => simp
      | cons c cs ih =>
        intro hl
        rw [splitSlash]
        cases cs with
        | nil =>
          simp at hl
          subst hl
          exact ⟨[], [[]], rfl, by simp⟩
        | cons d ds =>
          obtain ⟨y, ys, h1, h2⟩ := ih (by rwa [List.getLast?_cons_cons] at hl)
          rw [h1]
          split
          · exact ⟨_, _, rfl, by simp [h2]⟩
          · exact ⟨_, _, rfl, h2⟩
    obtain ⟨y, ys, h1, h2⟩ := key _ (by simpa using hd)
    rw [List.all_eq_false]
    exact ⟨[], by rw [h1]; simp [h2], by simp⟩
  obtain ⟨h1, k, hk, y, hy, rfl⟩ := C53_reported f _ p5 e.name hn .notExist (by
    rw [if_pos p6, zipFS, if_pos (by simp [hv])]) out x hs
  exact ⟨h1, by simp⟩

/-- Such an archive: Parse accepts it. -/
example : ∃ f, unpack 0 [⟨"word/", .ok ⟨[], none⟩⟩, ⟨"word/theme/x.xml", .ok ⟨[1], none⟩⟩] = (f, none) ∧
    isOtherName "word/" = true ∧ isDirName "word/" = true := ⟨_, rfl, by decide, by decide⟩

end Docx
