import Verif.Lemmas.PackRound
import Verif.Props.Ids

/-!
# Packages: C03, C49, C50, C51, C53, C54, C55

`unpack me a` is `Parse` of the archive `a`, `Saves f out e` says that `WriteTo` may leave the entries
`out` and return the error `e`; `IdNumber`, `GoodId`, `relsOf`, `isMediaName`, `isOtherName`,
`mediaIn`, `lastMedia`, `Stored` and `plainPath` are in `Verif.SpecPack`.
-/

namespace Docx

set_option linter.unusedSectionVars false

variable [GoEnv]

theorem saves_of {f : Doc} {m l : List (String × Stream)} {out : Saved} {e : Option Err}
    (h : f.files = .ok m) (hl : l.Perm m) (hp : packAll l = (out, e)) : Saves f out e := by
  have := Saves.order h hl
  rw [hp] at this
  exact this

/-! ## C54 -/

theorem parseRels_tree (f : Doc) (e : Entry) (s : Stream) (pre : List Node) (q : QName)
    (as : List Attr) (kids : List Node) (post : List Tok) (he : e.file = .ok s)
    (ht : s.toks = toksL pre ++ (Node.elem q as kids).toks ++ post)
    (hp : pre.all (fun n => !n.isElem) = true) :
    f.parseRels e = ({ f with
      relXmlns := relsXmlns xmlnsR as
      rels := f.rels ++ relsOf kids
      rID := (scanIds f.rID (f.rels ++ relsOf kids)).1 }, (scanIds f.rID (f.rels ++ relsOf kids)).2) := by
  unfold Doc.parseRels
  rw [he]
  simp only [ht, decodeRels_tree _ _ _ _ _ _ _ hp]

/-- C54: whatever stands before the root element (white space, comments, a declaration), between the
relationships and after the root element, the relationship part is accepted exactly if all its ids are
`rId` and a decimal number below 2^64. -/
theorem C54_accepted_iff (f : Doc) (e : Entry) (s : Stream) (pre : List Node) (q : QName)
    (as : List Attr) (kids : List Node) (post : List Tok) (he : e.file = .ok s)
    (ht : s.toks = toksL pre ++ (Node.elem q as kids).toks ++ post)
    (hp : pre.all (fun n => !n.isElem) = true) (hf : f.rels = []) :
    (f.parseRels e).2 = none ↔ ∀ r ∈ relsOf kids, GoodId r.id := by
  rw [parseRels_tree f e s pre q as kids post he ht hp, hf, List.nil_append]
  exact scanIds_ok _ _

/-- C54: then the relationships are those of the part, and the counter is the largest number in them
(0 if there are none). -/
theorem C54_counter (f g : Doc) (e : Entry) (s : Stream) (pre : List Node) (q : QName)
    (as : List Attr) (kids : List Node) (post : List Tok) (he : e.file = .ok s)
    (ht : s.toks = toksL pre ++ (Node.elem q as kids).toks ++ post)
    (hp : pre.all (fun n => !n.isElem) = true) (hf : f.rels = []) (hr : f.rID = 0)
    (hg : f.parseRels e = (g, none)) :
    g.rels = relsOf kids ∧ (∀ r ∈ g.rels, ∀ n, IdNumber r.id n → n ≤ g.rID.toNat) ∧
    ((g.rID = 0 ∧ g.rels = []) ∨ ∃ r ∈ g.rels, IdNumber r.id g.rID.toNat) := by
  rw [parseRels_tree f e s pre q as kids post he ht hp, hf, hr, List.nil_append] at hg
  simp only [Prod.mk.injEq] at hg
  obtain ⟨rfl, hg⟩ := hg
  obtain ⟨h1, h2, h3⟩ := scanIds_max (relsOf kids) 0 (scanIds 0 (relsOf kids)).1 (Prod.ext rfl hg)
  refine ⟨rfl, h2, ?_⟩
  change ((scanIds 0 (relsOf kids)).1 = 0 ∧ relsOf kids = []) ∨
    ∃ r ∈ relsOf kids, IdNumber r.id (scanIds 0 (relsOf kids)).1.toNat
  have h4 := (scanIds_ok (relsOf kids) 0).1 hg
  generalize (scanIds 0 (relsOf kids)).1 = m at h2 h3 ⊢
  rcases h3 with rfl | h3
  · rcases hk : relsOf kids with _ | ⟨r, rs⟩
    · left; exact ⟨rfl, rfl⟩
    · right
      have hr : r ∈ relsOf kids := by rw [hk]; simp
      obtain ⟨n, hn, _⟩ := h4 r hr
      have := h2 r hr n hn
      have : n = 0 := by simpa using this
      subst this
      exact ⟨r, by simp, hn⟩
  · right; exact h3

/-- C54: the next id is `rId` and one more than the counter. -/
theorem C54_next (f : Doc) (link : String) (h : f.rID.toNat + 1 < 2 ^ 63) :
    IdNumber (f.addLinkRelation link).2 (f.rID.toNat + 1) := by
  have hn : (f.rID + 1).toNat = f.rID.toNat + 1 := by
    rw [UInt64.toNat_add]
    have : (1 : UInt64).toNat = 1 := rfl
    omega
  have hi : (f.rID + 1).toInt64.toInt = (f.rID + 1).toNat := by
    rw [toInt_toInt64]; exact Int.bmod_eq_of_le (by omega) (by omega)
  have := (idNumber_iff (f.addLinkRelation link).2 (f.rID + 1)).2
    ⟨itoa (f.rID + 1).toInt64, (afterRId_iff _ _).2 (by simp [Doc.addLinkRelation, ridOf]),
      parseUint_itoa_nonneg _ (by omega)⟩
  rwa [hn] at this

/-- C54 for the table of any document, written by this library: it is accepted exactly if all ids are
good, and then it comes back unchanged. -/
theorem C54_saved_table (f : Doc) (name : String) (x : String) (rs : List Rel) (hx : xmlText x)
    (h : ∀ r ∈ rs, xmlText r.id ∧ xmlText r.type ∧ xmlText r.target ∧ xmlText r.targetMode)
    (hf : f.rels = []) :
    ((f.parseRels ⟨name, .ok ⟨xmlBytes (mRels x rs), none⟩⟩).2 = none ↔ ∀ r ∈ rs, GoodId r.id) ∧
    (f.parseRels ⟨name, .ok ⟨xmlBytes (mRels x rs), none⟩⟩).1.rels = rs := by
  unfold Doc.parseRels
  simp only [Stream.toks, decodeRels_saved hx h, hf, List.nil_append]
  exact ⟨scanIds_ok _ _, trivial⟩

/-- Good and bad ids -/
example : GoodId "rId7" ∧ GoodId "rId007" ∧ GoodId "rId18446744073709551615" ∧ ¬ GoodId "rId" ∧
    ¬ GoodId "rId18446744073709551616" ∧ ¬ GoodId "id7" ∧ ¬ GoodId "rId-7" ∧ ¬ GoodId "rIdA" := by
  have h : ∀ id : String, GoodId id ↔ (scanIds 0 [⟨id, "", "", ""⟩]).2 = none := by
    intro id
    rw [scanIds_ok]
    simp
  simp only [h]
  decide

/-- A table with white space, a foreign element and an unusual prefix: the hypotheses hold. -/
example : ∃ (kids : List Node), relsOf kids = [⟨"rId3", "t", "u", ""⟩, ⟨"rId12", "", "v", "External"⟩] ∧
    ∀ r ∈ relsOf kids, GoodId r.id := by
  refine ⟨[.text "\n ", .elem ⟨"", "Relationship"⟩ [⟨⟨"", "Target"⟩, "u"⟩, ⟨⟨"", "Type"⟩, "t"⟩, ⟨⟨"", "Id"⟩, "rId3"⟩] [],
    .other, .elem ⟨"", "Else"⟩ [⟨⟨"", "Id"⟩, "bad"⟩] [], .elem ⟨"p", "Relationship"⟩ [⟨⟨"", "Id"⟩, "x"⟩,
      ⟨⟨"", "Id"⟩, "rId12"⟩, ⟨⟨"", "Target"⟩, "v"⟩, ⟨⟨"", "TargetMode"⟩, "External"⟩] [.text "z"]], rfl, ?_⟩
  intro r hr
  exact (scanIds_ok _ 0).1 (by decide) r hr

/-! ## C03 -/

theorem ridOf_number {n : UInt64} {k : Nat} (h : IdNumber (ridOf n) k) (hk : k < 2 ^ 64) : k = n.toNat := by
  have hk' : (UInt64.ofNat k).toNat = k := by rw [UInt64.toNat_ofNat']; omega
  rw [← hk', idNumber_iff] at h
  obtain ⟨t, h1, h2⟩ := h
  rw [afterRId_iff] at h1
  have : t = itoa n.toInt64 := by
    apply String.toList_injective
    have e : (ridOf n).toList = 'r' :: 'I' :: 'd' :: (itoa n.toInt64).toList := by
      simp [ridOf]
    rw [e] at h1
    simpa using h1.symm
  subst this
  rcases Nat.lt_or_ge n.toNat (2 ^ 63) with hn | hn
  · rw [parseUint_itoa_nonneg n hn] at h2
    rw [← hk', Option.some.inj h2]
  · rw [parseUint_itoa_neg n hn] at h2
    cases h2

theorem unpack_ok {me : DocId} {a : Archive} {f : Doc} (h : unpack me a = (f, none)) :
    ∃ g, ({ relXmlns := "", tmplfs := some (zipFS a) } : Doc).unpackAll me a = (g, none) ∧
      f = { g with imageID := 100000 } := by
  unfold unpack at h
  rcases hu : ({ relXmlns := "", tmplfs := some (zipFS a) } : Doc).unpackAll me a with ⟨g, _ | x⟩
  · rw [hu] at h
    simp only [Prod.mk.injEq, and_true] at h
    exact ⟨g, rfl, h.symm⟩
  · rw [hu] at h
    simp at h

/-- C03: after Parse, no id that looks like one still to be handed out is in the table. -/
theorem C03_counter_ahead (me : DocId) (a : Archive) (f : Doc) (h : unpack me a = (f, none)) :
    CounterAhead f := by
  obtain ⟨g, hg, rfl⟩ := unpack_ok h
  obtain ⟨_, _, _, _, _, _, _, _, b9, b10, _, _⟩ := unpackAll_ok hg
  rw [counterAhead_iff]
  intro n hn r hr e
  change g.rID < n at hn
  change r ∈ g.rels at hr
  by_cases hm : relsName ∈ a.map (·.name)
  · obtain ⟨k, hk⟩ := b10 hm
    obtain ⟨j, hj, hj'⟩ := (scanIds_ok g.rels k).1 (by rw [hk]) r hr
    have h1 := (scanIds_max _ _ _ hk).2.1 r hr j hj
    rw [e] at hj
    have h2 := ridOf_number hj hj'
    have := UInt64.lt_iff_toNat_lt.1 hn
    omega
  · rw [(b9 hm).1] at hr
    simp at hr

/-- C03: in every later state of a parsed document, all relationships that were added since (by AddLink,
by image calls, by AppendFile) have ids that are not in the parsed file and that are pairwise different,
unless the counter went past the largest 64-bit value. -/
theorem C03_fresh [ImgEnv] (me : DocId) (a : Archive) (f0 : Doc) (h0 : unpack me a = (f0, none))
    (w0 w : World) (os : List Op) (hrun : run w0 os = .ok w) (d : DocId) (hd : w0[d]? = some f0) :
    ∃ f new, w[d]? = some f ∧ f.rels = f0.rels ++ new ∧
      (f0.rID.toNat + new.length < 2 ^ 64 →
        (∀ r ∈ new, r.id ∉ seenIds f0) ∧ (new.map (·.id)).Nodup) := by
  have ha := C03_counter_ahead me a f0 h0
  obtain ⟨f, hf, e⟩ := (run_wevo hrun).old d f0 hd
  obtain ⟨new, h1, h2, h3⟩ := e.rels
  refine ⟨f, new, hf, h1, fun hroom => ?_⟩
  have hn : ∀ k, k ≤ new.length → (f0.rID + UInt64.ofNat k).toNat = f0.rID.toNat + k := by
    intro k hk
    rw [UInt64.toNat_add, UInt64.toNat_ofNat']; omega
  refine ⟨?_, ?_⟩
  · intro r hr
    obtain ⟨i, hi, rfl⟩ := List.getElem_of_mem hr
    rw [h3 i new[i] (by simp)]
    refine ha _ (UInt64.lt_iff_toNat_lt.2 ?_)
    rw [hn _ (by omega)]
    omega
  · unfold List.Nodup
    rw [List.pairwise_iff_getElem]
    intro i j hi hj hij
    simp only [List.length_map] at hi hj
    simp only [List.getElem_map]
    rw [h3 i new[i] (by simp), h3 j new[j] (by simp)]
    intro e
    have := congrArg UInt64.toNat (ridOf_inj e)
    rw [hn _ (by omega), hn _ (by omega)] at this
    omega

/-- C03: the id in the hyperlink that AddLink returns, after any history, is not in the parsed file. -/
theorem C03_link_fresh [ImgEnv] (me : DocId) (a : Archive) (f0 : Doc) (h0 : unpack me a = (f0, none))
    (w0 w : World) (os : List Op) (hrun : run w0 os = .ok w) (d : DocId) (hd : w0[d]? = some f0) (f : Doc)
    (hf : w[d]? = some f) (hroom : f0.rID.toNat + (f.rels.length - f0.rels.length) + 1 < 2 ^ 64)
    (p : Para) (text link : String) :
    (p.addLink f text link).2.2.id ∉ seenIds f0 ∧ (p.addLink f text link).2.2.id ∉ seenIds f := by
  have ha := C03_counter_ahead me a f0 h0
  obtain ⟨g, hg, e⟩ := (run_wevo hrun).old d f0 hd
  rw [hf] at hg
  obtain rfl := Option.some.inj hg
  obtain ⟨ha', hn⟩ := e.ahead ((counterAhead_iff _).1 ha) (by omega)
  have hlt : ∀ m : UInt64, m.toNat ≤ f.rID.toNat → m < f.rID + 1 := by
    intro m hm
    rw [UInt64.lt_iff_toNat_lt, UInt64.toNat_add]
    have : (1 : UInt64).toNat = 1 := rfl
    omega
  exact ⟨ha _ (hlt _ (by omega)), (counterAhead_iff f).2 ha' _ (hlt _ (Nat.le_refl _))⟩

/-- The exception is real: a file with the ids `rId0` and `rId18446744073709551615` is accepted, and the
next link gets the id `rId0` again. -/
theorem C03_wraps : ∃ (a : Archive) (f : Doc), unpack 0 a = (f, none) ∧
    seenIds f = ["rId0", "rId18446744073709551615"] ∧ (f.addLinkRelation "http://x").2 = "rId0" := by
  let rs : List Rel := [⟨"rId0", "", "a", ""⟩, ⟨"rId18446744073709551615", "", "b", ""⟩]
  have hx : xmlText "" := by unfold xmlText; decide
  have hr : ∀ r ∈ rs, xmlText r.id ∧ xmlText r.type ∧ xmlText r.target ∧ xmlText r.targetMode := by
    unfold xmlText; decide
  refine ⟨[⟨relsName, .ok ⟨xmlBytes (mRels "" rs), none⟩⟩],
    { relXmlns := "", rels := rs, rID := 18446744073709551615, imageID := 100000,
      tmplfs := some (zipFS [⟨relsName, .ok ⟨xmlBytes (mRels "" rs), none⟩⟩]) }, ?_, by decide, by decide⟩
  simp only [unpack, Doc.unpackAll, Doc.unpackEntry, if_true, Doc.parseRels, Stream.toks,
    decodeRels_saved hx hr, List.nil_append]
  rfl

/-! ## C55 -/

/-- C55: the kinds of entries do not overlap. -/
theorem C55_kinds_disjoint (s : String) :
    ((s = "word/document.xml") → s ≠ "word/_rels/document.xml.rels" ∧ isMediaName s = false ∧ isOtherName s = false) ∧
    ((s = "word/_rels/document.xml.rels") → isMediaName s = false ∧ isOtherName s = false) ∧
    (isMediaName s = true → isOtherName s = false) ∧
    (isOtherName s = false → s = "word/document.xml" ∨ s = "word/_rels/document.xml.rels" ∨ isMediaName s = true) := by
  refine ⟨?_, ?_, ?_, ?_⟩
  · rintro rfl; decide
  · rintro rfl; decide
  · intro h; simp [isOtherName, h]
  · intro h
    simp only [isOtherName, Bool.and_eq_false_iff, bne_eq_false_iff_eq, Bool.not_eq_false'] at h
    rcases h with (h | h) | h
    · exact .inl h
    · exact .inr (.inl h)
    · exact .inr (.inr h)

/-- C55: after Parse succeeded, the list of other files is exactly the other entries in archive order,
the media are exactly the entries under `word/media/`, all of them read completely, each is found under
its name, and the other files are opened in the archive. -/
theorem C55_places (me : DocId) (a : Archive) (f : Doc) (h : unpack me a = (f, none)) :
    f.tmpfslst = (a.map (·.name)).filter isOtherName ∧ f.media = mediaIn a ∧
    (∀ e ∈ a, isMediaName e.name = true → ∃ b, e.content = some b) ∧ MediaFound f ∧
    f.tmplfs = some (zipFS a) ∧ f.template = "" := by
  obtain ⟨g, hg, rfl⟩ := unpack_ok h
  obtain ⟨b1, b2, b3, b4, b5, b6, _⟩ := unpackAll_ok hg
  refine ⟨by simpa using b1, by simpa using b2, fun e he hm => Option.isSome_iff_exists.1 (b3 e he hm),
    ?_, b6, b5⟩
  have : IdxOK g := b4 (fun n => by simp)
  exact fun n => getMedia_of_idxOK (f := { g with imageID := 100000 }) this n

theorem unpackAll_split {me : DocId} {e : Entry} {post : List Entry} : ∀ {pre : List Entry} {f g : Doc},
    f.unpackAll me (pre ++ e :: post) = (g, none) →
    ∃ f1 f2, f.unpackAll me pre = (f1, none) ∧ f1.unpackEntry me e = (f2, none) ∧
      f2.unpackAll me post = (g, none) := by
  intro pre
  induction pre with
  | nil =>
    intro f g h
    rw [List.nil_append, Doc.unpackAll] at h
    rcases hu : f.unpackEntry me e with ⟨f', _ | x⟩
    · rw [hu] at h
      exact ⟨f, f', rfl, hu, h⟩
    · rw [hu] at h
      simp at h
  | cons p pre ih =>
    intro f g h
    rw [List.cons_append, Doc.unpackAll] at h
    rcases hu : f.unpackEntry me p with ⟨f', _ | x⟩
    · rw [hu] at h
      obtain ⟨f1, f2, h1, h2, h3⟩ := ih h
      exact ⟨f1, f2, by rw [Doc.unpackAll, hu]; exact h1, h2, h3⟩
    · rw [hu] at h
      simp at h

/-- C55: the body is what the decoder makes of the only entry `word/document.xml`; without such an entry
it is empty. -/
theorem C55_document (me : DocId) (a : Archive) (f : Doc) (h : unpack me a = (f, none)) :
    ("word/document.xml" ∉ a.map (·.name) → f.items = []) ∧
    ∀ pre e post, a = pre ++ e :: post → e.name = "word/document.xml" →
      "word/document.xml" ∉ (pre ++ post).map (·.name) →
      ∃ s, e.file = .ok s ∧ (decodeDocument (some me) [] s.toks).err = none ∧
        f.items = (decodeDocument (some me) [] s.toks).val := by
  obtain ⟨g, hg, rfl⟩ := unpack_ok h
  refine ⟨fun hn => ?_, ?_⟩
  · obtain ⟨_, _, _, _, _, _, _, _, _, _, b11, _⟩ := unpackAll_ok hg
    exact (b11 hn).1
  · rintro pre e post rfl he hn
    rw [List.map_append, List.mem_append, not_or] at hn
    obtain ⟨f1, f2, h1, h2, h3⟩ := unpackAll_split hg
    obtain ⟨_, _, _, _, _, _, _, _, _, _, c11, _⟩ := unpackAll_ok h1
    obtain ⟨_, _, _, _, _, _, _, _, _, _, d11, _⟩ := unpackAll_ok h3
    have i1 := (c11 hn.1).1
    have i3 := (d11 hn.2).1
    change g.items = _ at *
    have hne : e.name ≠ relsName := by rw [he]; decide
    unfold Doc.unpackEntry at h2
    rw [if_neg hne, if_pos (show e.name = documentName from he)] at h2
    unfold Doc.parseDocument at h2
    split at h2
    · simp at h2
    · rename_i s hs
      simp only [i1, Prod.mk.injEq] at h2
      refine ⟨s, hs, h2.2, ?_⟩
      change g.items = _
      rw [i3, ← h2.1]

/-- C55: the same for the relationships. -/
theorem C55_relationships (me : DocId) (a : Archive) (f : Doc) (h : unpack me a = (f, none)) :
    ("word/_rels/document.xml.rels" ∉ a.map (·.name) → f.rels = []) ∧
    ∀ pre e post, a = pre ++ e :: post → e.name = "word/_rels/document.xml.rels" →
      "word/_rels/document.xml.rels" ∉ (pre ++ post).map (·.name) →
      ∃ s, e.file = .ok s ∧ (decodeRels xmlnsR [] s.toks).err = none ∧
        f.rels = (decodeRels xmlnsR [] s.toks).val.2 := by
  obtain ⟨g, hg, rfl⟩ := unpack_ok h
  refine ⟨fun hn => ?_, ?_⟩
  · obtain ⟨_, _, _, _, _, _, _, _, b9, _⟩ := unpackAll_ok hg
    exact (b9 hn).1
  · rintro pre e post rfl he hn
    rw [List.map_append, List.mem_append, not_or] at hn
    obtain ⟨f1, f2, h1, h2, h3⟩ := unpackAll_split hg
    obtain ⟨_, _, _, _, _, _, _, _, c9, _⟩ := unpackAll_ok h1
    obtain ⟨_, _, _, _, _, _, _, _, d9, _⟩ := unpackAll_ok h3
    have i1 := (c9 hn.1).1
    have i3 := (d9 hn.2).1
    unfold Doc.unpackEntry at h2
    rw [if_pos (show e.name = relsName from he)] at h2
    unfold Doc.parseRels at h2
    split at h2
    · simp at h2
    · rename_i s hs
      simp only [i1] at h2
      refine ⟨s, hs, ?_⟩
      change _ ∧ g.rels = _
      split at h2
      · simp at h2
      · rename_i x rs dd heq
        simp only [Prod.mk.injEq] at h2
        rw [i3, ← h2.1, heq]
        exact ⟨rfl, rfl⟩

/-- C55: if Parse fails, it is at an entry that cannot be taken, and everything before it was put in its
place; nothing after it was looked at. -/
theorem C55_failure (me : DocId) (a : Archive) (f : Doc) (x : Err) (h : unpack me a = (f, some x)) :
    ∃ pre e post, a = pre ++ e :: post ∧ isOtherName e.name = false ∧
      f.tmpfslst = (pre.map (·.name)).filter isOtherName ∧ f.media = mediaIn pre := by
  unfold unpack at h
  have key : ∀ (es : List Entry) (f0 f : Doc), f0.unpackAll me es = (f, some x) →
      ∃ pre e post g, es = pre ++ e :: post ∧ f0.unpackAll me pre = (g, none) ∧
        g.unpackEntry me e = (f, some x) := by
    intro es
    induction es with
    | nil => intro f0 f h; simp [Doc.unpackAll] at h
    | cons e es ih =>
      intro f0 f h
      rw [Doc.unpackAll] at h
      rcases hu : f0.unpackEntry me e with ⟨f', _ | y⟩
      · rw [hu] at h
        obtain ⟨pre, e', post, g, h1, h2, h3⟩ := ih f' f h
        exact ⟨e :: pre, e', post, g, by rw [h1]; rfl, by rw [Doc.unpackAll, hu]; exact h2, h3⟩
      · rw [hu] at h
        simp only [Prod.mk.injEq, Option.some.injEq] at h
        obtain ⟨rfl, rfl⟩ := h
        exact ⟨[], e, es, f0, rfl, rfl, hu⟩
  rcases hu : ({ relXmlns := "", tmplfs := some (zipFS a) } : Doc).unpackAll me a with ⟨g, _ | y⟩
  · rw [hu] at h; simp at h
  · rw [hu] at h
    simp only [Prod.mk.injEq, Option.some.injEq] at h
    obtain ⟨rfl, rfl⟩ := h
    obtain ⟨pre, e, post, g', h1, h2, h3⟩ := key a _ _ hu
    obtain ⟨b1, b2, _⟩ := unpackAll_ok h2
    refine ⟨pre, e, post, h1, ?_⟩
    have : isOtherName e.name = false ∧ g.tmpfslst = g'.tmpfslst ∧ g.media = g'.media := by
      unfold Doc.unpackEntry at h3
      split at h3
      · rename_i he
        refine ⟨by rw [he]; decide, ?_⟩
        unfold Doc.parseRels at h3
        repeat' split at h3
        all_goals (simp only [Prod.mk.injEq] at h3; rw [← h3.1]; exact ⟨rfl, rfl⟩)
      · split at h3
        · rename_i he
          refine ⟨by rw [he]; decide, ?_⟩
          unfold Doc.parseDocument at h3
          split at h3 <;> (simp only [Prod.mk.injEq] at h3; rw [← h3.1]; exact ⟨rfl, rfl⟩)
        · rw [afterMedia_eq] at h3
          cases hm : isMediaName e.name with
          | false => rw [hm] at h3; simp at h3
          | true =>
            rw [hm, if_pos rfl] at h3
            refine ⟨by simp [isOtherName, hm], ?_⟩
            simp only [Doc.parseMedia] at h3
            split at h3
            · simp only [Prod.mk.injEq] at h3; rw [← h3.1]; exact ⟨rfl, rfl⟩
            · split at h3
              · simp only [Prod.mk.injEq] at h3; rw [← h3.1]; exact ⟨rfl, rfl⟩
              · simp at h3
    exact ⟨this.1, by rw [this.2.1]; simpa using b1, by rw [this.2.2]; simpa using b2⟩

/-- An archive with other files, media and a directory entry: nothing fails. -/
example : ∃ f, unpack 0 [⟨"[Content_Types].xml", .ok ⟨[1], none⟩⟩, ⟨"word/media/a.png", .ok ⟨[2], none⟩⟩,
    ⟨"word/", .ok ⟨[], none⟩⟩, ⟨"word/media/b.png", .ok ⟨[3], none⟩⟩] = (f, none) ∧
    f.tmpfslst = ["[Content_Types].xml", "word/"] ∧ f.media = [⟨"a.png", [2]⟩, ⟨"b.png", [3]⟩] :=
  ⟨_, rfl, by decide, by decide⟩

/-! ## C49 -/

/-- C49: whatever the order in which the map is iterated, no name occurs twice in the archive, even if
saving fails half-way. -/
theorem C49_distinct (f : Doc) (out : Saved) (e : Option Err) (h : Saves f out e) :
    (out.map (·.1)).Nodup := by
  cases h with
  | noFile h => simp
  | @order m l h hl =>
    have := (files_ok h).1
    have hl' : (keys l).Perm (keys m) := hl.map _
    exact (packAll_sublist l).nodup (hl'.nodup_iff.2 this)

/-- C49: the entries are exactly the template files, the document, its relationships and one for each
media name. -/
theorem C49_exactly (f : Doc) (out : Saved) (h : Saves f out none) (n : String) :
    n ∈ out.map (·.1) ↔ n ∈ f.tmpfslst ∨ n = "word/document.xml" ∨ n = "word/_rels/document.xml.rels" ∨
      ∃ m ∈ f.media, n = "word/media/" ++ m.name := by
  obtain ⟨m, l, h1, h2, rfl, _⟩ := saves_none h
  have := (files_ok h1).2.1 n
  rw [List.map_map]
  have e : n ∈ l.map ((·.1) ∘ fun p : String × Stream => (p.1, p.2.data)) ↔ n ∈ keys m :=
    (h2.map (·.1)).mem_iff
  rw [e]
  exact this

/-- C49: the contents: the document and the relationships as they are now, for every media name the last
content stored under it, and for the remaining template files what the file system has under their path. -/
theorem C49_contents (f : Doc) (out : Saved) (h : Saves f out none) :
    Stored out "word/document.xml" (xmlBytes (mDocument f.items)) ∧
    Stored out "word/_rels/document.xml.rels" (xmlBytes (mRels f.relXmlns f.rels)) ∧
    (∀ n m, lastMedia n f.media = some m → Stored out ("word/media/" ++ n) m.data) ∧
    (∀ n ∈ f.tmpfslst, n ≠ "word/document.xml" → n ≠ "word/_rels/document.xml.rels" →
      (∀ m ∈ f.media, n ≠ "word/media/" ++ m.name) →
      ∃ fs b, f.tmplfs = some fs ∧
        fs (if f.template = "" then n else "xml/" ++ f.template ++ "/" ++ n) = .ok ⟨b, none⟩ ∧ Stored out n b) := by
  obtain ⟨m, l, h1, h2, rfl, hw⟩ := saves_none h
  obtain ⟨a1, a2, a3, a4, a5, a6⟩ := files_ok h1
  have key : ∀ n s, getFile m n = some s → (n, s) ∈ l := by
    intro n s hs
    exact h2.mem_iff.2 ((mem_iff_getFile a1 n s).2 hs)
  have put : ∀ n s, (n, s) ∈ l → Stored (l.map fun p => (p.1, p.2.data)) n s.data :=
    fun n s hs => List.mem_map.2 ⟨(n, s), hs, rfl⟩
  refine ⟨put _ _ (key _ _ a3), put _ _ (key _ _ a4), fun n x hx => put _ _ (key _ _ (a5 n x hx)), ?_⟩
  intro n hn n1 n2 n3
  obtain ⟨fs, s, x1, x2, x3⟩ := a6 n hn n1 n2 n3
  have hm := key _ _ x3
  have := (hw _ hm).2.2
  rcases s with ⟨b, _ | x⟩
  · exact ⟨fs, b, x1, x2, put _ _ hm⟩
  · simp at this

/-- A document with a template file, two media under one name and one under another; the map is iterated
backwards. -/
example : ∃ out, Saves {
      rels := baseRels, tmpfslst := ["a.xml"], media := [⟨"x", [1]⟩, ⟨"y", [2]⟩, ⟨"x", [3]⟩],
      tmplfs := some (fun _ => .ok ⟨[9], none⟩) } out none ∧
    Stored out "word/media/x" [3] ∧ ¬ Stored out "word/media/x" [1] ∧ out.length = 5 := by
  refine ⟨_, saves_of rfl (List.reverse_perm _) rfl, ?_⟩
  unfold Stored
  decide

/-! ## C51 -/

/-- C51: saving twice, in whatever orders, fails both times or succeeds both times, and then the same
parts are written. -/
theorem C51_repeatable (f : Doc) (out out' : Saved) (e e' : Option Err) (h : Saves f out e)
    (h' : Saves f out' e') : (e = none ↔ e' = none) ∧ (e = none → out.Perm out') := by
  cases h with
  | noFile h =>
    cases h' with
    | noFile h' => simp
    | order h' _ => rw [h] at h'; cases h'
  | @order m l h hl =>
    cases h' with
    | noFile h' => rw [h] at h'; cases h'
    | @order m' l' h' hl' =>
      rw [h] at h'
      cases h'
      have hp : l.Perm l' := hl.trans hl'.symm
      have hiff : (packAll l).2 = none ↔ (packAll l').2 = none := by
        rw [packAll_none, packAll_none]
        exact ⟨fun hh p hm => hh p (hp.mem_iff.2 hm), fun hh p hm => hh p (hp.mem_iff.1 hm)⟩
      refine ⟨hiff, fun hn => ?_⟩
      rw [packAll_fst l ((packAll_none l).1 hn), packAll_fst l' ((packAll_none l').1 (hiff.1 hn))]
      exact hp.map _

/-! ## C53 -/

theorem openTmpl_err {f : Doc} {fs : FS} (hfs : f.tmplfs = some fs) : ∀ (ns : List String)
    (m : List (String × Stream)),
    (∃ m', f.openTmpl m ns = .ok m' ∧ ∀ n ∈ ns, ∃ s, fs (f.tmplPath n) = .ok s) ∨
    (∃ pre n post x, ns = pre ++ n :: post ∧ (∀ k ∈ pre, ∃ s, fs (f.tmplPath k) = .ok s) ∧
      fs (f.tmplPath n) = .error x ∧ f.openTmpl m ns = .err x) := by
  intro ns
  induction ns with
  | nil => intro m; exact .inl ⟨m, rfl, by simp⟩
  | cons a ns ih =>
    intro m
    rw [Doc.openTmpl, hfs]
    cases h : fs (f.tmplPath a) with
    | error x => exact .inr ⟨[], a, ns, x, rfl, by simp, h, by simp [h]⟩
    | ok s =>
      simp only [h]
      rcases ih (putFile m a s) with ⟨m', h1, h2⟩ | ⟨pre, n, post, x, h1, h2, h3, h4⟩
      · exact .inl ⟨m', h1, by simpa using ⟨⟨s, h⟩, h2⟩⟩
      · exact .inr ⟨a :: pre, n, post, x, by rw [h1]; rfl, by simpa using ⟨⟨s, h⟩, h2⟩, h3, h4⟩

/-- C53: if a template file cannot be opened, WriteTo writes no part and returns the error of the first
such file. -/
theorem C53_reported (f : Doc) (fs : FS) (hfs : f.tmplfs = some fs) (n : String) (hn : n ∈ f.tmpfslst)
    (x : Err) (hx : fs (if f.template = "" then n else "xml/" ++ f.template ++ "/" ++ n) = .error x)
    (out : Saved) (e : Option Err) (h : Saves f out e) :
    out = [] ∧ ∃ k ∈ f.tmpfslst, ∃ y,
      fs (if f.template = "" then k else "xml/" ++ f.template ++ "/" ++ k) = .error y ∧ e = some y := by
  rcases openTmpl_err hfs f.tmpfslst [] with ⟨m', _, h2⟩ | ⟨pre, k, post, y, h1, h2, h3, h4⟩
  · obtain ⟨s, hs⟩ := h2 n hn
    have hx' : fs (f.tmplPath n) = .error x := hx
    rw [hs] at hx'
    cases hx'
  · have hf : f.files = .err y := by unfold Doc.files; rw [h4]
    cases h with
    | noFile h =>
      rw [hf] at h
      cases h
      exact ⟨rfl, k, by rw [h1]; simp, y, h3, rfl⟩
    | order h _ => rw [hf] at h; cases h

/-- C53: such a call does return: there is an outcome. -/
theorem C53_returns (f : Doc) (h : f.tmplfs ≠ none ∨ f.tmpfslst = []) : ∃ out e, Saves f out e := by
  have key : (∃ m, f.openTmpl [] f.tmpfslst = .ok m) ∨ ∃ x, f.openTmpl [] f.tmpfslst = .err x := by
    rcases h with h | h
    · obtain ⟨fs, hfs⟩ := Option.ne_none_iff_exists'.1 h
      rcases openTmpl_err hfs f.tmpfslst [] with ⟨m', h1, _⟩ | ⟨_, _, _, y, _, _, _, h4⟩
      · exact .inl ⟨m', h1⟩
      · exact .inr ⟨y, h4⟩
    · exact .inl ⟨[], by rw [h]; rfl⟩
  rcases key with ⟨m, hm⟩ | ⟨x, hx⟩
  · exact ⟨_, _, .order (m := _) (by unfold Doc.files; rw [hm]) (List.Perm.refl _)⟩
  · exact ⟨_, _, .noFile (by unfold Doc.files; rw [hx])⟩

/-- C53, the other direction: if all template files can be opened and read, and no name is too long or
ends with a slash, then saving succeeds, whatever the order. -/
theorem C53_success (f : Doc)
    (hfs : ∀ n ∈ f.tmpfslst, ∃ fs b, f.tmplfs = some fs ∧
      fs (if f.template = "" then n else "xml/" ++ f.template ++ "/" ++ n) = .ok ⟨b, none⟩)
    (hn : ∀ n ∈ f.tmpfslst, n.utf8ByteSize ≤ 65535 ∧ isDirName n = false)
    (hm : ∀ m ∈ f.media, ("word/media/" ++ m.name).utf8ByteSize ≤ 65535 ∧
      isDirName ("word/media/" ++ m.name) = false)
    (out : Saved) (e : Option Err) (h : Saves f out e) : e = none := by
  cases h with
  | noFile h =>
    unfold Doc.files at h
    split at h
    · cases h
    · rename_i x hx
      cases hl : f.tmpfslst with
      | nil => rw [hl] at hx; cases hx
      | cons a l =>
        obtain ⟨fs, _, hfs', _⟩ := hfs a (by rw [hl]; simp)
        rcases openTmpl_err hfs' f.tmpfslst [] with ⟨m', h1, _⟩ | ⟨pre, k, post, y, h1, h2, h3, h4⟩
        · rw [hx] at h1; cases h1
        · obtain ⟨fs', b, hf2, hb⟩ := hfs k (by rw [h1]; simp)
          rw [hfs'] at hf2
          cases hf2
          have hb' : fs (f.tmplPath k) = .ok ⟨b, none⟩ := hb
          rw [h3] at hb'
          cases hb'
    · cases h
  | @order m l h hl =>
    rw [packAll_none]
    obtain ⟨a1, a2, a3, a4, a5, a6⟩ := files_ok h
    rintro ⟨n, s⟩ hp
    have hg := (mem_iff_getFile a1 n s).1 (hl.mem_iff.1 hp)
    have hk := (a2 n).1 ((getFile_isSome m n).1 ⟨s, hg⟩)
    by_cases hmed : ∃ x ∈ f.media, n = mediaFolder ++ x.name
    · obtain ⟨x, hx, rfl⟩ := hmed
      obtain ⟨y, hy⟩ : ∃ y, lastMedia x.name f.media = some y := by
        unfold lastMedia
        rw [← Option.isSome_iff_exists, List.find?_isSome]
        exact ⟨x, by simpa using hx, by simp⟩
      have := a5 _ y hy
      rw [hg] at this
      cases this
      have := hm x hx
      exact ⟨this.1, (fun hd => absurd (this.2.symm.trans hd) (by decide)), rfl⟩
    · by_cases hd : n = documentName
      · subst hd
        rw [a3] at hg; cases hg
        exact ⟨(by decide : documentName.utf8ByteSize ≤ 65535),
          (fun hd => absurd hd (by decide : ¬ isDirName documentName = true)), rfl⟩
      · by_cases hr : n = relsName
        · subst hr
          rw [a4] at hg; cases hg
          exact ⟨(by decide : relsName.utf8ByteSize ≤ 65535),
            (fun hd => absurd hd (by decide : ¬ isDirName relsName = true)), rfl⟩
        · have ht : n ∈ f.tmpfslst := by
            rcases hk with hk | hk | hk | hk
            · exact hk
            · exact absurd hk hd
            · exact absurd hk hr
            · exact absurd hk hmed
          obtain ⟨fs, s', x1, x2, x3⟩ := a6 n ht hd hr (fun x hx e => hmed ⟨x, hx, e⟩)
          rw [hg] at x3; cases x3
          obtain ⟨fs', b, hf2, hb⟩ := hfs n ht
          rw [x1] at hf2; cases hf2
          have hb' : fs (f.tmplPath n) = .ok ⟨b, none⟩ := hb
          rw [x2] at hb'
          cases hb'
          have := hn n ht
          exact ⟨this.1, (fun hd => absurd (this.2.symm.trans hd) (by decide)), rfl⟩

/-- A template whose second file is missing: nothing is written. -/
example : Saves { rels := baseRels, tmpfslst := ["a.xml", "b.xml"], template := "t", tmplfs := some (fun n => if n = "xml/t/a.xml" then .ok ⟨[9], none⟩ else .error .notExist) }
    [] (some .notExist) := .noFile rfl

/-! ## C50 -/

theorem find_of_nodup {ms : List Media} (h : (ms.map (·.name)).Nodup) {m : Media} (hm : m ∈ ms) :
    ms.find? (fun x => x.name == m.name) = some m := by
  induction ms with
  | nil => simp at hm
  | cons a ms ih =>
    simp only [List.map_cons, List.nodup_cons] at h
    rcases List.mem_cons.1 hm with rfl | hm
    · simp
    · have : a.name ≠ m.name := fun e => h.1 (e ▸ List.mem_map.2 ⟨m, hm, rfl⟩)
      simp [this, ih h.2 hm]

theorem lastMedia_of_nodup {ms : List Media} (h : (ms.map (·.name)).Nodup) {m : Media} (hm : m ∈ ms) :
    lastMedia m.name ms = some m := by
  unfold lastMedia
  refine find_of_nodup ?_ (by simpa using hm)
  rw [List.map_reverse]
  exact (List.reverse_perm _).nodup_iff.2 h

theorem lastMedia_mem {n : String} {ms : List Media} {m : Media} (h : lastMedia n ms = some m) :
    m ∈ ms ∧ m.name = n := by
  unfold lastMedia at h
  refine ⟨by simpa using List.mem_of_find?_eq_some h, by simpa using List.find?_some h⟩

theorem afterFolder (x : String) :
    String.ofList (("word/media/" ++ x).toList.drop "word/media/".toList.length) = x := by
  rw [String.toList_append, List.drop_left, String.ofList_toList]

theorem mem_mediaIn {out : Saved} {m : Media} : m ∈ mediaIn (reread out) ↔
    ("word/media/" ++ m.name, m.data) ∈ out := by
  unfold mediaIn reread
  simp only [List.mem_map, List.mem_filter]
  constructor
  · rintro ⟨e, ⟨⟨p, hp, rfl⟩, he⟩, rfl⟩
    obtain ⟨x, hx⟩ := (isMediaName_iff _).1 he
    simp only at hx
    have h2 : mediaFolder = "word/media/" := rfl
    rw [h2] at hx
    have : p = ("word/media/" ++ x, p.2) := by rw [← hx]
    rw [this] at hp
    simp only [hx, afterFolder, Entry.content, Option.getD_some]
    exact hp
  · intro h
    refine ⟨_, ⟨⟨_, h, rfl⟩, (isMediaName_iff _).2 ⟨m.name, rfl⟩⟩, ?_⟩
    simp only [afterFolder, Entry.content, Option.getD_some]

theorem mediaIn_nodup {out : Saved} (h : (out.map (·.1)).Nodup) :
    ((mediaIn (reread out)).map (·.name)).Nodup := by
  have key : (((reread out).filter fun e => isMediaName e.name).map (·.name)).Nodup := by
    have : (((reread out).filter fun e => isMediaName e.name).map (·.name)).Sublist (out.map (·.1)) := by
      rw [← reread_names]
      exact List.filter_sublist.map _
    exact this.nodup h
  have hmem : ∀ e ∈ (reread out).filter (fun e => isMediaName e.name), isMediaName e.name = true :=
    fun e he => (List.mem_filter.1 he).2
  unfold mediaIn
  generalize (reread out).filter (fun e => isMediaName e.name) = es at *
  rw [List.map_map]
  induction es with
  | nil => simp
  | cons e es ih =>
    simp only [List.map_cons, List.nodup_cons, List.mem_cons, forall_eq_or_imp] at key hmem ⊢
    refine ⟨?_, ih key.2 hmem.2⟩
    intro hin
    apply key.1
    obtain ⟨e', he', heq⟩ := List.mem_map.1 hin
    obtain ⟨x, hx⟩ := (isMediaName_iff _).1 hmem.1
    obtain ⟨y, hy⟩ := (isMediaName_iff _).1 (hmem.2 e' he')
    have h2 : mediaFolder = "word/media/" := rfl
    rw [h2] at hx hy
    simp only [Function.comp, hx, hy, afterFolder] at heq
    refine List.mem_map.2 ⟨e', he', ?_⟩
    rw [hx, hy, heq]

/-- The strings of the relationship table can be written in XML, and the ids are those that Parse takes. -/
def GoodRels (f : Doc) : Prop :=
  xmlText f.relXmlns ∧ ∀ r ∈ f.rels, GoodId r.id ∧ xmlText r.type ∧ xmlText r.target ∧ xmlText r.targetMode

/-- C50: parsing what WriteTo wrote, in whatever order, succeeds and gives back the relationships, for
every media name the last media stored under it, the names of the other files (each once), and the body
without the things listed in `Verif.SpecXml`. -/
theorem C50_restored (f : Doc) (out : Saved) (h : Saves f out none) (me : DocId) (hr : GoodRels f)
    (hi : ∀ s ∈ (mDocument f.items).strings, xmlText s)
    (ht : ∀ n ∈ f.tmpfslst, isMediaName n = false) :
    ∃ g, unpack me (reread out) = (g, none) ∧ g.rels = f.rels ∧ g.relXmlns = f.relXmlns ∧
      (∀ n, g.getMedia n = .ok (lastMedia n f.media)) ∧
      (∀ n, n ∈ g.tmpfslst ↔ n ∈ f.tmpfslst ∧ isOtherName n = true) ∧ g.tmpfslst.Nodup ∧
      g.items = normBody (some me) f.items := by
  have hd := C49_distinct f out none h
  have hex := C49_exactly f out h
  obtain ⟨c1, c2, c3, c4⟩ := C49_contents f out h
  have uniq : ∀ {n b b'}, (n, b) ∈ out → (n, b') ∈ out → b = b' := by
    intro n b b' h1 h2
    obtain ⟨i, hi, e1⟩ := List.getElem_of_mem h1
    obtain ⟨j, hj, e2⟩ := List.getElem_of_mem h2
    have : i = j := (List.getElem?_inj (by simpa using hi) hd).1 (by
      simp [hi, hj, e1, e2])
    subst this
    rw [e1] at e2
    cases e2; rfl
  have hr' : ∀ r ∈ f.rels, xmlText r.id ∧ xmlText r.type ∧ xmlText r.target ∧ xmlText r.targetMode :=
    fun r hm => ⟨goodId_xmlText (hr.2 r hm).1, (hr.2 r hm).2⟩
  obtain ⟨g, hg, hg1, hg2⟩ := unpackAll_saved (x := f.relXmlns) (rs := f.rels) (items := f.items) (me := me)
    hr.1 hr' (fun r hm => (hr.2 r hm).1) hi (reread out)
    { relXmlns := "", tmplfs := some (zipFS (reread out)) } (by rw [reread_names]; exact hd)
    (by
      intro e he
      obtain ⟨p, hp, rfl⟩ := List.mem_map.1 he
      refine ⟨p.2, rfl, ?_, ?_⟩
      · intro e
        exact uniq (n := p.1) hp (by rw [show p.1 = _ from e]; exact c2)
      · intro e
        exact uniq (n := p.1) hp (by rw [show p.1 = _ from e]; exact c1))
    (fun _ => rfl) (fun _ => rfl)
  rw [reread_names] at hg1 hg2
  obtain ⟨r1, r2⟩ := hg1 ((hex _).2 (.inr (.inr (.inl rfl))))
  have i1 := hg2 ((hex _).2 (.inr (.inl rfl)))
  have hu : unpack me (reread out) = ({ g with imageID := 100000 }, none) := by
    unfold unpack; rw [hg]
  obtain ⟨p1, p2, _, p4, _⟩ := C55_places me _ _ hu
  refine ⟨_, hu, r1, r2, ?_, ?_, ?_, i1⟩
  · intro n
    rw [p4 n, p2]
    congr 1
    have hm : ∀ m, m ∈ mediaIn (reread out) ↔ lastMedia m.name f.media = some m := by
      intro m
      rw [mem_mediaIn]
      constructor
      · intro hm
        have : "word/media/" ++ m.name ∈ out.map (·.1) := List.mem_map.2 ⟨_, hm, rfl⟩
        have hmed : ∃ x ∈ f.media, "word/media/" ++ m.name = "word/media/" ++ x.name := by
          rcases (hex _).1 this with h | h | h | h
          · exact absurd ((ht _ h).symm.trans ((isMediaName_iff _).2 ⟨m.name, rfl⟩)) (by decide)
          · exact absurd h.symm (documentName_media m.name)
          · exact absurd h.symm (relsName_media m.name)
          · exact h
        obtain ⟨x, hx, e⟩ := hmed
        have e := string_append_left_cancel e
        obtain ⟨y, hy⟩ : ∃ y, lastMedia m.name f.media = some y := by
          unfold lastMedia
          rw [← Option.isSome_iff_exists, List.find?_isSome]
          exact ⟨x, by simpa using hx, by simp [e]⟩
        have hs := c3 _ y hy
        have := uniq hm hs
        rw [hy]
        obtain ⟨_, hyn⟩ := lastMedia_mem hy
        obtain ⟨mn, md⟩ := m
        obtain ⟨yn, yd⟩ := y
        simp only at hyn this
        rw [hyn, this]
      · intro hm
        exact c3 _ m hm
    have hnd := mediaIn_nodup hd
    cases hl : lastMedia n f.media with
    | some y =>
      have hyn := (lastMedia_mem hl).2
      have hy : y ∈ mediaIn (reread out) := (hm y).2 (by rw [hyn]; exact hl)
      rw [← hyn]
      exact lastMedia_of_nodup hnd hy
    | none =>
      rw [List.find?_eq_none]
      intro z hz
      have hz' := (hm z).1 (by simpa using hz)
      intro e
      simp only [beq_iff_eq] at e
      rw [e, hl] at hz'
      cases hz'
  · intro n
    rw [p1, reread_names, List.mem_filter]
    constructor
    · rintro ⟨h1, h2⟩
      refine ⟨?_, h2⟩
      rcases (hex n).1 h1 with h | h | h | ⟨x, _, h⟩
      · exact h
      · rw [h] at h2; exact absurd h2 (by decide)
      · rw [h] at h2; exact absurd h2 (by decide)
      · have := (C55_kinds_disjoint n).2.2.1 ((isMediaName_iff n).2 ⟨x.name, h⟩)
        rw [h2] at this; cases this
    · rintro ⟨h1, h2⟩
      exact ⟨(hex n).2 (.inl h1), h2⟩
  · rw [p1, reread_names]
    exact hd.filter _

/-- C50 with different media names: the media are the same, up to their order. -/
theorem C50_media (f : Doc) (out : Saved) (h : Saves f out none) (hu : MediaNamesUnique f)
    (ht : ∀ n ∈ f.tmpfslst, isMediaName n = false) : (mediaIn (reread out)).Perm f.media := by
  have hd := C49_distinct f out none h
  have hex := C49_exactly f out h
  obtain ⟨c1, c2, c3, c4⟩ := C49_contents f out h
  have nd : ∀ {l : List Media}, (l.map (·.name)).Nodup → l.Nodup := fun hh =>
    List.Pairwise.of_map _ (fun _ _ hne he => hne (congrArg _ he)) hh
  rw [List.perm_ext_iff_of_nodup (nd (mediaIn_nodup hd)) (nd hu)]
  intro m
  rw [mem_mediaIn]
  constructor
  · intro hm
    rcases (hex _).1 (List.mem_map.2 ⟨_, hm, rfl⟩) with h | h | h | ⟨x, hx, e⟩
    · exact absurd ((ht _ h).symm.trans ((isMediaName_iff _).2 ⟨m.name, rfl⟩)) (by decide)
    · exact absurd h.symm (documentName_media m.name)
    · exact absurd h.symm (relsName_media m.name)
    · have e := string_append_left_cancel e
      have hs := c3 _ x (lastMedia_of_nodup hu hx)
      rw [← e] at hs
      obtain ⟨i, hi, e1⟩ := List.getElem_of_mem hm
      obtain ⟨j, hj, e2⟩ := List.getElem_of_mem hs
      have : i = j := (List.getElem?_inj (by simpa using hi) hd).1 (by simp [hi, hj, e1, e2])
      subst this
      rw [e1] at e2
      obtain ⟨mn, md⟩ := m
      obtain ⟨xn, xd⟩ := x
      simp only [Prod.mk.injEq] at e2
      simp only at e
      rw [e, e2.2]
      exact hx
  · intro hm
    exact c3 _ m (lastMedia_of_nodup hu hm)

/-- C50 for the other files: if all names are plain relative paths, the parsed document finds under each
of them the bytes that were saved. -/
theorem C50_other_files (f : Doc) (out : Saved) (h : Saves f out none) (me : DocId) (g : Doc)
    (hg : unpack me (reread out) = (g, none)) (hp : ∀ p ∈ out, plainPath p.1 = true) :
    ∀ n ∈ g.tmpfslst, ∃ fs b, g.tmplfs = some fs ∧
      fs (if g.template = "" then n else "xml/" ++ g.template ++ "/" ++ n) = .ok ⟨b, none⟩ ∧
      Stored out n b := by
  intro n hn
  obtain ⟨p1, _, _, _, p5, p6⟩ := C55_places me _ _ hg
  rw [p1, reread_names, List.mem_filter] at hn
  obtain ⟨⟨k, b⟩, hb, rfl⟩ := List.mem_map.1 hn.1
  refine ⟨_, b, p5, ?_, hb⟩
  rw [if_pos p6]
  exact zipFS_reread (C49_distinct f out none h) hp hb

/-- C50: and so the parsed document can be saved again without an error, and every part but the document
itself gets the same bytes. -/
theorem C50_again (f : Doc) (out : Saved) (h : Saves f out none) (me : DocId) (hr : GoodRels f)
    (hi : ∀ s ∈ (mDocument f.items).strings, xmlText s)
    (ht : ∀ n ∈ f.tmpfslst, isMediaName n = false) (hp : ∀ p ∈ out, plainPath p.1 = true)
    (g : Doc) (hg : unpack me (reread out) = (g, none)) (out' : Saved) (e : Option Err)
    (h' : Saves g out' e) :
    e = none ∧ ∀ n b, n ≠ "word/document.xml" → (Stored out' n b ↔ Stored out n b) := by
  have hd := C49_distinct f out none h
  have hex := C49_exactly f out h
  obtain ⟨c1, c2, c3, c4⟩ := C49_contents f out h
  obtain ⟨g', hg', r1, r2, r3, r4, r5, r6⟩ := C50_restored f out h me hr hi ht
  rw [hg] at hg'
  cases hg'
  have hof := C50_other_files f out h me g hg hp
  obtain ⟨p1, p2, _, p4, p5, p6⟩ := C55_places me _ _ hg
  obtain ⟨_, _, _, _, _, hw⟩ := saves_none h
  have hlen : ∀ n ∈ out.map (·.1), n.utf8ByteSize ≤ 65535 := by
    obtain ⟨m, l, _, _, rfl, hw⟩ := saves_none h
    intro n hn
    rw [List.map_map] at hn
    obtain ⟨p, hp, rfl⟩ := List.mem_map.1 hn
    exact (hw p hp).1
  have hpl : ∀ n ∈ out.map (·.1), isDirName n = false := by
    intro n hn
    obtain ⟨p, hpp, rfl⟩ := List.mem_map.1 hn
    exact isDirName_plain (hp p hpp)
  have hgm : ∀ m ∈ g.media, "word/media/" ++ m.name ∈ out.map (·.1) := by
    intro m hm
    rw [p2, mem_mediaIn] at hm
    exact List.mem_map.2 ⟨_, hm, rfl⟩
  have he : e = none := by
    refine C53_success g (fun n hn => ?_) (fun n hn => ?_) (fun m hm => ?_) out' e h'
    · obtain ⟨fs, b, x1, x2, _⟩ := hof n hn
      exact ⟨fs, b, x1, x2⟩
    · have : n ∈ out.map (·.1) := (hex n).2 (.inl ((r4 n).1 hn).1)
      exact ⟨hlen n this, hpl n this⟩
    · exact ⟨hlen _ (hgm m hm), hpl _ (hgm m hm)⟩
  subst he
  refine ⟨rfl, ?_⟩
  have hd' := C49_distinct g out' none h'
  have hex' := C49_exactly g out' h'
  obtain ⟨d1, d2, d3, d4⟩ := C49_contents g out' h'
  have uniq : ∀ {o : Saved}, (o.map (·.1)).Nodup → ∀ {n b b'}, (n, b) ∈ o → (n, b') ∈ o → b = b' := by
    intro o hd n b b' h1 h2
    obtain ⟨i, hi, e1⟩ := List.getElem_of_mem h1
    obtain ⟨j, hj, e2⟩ := List.getElem_of_mem h2
    have : i = j := (List.getElem?_inj (by simpa using hi) hd).1 (by
      simp [hi, hj, e1, e2])
    subst this
    rw [e1] at e2
    cases e2; rfl
  -- everything saved the first time is saved the second time
  have fwd : ∀ n b, n ≠ "word/document.xml" → Stored out n b → Stored out' n b := by
    intro n b hne hb
    by_cases hrel : n = "word/_rels/document.xml.rels"
    · subst hrel
      rw [uniq hd hb c2, ← r1, ← r2]
      exact d2
    · cases hmn : isMediaName n with
      | true =>
        obtain ⟨x, rfl⟩ := (isMediaName_iff n).1 hmn
        have hin : (⟨x, b⟩ : Media) ∈ g.media := by rw [p2, mem_mediaIn]; exact hb
        have hnd : (g.media.map (·.name)).Nodup := by rw [p2]; exact mediaIn_nodup hd
        exact d3 x ⟨x, b⟩ (lastMedia_of_nodup hnd hin)
      | false =>
        have ho : isOtherName n = true := by
          cases h : isOtherName n with
          | true => rfl
          | false =>
            rcases (C55_kinds_disjoint n).2.2.2 h with h | h | h
            · exact absurd h hne
            · exact absurd h hrel
            · rw [hmn] at h; cases h
        have hnt : n ∈ g.tmpfslst := by
          rw [p1, reread_names, List.mem_filter]
          exact ⟨List.mem_map.2 ⟨_, hb, rfl⟩, ho⟩
        obtain ⟨fs, b', x1, x2, x3⟩ := d4 n hnt hne hrel (by
          intro m _ e
          rw [(isMediaName_iff n).2 ⟨m.name, e⟩] at hmn
          cases hmn)
        obtain ⟨fs', b'', y1, y2, y3⟩ := hof n hnt
        rw [x1] at y1; cases y1
        rw [x2] at y2; cases y2
        rw [uniq hd hb y3]
        exact x3
  intro n b hne
  refine ⟨fun hb => ?_, fwd n b hne⟩
  have hin : n ∈ out.map (·.1) := by
    rcases (hex' n).1 (List.mem_map.2 ⟨_, hb, rfl⟩) with h | h | h | ⟨m, hm, h⟩
    · exact (hex n).2 (.inl ((r4 n).1 h).1)
    · exact absurd h hne
    · exact (hex n).2 (.inr (.inr (.inl h)))
    · rw [h]; exact hgm m hm
  obtain ⟨⟨k, b'⟩, hk, rfl⟩ := List.mem_map.1 hin
  have := fwd k b' hne hk
  rw [uniq hd' hb this]
  exact hk

/-- For the example below -/
def c50doc : Doc := {
  rels := [⟨"rId1", "t", "styles.xml", ""⟩, ⟨"rId12", "l", "http://x/?a&b", "External"⟩]
  tmpfslst := ["word/styles.xml"]
  media := [⟨"x", [1]⟩, ⟨"y", [2]⟩, ⟨"x", [3]⟩]
  tmplfs := some (fun _ => .ok ⟨[9], none⟩)
  items := [.para { children := [.run { children := [.text { text := "a < b" }] }] }] }

/-- A document with text, a link, two media, of which one is replaced, and a template file: the
hypotheses hold, for the reversed order. -/
theorem c50doc_ok : GoodRels c50doc ∧ (∀ s ∈ (mDocument c50doc.items).strings, xmlText s) ∧
    (∀ n ∈ c50doc.tmpfslst, isMediaName n = false) ∧
    ∃ out, Saves c50doc out none ∧ (∀ p ∈ out, plainPath p.1 = true ∧ p.1.utf8ByteSize ≤ 65535) ∧
      out.length = 5 := by
  refine ⟨⟨by unfold xmlText; decide, fun r hr => ?_⟩, by unfold xmlText; decide, by decide, _,
    saves_of rfl (List.reverse_perm _) rfl, by decide, rfl⟩
  have h : ∀ r ∈ c50doc.rels, xmlText r.type ∧ xmlText r.target ∧ xmlText r.targetMode := by
    unfold xmlText; decide
  exact ⟨(scanIds_ok c50doc.rels 0).1 (by decide) r hr, h r hr⟩

example : ∃ f, GoodRels f ∧ (∀ s ∈ (mDocument f.items).strings, xmlText s) ∧
    (∀ n ∈ f.tmpfslst, isMediaName n = false) ∧
    ∃ out, Saves f out none ∧ (∀ p ∈ out, plainPath p.1 = true) ∧ out.length = 5 :=
  ⟨c50doc, c50doc_ok.1, c50doc_ok.2.1, c50doc_ok.2.2.1, c50doc_ok.2.2.2.imp fun _ h =>
    ⟨h.1, fun p hp => (h.2.1 p hp).1, h.2.2⟩⟩

end Docx
