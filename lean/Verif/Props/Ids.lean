import Verif.Spec
import Verif.Lemmas.Ids

/-! # C01-C07, C56: relationship ids, lookup, media -/

namespace Docx

theorem rangeRels_ids (acc : List String) (l : List Rel) :
    rangeRels (fun acc r => (acc ++ [r.id], r, none)) acc l = (acc ++ l.map (·.id), none) := by
  induction l generalizing acc with
  | nil => simp [rangeRels]
  | cons a l ih => simp [rangeRels, ih]

theorem seenIds_eq (f : Doc) : seenIds f = f.rels.map (·.id) := by
  simp [seenIds, Doc.rangeRelationships, rangeRels_ids]

theorem counterAhead_iff (f : Doc) : CounterAhead f ↔ Ahead f := by
  simp only [CounterAhead, Ahead, seenIds_eq, List.mem_map, not_exists, not_and]

/-- Test environment: every picture is a 4 by 3 png. -/
@[reducible] def pngEnv : ImgEnv := ⟨fun _ => some (4, 3, "png")⟩

/-! ## C01 -/

/-- **C01.** After any history, started from any set of documents, no two relationships of a document
created in that history (by New, LoadBodyItems or SplitByParagraph) have the same id, as long as there
are at most 2^64 of them. -/
theorem C01_ids_unique [ImgEnv] (w0 w : World) (os : List Op) (h : run w0 os = .ok w)
    (d : DocId) (hd : w0.length ≤ d) (f : Doc) (hf : w[d]? = some f)
    (hlen : (seenIds f).length ≤ 2 ^ 64) : (seenIds f).Nodup := by
  obtain ⟨b, hb, e⟩ := (run_wevo h).new d f hf hd
  rw [seenIds_eq] at *
  exact base_ids_nodup hb e (by simpa using hlen)

/-- The ids are `rId1`, `rId2`, … in order. -/
theorem C01_ids_exact [ImgEnv] (w0 w : World) (os : List Op) (h : run w0 os = .ok w)
    (d : DocId) (hd : w0.length ≤ d) (f : Doc) (hf : w[d]? = some f) :
    seenIds f = (List.range (seenIds f).length).map fun i => ridOf (UInt64.ofNat (i + 1)) := by
  obtain ⟨b, hb, e⟩ := (run_wevo h).new d f hf hd
  rw [seenIds_eq]
  simpa using base_ids hb e

/-- The bound is exact: with more than 2^64 relationships two ids are equal. -/
theorem C01_bound_tight [ImgEnv] (w0 w : World) (os : List Op) (h : run w0 os = .ok w)
    (d : DocId) (hd : w0.length ≤ d) (f : Doc) (hf : w[d]? = some f)
    (hlen : 2 ^ 64 < (seenIds f).length) : ¬ (seenIds f).Nodup := by
  intro hn
  have h0 : (seenIds f)[0]? = some (ridOf (UInt64.ofNat 1)) := by
    rw [C01_ids_exact w0 w os h d hd f hf, List.getElem?_map, List.getElem?_range (by omega)]
    rfl
  have h1 : (seenIds f)[2 ^ 64]? = some (ridOf (UInt64.ofNat (2 ^ 64 + 1))) := by
    rw [C01_ids_exact w0 w os h d hd f hf, List.getElem?_map, List.getElem?_range hlen]
    rfl
  have e : UInt64.ofNat (2 ^ 64 + 1) = UInt64.ofNat 1 := by decide
  rw [e] at h1
  have : (0 : Nat) = 2 ^ 64 := (List.getElem?_inj (by omega) hn).1 (h0.trans h1.symm)
  omega

/-- A history with links and pictures in a new, a loaded and a split document. -/
example : ∃ w f, @run pngEnv []
    [.new, .addParagraph 0, .addLink 0 (.body 0) "a" "b", .addInlineDrawing 0 (.body 0) [1],
     .addLink 0 (.body 0) "c" "d", .load [] [⟨"x.png", [7]⟩], .addParagraph 1,
     .addLink 1 (.body 0) "e" "f"] = .ok w ∧ w[0]? = some f ∧
    seenIds f = ["rId1", "rId2", "rId3", "rId4", "rId5", "rId6"] :=
  ⟨_, _, rfl, rfl, by decide⟩

/-! ## C02 -/

theorem addLink_immediately (f : Doc) (p : Para) (text link : String)
    (ha : CounterAhead f) (hroom : f.rID.toNat + 1 < 2 ^ 64) :
    (p.addLink f text link).1.referTarget (p.addLink f text link).2.2.id = some link := by
  have ha := (counterAhead_iff f).1 ha
  refine referTarget_fresh (fun r hr => ?_) _ rfl
  refine ha (f.rID + 1) (UInt64.lt_iff_toNat_lt.2 ?_) r hr
  rw [UInt64.toNat_add]
  have : (1 : UInt64).toNat = 1 := rfl
  omega

/-- **C02.** The id in the hyperlink returned by `AddLink` resolves to the link, at once and after
every later history.  `pre` is any history before the call; the document the paragraph belongs to is
one of the starting documents (whose counter is ahead of its ids, as after Parse, see C03) or was
created in `pre`; fewer than 2^64 ids are used up in it. -/
theorem C02_link_resolves [ImgEnv] (w0 w w1 w2 : World) (pre os : List Op)
    (h0 : ∀ f ∈ w0, CounterAhead f) (hpre : run w0 pre = .ok w)
    (d : DocId) (l : Loc) (text link : String)
    (hcall : step w (.addLink d l text link) = .ok w1) (hpost : run w1 os = .ok w2) :
    ∃ doc p fid f, w[d]? = some doc ∧ getPara doc.items l = some p ∧ p.file = some fid ∧
      w[fid]? = some f ∧
      ((∀ f0, w0[fid]? = some f0 → f0.rID.toNat + (f.rels.length - f0.rels.length) + 1 < 2 ^ 64) →
       (w0.length ≤ fid → f.rels.length + 1 < 2 ^ 64) →
       ∃ f2, w2[fid]? = some f2 ∧ f2.referTarget (p.addLink f text link).2.2.id = some link) := by
  obtain ⟨doc, p, fid, f, f', p', doc1, hdoc, hp, hfid, hf, hact, hd1, hw1⟩ := onPara_ok hcall
  refine ⟨doc, p, fid, f, hdoc, hp, hfid, hf, ?_⟩
  intro hroom1 hroom2
  simp only [Res.ok.injEq, Prod.mk.injEq] at hact
  obtain ⟨f1, hf1, e1⟩ := onPara_evo (l := l) (p' := p') hf hd1
  rw [← hw1] at hf1
  obtain ⟨f2, hf2, e2⟩ := (run_wevo hpost).old fid f1 hf1
  refine ⟨f2, hf2, (e1.trans e2).resolves ?_⟩
  rw [← hact.1]
  have key : CounterAhead f ∧ f.rID.toNat + 1 < 2 ^ 64 := by
    rcases Nat.lt_or_ge fid w0.length with hlt | hge
    · have h0' : w0[fid]? = some w0[fid] := List.getElem?_eq_getElem hlt
      obtain ⟨g, hg, e⟩ := (run_wevo hpre).old fid _ h0'
      rw [hf] at hg; obtain rfl := Option.some.inj hg
      have hr := hroom1 _ h0'
      obtain ⟨ha, hn⟩ := e.ahead ((counterAhead_iff _).1 (h0 _ (List.getElem_mem hlt))) (by omega)
      exact ⟨(counterAhead_iff _).2 ha, by omega⟩
    · obtain ⟨b, hb, e⟩ := (run_wevo hpre).new fid f hf hge
      have hr := hroom2 hge
      obtain ⟨hb1, hb2, _, _⟩ := base_rels hb
      have h3 : b.rels.length = 3 := by rw [hb1]; rfl
      have h3' : b.rID.toNat = 3 := by rw [hb2]; rfl
      have hle : b.rels.length ≤ f.rels.length := by
        obtain ⟨ext, h1, _, _⟩ := e.rels
        rw [h1]; simp
      obtain ⟨ha, hn⟩ := e.ahead (base_ahead hb) (by omega)
      exact ⟨(counterAhead_iff _).2 ha, by omega⟩
  exact addLink_immediately f p text link key.1 key.2

/-- An id that resolves keeps its target in every later state, in any document. -/
theorem C02_targets_are_stable [ImgEnv] (w w' : World) (os : List Op) (h : run w os = .ok w')
    (d : DocId) (f : Doc) (hf : w[d]? = some f) (id t : String) (hr : f.referTarget id = some t) :
    ∃ f', w'[d]? = some f' ∧ f'.referTarget id = some t := by
  obtain ⟨f', hf', e⟩ := (run_wevo h).old d f hf
  exact ⟨f', hf', e.resolves hr⟩

example : ∃ w w1 w2 f, @run pngEnv [] [.new, .addParagraph 0, .addInlineDrawing 0 (.body 0) [1]] = .ok w ∧
    @step pngEnv w (.addLink 0 (.body 0) "text" "http://x") = .ok w1 ∧
    @run pngEnv w1 [.addLink 0 (.body 0) "text" "http://y", .new, .append 1 1] = .ok w2 ∧
    w2[0]? = some f ∧
    f.referTarget "rId5" = some "http://x" ∧ f.referTarget "rId6" = some "http://y" :=
  ⟨_, _, _, _, rfl, rfl, rfl, rfl, by decide, by decide⟩

/-! ## C04 -/

/-- **C04.** `ReferTarget(id)` is the target of the first relationship with that id (and
`ErrRefIDNotFound`, here `none`, when there is none). -/
theorem C04_referTarget_exact (f : Doc) (id : String) :
    f.referTarget id = (f.rels.find? fun r => r.id == id).map (·.target) := by
  unfold Doc.referTarget
  induction f.rels with
  | nil => rfl
  | cons a l ih =>
    by_cases e : a.id = id
    · simp [referTarget, e]
    · simp [referTarget, e, ih]

/-- `ReferTarget` fails exactly when no relationship has the id. -/
theorem C04_referTarget_fails (f : Doc) (id : String) :
    f.referTarget id = none ↔ id ∉ seenIds f := by
  rw [C04_referTarget_exact, seenIds_eq]
  simp

/-- **C04.** `ReferID(target)` is the id of the first relationship with that target. -/
theorem C04_referID_exact (f : Doc) (target : String) :
    f.referID target = (f.rels.find? fun r => r.target == target).map (·.id) := by
  unfold Doc.referID
  induction f.rels with
  | nil => rfl
  | cons a l ih =>
    by_cases e : a.target = target
    · simp [referID, e]
    · simp [referID, e, ih]

/-- **C04.** With unique ids, looking up a target and then its id comes back to the target. -/
theorem C04_roundtrip (f : Doc) (hn : (seenIds f).Nodup) (target id : String)
    (h : f.referID target = some id) : f.referTarget id = some target := by
  rw [seenIds_eq] at hn
  rw [C04_referID_exact, Option.map_eq_some_iff] at h
  obtain ⟨r, hr, rfl⟩ := h
  have hm := List.mem_of_find?_eq_some hr
  have ht := List.find?_some hr
  simp only [beq_iff_eq] at ht
  rw [C04_referTarget_exact, Option.map_eq_some_iff]
  obtain ⟨r', hr'⟩ : ∃ r', f.rels.find? (fun x => x.id == r.id) = some r' := by
    rw [← Option.isSome_iff_exists, List.find?_isSome]
    exact ⟨r, hm, by simp⟩
  have hm' := List.mem_of_find?_eq_some hr'
  have he := List.find?_some hr'
  simp only [beq_iff_eq] at he
  have : r' = r := by
    obtain ⟨i, hi, rfl⟩ := List.getElem_of_mem hm
    obtain ⟨j, hj, rfl⟩ := List.getElem_of_mem hm'
    have : j = i := (List.getElem?_inj (by simpa using hj) hn).1 (by
      simp only [List.getElem?_map, List.getElem?_eq_getElem hi, List.getElem?_eq_getElem hj,
        Option.map_some, he])
    subst this; rfl
  exact ⟨r', hr', by rw [this, ht]⟩

/-- Without unique ids the round trip can fail. -/
example : ∃ f : Doc, f.referID "y" = some "rId1" ∧ f.referTarget "rId1" = some "x" :=
  ⟨{ rels := [⟨"rId1", "", "x", ""⟩, ⟨"rId1", "", "y", ""⟩] }, by decide, by decide⟩

example : (seenIds (Doc.new.addLinkRelation "http://x").1).Nodup ∧
    (Doc.new.addLinkRelation "http://x").1.referID "http://x" = some "rId4" := by decide

/-! ## C05 -/

/-- What a callback's state is after it has been called on `rs` in order. -/
def visitAll {σ : Type} (iter : σ → Rel → σ × Rel × Option Err) (s : σ) (rs : List Rel) : σ :=
  rs.foldl (fun s r => (iter s r).1) s

/-- **C05.** Either the callback was called once on every relationship in order and never failed, or
the visit stopped at the first relationship it failed on and returned that error.  In both cases the
document is as before, whatever the callback wrote to its argument. -/
theorem C05_range {σ : Type} (f : Doc) (iter : σ → Rel → σ × Rel × Option Err) (s s' : σ)
    (e : Option Err) (f' : Doc) (h : f.rangeRelationships iter s = (s', e, f')) :
    f' = f ∧
    ((e = none ∧ s' = visitAll iter s f.rels ∧
      ∀ pre r post, f.rels = pre ++ r :: post → (iter (visitAll iter s pre) r).2.2 = none) ∨
     (∃ pre r post er, f.rels = pre ++ r :: post ∧ e = some er ∧
      (iter (visitAll iter s pre) r).2.2 = some er ∧ s' = visitAll iter s (pre ++ [r]) ∧
      ∀ pre' r' post', pre = pre' ++ r' :: post' → (iter (visitAll iter s pre') r').2.2 = none)) := by
  simp only [Doc.rangeRelationships, Prod.mk.injEq] at h
  refine ⟨h.2.2.symm, ?_⟩
  replace h : rangeRels iter s f.rels = (s', e) := Prod.ext h.1 h.2.1
  generalize f.rels = l at *
  induction l generalizing s with
  | nil =>
    simp only [rangeRels, Prod.mk.injEq] at h
    exact .inl ⟨h.2.symm, h.1.symm, by simp⟩
  | cons a l ih =>
    simp only [rangeRels] at h
    split at h
    · rename_i s1 r1 er heq
      simp only [Prod.mk.injEq] at h
      refine .inr ⟨[], a, l, er, rfl, h.2.symm, by simp [visitAll, heq], by simp [visitAll, heq, h.1],
        by simp⟩
    · rename_i s1 r1 heq
      rcases ih s1 h with ⟨h1, h2, h3⟩ | ⟨pre, r, post, er, h1, h2, h3, h4, h5⟩
      · refine .inl ⟨h1, by simpa [visitAll, heq] using h2, ?_⟩
        intro pre r post hs
        cases pre with
        | nil =>
          simp only [List.nil_append, List.cons.injEq] at hs
          rw [← hs.1]; simp [visitAll, heq]
        | cons x pre =>
          simp only [List.cons_append, List.cons.injEq] at hs
          have := h3 pre r post hs.2
          rw [← hs.1]
          simpa [visitAll, heq] using this
      · refine .inr ⟨a :: pre, r, post, er, by rw [h1]; rfl, h2, by simpa [visitAll, heq] using h3,
          by simpa [visitAll, heq] using h4, ?_⟩
        intro pre' r' post' hs
        cases pre' with
        | nil =>
          simp only [List.nil_append, List.cons.injEq] at hs
          rw [← hs.1]; simp [visitAll, heq]
        | cons x pre' =>
          simp only [List.cons_append, List.cons.injEq] at hs
          have := h5 pre' r' post' hs.2
          rw [← hs.1]
          simpa [visitAll, heq] using this

/-- A callback that overwrites its argument, counts its calls and fails at the second one. -/
example : (Doc.new.rangeRelationships
    (fun (n : Nat) r => (n + 1, { r with target := "changed" }, if n = 1 then some Err.io else none)) 0).1 = 2 ∧
    (Doc.new.rangeRelationships
    (fun (n : Nat) r => (n + 1, { r with target := "changed" }, if n = 1 then some Err.io else none)) 0).2.1
      = some Err.io := by decide

/-! ## C06 -/

theorem names_evo {f g : Doc} (h : Evo f g) (hn : MediaNamesUnique f) (ha : NamesAhead f)
    (hroom : f.imageID.toNat + (g.media.length - f.media.length) < 2 ^ 64) : MediaNamesUnique g := by
  obtain ⟨ext, h1, h2, h3⟩ := h.media
  have hl : g.media.length - f.media.length = ext.length := by rw [h1]; simp
  rw [hl] at hroom
  have hv : ∀ k, k ≤ ext.length → (f.imageID + UInt64.ofNat k).toNat = f.imageID.toNat + k := by
    intro k hk
    rw [UInt64.toNat_add, UInt64.toNat_ofNat']; omega
  unfold MediaNamesUnique
  rw [h1, List.map_append, List.nodup_append]
  refine ⟨hn, ?_, ?_⟩
  · unfold List.Nodup
    rw [List.pairwise_iff_getElem]
    intro i j hi hj hij
    simp only [List.length_map] at hi hj
    simp only [List.getElem_map]
    obtain ⟨fi, e1⟩ := h3 i ext[i] (by simp)
    obtain ⟨fj, e2⟩ := h3 j ext[j] (by simp)
    rw [e1, e2]
    intro e
    have := congrArg UInt64.toNat (imageName_inj e)
    rw [hv _ (by omega), hv _ (by omega)] at this
    omega
  · intro a ha' b hb' e
    simp only [List.mem_map] at ha' hb'
    obtain ⟨m, hm, rfl⟩ := ha'
    obtain ⟨m', hm', rfl⟩ := hb'
    obtain ⟨i, hi, rfl⟩ := List.getElem_of_mem hm'
    obtain ⟨fi, e1⟩ := h3 i ext[i] (by simp)
    rw [e1] at e
    refine ha m hm _ fi (UInt64.lt_iff_toNat_lt.2 ?_) e
    rw [hv _ (by omega)]; omega

/-- **C06 (partial).** If the media of the starting documents, and of the media lists given to
`LoadBodyItems`, have unique names that do not look like names still to be generated, then after
every history the media names of every document are unique.  In particular this holds for all
documents started by `New` or produced by `SplitByParagraph`.
Missing: documents whose given media do carry such a name; there the claim is false, see
`C06_collision`. -/
theorem C06_names_unique_partial [ImgEnv] (w0 w : World) (os : List Op)
    (h0 : ∀ f ∈ w0, MediaNamesUnique f ∧ NamesAhead f)
    (hload : ∀ items media, .load items media ∈ os →
      (media.map (·.name)).Nodup ∧ ∀ m ∈ media, ∀ (n : UInt64) format, 0 < n → m.name ≠ imageName n format)
    (h : run w0 os = .ok w) (d : DocId) (f : Doc) (hf : w[d]? = some f)
    (hroom0 : ∀ f0, w0[d]? = some f0 → f0.imageID.toNat + (f.media.length - f0.media.length) < 2 ^ 64)
    (hroom1 : f.media.length < 2 ^ 64) : MediaNamesUnique f := by
  have hw := run_wevo' (B := fun b => MediaNamesUnique b ∧ NamesAhead b ∧ b.imageID = 0)
    ⟨by simp [MediaNamesUnique, Doc.new], by simp [NamesAhead, Doc.new], rfl⟩
    (fun f => ⟨by simp [MediaNamesUnique, splitDoc], by simp [NamesAhead, splitDoc], rfl⟩)
    (fun i m hm => ⟨by simpa [MediaNamesUnique, Doc.loadBodyItems] using (hload i m hm).1,
      by simpa [NamesAhead, Doc.loadBodyItems] using (hload i m hm).2, rfl⟩) h
  rcases Nat.lt_or_ge d w0.length with hlt | hge
  · have h0' : w0[d]? = some w0[d] := List.getElem?_eq_getElem hlt
    obtain ⟨g, hg, e⟩ := hw.old d _ h0'
    rw [hf] at hg; obtain rfl := Option.some.inj hg
    obtain ⟨a, b⟩ := h0 _ (List.getElem_mem hlt)
    exact names_evo e a b (hroom0 _ h0')
  · obtain ⟨b, ⟨b1, b2, b3⟩, e⟩ := hw.new d f hf hge
    refine names_evo e b1 b2 ?_
    rw [b3]
    have : (0 : UInt64).toNat = 0 := rfl
    omega

/-- **C06 fails** after `LoadBodyItems`: the picture counter starts at 0 although a media named
`image1.png` was handed over; the added picture takes the same name and hides the first one. -/
theorem C06_collision : ∃ w w' f f', @run pngEnv []
      [.load [] [⟨"image1.png", [1]⟩], .addParagraph 0] = .ok w ∧ w[0]? = some f ∧
    f.getMedia "image1.png" = .ok (some ⟨"image1.png", [1]⟩) ∧
    @step pngEnv w (.addInlineDrawing 0 (.body 0) [2]) = .ok w' ∧ w'[0]? = some f' ∧
    f'.media.map (·.name) = ["image1.png", "image1.png"] ∧
    f'.getMedia "image1.png" = .ok (some ⟨"image1.png", [2]⟩) :=
  ⟨_, _, _, _, rfl, rfl, by decide, rfl, rfl, by decide, by decide⟩

/-- A history with two pictures and one loaded media that meets the hypotheses. -/
example : ∃ w f, @run pngEnv []
      [.load [] [⟨"logo.png", [1]⟩], .addParagraph 0, .addInlineDrawing 0 (.body 0) [2],
       .addAnchorDrawing 0 (.body 0) [3]] = .ok w ∧ w[0]? = some f ∧
    f.media.map (·.name) = ["logo.png", "image1.png", "image2.png"] :=
  ⟨_, _, rfl, rfl, by decide⟩

example : ∀ (n : UInt64) format, (⟨"logo.png", [1]⟩ : Media).name ≠ imageName n format := by
  intro n format e
  have := congrArg (fun s => s.toList.head?) e
  simp only [imageName, String.toList_append] at this
  revert this
  generalize (itoa n.toInt64).toList = x
  generalize format.toList = y
  simp

/-! ## C07 -/

theorem addImage_serves {f : Doc} (hid : ∀ r ∈ f.rels, r.id ≠ ridOf (f.rID + 1)) (fmt : String)
    (data : Bytes) :
    (f.addImage fmt data).1.referTarget (f.addImage fmt data).2
      = some ("media/" ++ imageName (f.imageID + 1) fmt) ∧
    (f.addImage fmt data).1.getMedia (imageName (f.imageID + 1) fmt)
      = .ok (some ⟨imageName (f.imageID + 1) fmt, data⟩) := by
  refine ⟨referTarget_fresh hid _ rfl, ?_⟩
  simp [Doc.addImage, Doc.addMedia, Doc.addImageRelation, Doc.getMedia, upd]

/-- A served picture stays served as long as the counter does not come back to its name. -/
theorem media_stays {f g : Doc} (h : Evo f g) (fmt : String) (m : Media) (k : UInt64)
    (hk : k ≤ f.imageID) (hm : f.getMedia (imageName k fmt) = .ok (some m))
    (hroom : f.imageID.toNat + (g.media.length - f.media.length) < 2 ^ 64) :
    g.getMedia (imageName k fmt) = .ok (some m) := by
  induction h with
  | refl => exact hm
  | items l _ ih => exact ih hroom
  | template t l tf _ ih => exact ih hroom
  | docID _ ih => exact ih hroom
  | incID n _ ih => exact ih hroom
  | link l _ ih => exact ih hroom
  | @image g fmt' d hfg ih =>
    have hlen : (g.addImage fmt' d).1.media.length = g.media.length + 1 := by
      simp [Doc.addImage, Doc.addMedia, Doc.addImageRelation]
    obtain ⟨ext, h1, h2, _⟩ := hfg.media
    have hge : g.media.length - f.media.length = ext.length := by rw [h1]; simp
    have hle : f.media.length ≤ g.media.length := by rw [h1]; simp
    have ih := ih (by omega)
    have hne : imageName k fmt ≠ imageName (g.imageID + 1) fmt' := by
      intro e
      have e := congrArg UInt64.toNat (imageName_inj e)
      rw [h2, ofNat_succ_add, UInt64.toNat_add, UInt64.toNat_ofNat'] at e
      have := UInt64.le_iff_toNat_le.1 hk
      omega
    unfold Doc.getMedia at ih ⊢
    simp only [Doc.addImage, Doc.addMedia, Doc.addImageRelation, upd, if_neg hne]
    split at ih
    · simp at ih
    · rename_i i hi
      split at ih
      · rename_i m' hm'
        have hl := lt_of_getElem? hm'
        rw [List.getElem?_append_left hl, hm']
        exact ih
      · simp at ih

/-- `r` is the run returned by a picture call on paragraph `p` of a document `f`. -/
def PictureCall [ImgEnv] (p : Para) (f : Doc) (pic : Bytes) (f' : Doc) (p' : Para) (r : Run) : Prop :=
  p.addInlineDrawing f pic = (f', p', .ok r) ∨ p.addAnchorDrawing f pic = (f', p', .ok r)

theorem pictureCall_spec [ImgEnv] {p : Para} {f : Doc} {pic : Bytes} {f' : Doc} {p' : Para} {r : Run}
    (h : PictureCall p f pic f' p' r) : ∃ fmt, ∃ g : Doc, g.rels = f.rels ∧ g.rID = f.rID ∧
      g.media = f.media ∧ g.imageID = f.imageID ∧ f' = (g.addImage fmt pic).1 ∧
      pictureEmbeds r = [(g.addImage fmt pic).2] := by
  have hp : ∀ idn id rid x y f1, f.addPicture pic = (f1, .ok (idn, id, rid, x, y)) →
      ∃ fmt, ∃ g : Doc, g.rels = f.rels ∧ g.rID = f.rID ∧ g.media = f.media ∧ g.imageID = f.imageID ∧
        f1 = (g.addImage fmt pic).1 ∧ rid = (g.addImage fmt pic).2 := by
    intro idn id rid x y f1 h1
    unfold Doc.addPicture at h1
    split at h1
    · simp at h1
    · rename_i w0 h0 fmt _
      simp only at h1
      split at h1
      · simp at h1
      · simp only [Res.ok.injEq, Prod.mk.injEq] at h1
        exact ⟨fmt, ((f.nextDocID).1.increaseID picName).1, rfl, rfl, rfl, rfl, h1.1.symm,
          h1.2.2.2.1.symm⟩
  rcases h with h | h
  · unfold Para.addInlineDrawing at h
    split at h
    · rename_i f1 idn id rid x y h1
      simp only [Res.ok.injEq, Prod.mk.injEq] at h
      obtain ⟨fmt, g, a1, a2, a3, a4, a5, a6⟩ := hp _ _ _ _ _ _ h1
      refine ⟨fmt, g, a1, a2, a3, a4, by rw [← h.1, a5], ?_⟩
      rw [← h.2.2, ← a6]
      simp [pictureEmbeds, RChild.embeds, graphicEmbed, picEmbed, drawingRun, mkInlinePic, mkPicGraphic]
    · simp at h
    · simp at h
  · unfold Para.addAnchorDrawing at h
    split at h
    · rename_i f1 idn id rid x y h1
      simp only [Res.ok.injEq, Prod.mk.injEq] at h
      obtain ⟨fmt, g, a1, a2, a3, a4, a5, a6⟩ := hp _ _ _ _ _ _ h1
      refine ⟨fmt, g, a1, a2, a3, a4, by rw [← h.1, a5], ?_⟩
      rw [← h.2.2, ← a6]
      simp [pictureEmbeds, RChild.embeds, graphicEmbed, picEmbed, drawingRun, mkAnchorPic, mkPicGraphic]
    · simp at h
    · simp at h

theorem addPicture_err [ImgEnv] {f f' : Doc} {pic : Bytes} {e : Err}
    (h : f.addPicture pic = (f', .err e)) : ImgEnv.decodeSize pic = none := by
  unfold Doc.addPicture at h
  split at h
  · assumption
  · simp only at h
    split at h <;> simp at h

theorem addInlineDrawing_err [ImgEnv] {f f' : Doc} {p p' : Para} {pic : Bytes} {e : Err}
    (h : p.addInlineDrawing f pic = (f', p', .err e)) : ImgEnv.decodeSize pic = none := by
  unfold Para.addInlineDrawing at h
  split at h
  · simp at h
  · rename_i h1; exact addPicture_err h1
  · simp at h

theorem addAnchorDrawing_err [ImgEnv] {f f' : Doc} {p p' : Para} {pic : Bytes} {e : Err}
    (h : p.addAnchorDrawing f pic = (f', p', .err e)) : ImgEnv.decodeSize pic = none := by
  unfold Para.addAnchorDrawing at h
  split at h
  · simp at h
  · rename_i h1; exact addPicture_err h1
  · simp at h

/-- **C07, at once.** After a picture call the run shows exactly one picture, and its relationship id
serves the bytes of the picture. -/
theorem C07_picture_served [ImgEnv] (f f' : Doc) (p p' : Para) (pic : Bytes) (r : Run)
    (ha : CounterAhead f) (hroom : f.rID.toNat + 1 < 2 ^ 64) (h : PictureCall p f pic f' p' r) :
    ∃ id, pictureEmbeds r = [id] ∧ ServesPicture f' id pic := by
  obtain ⟨fmt, g, h1, h2, h3, h4, h5, h6⟩ := pictureCall_spec h
  refine ⟨_, h6, ?_⟩
  have ha := (counterAhead_iff f).1 ha
  have hid : ∀ r ∈ g.rels, r.id ≠ ridOf (g.rID + 1) := by
    intro r hr
    rw [h1] at hr
    rw [h2]
    refine ha (f.rID + 1) (UInt64.lt_iff_toNat_lt.2 ?_) r hr
    rw [UInt64.toNat_add]
    have : (1 : UInt64).toNat = 1 := rfl
    omega
  obtain ⟨a, b⟩ := addImage_serves hid fmt pic
  rw [h5]
  exact ⟨_, _, a, b, rfl⟩

/-- **C07, later.** … and it does so after every later history, as long as fewer than 2^64 pictures
are added.  The call is `AddInlineDrawing` or `AddAnchorDrawing` of any paragraph of the world. -/
theorem C07_picture_stays_served [ImgEnv] (w w1 w2 : World) (os : List Op) (d : DocId) (l : Loc)
    (pic : Bytes) (o : Op) (ho : o = .addInlineDrawing d l pic ∨ o = .addAnchorDrawing d l pic)
    (hcall : step w o = .ok w1) (hpost : run w1 os = .ok w2)
    (hdec : ImgEnv.decodeSize pic ≠ none) :
    ∃ doc p fid f, w[d]? = some doc ∧ getPara doc.items l = some p ∧ p.file = some fid ∧
      w[fid]? = some f ∧
      ((ha : CounterAhead f) → (hroom : f.rID.toNat + 1 < 2 ^ 64) →
       ∃ f' p' r id f2, PictureCall p f pic f' p' r ∧ pictureEmbeds r = [id] ∧ w2[fid]? = some f2 ∧
        (f.imageID.toNat + (f2.media.length - f.media.length) < 2 ^ 64 → ServesPicture f2 id pic)) := by
  have main : ∀ {act : Doc → Para → Res (Doc × Para)},
      (∀ f p f' p', act f p = .ok (f', p') → ∃ r, PictureCall p f pic f' p' r) →
      w.onPara d l act = .ok w1 → ∃ doc p fid f, w[d]? = some doc ∧ getPara doc.items l = some p ∧
      p.file = some fid ∧ w[fid]? = some f ∧
      ((ha : CounterAhead f) → (hroom : f.rID.toNat + 1 < 2 ^ 64) →
       ∃ f' p' r id f2, PictureCall p f pic f' p' r ∧ pictureEmbeds r = [id] ∧ w2[fid]? = some f2 ∧
        (f.imageID.toNat + (f2.media.length - f.media.length) < 2 ^ 64 → ServesPicture f2 id pic)) := by
    intro act hact hon
    obtain ⟨doc, p, fid, f, f', p', doc1, hdoc, hp, hfid, hf, ha, hd1, hw1⟩ := onPara_ok hon
    refine ⟨doc, p, fid, f, hdoc, hp, hfid, hf, ?_⟩
    intro hah hroom
    obtain ⟨r, hr⟩ := hact f p f' p' ha
    obtain ⟨f1, hf1, e1⟩ := onPara_evo (l := l) (p' := p') hf hd1
    rw [← hw1] at hf1
    obtain ⟨f2, hf2, e2⟩ := (run_wevo hpost).old fid f1 hf1
    have e := e1.trans e2
    obtain ⟨fmt, g, h1, h2, h3, h4, h5, h6⟩ := pictureCall_spec hr
    refine ⟨f', p', r, _, f2, hr, h6, hf2, ?_⟩
    intro hrm
    have hah := (counterAhead_iff f).1 hah
    have hid : ∀ r ∈ g.rels, r.id ≠ ridOf (g.rID + 1) := by
      intro r hr
      rw [h1] at hr
      rw [h2]
      refine hah (f.rID + 1) (UInt64.lt_iff_toNat_lt.2 ?_) r hr
      rw [UInt64.toNat_add]
      have : (1 : UInt64).toNat = 1 := rfl
      omega
    obtain ⟨a, b⟩ := addImage_serves hid fmt pic
    rw [h5] at e
    have hlen : (g.addImage fmt pic).1.media.length = f.media.length + 1 := by
      simp [Doc.addImage, Doc.addMedia, Doc.addImageRelation, h3]
    have himg : (g.addImage fmt pic).1.imageID = g.imageID + 1 := rfl
    have hle : (g.addImage fmt pic).1.media.length ≤ f2.media.length := by
      obtain ⟨ext, hx, _, _⟩ := e.media
      rw [hx]; simp
    have hnat : (g.imageID + 1).toNat = f.imageID.toNat + 1 := by
      rw [h4, UInt64.toNat_add]
      have : (1 : UInt64).toNat = 1 := rfl
      omega
    refine ⟨_, _, e.resolves a, media_stays e _ _ _ (by rw [himg]; exact UInt64.le_refl _) b ?_, rfl⟩
    rw [himg, hnat, hlen]
    omega
  rcases ho with rfl | rfl
  · refine main ?_ hcall
    intro f p f' p' ha
    split at ha
    · rename_i f1 p1 r heq
      simp only [Res.ok.injEq, Prod.mk.injEq] at ha
      exact ⟨r, .inl (by rw [heq, ha.1, ha.2])⟩
    · rename_i er heq
      exact absurd (addInlineDrawing_err heq) hdec
    · simp at ha
  · refine main ?_ hcall
    intro f p f' p' ha
    split at ha
    · rename_i f1 p1 r heq
      simp only [Res.ok.injEq, Prod.mk.injEq] at ha
      exact ⟨r, .inr (by rw [heq, ha.1, ha.2])⟩
    · rename_i er heq
      exact absurd (addAnchorDrawing_err heq) hdec
    · simp at ha

/-- Two pictures and a link: the first picture is still served at the end. -/
example : ∃ w w1 w2 f, @run pngEnv [] [.new, .addParagraph 0] = .ok w ∧
    @step pngEnv w (.addInlineDrawing 0 (.body 0) [1, 2]) = .ok w1 ∧
    @run pngEnv w1 [.addLink 0 (.body 0) "t" "http://y", .addAnchorDrawing 0 (.body 0) [3]] = .ok w2 ∧
    w2[0]? = some f ∧ ServesPicture f "rId4" [1, 2] ∧ ServesPicture f "rId6" [3] :=
  ⟨_, _, _, _, rfl, rfl, rfl, rfl, ⟨"image1.png", ⟨"image1.png", [1, 2]⟩, by decide, by decide, rfl⟩,
    ⟨"image2.png", ⟨"image2.png", [3]⟩, by decide, by decide, rfl⟩⟩

/-! ## C56 -/

/-- **C56, media.** After `LoadBodyItems(items, media)`, `Media(name)` is the last given media with
that name; and in every state of every history the media index of every document that history created
is exact. -/
theorem C56_media_served (items : List BItem) (media : List Media) :
    ∀ name, (Doc.loadBodyItems items media).getMedia name
      = .ok (media.reverse.find? fun m => m.name == name) :=
  fun name => getMedia_of_idxOK (load_idxOK items media) name

theorem C56_media_found_always [ImgEnv] (w0 w : World) (os : List Op) (h : run w0 os = .ok w)
    (d : DocId) (hd : w0.length ≤ d) (f : Doc) (hf : w[d]? = some f) : MediaFound f := by
  obtain ⟨b, hb, e⟩ := (run_wevo h).new d f hf hd
  exact fun name => getMedia_of_idxOK (e.idxOK (base_idxOK hb)) name

example : (Doc.loadBodyItems [] [⟨"a", [1]⟩, ⟨"b", [2]⟩, ⟨"a", [3]⟩]).getMedia "a"
    = .ok (some ⟨"a", [3]⟩) := by decide

/-- **C56, links (partial).** A link added to a paragraph of the loaded document resolves there, if
the paragraph belongs to that document.  Missing: paragraphs that were made for another document,
for which the claim is false (`C56_foreign_paragraph`). -/
theorem C56_links_partial [ImgEnv] (items : List BItem) (media : List Media) (p : Para)
    (text link : String) :
    (p.addLink (Doc.loadBodyItems items media) text link).1.referTarget
      (p.addLink (Doc.loadBodyItems items media) text link).2.2.id = some link :=
  addLink_immediately _ _ _ _ ((counterAhead_iff _).2 (base_ahead (base_load items media)))
    (by show (3 : UInt64).toNat + 1 < 2 ^ 64; decide)

/-- **C56 fails for links** on a paragraph taken from another document: `AddLink` registers the link
in the old document, and its id does not resolve in the new one. -/
theorem C56_foreign_paragraph : ∃ (w : World) (f0 f1 : Doc), @run pngEnv []
      [.new, .addParagraph 0, .load [.para { file := some 0 }] [], .addLink 1 (.body 0) "t" "http://x"]
        = .ok w ∧ w[0]? = some f0 ∧ w[1]? = some f1 ∧
    (match f1.items with
     | [.para p] => p.children.map (fun | .link h => h.id | _ => "")
     | _ => []) = ["rId4"] ∧
    f1.referTarget "rId4" = none ∧ f0.referTarget "rId4" = some "http://x" :=
  ⟨_, _, _, rfl, rfl, rfl, by decide, by decide, by decide⟩

end Docx
