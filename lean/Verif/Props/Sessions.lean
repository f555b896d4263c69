import Verif.SpecSessions
import Verif.Props.Pack
import Verif.Props.Round
import Verif.Lemmas.Owned
import Verif.Lemmas.CopyRules

/-!
# C73: work in several sessions
-/

namespace Docx

set_option linter.unusedSectionVars false

variable [GoEnv]

theorem Expressible.good {f : Doc} (h : Expressible f) : GoodRels f := ⟨h.nameSpace, h.rels⟩

/-- What opening the saved file gives -/
theorem reopen_spec {f : Doc} {out : Saved} {me : DocId} {g : Doc} (hw : Expressible f) (hs : Saves f out none)
    (hg : unpack me (reread out) = (g, none)) :
    g.rels = f.rels ∧ (∀ n, g.getMedia n = .ok (lastMedia n f.media)) ∧ g.items = normBody (some me) f.items := by
  obtain ⟨g', h1, h2, _, h3, _, _, h4⟩ := C50_restored f out hs me hw.good hw.body hw.templates
  rw [hg] at h1
  obtain ⟨rfl, _⟩ := Prod.mk.inj h1
  exact ⟨h2, h3, h4⟩

/-- In an archive without double names the counter is found from 0 -/
theorem unpackAll_counter {me : DocId} {es : List Entry} {f g : Doc} (hd : (es.map (·.name)).Nodup)
    (hm : relsName ∈ es.map (·.name)) (h : f.unpackAll me es = (g, none)) :
    scanIds f.rID g.rels = (g.rID, none) := by
  obtain ⟨e, he, hn⟩ := List.mem_map.1 hm
  obtain ⟨pre, post, rfl⟩ := List.append_of_mem he
  obtain ⟨f1, f2, h1, h2, h3⟩ := unpackAll_split h
  rw [List.map_append, List.map_cons, List.nodup_append, List.nodup_cons] at hd
  obtain ⟨_, ⟨hd1, _⟩, hd2⟩ := hd
  have n1 : relsName ∉ pre.map (·.name) := fun hc => hd2 _ hc _ (by simp [hn]) hn.symm
  have n2 : relsName ∉ post.map (·.name) := by rw [← hn]; exact hd1
  obtain ⟨_, _, _, _, _, _, _, _, b9, _⟩ := unpackAll_ok h1
  obtain ⟨_, _, _, _, _, _, _, _, c9, _⟩ := unpackAll_ok h3
  rw [(c9 n2).1, (c9 n2).2.1, ← (b9 n1).2.1]
  unfold Doc.unpackEntry at h2
  rw [if_pos hn] at h2
  unfold Doc.parseRels at h2
  split at h2
  · simp at h2
  · split at h2
    · simp at h2
    · simp only [Prod.mk.injEq] at h2
      obtain ⟨rfl, h2⟩ := h2
      exact Prod.ext rfl h2

/-- Opening the saved file does not put the counter higher. -/
theorem reopen_counter {f : Doc} {out : Saved} {me : DocId} {g : Doc} (hw : Expressible f)
    (hs : Saves f out none) (hg : unpack me (reread out) = (g, none)) (hn : NumbersBelow f) :
    NumbersBelow g ∧ g.rID.toNat ≤ f.rID.toNat := by
  have hr := (reopen_spec hw hs hg).1
  obtain ⟨g', h1, rfl⟩ := unpack_ok hg
  have hm : relsName ∈ (reread out).map (·.name) := by
    rw [reread_names]; exact (C49_exactly f out hs _).2 (.inr (.inr (.inl rfl)))
  have hsc := unpackAll_counter (by rw [reread_names]; exact C49_distinct f out none hs) hm h1
  obtain ⟨_, a2, a3⟩ := scanIds_max _ _ _ hsc
  refine ⟨a2, ?_⟩
  rcases a3 with a3 | ⟨r, hr', a3⟩
  · have : g'.rID = 0 := a3
    show g'.rID.toNat ≤ _
    rw [this]; exact Nat.zero_le _
  · exact hn r (by rw [← hr]; exact hr') _ a3

theorem ridNumber_small {n : UInt64} (h : n.toNat < 2 ^ 63) : IdNumber (ridOf n) n.toNat := by
  have hi : n.toInt64.toInt = n.toNat := by
    rw [toInt_toInt64]; exact Int.bmod_eq_of_le (by omega) (by omega)
  exact (idNumber_iff (ridOf n) n).2 ⟨itoa n.toInt64, (afterRId_iff _ _).2 (by simp [ridOf]),
    parseUint_itoa_nonneg _ (by omega)⟩

theorem evo_numbers {f g : Doc} (e : Evo f g) (hd : (f.rels.map (·.id)).Nodup) (hn : NumbersBelow f)
    (hroom : f.rID.toNat + (g.rels.length - f.rels.length) < 2 ^ 63) :
    (g.rels.map (·.id)).Nodup ∧ NumbersBelow g ∧ g.rID.toNat = f.rID.toNat + (g.rels.length - f.rels.length) := by
  obtain ⟨ext, h1, h2, h3⟩ := e.rels
  have hl : g.rels.length - f.rels.length = ext.length := by rw [h1]; simp
  rw [hl] at hroom ⊢
  have hv : ∀ k, k ≤ ext.length → (f.rID + UInt64.ofNat k).toNat = f.rID.toNat + k := by
    intro k hk; rw [UInt64.toNat_add, UInt64.toNat_ofNat']; omega
  have hnum : ∀ r ∈ ext, ∀ n, IdNumber r.id n → f.rID.toNat < n ∧ n ≤ f.rID.toNat + ext.length := by
    intro r hr n hi
    obtain ⟨i, hi', rfl⟩ := List.getElem_of_mem hr
    rw [h3 i _ (List.getElem?_eq_getElem hi')] at hi
    have hk := hv (i + 1) (by omega)
    have hb : n < 2 ^ 64 := by
      have h4 := ridNumber_small (n := f.rID + UInt64.ofNat (i + 1)) (by rw [hk]; omega)
      have := hi.unique h4
      rw [this, hk]; omega
    have := ridOf_number hi hb
    omega
  have hex : ∀ r ∈ ext, ∃ n, IdNumber r.id n := by
    intro r hr
    obtain ⟨i, hi', rfl⟩ := List.getElem_of_mem hr
    rw [h3 i _ (List.getElem?_eq_getElem hi')]
    exact ⟨_, ridNumber_small (by rw [hv (i + 1) (by omega)]; omega)⟩
  refine ⟨?_, ?_, by rw [h2, hv _ (Nat.le_refl _)]⟩
  · rw [h1, List.map_append, List.nodup_append]
    refine ⟨hd, ?_, ?_⟩
    · rw [List.nodup_iff_pairwise_ne, List.pairwise_map, List.pairwise_iff_getElem]
      intro i j hi hj hij he
      rw [h3 i _ (List.getElem?_eq_getElem hi), h3 j _ (List.getElem?_eq_getElem hj)] at he
      have := congrArg UInt64.toNat (ridOf_inj he)
      rw [hv (i + 1) (by omega), hv (j + 1) (by omega)] at this
      omega
    · intro a ha b hb he
      obtain ⟨r, hr, rfl⟩ := List.mem_map.1 ha
      obtain ⟨s, hs, rfl⟩ := List.mem_map.1 hb
      obtain ⟨n, hn'⟩ := hex s hs
      have h5 := hn r hr n (by rw [he]; exact hn')
      have h6 := (hnum s hs n hn').1
      omega
  · intro r hr n hi
    rw [h2, hv _ (Nat.le_refl _)]
    rw [h1] at hr
    rcases List.mem_append.1 hr with hr | hr
    · have := hn r hr n hi; omega
    · exact (hnum r hr n hi).2

/-- Every opened document meets the condition on numbers. -/
theorem C73_opened (me : DocId) (a : Archive) (f : Doc) (h : unpack me a = (f, none)) : NumbersBelow f := by
  obtain ⟨g, hg, rfl⟩ := unpack_ok h
  obtain ⟨_, _, _, _, _, _, _, _, b9, b10, _, _⟩ := unpackAll_ok hg
  intro r hr n hi
  change r ∈ g.rels at hr
  by_cases hm : relsName ∈ a.map (·.name)
  · obtain ⟨k, hk⟩ := b10 hm
    exact (scanIds_max _ _ _ hk).2.1 r hr n hi
  · rw [(b9 hm).1] at hr
    simp at hr

/-- So does a new one. -/
theorem C73_new : NumbersBelow Doc.new ∧ (seenIds Doc.new).Nodup := by
  refine ⟨?_, by decide⟩
  obtain ⟨_, a, _⟩ := scanIds_max Doc.new.rels 0 Doc.new.rID (by decide)
  exact a

/-- **C73, texts.** Saving and opening again keeps all texts, in order. -/
theorem C73_texts (w : World) (d : DocId) (g f : Doc) (h : Reopens w d g) (hf : w[d]? = some f) :
    bodyTexts g.items = bodyTexts f.items := by
  obtain ⟨f', out, h1, h2, h3, h4⟩ := h
  rw [hf] at h1; obtain rfl := Option.some.inj h1
  rw [(reopen_spec h2 h3 h4).2.2]
  have := C41_text_kept (some w.length) f.items
  rwa [C41_round_trip] at this

/-- The media found under a name that is not generated any more stays. -/
theorem media_keeps {f g : Doc} (h : Evo f g) (name : String) (m : Media)
    (hk : ∀ k fmt, f.imageID < k → name ≠ imageName k fmt) (hm : f.getMedia name = .ok (some m))
    (hroom : f.imageID.toNat + (g.media.length - f.media.length) < 2 ^ 64) :
    g.getMedia name = .ok (some m) := by
  induction h with
  | refl => exact hm
  | items l _ ih => exact ih hroom
  | template t l tf _ ih => exact ih hroom
  | docID _ ih => exact ih hroom
  | incID n _ ih => exact ih hroom
  | link l _ ih => exact ih hroom
  | @image g fmt' d hfg ih =>
    have hlen : (g.addImage fmt' d).1.media.length = g.media.length + 1 := by
      simp [Doc.addImage, Doc.addMedia, Doc.addImageRelation]
    obtain ⟨ext, h1, h2, _⟩ := hfg.media
    have hge : g.media.length - f.media.length = ext.length := by rw [h1]; simp
    have hle : f.media.length ≤ g.media.length := by rw [h1]; simp
    have ih := ih (by omega)
    have hne : name ≠ imageName (g.imageID + 1) fmt' := by
      refine hk _ _ (UInt64.lt_iff_toNat_lt.2 ?_)
      rw [h2, ofNat_succ_add, UInt64.toNat_add, UInt64.toNat_ofNat']
      omega
    unfold Doc.getMedia at ih ⊢
    simp only [Doc.addImage, Doc.addMedia, Doc.addImageRelation, upd, if_neg hne]
    split at ih
    · simp at ih
    · rename_i i hi
      split at ih
      · rename_i m' hm'
        have hl := lt_of_getElem? hm'
        rw [List.getElem?_append_left hl, hm']
        exact ih
      · simp at ih

theorem lastMedia_append {n : String} {ms ext : List Media} (h : ∀ m ∈ ext, m.name ≠ n) :
    lastMedia n (ms ++ ext) = lastMedia n ms := by
  unfold lastMedia
  rw [List.reverse_append, List.find?_append]
  rw [List.find?_eq_none.2]
  · rfl
  · intro m hm
    simpa using h m (by simpa using hm)

theorem normRChildren_drawIds (file : Option DocId) : ∀ cs : List RChild,
    ((normRChildren file cs).filterMap RChild.drawing?).flatMap Drawing.docPrIds =
      (cs.filterMap RChild.drawing?).flatMap Drawing.docPrIds
  | [] => by rw [normRChildren]
  | c :: cs => by
    have ih := normRChildren_drawIds file cs
    rw [normRChildren]
    cases c with
    | text t => rw [normRChild]; exact ih
    | tab t => rw [normRChild]; exact ih
    | br b => rw [normRChild]; exact ih
    | drawing d =>
      simp only [normRChild, RChild.drawing?, List.filterMap_cons, List.flatMap_cons, ih]
      congr 1
      obtain ⟨inl, anchor⟩ := d
      simp only [normDrawing, Drawing.docPrIds]
      congr 1
      · cases inl with
        | none => rw [normInlineO]
        | some i => cases i; simp only [normInlineO, normInline]
      · cases anchor with
        | none => rw [normAnchorO]
        | some a => cases a; simp only [normAnchorO, normAnchor]

theorem normRun_drawIds (file : Option DocId) (r : Run) :
    (normRun file r).draws.flatMap Drawing.docPrIds = r.draws.flatMap Drawing.docPrIds := by
  cases r
  simp only [normRun, Run.draws]
  exact normRChildren_drawIds file _

theorem normPChildren_drawIds (file : Option DocId) : ∀ cs : List PChild,
    ((normPChildren file cs).flatMap PChild.draws).flatMap Drawing.docPrIds =
      (cs.flatMap PChild.draws).flatMap Drawing.docPrIds
  | [] => by rw [normPChildren]
  | c :: cs => by
    have ih := normPChildren_drawIds file cs
    rw [normPChildren]
    simp only [List.flatMap_cons, List.flatMap_append, ih]
    congr 1
    cases c with
    | run r => simp only [normPChild, PChild.draws]; exact normRun_drawIds file r
    | link h => cases h; simp only [normPChild, normLink, PChild.draws]; exact normRun_drawIds none _
    | rpr p => rfl

theorem normPara_drawIds (file : Option DocId) (p : Para) :
    (normPara file p).draws.flatMap Drawing.docPrIds = p.draws.flatMap Drawing.docPrIds := by
  cases p
  simp only [normPara, Para.draws]
  exact normPChildren_drawIds file _

theorem flatMap_map_eq {α β γ : Type} {f : α → List β} {g : β → List γ} {n : α → α} (xs : List α)
    (h : ∀ x, (f (n x)).flatMap g = (f x).flatMap g) :
    ((xs.map n).flatMap f).flatMap g = (xs.flatMap f).flatMap g := by
  induction xs with
  | nil => rfl
  | cons x xs ih => simp only [List.map_cons, List.flatMap_cons, List.flatMap_append, h, ih]

theorem normBody_drawIds (file : Option DocId) (items : List BItem) :
    ((normBody file items).flatMap BItem.draws).flatMap Drawing.docPrIds =
      (items.flatMap BItem.draws).flatMap Drawing.docPrIds := by
  refine flatMap_map_eq items fun x => ?_
  cases x with
  | para p => exact normPara_drawIds file p
  | sect s => rfl
  | table t =>
    refine flatMap_map_eq t.rows fun r => ?_
    refine flatMap_map_eq r.cells fun c => ?_
    exact flatMap_map_eq c.paras fun p => normPara_drawIds file p

/-- Saving and opening again keeps the ids of all drawings, in order. -/
theorem C73_drawing_ids_kept (w : World) (d : DocId) (g f : Doc) (h : Reopens w d g) (hf : w[d]? = some f) :
    g.docPrIds = f.docPrIds := by
  obtain ⟨f', out, h1, h2, h3, h4⟩ := h
  rw [hf] at h1; obtain rfl := Option.some.inj h1
  unfold Doc.docPrIds Doc.draws
  rw [(reopen_spec h2 h3 h4).2.2]
  exact normBody_drawIds _ _

section

variable [ImgEnv]

theorem action_old {w w' : World} (h : Action w w') {d : DocId} {f : Doc} (hf : w[d]? = some f) :
    ∃ f', w'[d]? = some f' ∧ Evo f f' ∧ (f' = f ∨ f'.media.length < 2 ^ 62) := by
  cases h with
  | call o h hfit =>
    obtain ⟨f', h1, h2⟩ := (step_wevo h).old d f hf
    exact ⟨f', h1, h2, .inr (hfit f' (List.mem_of_getElem? h1)).2⟩
  | opening a g h =>
    exact ⟨f, by rw [List.getElem?_append_left (lt_of_getElem? hf)]; exact hf, .refl f, .inl rfl⟩

/-- Induction over the versions of one document: a relation that holds for calls and for reopening,
and is closed under both, holds from the first to the last. -/
theorem Later.rel {w w' : World} {d d' : DocId} (h : Later w d w' d') {f : Doc} (hf : w[d]? = some f)
    (R : Doc → Prop) (h0 : R f)
    (hc : ∀ g g', R g → Evo g g' → (g' = g ∨ g'.media.length < 2 ^ 62) → R g')
    (hr : ∀ g g' out me, R g → Expressible g → Saves g out none → unpack me (reread out) = (g', none) → R g') :
    ∃ f', w'[d']? = some f' ∧ R f' := by
  induction h with
  | same => exact ⟨f, hf, h0⟩
  | action _ ha ih =>
    obtain ⟨g, hg, hR⟩ := ih
    obtain ⟨g', hg', e, hb⟩ := action_old ha hg
    exact ⟨g', hg', hc g g' hR e hb⟩
  | reopened _ hr' ih =>
    obtain ⟨g, hg, hR⟩ := ih
    obtain ⟨g1, out, h1, h2, h3, h4⟩ := hr'
    rw [hg] at h1; obtain rfl := Option.some.inj h1
    exact ⟨_, by simp, hr _ _ _ _ hR h2 h3 h4⟩

/-- **C73, links.** What a relationship id stands for does not change any more, whatever is called, and
however often the document is saved and opened again. -/
theorem C73_links (w w' : World) (d d' : DocId) (h : Later w d w' d') (f : Doc) (hf : w[d]? = some f)
    (id t : String) (ht : f.referTarget id = some t) :
    ∃ f', w'[d']? = some f' ∧ f'.referTarget id = some t := by
  refine h.rel hf (fun g => g.referTarget id = some t) ht (fun g g' hg e _ => e.resolves hg) ?_
  intro g g' out me hg hw hs hu
  have := (reopen_spec hw hs hu).1
  unfold Doc.referTarget at hg ⊢
  rw [this]; exact hg

/-- **C73, ids.** If the ids of a document are different and not above the counter (as in every new and
every opened document), then they stay different, through calls and through saving and opening again, as
long as the number of new relationships leaves room in a 64-bit integer. -/
theorem C73_ids_unique (w w' : World) (d d' : DocId) (h : Later w d w' d') (f f' : Doc)
    (hf : w[d]? = some f) (hf' : w'[d']? = some f') (hu : (seenIds f).Nodup) (hn : NumbersBelow f)
    (hroom : f.rID.toNat + (f'.rels.length - f.rels.length) < 2 ^ 63) :
    (seenIds f').Nodup ∧ NumbersBelow f' := by
  rw [seenIds_eq] at hu ⊢
  obtain ⟨g, hg, hle, hR⟩ := h.rel hf (fun g => f.rels.length ≤ g.rels.length ∧
      (f.rID.toNat + (g.rels.length - f.rels.length) < 2 ^ 63 → (g.rels.map (·.id)).Nodup ∧
        NumbersBelow g ∧ g.rID.toNat ≤ f.rID.toNat + (g.rels.length - f.rels.length)))
    ⟨Nat.le_refl _, fun _ => ⟨hu, hn, by omega⟩⟩
    (by
      intro g g' ⟨hle, hR⟩ e _
      have hle' := e.rels_le
      refine ⟨Nat.le_trans hle hle', fun hb => ?_⟩
      obtain ⟨r1, r2, r3⟩ := hR (by omega)
      obtain ⟨a, b, c⟩ := evo_numbers e r1 r2 (by omega)
      exact ⟨a, b, by omega⟩)
    (by
      intro g g' out me ⟨hle, hR⟩ hw hs hu'
      have hr := (reopen_spec hw hs hu').1
      rw [hr]
      refine ⟨hle, fun hb => ?_⟩
      obtain ⟨r1, r2, r3⟩ := hR hb
      obtain ⟨a, b⟩ := reopen_counter hw hs hu' r2
      exact ⟨r1, a, by omega⟩)
  rw [hf'] at hg; obtain rfl := Option.some.inj hg
  obtain ⟨a, b, _⟩ := hR hroom
  exact ⟨a, b⟩

/-- **C73, pictures (partial).** A picture that is found under a relationship id stays found there
through calls and through saving and opening again, if its name is not of the form `image<n>.<format>`
with `n` above the present picture counter or above 100000.  So all pictures of a new document, up to the
100000th, and most pictures of files written by other programs are safe.  Missing: the pictures that are
added to an opened document, see `C73_picture_replaced`. -/
theorem C73_pictures_partial (w w' : World) (d d' : DocId) (h : Later w d w' d') (f : Doc)
    (hf : w[d]? = some f) (hfound : MediaFound f) (hcnt : f.imageID.toNat ≤ 100000 + f.media.length)
    (id name : String) (m : Media) (ht : f.referTarget id = some ("media/" ++ name))
    (hm : f.getMedia name = .ok (some m))
    (hname : ∀ (k : UInt64) fmt, f.imageID < k ∨ 100000 < k → name ≠ imageName k fmt) :
    ∃ f', w'[d']? = some f' ∧ ServesPicture f' id m.data := by
  have hl0 : lastMedia name f.media = some m := by
    have := hfound name
    rw [hm] at this
    exact (Res.ok.inj this).symm
  obtain ⟨g, hg, h1, h2, _⟩ := h.rel hf (fun g => g.referTarget id = some ("media/" ++ name) ∧
      g.getMedia name = .ok (some m) ∧ lastMedia name g.media = some m ∧
      g.imageID.toNat ≤ 100000 + g.media.length ∧
      (∀ (k : UInt64) fmt, g.imageID < k ∨ 100000 < k → name ≠ imageName k fmt))
    ⟨ht, hm, hl0, hcnt, hname⟩
    (by
      rintro g g' ⟨r1, r2, r3, r4, r5⟩ e hb
      rcases hb with rfl | hb
      · exact ⟨r1, r2, r3, r4, r5⟩
      obtain ⟨ext, e1, e2, e3⟩ := e.media
      have hlen : g'.media.length = g.media.length + ext.length := by rw [e1]; simp
      have hv : ∀ k, k ≤ ext.length → (g.imageID + UInt64.ofNat k).toNat = g.imageID.toNat + k := by
        intro k hk; rw [UInt64.toNat_add, UInt64.toNat_ofNat']; omega
      refine ⟨e.resolves r1, media_keeps e name m (fun k fmt hk => r5 k fmt (.inl hk)) r2 (by omega), ?_,
        by rw [e2, hv _ (Nat.le_refl _)]; omega, ?_⟩
      · rw [e1, lastMedia_append, r3]
        intro x hx hxn
        obtain ⟨i, hi, rfl⟩ := List.getElem_of_mem hx
        obtain ⟨fmt, hfm⟩ := e3 i _ (List.getElem?_eq_getElem hi)
        refine r5 _ fmt (.inl (UInt64.lt_iff_toNat_lt.2 ?_)) (hxn.symm.trans hfm)
        rw [hv (i + 1) (by omega)]; omega
      · intro k fmt hk
        refine r5 k fmt (hk.imp_left fun hk => ?_)
        rw [UInt64.lt_iff_toNat_lt, e2, hv _ (Nat.le_refl _)] at hk
        exact UInt64.lt_iff_toNat_lt.2 (by omega))
    (by
      rintro g g' out me ⟨r1, r2, r3, r4, r5⟩ hw hs hu
      obtain ⟨s1, s2, _⟩ := reopen_spec hw hs hu
      obtain ⟨g1, hg1, rfl⟩ := unpack_ok hu
      have hmed : lastMedia name g1.media = some m := by
        have := (C55_places me _ _ hu).2.2.2.1 name
        rw [s2 name, r3] at this
        exact (Res.ok.inj this).symm
      refine ⟨?_, by rw [s2 name, r3], hmed, ?_, fun k fmt hk => r5 k fmt (.inr (hk.elim (fun h => h) (fun h => h)))⟩
      · unfold Doc.referTarget at r1 ⊢
        rw [s1]; exact r1
      · show (100000 : UInt64).toNat ≤ _
        exact Nat.le_add_right 100000 _)
  exact ⟨g, hg, name, m, h1, h2, rfl⟩

/-- A picture call uses the format that the decoder reports. -/
theorem pictureCall_format {p : Para} {f : Doc} {pic : Bytes} {f' : Doc} {p' : Para} {r : Run}
    {x y : Int64} {fmt : String} (hdec : ImgEnv.decodeSize pic = some (x, y, fmt))
    (h : PictureCall p f pic f' p' r) : ∃ g : Doc, g.rels = f.rels ∧ g.rID = f.rID ∧
      g.media = f.media ∧ g.imageID = f.imageID ∧ f' = (g.addImage fmt pic).1 ∧
      pictureEmbeds r = [(g.addImage fmt pic).2] := by
  have hp : ∀ idn id rid x y f1, f.addPicture pic = (f1, .ok (idn, id, rid, x, y)) →
      ∃ g : Doc, g.rels = f.rels ∧ g.rID = f.rID ∧ g.media = f.media ∧ g.imageID = f.imageID ∧
        f1 = (g.addImage fmt pic).1 ∧ rid = (g.addImage fmt pic).2 := by
    intro idn id rid x y f1 h1
    unfold Doc.addPicture at h1
    rw [hdec] at h1
    simp only at h1
    split at h1
    · simp at h1
    · simp only [Res.ok.injEq, Prod.mk.injEq] at h1
      exact ⟨((f.nextDocID).1.increaseID picName).1, rfl, rfl, rfl, rfl, h1.1.symm, h1.2.2.2.1.symm⟩
  rcases h with h | h
  · unfold Para.addInlineDrawing at h
    split at h
    · rename_i f1 idn id rid x y h1
      simp only [Res.ok.injEq, Prod.mk.injEq] at h
      obtain ⟨g, a1, a2, a3, a4, a5, a6⟩ := hp _ _ _ _ _ _ h1
      refine ⟨g, a1, a2, a3, a4, by rw [← h.1, a5], ?_⟩
      rw [← h.2.2, ← a6]
      simp [pictureEmbeds, RChild.embeds, graphicEmbed, picEmbed, drawingRun, mkInlinePic, mkPicGraphic]
    · simp at h
    · simp at h
  · unfold Para.addAnchorDrawing at h
    split at h
    · rename_i f1 idn id rid x y h1
      simp only [Res.ok.injEq, Prod.mk.injEq] at h
      obtain ⟨g, a1, a2, a3, a4, a5, a6⟩ := hp _ _ _ _ _ _ h1
      refine ⟨g, a1, a2, a3, a4, by rw [← h.1, a5], ?_⟩
      rw [← h.2.2, ← a6]
      simp [pictureEmbeds, RChild.embeds, graphicEmbed, picEmbed, drawingRun, mkAnchorPic, mkPicGraphic]
    · simp at h
    · simp at h

/-- **C73 is false of the code for pictures.** Open any file, add a picture; save, open again, add another
picture of the same format: then the relationship of the first picture serves the second one, and the
first one is in no part of the file saved next. -/
theorem C73_picture_replaced (me me' : DocId) (a : Archive) (f0 f1 g f2 : Doc) (p p' q q' : Para)
    (r r2 : Run) (pic pic2 : Bytes) (x y x2 y2 : Int64) (fmt : String) (items items2 : List BItem)
    (out out2 : Saved) (h0 : unpack me a = (f0, none)) (hroom : f0.rID.toNat + 1 < 2 ^ 63)
    (hd : ImgEnv.decodeSize pic = some (x, y, fmt)) (hd2 : ImgEnv.decodeSize pic2 = some (x2, y2, fmt))
    (hcall : PictureCall p f0 pic f1 p' r) (hw : Expressible { f1 with items := items })
    (hs : Saves { f1 with items := items } out none) (hu : unpack me' (reread out) = (g, none))
    (hcall2 : PictureCall q g pic2 f2 q' r2) (hs2 : Saves { f2 with items := items2 } out2 none) :
    ∃ id, pictureEmbeds r = [id] ∧ ServesPicture f1 id pic ∧ ServesPicture g id pic ∧
      ServesPicture f2 id pic2 ∧ Stored out ("word/media/image100001." ++ fmt) pic ∧
      ∀ b, Stored out2 ("word/media/image100001." ++ fmt) b ↔ b = pic2 := by
  obtain ⟨k, a1, a2, a3, a4, rfl, a6⟩ := pictureCall_format hd hcall
  obtain ⟨k2, b1, b2, b3, b4, rfl, b6⟩ := pictureCall_format hd2 hcall2
  have hah := (counterAhead_iff f0).1 (C03_counter_ahead me a f0 h0)
  have i0 : f0.imageID = 100000 := by obtain ⟨_, _, rfl⟩ := unpack_ok h0; rfl
  have i1 : g.imageID = 100000 := by obtain ⟨_, _, rfl⟩ := unpack_ok hu; rfl
  have hid : ∀ s ∈ k.rels, s.id ≠ ridOf (k.rID + 1) := by
    intro s hs
    rw [a1] at hs
    rw [a2]
    refine hah (f0.rID + 1) (UInt64.lt_iff_toNat_lt.2 ?_) s hs
    rw [UInt64.toNat_add]
    have : (1 : UInt64).toNat = 1 := rfl
    omega
  obtain ⟨s1, s2⟩ := addImage_serves hid fmt pic
  have hone : (100000 : UInt64) + 1 = 100001 := by decide
  have hnm : imageName 100001 fmt = "image100001." ++ fmt := by
    have : "image" ++ itoa (100001 : UInt64).toInt64 ++ "." = "image100001." := by decide
    show "image" ++ itoa (100001 : UInt64).toInt64 ++ "." ++ fmt = _
    rw [this]
  rw [a4, i0, hone, hnm] at s1 s2
  obtain ⟨t1, t2, _⟩ := reopen_spec hw hs hu
  have hmed : lastMedia ("image100001." ++ fmt) (k.addImage fmt pic).1.media =
      some ⟨"image100001." ++ fmt, pic⟩ := by
    simp [Doc.addImage, Doc.addMedia, Doc.addImageRelation, lastMedia, a4, i0, hnm]
  have hmed2 : lastMedia ("image100001." ++ fmt) (k2.addImage fmt pic2).1.media =
      some ⟨"image100001." ++ fmt, pic2⟩ := by
    simp [Doc.addImage, Doc.addMedia, Doc.addImageRelation, lastMedia, b4, i1, hnm]
  have g1 : g.referTarget (k.addImage fmt pic).2 = some ("media/" ++ ("image100001." ++ fmt)) := by
    unfold Doc.referTarget at s1 ⊢
    rw [t1]; exact s1
  have c3 := (C49_contents _ _ hs).2.2.1 _ _ hmed
  have d3 := (C49_contents _ _ hs2).2.2.1 _ _ hmed2
  have hsplit : "word/media/image100001." ++ fmt = "word/media/" ++ ("image100001." ++ fmt) := by
    have : "word/media/image100001." = "word/media/" ++ "image100001." := by decide
    rw [this, String.append_assoc]
  refine ⟨_, a6, ⟨_, _, s1, s2, rfl⟩, ⟨_, _, g1, by rw [t2, hmed], rfl⟩, ⟨"image100001." ++ fmt,
    ⟨"image100001." ++ fmt, pic2⟩, ?_, ?_, rfl⟩, by rw [hsplit]; exact c3, fun b => ?_⟩
  · have e : Evo k2 (k2.addImage fmt pic2).1 := .image fmt pic2 (.refl _)
    refine e.resolves ?_
    unfold Doc.referTarget at g1 ⊢
    rw [b1]; exact g1
  · simp [Doc.addImage, Doc.addMedia, Doc.addImageRelation, Doc.getMedia, upd, b4, i1, hnm]
  · rw [hsplit]
    constructor
    · intro hb
      have hdis := C49_distinct _ _ _ hs2
      obtain ⟨i, hi, e1⟩ := List.getElem_of_mem hb
      obtain ⟨j, hj, e2⟩ := List.getElem_of_mem d3
      have : i = j := (List.getElem?_inj (by simpa using hi) hdis).1 (by simp [hi, hj, e1, e2])
      subst this
      rw [e1] at e2
      exact (Prod.mk.inj e2).2
    · rintro rfl
      exact d3

/-- A drawing call on a paragraph of the document itself adds the id after the counter. -/
theorem draws_step {w w' : World} {o : Op} {d : DocId} {l : Loc} {f : Doc} {p : Para} (ho : Draws o d l)
    (hf : w[d]? = some f) (hp : getPara f.items l = some p) (hfile : p.file = some d)
    (h : step w o = .ok w') :
    ∃ f', w'[d]? = some f' ∧ f'.docPrIds.Perm (f.docPrIds ++ [(f.docID + 1).toInt64]) := by
  have main : ∀ {act : Doc → Para → Res (Doc × Para)},
      (∀ f p f' p', act f p = .ok (f', p') → f'.items = f.items ∧
        ∃ dr, p'.draws = p.draws ++ [dr] ∧ dr.docPrIds = [(f.docID + 1).toInt64]) →
      w.onPara d l act = .ok w' →
      ∃ f', w'[d]? = some f' ∧ f'.docPrIds.Perm (f.docPrIds ++ [(f.docID + 1).toInt64]) := by
    intro act hact h
    obtain ⟨doc, p1, fid, f1, f', p', doc1, h1, h2, h3, h4, h5, h6, h7⟩ := onPara_ok h
    rw [hf] at h1; obtain rfl := Option.some.inj h1
    rw [hp] at h2; obtain rfl := Option.some.inj h2
    rw [hfile] at h3; obtain rfl := Option.some.inj h3
    rw [hf] at h4; obtain rfl := Option.some.inj h4
    have hlt := lt_of_getElem? hf
    rw [List.getElem?_set_self hlt] at h6; obtain rfl := Option.some.inj h6
    obtain ⟨a1, dr, a2, a3⟩ := hact _ _ _ _ h5
    refine ⟨_, by rw [h7, List.set_set, List.getElem?_set_self hlt], ?_⟩
    unfold Doc.docPrIds Doc.draws
    simp only [a1]
    have := (draws_modPara hp a2).flatMap_right Drawing.docPrIds
    rw [List.flatMap_append, List.flatMap_cons, List.flatMap_nil, List.append_nil, a3] at this
    exact this
  cases ho with
  | inlinePicture hdec =>
    refine main ?_ h
    intro f p f' p' h
    unfold Para.addInlineDrawing at h
    cases hp : f.addPicture _ with
    | mk f1 r =>
      obtain ⟨h1, h2⟩ := addPicture_adds hp
      rw [hp] at h
      rcases h2 with ⟨⟨e, rfl⟩, rfl⟩ | ⟨h3, rfl | ⟨id, rid, a, b, rfl⟩⟩
      · exact absurd (addPicture_err hp) hdec
      · simp at h
      · simp only [Res.ok.injEq, Prod.mk.injEq] at h
        obtain ⟨rfl, rfl⟩ := h
        exact ⟨h1, _, addRun_draws _ _, rfl⟩
  | anchorPicture hdec =>
    refine main ?_ h
    intro f p f' p' h
    unfold Para.addAnchorDrawing at h
    cases hp : f.addPicture _ with
    | mk f1 r =>
      obtain ⟨h1, h2⟩ := addPicture_adds hp
      rw [hp] at h
      rcases h2 with ⟨⟨e, rfl⟩, rfl⟩ | ⟨h3, rfl | ⟨id, rid, a, b, rfl⟩⟩
      · exact absurd (addPicture_err hp) hdec
      · simp at h
      · simp only [Res.ok.injEq, Prod.mk.injEq] at h
        obtain ⟨rfl, rfl⟩ := h
        exact ⟨h1, _, addRun_draws _ _, rfl⟩
  | inlineShape =>
    refine main ?_ h
    intro f p f' p' h; simp only [Res.ok.injEq, Prod.mk.injEq] at h; rw [← h.1, ← h.2]
    exact ⟨rfl, _, addRun_draws _ _, rfl⟩
  | anchorShape =>
    refine main ?_ h
    intro f p f' p' h; simp only [Res.ok.injEq, Prod.mk.injEq] at h; rw [← h.1, ← h.2]
    exact ⟨rfl, _, addRun_draws _ _, rfl⟩

/-- **C73 is false of the code for the ids of drawings.** Open any file with a document, add a drawing of
any kind; save, open again, add a drawing: the two drawings have the same id. -/
theorem C73_drawing_ids_repeat (w w1 w2 : World) (a : Archive) (d : DocId) (l l' : Loc) (o o' : Op)
    (f g : Doc) (p q : Para) (hopen : unpack d a = (f, none)) (hdoc : "word/document.xml" ∈ a.map (·.name))
    (hf : w[d]? = some f) (hp : getPara f.items l = some p) (hpf : p.file = some d) (ho : Draws o d l)
    (h1 : step w o = .ok w1) (hr : Reopens w1 d g) (ho' : Draws o' w1.length l')
    (hq : getPara g.items l' = some q) (hqf : q.file = some w1.length)
    (h2 : step (w1 ++ [g]) o' = .ok w2) :
    ∃ f2, w2[w1.length]? = some f2 ∧ ¬ f2.docPrIds.Nodup := by
  have c0 : f.docID = 100000 := by
    obtain ⟨k, hk, rfl⟩ := unpack_ok hopen
    obtain ⟨_, _, _, _, _, _, _, _, _, _, _, b12⟩ := unpackAll_ok hk
    exact b12 hdoc
  obtain ⟨f1, e1, e2⟩ := draws_step ho hf hp hpf h1
  have hk := C73_drawing_ids_kept w1 d g f1 hr e1
  have c1 : g.docID = 100000 := by
    obtain ⟨f', out, a1, a2, a3, a4⟩ := hr
    obtain ⟨k, hk', rfl⟩ := unpack_ok a4
    obtain ⟨_, _, _, _, _, _, _, _, _, _, _, b12⟩ := unpackAll_ok hk'
    refine b12 ?_
    rw [reread_names]
    exact (C49_exactly f' out a3 _).2 (.inr (.inl rfl))
  obtain ⟨f2, e3, e4⟩ := draws_step ho' (w := w1 ++ [g]) (by simp) hq hqf h2
  refine ⟨f2, e3, fun hn => ?_⟩
  have hn := e4.nodup_iff.1 hn
  rw [List.nodup_append] at hn
  refine hn.2.2 (g.docID + 1).toInt64 ?_ _ (by simp) rfl
  rw [hk, c1, ← c0]
  exact e2.mem_iff.2 (by simp)

end

/-! ## The hypotheses can be met -/

/-- A document of one paragraph with one relationship and no other files -/
def sessionDoc : Doc := {
  rels := [⟨"rId7", "t", "http://x/?a&b", "External"⟩]
  rID := 7
  items := [.para { children := [.run { children := [.text { text := "a < b" }] }] }] }

theorem expressible_of {f : Doc} {n : UInt64} (h1 : xmlText f.relXmlns)
    (h2 : ∀ r ∈ f.rels, xmlText r.type ∧ xmlText r.target ∧ xmlText r.targetMode)
    (h3 : scanIds 0 f.rels = (n, none)) (h4 : ∀ s ∈ (mDocument f.items).strings, xmlText s)
    (h5 : ∀ n ∈ f.tmpfslst, isMediaName n = false) : Expressible f :=
  ⟨h1, fun r hr => ⟨(scanIds_ok f.rels 0).1 (by rw [h3]) r hr, h2 r hr⟩, h4, h5⟩

theorem sessionDoc_ok : Expressible sessionDoc :=
  expressible_of (n := 7) (by unfold xmlText; decide) (by unfold xmlText; decide) (by decide)
    (by unfold xmlText; decide) (by decide)

/-- Saving the document and opening it again -/
theorem sessionDoc_reopens (me : DocId) : ∃ out g, Saves sessionDoc out none ∧
    unpack me (reread out) = (g, none) ∧ g.rels = sessionDoc.rels ∧ g.relXmlns = sessionDoc.relXmlns ∧
    g.items = normBody (some me) sessionDoc.items ∧ g.tmpfslst = [] ∧ g.media = [] ∧ g.docID = 100000 ∧
    g.imageID = 100000 ∧ g.rID = 7 ∧ "word/document.xml" ∈ (reread out).map (·.name) ∧ g.slowIDs = fun _ => 0 := by
  have hs : Saves sessionDoc _ none := saves_of rfl (.refl _) rfl
  obtain ⟨g, h1, h2, h3, _, h5, _, h7⟩ := C50_restored _ _ hs me sessionDoc_ok.good sessionDoc_ok.body
    sessionDoc_ok.templates
  obtain ⟨_, p2, _⟩ := C55_places _ _ _ h1
  refine ⟨_, g, hs, h1, h2, h3, h7, ?_, ?_, ?_, ?_, ?_, by decide, ?_⟩
  · apply List.eq_nil_iff_forall_not_mem.2
    intro n hn
    exact absurd ((h5 n).1 hn).1 (by simp [sessionDoc])
  · rw [p2]; rfl
  · obtain ⟨k, hk, rfl⟩ := unpack_ok h1
    exact (unpackAll_ok hk).2.2.2.2.2.2.2.2.2.2.2 (by decide)
  · obtain ⟨_, _, rfl⟩ := unpack_ok h1; rfl
  · obtain ⟨k, hk, rfl⟩ := unpack_ok h1
    have := unpackAll_counter (by decide) (by decide) hk
    rw [show k.rels = sessionDoc.rels from h2] at this
    have h8 : scanIds 0 sessionDoc.rels = (7, none) := by decide
    exact (Prod.mk.inj (this.symm.trans h8)).1
  · obtain ⟨k, hk, rfl⟩ := unpack_ok h1
    exact (unpackAll_ok hk).2.2.2.2.2.2.1

/-- A document that is saved and opened again, and gets a link then: `Later` holds, with reopening, and
with the hypotheses of `C73_links` and `C73_ids_unique`. -/
example : ∃ (w : World) (f' : Doc), @Later _ pngEnv [sessionDoc] 0 w 1 ∧ w[1]? = some f' ∧
    f'.rels.length = 2 ∧ f'.referTarget "rId7" = some "http://x/?a&b" ∧ NumbersBelow sessionDoc ∧
    (seenIds sessionDoc).Nodup ∧ sessionDoc.rID.toNat + (f'.rels.length - sessionDoc.rels.length) < 2 ^ 63 := by
  letI := pngEnv
  obtain ⟨out, g, h1, h2, h3, _, h5, _, h7, _⟩ := sessionDoc_reopens 1
  obtain ⟨items, rels, media, mi, rID, iid, docID, slow, tmpl, tmplfs, lst, ns⟩ := g
  simp only at h3 h5 h7
  subst h3; subst h5; subst h7
  refine ⟨_, _, .action (.reopened .same ⟨_, out, rfl, sessionDoc_ok, h1, h2⟩)
    (.call (.addLink 1 (.body 0) "text" "http://y") rfl ?_), rfl, rfl, rfl,
    (scanIds_max sessionDoc.rels 0 7 (by decide)).2.1, by decide, ?_⟩
  · intro f hf
    rcases List.mem_cons.1 hf with rfl | hf
    · decide
    · rcases List.mem_cons.1 hf with rfl | hf
      · exact ⟨by simp [Para.addLink, Doc.addLinkRelation, sessionDoc], by simp [Para.addLink, Doc.addLinkRelation]⟩
      · simp at hf
  · show 7 + (2 - 1) < 2 ^ 63
    decide

/-- The hypotheses of `C73_pictures_partial`: the first picture of a new document -/
example : ∃ (f : Doc) (m : Media), (@run pngEnv [] [.new, .addParagraph 0,
      .addInlineDrawing 0 (.body 0) [1]]) = .ok [f] ∧ MediaFound f ∧
    f.imageID.toNat ≤ 100000 + f.media.length ∧ f.referTarget "rId4" = some ("media/" ++ "image1.png") ∧
    f.getMedia "image1.png" = .ok (some m) ∧
    ∀ (k : UInt64) fmt, f.imageID < k ∨ 100000 < k → "image1.png" ≠ imageName k fmt := by
  refine ⟨_, _, rfl, ?_, by decide, by decide, rfl, ?_⟩
  · exact @C56_media_found_always pngEnv [] [_] [.new, .addParagraph 0,
      .addInlineDrawing 0 (.body 0) [1]] rfl 0 (Nat.zero_le _) _ rfl
  · intro k fmt hk e
    have : (1 : UInt64) = k := imageName_inj (fa := "png") (by rw [← e]; decide)
    subst this
    exact absurd hk (by decide)

/-- The document that opening gives, apart from what saving and drawing do not look at -/
def sessionOpened (mi : String → Option Nat) (tmpl : String) (tmplfs : Option FS) : Doc :=
  { items := normBody (some 0) sessionDoc.items, rels := sessionDoc.rels, mediaIdx := mi, rID := 7,
    imageID := 100000, docID := 100000, template := tmpl, tmplfs := tmplfs }

theorem session_opened : ∃ out mi tmpl tmplfs, Saves sessionDoc out none ∧
    "word/document.xml" ∈ (reread out).map (·.name) ∧
    unpack 0 (reread out) = (sessionOpened mi tmpl tmplfs, none) := by
  obtain ⟨out0, f0, h1, h2, h3, h4, h5, h6, h7, h8, h9, h10, h12, h11⟩ := sessionDoc_reopens 0
  obtain ⟨items, rels, media, mi, rID, iid, docID, slow, tmpl, tmplfs, lst, ns⟩ := f0
  simp only at h3 h4 h5 h6 h7 h8 h9 h10 h11
  subst h3; subst h4; subst h5; subst h6; subst h7; subst h8; subst h9; subst h10; subst h11
  exact ⟨out0, mi, tmpl, tmplfs, h1, h12, h2⟩

theorem png_call (p : Para) (f : Doc) (pic : Bytes) :
    ∃ r, @PictureCall pngEnv p f pic (@Para.addInlineDrawing pngEnv p f pic).1
      (@Para.addInlineDrawing pngEnv p f pic).2.1 r := ⟨_, .inl rfl⟩

/-- The document after the first picture call, saved with the picture in its body -/
theorem session_picture (mi : String → Option Nat) (tmpl : String) (tmplfs : Option FS) :
    let c := @Para.addInlineDrawing pngEnv {} (sessionOpened mi tmpl tmplfs) [1]
    Expressible { c.1 with items := [.para c.2.1] } ∧
    ∃ out, Saves { c.1 with items := [.para c.2.1] } out none := by
  intro c
  have hnm : "word/media/" ++ imageName (100000 + 1) "png" = "word/media/image100001.png" := by decide
  obtain ⟨out, e, hs⟩ := C53_returns { c.1 with items := [.para c.2.1] } (.inr rfl)
  have he : e = none := by
    refine C53_success _ (fun n hn => ?_) (fun n hn => ?_) (fun m hm => ?_) out e hs
    · change n ∈ ([] : List String) at hn; simp at hn
    · change n ∈ ([] : List String) at hn; simp at hn
    · change m ∈ [⟨imageName (100000 + 1) "png", [1]⟩] at hm
      rw [List.mem_singleton.1 hm]
      show ("word/media/" ++ imageName (100000 + 1) "png").utf8ByteSize ≤ 65535 ∧
        isDirName ("word/media/" ++ imageName (100000 + 1) "png") = false
      rw [hnm]; decide
  subst he
  refine ⟨?_, out, hs⟩
  let c0 := @Para.addInlineDrawing pngEnv {} (sessionOpened (fun _ => none) "" none) [1]
  have e1 : c.2.1 = c0.2.1 := rfl
  have e2 : c.1.rels = c0.1.rels := rfl
  refine expressible_of (n := 8) ?_ ?_ ?_ ?_ ?_
  · show xmlText c0.1.relXmlns
    unfold xmlText; decide
  · show ∀ r ∈ c.1.rels, _
    rw [e2]; unfold xmlText; decide
  · show scanIds 0 c.1.rels = _
    rw [e2]; decide
  · show ∀ s ∈ (mDocument [.para c.2.1]).strings, xmlText s
    rw [e1]; unfold xmlText; decide
  · show ∀ n ∈ ([] : List String), _
    simp

/-- The hypotheses of `C73_picture_replaced`: a file without other parts -/
example : ∃ (me me' : DocId) (a : Archive) (f0 f1 g f2 : Doc) (p p' q q' : Para) (r r2 : Run)
    (pic pic2 : Bytes) (out out2 : Saved), unpack me a = (f0, none) ∧ f0.rID.toNat + 1 < 2 ^ 63 ∧
    pic ≠ pic2 ∧ pngEnv.decodeSize pic = some (4, 3, "png") ∧ pngEnv.decodeSize pic2 = some (4, 3, "png") ∧
    @PictureCall pngEnv p f0 pic f1 p' r ∧ Expressible { f1 with items := [.para p'] } ∧
    Saves { f1 with items := [.para p'] } out none ∧ unpack me' (reread out) = (g, none) ∧
    @PictureCall pngEnv q g pic2 f2 q' r2 ∧ Saves { f2 with items := [.para q'] } out2 none := by
  obtain ⟨out0, mi, tmpl, tmplfs, _, _, h2⟩ := session_opened
  obtain ⟨hE, out, hs⟩ := session_picture mi tmpl tmplfs
  obtain ⟨r, hr⟩ := png_call {} (sessionOpened mi tmpl tmplfs) [1]
  obtain ⟨g, g1, g2, _, _, g5, _, _⟩ := C50_restored _ _ hs 1 hE.good hE.body hE.templates
  obtain ⟨r2, hr2⟩ := png_call {} g [2]
  have hlst : g.tmpfslst = [] := by
    apply List.eq_nil_iff_forall_not_mem.2
    intro n hn
    have := ((g5 n).1 hn).1
    change n ∈ ([] : List String) at this
    simp at this
  have himg : g.imageID = 100000 := by obtain ⟨_, _, rfl⟩ := unpack_ok g1; rfl
  have hmed := (C55_places _ _ _ g1).2.1
  obtain ⟨out2, e, hs2⟩ := C53_returns { (@Para.addInlineDrawing pngEnv {} g [2]).1 with
    items := [.para (@Para.addInlineDrawing pngEnv {} g [2]).2.1] } (.inr hlst)
  have he : e = none := by
    refine C53_success _ (fun n hn => ?_) (fun n hn => ?_) (fun m hm => ?_) out2 e hs2
    · change n ∈ g.tmpfslst at hn; rw [hlst] at hn; simp at hn
    · change n ∈ g.tmpfslst at hn; rw [hlst] at hn; simp at hn
    · change m ∈ g.media ++ [⟨imageName (g.imageID + 1) "png", [2]⟩] at hm
      have hn : "word/media/" ++ m.name = "word/media/image100001.png" := by
        rcases List.mem_append.1 hm with hm | hm
        · rw [hmed, mem_mediaIn] at hm
          have : "word/media/" ++ m.name ∈ out.map (·.1) := List.mem_map.2 ⟨_, hm, rfl⟩
          rcases (C49_exactly _ _ hs _).1 this with h | h | h | ⟨x, hx, h⟩
          · change _ ∈ ([] : List String) at h; simp at h
          · exact absurd h.symm (documentName_media m.name)
          · exact absurd h.symm (relsName_media m.name)
          · change x ∈ [⟨imageName (100000 + 1) "png", [1]⟩] at hx
            rw [h, List.mem_singleton.1 hx]; decide
        · simp only [List.mem_cons, List.not_mem_nil, or_false] at hm
          subst hm
          rw [himg]; decide
      rw [hn]; decide
  subst he
  exact ⟨0, 1, reread out0, _, _, g, _, {}, _, {}, _, r, r2, [1], [2], out, out2, h2,
    (by decide : (7 : UInt64).toNat + 1 < 2 ^ 63), by decide, rfl, rfl, hr, hE, hs, g1, hr2, hs2⟩

/-- The paragraph of `sessionOpened` -/
def sessionPara : Para := 
  normPara (some 0) { children := [.run { children := [.text { text := "a < b" }] }] }

/-- A box in the file that was opened -/
theorem session_box [ImgEnv] (mi : String → Option Nat) (tmpl : String) (tmplfs : Option FS) : ∃ f1 out p,
    step [sessionOpened mi tmpl tmplfs] (.addInlineShape 0 (.body 0) 9 7 "box" "auto" "rect" none) = .ok [f1] ∧
    Expressible f1 ∧ Saves f1 out none ∧ f1.items = [.para p] ∧
    "word/document.xml" ∈ (reread out).map (·.name) := by
  let c := sessionPara.addInlineShape (sessionOpened mi tmpl tmplfs) 9 7 "box" "auto" "rect" none
  let c0 := sessionPara.addInlineShape (sessionOpened (fun _ => none) "" none) 9 7 "box" "auto" "rect" none
  obtain ⟨out, e, hs⟩ := C53_returns { c.1 with items := [.para c.2.1] } (.inr rfl)
  have he : e = none := by
    refine C53_success _ (fun n hn => ?_) (fun n hn => ?_) (fun m hm => ?_) out e hs
    · change n ∈ ([] : List String) at hn; simp at hn
    · change n ∈ ([] : List String) at hn; simp at hn
    · change m ∈ ([] : List Media) at hm; simp at hm
  subst he
  refine ⟨{ c.1 with items := [.para c.2.1] }, out, c.2.1, rfl, ?_, hs, rfl, ?_⟩
  · refine expressible_of (n := 7) ?_ ?_ ?_ ?_ ?_
    · show xmlText c0.1.relXmlns
      unfold xmlText; decide
    · show ∀ r ∈ c0.1.rels, _
      unfold xmlText; decide
    · show scanIds 0 c0.1.rels = _
      decide
    · show ∀ s ∈ (mDocument [.para c0.2.1]).strings, xmlText s
      unfold xmlText; decide
    · show ∀ n ∈ ([] : List String), _
      simp
  · rw [reread_names]
    exact (C49_exactly _ _ hs _).2 (.inr (.inl rfl))

/-- The hypotheses of `C73_drawing_ids_repeat` -/
example [ImgEnv] : ∃ (w w1 w2 : World) (a : Archive) (d : DocId) (l l' : Loc) (o o' : Op) (f g : Doc)
    (p q : Para), unpack d a = (f, none) ∧ "word/document.xml" ∈ a.map (·.name) ∧ w[d]? = some f ∧
    getPara f.items l = some p ∧ p.file = some d ∧ Draws o d l ∧ step w o = .ok w1 ∧ Reopens w1 d g ∧
    Draws o' w1.length l' ∧ getPara g.items l' = some q ∧ q.file = some w1.length ∧
    step (w1 ++ [g]) o' = .ok w2 := by
  obtain ⟨out0, mi, tmpl, tmplfs, _, h1, h2⟩ := session_opened
  obtain ⟨f1, out, p, hst, hE, hs, hi, hd⟩ := session_box mi tmpl tmplfs
  obtain ⟨g, g1, g2, _, _, g5, _, g7⟩ := C50_restored _ _ hs 1 hE.good hE.body hE.templates
  rw [hi] at g7
  have hg : getPara g.items (.body 0) = some (normPara (some 1) p) := by rw [g7]; rfl
  have hf : (normPara (some 1) p).file = some 1 := by cases p; rfl
  have h3 : ∃ w2, step ([f1] ++ [g]) (.addInlineShape 1 (.body 0) 9 7 "box" "auto" "rect" none) = .ok w2 := by
    simp only [step, World.onPara, List.cons_append, List.nil_append, List.getElem?_cons_succ,
      List.getElem?_cons_zero, hg, hf]
    exact ⟨_, rfl⟩
  obtain ⟨w2, h3⟩ := h3
  exact ⟨[sessionOpened mi tmpl tmplfs], [f1], w2, _, 0, .body 0, .body 0, _, _, _, g, sessionPara, _, h2, h1,
    rfl, rfl, rfl, .inlineShape, hst, ⟨f1, out, rfl, hE, hs, g1⟩, .inlineShape, hg, hf, h3⟩

end Docx
