import Verif.Lemmas.CopyOk
import Verif.Lemmas.Str
import Verif.Props.Print

/-!
# Splitting and appending documents (C32-C39)
-/

namespace Docx

/-! ## C32, C33: where the body is cut -/

/-- **C32.** The body of the split document falls into non-empty consecutive pieces, one for each
resulting document in order; the items of each resulting document are the copies of its piece, one by
one.  The resulting documents are new and different, and no existing document is changed. -/
theorem C32_partition (w w' : World) (d : DocId) (f : Doc) (sep : World → Para → Res Bool)
    (ds : List DocId) (hf : w[d]? = some f) (h : w.splitByParagraph d sep = .ok (w', ds)) :
    ∃ chunks : List (List BItem), chunks.flatten = f.items ∧
      Each (fun chunk nd => chunk ≠ [] ∧ ∃ t', w'[nd]? = some t' ∧
        Each (ItemCopied (shapeRules w) nd) chunk t'.items) chunks ds ∧
      ds = List.range' w.length ds.length ∧ Keeps w w' := by
  unfold World.splitByParagraph at h
  simp only [hf] at h
  obtain ⟨chunks, nds, h1, h2, h3, h4, _, h6, _⟩ :=
    splitLoop_copied (R := fun _ _ => shapeRules w) (Good := fun _ => False)
      (fun _ _ _ _ h => h.elim) h (.refl w) (Nat.le_refl _)
  simp only [List.nil_append] at h1; subst h1
  refine ⟨chunks, h2, h6.mono ?_, h4, h3⟩
  rintro chunk nd ⟨_, hne, _, t', ht', _, hc, _⟩
  exact ⟨hne, t', ht', hc⟩

/-- **C32**, the empty body: there are resulting documents exactly when there are items. -/
theorem C32_empty (w w' : World) (d : DocId) (f : Doc) (sep : World → Para → Res Bool)
    (ds : List DocId) (hf : w[d]? = some f) (h : w.splitByParagraph d sep = .ok (w', ds)) :
    ds = [] ↔ f.items = [] := by
  obtain ⟨chunks, h1, h2, _⟩ := C32_partition w w' d f sep ds hf h
  cases h2 with
  | nil => simpa using h1.symm
  | cons hc _ =>
    simp only [reduceCtorEq, false_iff]
    intro e
    rw [e] at h1
    simp only [List.flatten_cons, List.append_eq_nil_iff] at h1
    exact hc.1 h1.1

/-- **C33.** If the answer of the rule for the paragraphs of the body does not depend on the documents
the split creates, then every resulting document but the first starts with a separator, and a
separator is nowhere but at the start of a resulting document. -/
theorem C33_cuts (w w' : World) (d : DocId) (f : Doc) (sep : World → Para → Res Bool)
    (ds : List DocId) (hf : w[d]? = some f) (h : w.splitByParagraph d sep = .ok (w', ds))
    (isSep : Para → Bool)
    (hsep : ∀ p, .para p ∈ f.items → ∀ w1, Keeps w w1 → sep w1 p = .ok (isSep p)) :
    ∃ chunks : List (List BItem), chunks.flatten = f.items ∧
      Each (fun chunk nd => chunk ≠ [] ∧ ∃ t', w'[nd]? = some t' ∧
        Each (ItemCopied (shapeRules w) nd) chunk t'.items) chunks ds ∧
      (∀ chunk ∈ chunks.tail, ∃ p tl, chunk = .para p :: tl ∧ isSep p = true) ∧
      (∀ chunk ∈ chunks, ∀ p, .para p ∈ chunk.tail → isSep p = false) := by
  unfold World.splitByParagraph at h
  simp only [hf] at h
  obtain ⟨chunks, nds, h1, h2, _, _, _, h6, h7⟩ :=
    splitLoop_copied (R := fun _ _ => shapeRules w) (Good := fun _ => False)
      (fun _ _ _ _ h => h.elim) h (.refl w) (Nat.le_refl _)
  simp only [List.nil_append] at h1; subst h1
  have hsaid : ∀ p b, .para p ∈ f.items → Said sep (Keeps w) b (.para p) → isSep p = b := by
    rintro p b hp ⟨q, w1, e, hk, hs⟩
    simp only [BItem.para.injEq] at e; subst e
    rw [hsep p hp w1 hk] at hs
    simpa using hs
  have hmem : ∀ chunk ∈ chunks, ∀ x ∈ chunk, x ∈ f.items := by
    intro chunk hc x hx
    rw [← h2]; exact List.mem_flatten.2 ⟨chunk, hc, hx⟩
  refine ⟨chunks, h2, h6.mono ?_, ?_, ?_⟩
  · rintro chunk nd ⟨_, hne, _, t', ht', _, hc, _⟩
    exact ⟨hne, t', ht', hc⟩
  · intro chunk hc
    obtain ⟨p, tl, e, hs⟩ := h7 chunk hc
    refine ⟨p, tl, e, hsaid p true ?_ hs⟩
    exact hmem chunk (List.mem_of_mem_tail hc) _ (by simp [e])
  · intro chunk hc p hp
    refine hsaid p false (hmem chunk hc _ (List.mem_of_mem_tail hp)) ?_
    obtain ⟨nd, _, hk⟩ := h6.of_mem hc
    exact hk.said p hp

theorem gdata_keeps [HashEnv] {w w1 : World} (hk : Keeps w w1) (tag : String) (file : Option DocId)
    (dp : Option IdName) (gd : GraphicData) {s : String} (h : gd.str w tag file dp = .ok s) :
    gd.str w1 tag file dp = .ok s := by
  unfold GraphicData.str at h ⊢
  cases hp : gd.pic with
  | none => simp only [hp] at h ⊢; exact h
  | some pic =>
    simp only [hp] at h ⊢
    obtain ⟨l, h1, h2⟩ := Res.bind_eq_ok.1 h
    obtain ⟨t, h3, h4⟩ := Res.bind_eq_ok.1 h2
    have : picTarget w1 file pic = .ok t := by
      unfold picTarget at h3 ⊢
      cases hb : pic.blipFill with
      | none => simpa [hb] using h3
      | some bf =>
        simp only [hb] at h3 ⊢
        cases file with
        | none => simp at h3
        | some i =>
          simp only [Option.bind_some] at h3 ⊢
          cases hf : w[i]? with
          | none => simp [hf] at h3
          | some f => rw [hk i f hf]; simpa only [hf] using h3
    rw [h1, this]; exact h4

/-- Text that could be printed is the same when documents are added. -/
theorem str_keeps [HashEnv] {w w1 : World} (hk : Keeps w w1) (p : Para) {s : String}
    (h : p.str w = .ok s) : p.str w1 = .ok s := by
  have hr : ∀ (cs : List RChild) (s : String), rchildrenStr w cs = .ok s → rchildrenStr w1 cs = .ok s := by
    intro cs
    induction cs with
    | nil => intro s h; exact h
    | cons c cs ih =>
      intro s h
      simp only [rchildrenStr] at h ⊢
      obtain ⟨a, h1, h2⟩ := Res.bind_eq_ok.1 h
      obtain ⟨b, h3, h4⟩ := Res.bind_eq_ok.1 h2
      have : c.str w1 = .ok a := by
        cases c with
        | text t => exact h1
        | tab t => exact h1
        | br t => exact h1
        | drawing d =>
          simp only [RChild.str] at h1 ⊢
          cases hi : d.inl with
          | some i =>
            simp only [hi, Inline.str] at h1 ⊢
            split at h1
            · simp at h1
            · split at h1
              · simp at h1
              · exact gdata_keeps hk _ _ _ _ h1
          | none =>
            simp only [hi] at h1 ⊢
            split at h1
            · simp only [Anchor.str] at h1 ⊢
              split at h1
              · rename_i hg; simpa only [hg] using h1
              · split at h1
                · rename_i hd; simpa only [hd] using h1
                · exact gdata_keeps hk _ _ _ _ h1
            · exact h1
      rw [this, ih b h3]; exact h4
  have hp : ∀ (cs : List PChild) (s : String), pchildrenStr w p.file cs = .ok s →
      pchildrenStr w1 p.file cs = .ok s := by
    intro cs
    induction cs with
    | nil => intro s h; exact h
    | cons c cs ih =>
      intro s h
      simp only [pchildrenStr] at h ⊢
      obtain ⟨a, h1, h2⟩ := Res.bind_eq_ok.1 h
      obtain ⟨b, h3, h4⟩ := Res.bind_eq_ok.1 h2
      have : c.str w1 p.file = .ok a := by
        cases c with
        | run r => exact hr _ _ h1
        | rpr x => exact h1
        | link l =>
          simp only [PChild.str] at h1 ⊢
          cases hfile : p.file with
          | none => simp [hfile] at h1
          | some i =>
            simp only [hfile, Option.bind_some] at h1 ⊢
            cases hf : w[i]? with
            | none => simp [hf] at h1
            | some f => rw [hk i f hf]; simpa only [hf] using h1
      rw [this, ih b h3]; exact h4
  exact hp _ _ h

/-- **C33** for the rule that the library offers: with `SplitDocxByPlainTextRegex` (any predicate `re`
on text), for a document whose paragraphs can be printed, the separators are exactly the paragraphs
whose text matches. -/
theorem C33_regex [HashEnv] (w w' : World) (d : DocId) (f : Doc) (re : String → Bool)
    (ds : List DocId) (hf : w[d]? = some f) (h : w.splitByParagraph d (splitByText re) = .ok (w', ds))
    (hp : ∀ p, .para p ∈ f.items → p.Printable w) :
    ∃ chunks : List (List BItem), chunks.flatten = f.items ∧
      Each (fun chunk nd => chunk ≠ [] ∧ ∃ t', w'[nd]? = some t' ∧
        Each (ItemCopied (shapeRules w) nd) chunk t'.items) chunks ds ∧
      (∀ chunk ∈ chunks.tail, ∃ p tl s, chunk = .para p :: tl ∧ p.str w = .ok s ∧ re s = true) ∧
      (∀ chunk ∈ chunks, ∀ p, .para p ∈ chunk.tail → ∃ s, p.str w = .ok s ∧ re s = false) := by
  have hmatch : ∀ p, .para p ∈ f.items → ∃ s, p.str w = .ok s := fun p hm =>
    (C31_paragraph_iff w p).2 (hp p hm)
  obtain ⟨chunks, h1, h2, h3, h4⟩ := C33_cuts w w' d f _ ds hf h
    (fun p => match p.str w with | .ok s => re s | _ => false) (by
      intro p hm w1 hk
      obtain ⟨s, hs⟩ := hmatch p hm
      simp [splitByText, str_keeps hk p hs, hs])
  have hmem : ∀ chunk ∈ chunks, ∀ x ∈ chunk, x ∈ f.items := by
    intro chunk hc x hx
    rw [← h1]; exact List.mem_flatten.2 ⟨chunk, hc, hx⟩
  refine ⟨chunks, h1, h2, ?_, ?_⟩
  · intro chunk hc
    obtain ⟨p, tl, e, hs⟩ := h3 chunk hc
    obtain ⟨s, hps⟩ := hmatch p (hmem chunk (List.mem_of_mem_tail hc) _ (by simp [e]))
    simp only [hps] at hs
    exact ⟨p, tl, s, e, hps, hs⟩
  · intro chunk hc p hpm
    obtain ⟨s, hps⟩ := hmatch p (hmem chunk hc _ (List.mem_of_mem_tail hpm))
    have hs := h4 chunk hc p hpm
    simp only [hps] at hs
    exact ⟨s, hps, hs⟩

/-! ## C34, C35: links and pictures of the copies -/

theorem split_full {w w' : World} {d : DocId} {f : Doc} {sep : World → Para → Res Bool}
    {ds : List DocId} (hf : w[d]? = some f) (h : w.splitByParagraph d sep = .ok (w', ds))
    (R : DocId → Doc → Doc → CopyRules)
    (hR : ∀ nd t', (∀ t, w[nd]? = some t → t = splitDoc f) → Ahead (splitDoc f) →
      Room (splitDoc f) t' → Obeys (R nd (splitDoc f) t') nd (After w nd (splitDoc f)) (Before nd t')) :
    ∃ chunks : List (List BItem), chunks.flatten = f.items ∧
      Each (fun chunk nd => w.length ≤ nd ∧ ∃ t', w'[nd]? = some t' ∧ (t'.rels.length < 2 ^ 64 →
        Each (ItemCopied (R nd (splitDoc f) t') nd) chunk t'.items)) chunks ds := by
  unfold World.splitByParagraph at h
  simp only [hf] at h
  obtain ⟨chunks, nds, h1, h2, _, _, _, h6, _⟩ :=
    splitLoop_copied (R := fun nd t' => R nd (splitDoc f) t') (Good := fun t' => t'.rels.length < 2 ^ 64)
      (fun nd t' hn e hg => hR nd t' (fun t ht => by have := lt_of_getElem? ht; omega) (split_ahead f)
        (split_room e hg)) h (.refl w) (Nat.le_refl _)
  simp only [List.nil_append] at h1; subst h1
  refine ⟨chunks, h2, h6.mono ?_⟩
  rintro chunk nd ⟨hn, _, _, t', ht', _, _, hg⟩
  exact ⟨hn, t', ht', hg⟩

/-- **C34**, splitting.  In every resulting document (with fewer than 2^64 relationships) every link
resolves to the target its original resolved to; only links that did not resolve are left out. -/
theorem C34_split_links (w w' : World) (d : DocId) (f : Doc) (sep : World → Para → Res Bool)
    (ds : List DocId) (hf : w[d]? = some f) (h : w.splitByParagraph d sep = .ok (w', ds)) :
    ∃ chunks : List (List BItem), chunks.flatten = f.items ∧
      Each (fun chunk nd => ∃ t', w'[nd]? = some t' ∧ (t'.rels.length < 2 ^ 64 →
        Each (ItemCopied (linkRules w t') nd) chunk t'.items)) chunks ds := by
  obtain ⟨chunks, h1, h2⟩ := split_full hf h (fun _ _ t' => linkRules w t')
    (fun _ _ h0 ha hr => link_obeys h0 ha hr)
  exact ⟨chunks, h1, h2.mono fun _ _ h => h.2⟩

/-- **C35**, splitting.  In every resulting document (with fewer than 2^64 relationships) every picture
shows the bytes its original showed; shapes and canvases are taken over. -/
theorem C35_split_pictures (w w' : World) (d : DocId) (f : Doc) (sep : World → Para → Res Bool)
    (ds : List DocId) (hf : w[d]? = some f) (h : w.splitByParagraph d sep = .ok (w', ds)) :
    ∃ chunks : List (List BItem), chunks.flatten = f.items ∧
      Each (fun chunk nd => w.length ≤ nd ∧ ∃ t', w'[nd]? = some t' ∧ (t'.rels.length < 2 ^ 64 →
        Each (ItemCopied (pictureRules w nd (splitDoc f) t') nd) chunk t'.items)) chunks ds :=
  split_full hf h (fun nd t t' => pictureRules w nd t t') (fun _ _ h0 ha hr => picture_obeys h0 ha hr)

theorem append_full {w w' : World} {to src : DocId} {t s : Doc} (ht : w[to]? = some t)
    (hs : w[src]? = some s) (h : w.appendFile to src = .ok w') {R : Doc → CopyRules}
    {F : Doc → World → Prop}
    (hR : ∀ t', w'[to]? = some t' → F t' w' ∧ Obeys (R t') to (After w to t) (F t')) :
    ∃ t' copies, w'[to]? = some t' ∧ t'.items = t.items ++ copies ∧
      Each (ItemCopied (R t') to) s.items copies := by
  unfold World.appendFile at h
  simp only [hs] at h
  obtain ⟨t', ht', _⟩ := (appendItems_grow h).evo t ht
  obtain ⟨hF, ob⟩ := hR t' ht'
  obtain ⟨t2, copies, h1, h2, h3⟩ := appendItems_copied ob h ht
    ⟨⟨t, ht, .refl t⟩, fun _ _ _ h => h⟩ hF
  rw [ht'] at h1; obtain rfl := Option.some.inj h1
  exact ⟨t', copies, ht', h2, h3⟩

theorem unique_at {w : World} {to : DocId} {t : Doc} (ht : w[to]? = some t) :
    ∀ t2, w[to]? = some t2 → t2 = t := by
  intro t2 h; rw [ht] at h; exact (Option.some.inj h).symm

/-- **C34 (partial)**, appending to any document.  When the id counter of the target is ahead of its ids
and does not wrap, every link of the appended items resolves to the target its original resolved to;
only links that did not resolve are left out.  Missing: targets whose counter is at its end, where the
claim is false, see `C34_append_wraps`. -/
theorem C34_append_links_partial (w w' : World) (to src : DocId) (t s t' : Doc) (ht : w[to]? = some t)
    (hs : w[src]? = some s) (h : w.appendFile to src = .ok w') (ht' : w'[to]? = some t')
    (hc : CounterAhead t) (hr : Room t t') :
    ∃ copies, t'.items = t.items ++ copies ∧ Each (ItemCopied (linkRules w t') to) s.items copies := by
  obtain ⟨t2, copies, h1, h2, h3⟩ := append_full ht hs h (R := fun t' => linkRules w t')
    (F := fun t' => Before to t') (by
      intro t2 ht2
      rw [ht'] at ht2; obtain rfl := Option.some.inj ht2
      exact ⟨⟨t', ht', .refl _⟩, link_obeys (unique_at ht) ((counterAhead_iff t).1 hc) hr⟩)
  rw [ht'] at h1; obtain rfl := Option.some.inj h1
  exact ⟨copies, h2, h3⟩

/-- **C35 (partial)**, appending to any document: every picture of the appended items shows the bytes its
original showed.  Missing: as for C34. -/
theorem C35_append_pictures_partial (w w' : World) (to src : DocId) (t s t' : Doc) (ht : w[to]? = some t)
    (hs : w[src]? = some s) (h : w.appendFile to src = .ok w') (ht' : w'[to]? = some t')
    (hc : CounterAhead t) (hr : Room t t') :
    ∃ copies, t'.items = t.items ++ copies ∧
      Each (ItemCopied (pictureRules w to t t') to) s.items copies := by
  obtain ⟨t2, copies, h1, h2, h3⟩ := append_full ht hs h (R := fun t' => pictureRules w to t t')
    (F := fun t' => Before to t') (by
      intro t2 ht2
      rw [ht'] at ht2; obtain rfl := Option.some.inj ht2
      exact ⟨⟨t', ht', .refl _⟩, picture_obeys (unique_at ht) ((counterAhead_iff t).1 hc) hr⟩)
  rw [ht'] at h1; obtain rfl := Option.some.inj h1
  exact ⟨copies, h2, h3⟩

/-- Documents of a history have their counters ready. -/
theorem history_ready [ImgEnv] {os : List Op} {w : World} (hrun : run [] os = .ok w) {to : DocId}
    {t t' : Doc} (ht : w[to]? = some t) (e : Evo t t') (hl : t'.rels.length < 2 ^ 64) :
    CounterAhead t ∧ Room t t' := by
  obtain ⟨b, hb, eb⟩ := (run_wevo hrun).new to t ht (Nat.zero_le _)
  obtain ⟨h1, h2, h3, _⟩ := base_rels hb
  have hb3 : b.rels.length = 3 := by rw [h1]; rfl
  have hi3 : b.rID.toNat = 3 := by rw [h2]; rfl
  have l1 := eb.rels_le
  have l2 := e.rels_le
  have m1 := eb.media_rels
  have m2 := e.media_rels
  obtain ⟨ha, hid⟩ := eb.ahead (base_ahead hb) (by omega)
  have him : t.imageID.toNat ≤ t.media.length - b.media.length := by
    obtain ⟨ext, e1, e2, _⟩ := eb.media
    have : t.media.length - b.media.length = ext.length := by rw [e1]; simp
    rw [this, e2, h3, UInt64.toNat_add, UInt64.toNat_ofNat']
    have h0 : (0 : UInt64).toNat = 0 := rfl
    rw [h0, Nat.zero_add, Nat.mod_mod]
    exact Nat.mod_le _ _
  exact ⟨(counterAhead_iff t).2 ha, ⟨by omega, by omega⟩⟩

theorem appendFile_evo {w w' : World} {to src : DocId} {t : Doc} (h : w.appendFile to src = .ok w')
    (ht : w[to]? = some t) : ∃ t', w'[to]? = some t' ∧ Evo t t' := by
  unfold World.appendFile at h
  split at h
  · simp at h
  · exact (appendItems_grow h).evo t ht

/-- **C34, C35**, appending, in every history of API calls (with fewer than 2^64 relationships in the
target): links and pictures of the appended items resolve as their originals did. -/
theorem C34_append_history [ImgEnv] (os : List Op) (w w' : World) (to src : DocId) (t s t' : Doc)
    (hrun : run [] os = .ok w) (ht : w[to]? = some t) (hs : w[src]? = some s)
    (h : w.appendFile to src = .ok w') (ht' : w'[to]? = some t') (hl : t'.rels.length < 2 ^ 64) :
    ∃ copies, t'.items = t.items ++ copies ∧ Each (ItemCopied (linkRules w t') to) s.items copies := by
  obtain ⟨t2, h2, e⟩ := appendFile_evo h ht
  rw [ht'] at h2; obtain rfl := Option.some.inj h2
  obtain ⟨hc, hr⟩ := history_ready hrun ht e hl
  exact C34_append_links_partial w w' to src t s t' ht hs h ht' hc hr

theorem C35_append_history [ImgEnv] (os : List Op) (w w' : World) (to src : DocId) (t s t' : Doc)
    (hrun : run [] os = .ok w) (ht : w[to]? = some t) (hs : w[src]? = some s)
    (h : w.appendFile to src = .ok w') (ht' : w'[to]? = some t') (hl : t'.rels.length < 2 ^ 64) :
    ∃ copies, t'.items = t.items ++ copies ∧
      Each (ItemCopied (pictureRules w to t t') to) s.items copies := by
  obtain ⟨t2, h2, e⟩ := appendFile_evo h ht
  rw [ht'] at h2; obtain rfl := Option.some.inj h2
  obtain ⟨hc, hr⟩ := history_ready hrun ht e hl
  exact C35_append_pictures_partial w w' to src t s t' ht hs h ht' hc hr

/-! ## C36: the text of the copies -/

theorem noPicture_str [HashEnv] {w w' : World} {to : DocId} {t t' : Doc} {d d' : Drawing}
    (hd : d.NoPicture) (h : (pictureRules w to t t').draw d d') :
    (RChild.drawing d').str w' = (RChild.drawing d).str w := by
  obtain ⟨_, _, h3, h4, h5⟩ := h
  have key : ∀ g : Graphic, ShowsShape g → ∀ gd, g.data = some gd → ∀ tag file file' dp,
      gd.str w' tag file dp = gd.str w tag file' dp := by
    rintro g ⟨gd, h1, h2, _⟩ gd2 e tag file file' dp
    rw [h1] at e; obtain rfl := Option.some.inj e
    simp only [GraphicData.str, h2]
  rcases hd with ⟨i, g, hi, hg, hs⟩ | ⟨a, g, hi, ha, hg, hs⟩ | ⟨hi, ha⟩
  · rw [h3 i g hi hg hs]
    obtain ⟨gd, h1, _⟩ := id hs
    simp only [RChild.str, hi, Inline.str, hg, h1]
    exact key g hs gd h1 _ _ _ _
  · rw [h4 a g hi ha hg hs]
    obtain ⟨gd, h1, _⟩ := id hs
    simp only [RChild.str, hi, ha, Anchor.str, hg, h1]
    exact key g hs gd h1 _ _ _ _
  · rw [h5 hi ha]
    simp only [RChild.str, hi, ha]

theorem simple_run_str [HashEnv] {w w' : World} {to : DocId} {t t' : Doc} {cs cs' : List RChild}
    (h : Each (RChildCopied (fullRules w to t t')) cs cs')
    (hd : ∀ d, .drawing d ∈ cs → d.NoPicture) : rchildrenStr w' cs' = rchildrenStr w cs := by
  induction h with
  | nil => rfl
  | @cons c c' cs cs' hc _ ih =>
    have : c'.str w' = c.str w := by
      cases c with
      | drawing d =>
        obtain ⟨d', rfl, hr⟩ := hc
        exact noPicture_str (hd d (by simp)) hr
      | text t => have e : c' = .text t := hc; rw [e]; rfl
      | tab t => have e : c' = .tab t := hc; rw [e]; rfl
      | br t => have e : c' = .br t := hc; rw [e]; rfl
    simp only [rchildrenStr, this, ih fun d hm => hd d (by simp [hm])]

theorem simple_para_str [HashEnv] {w w' : World} {to : DocId} {t t' : Doc} {p p' : Para}
    (ht' : w'[to]? = some t') (h : ParaCopied (fullRules w to t t') to p p') (hs : p.Simple w) :
    p'.str w' = p.str w ∧ (p'.children = [] ↔ p.children = []) := by
  obtain ⟨_, hfile, hc⟩ := h
  obtain ⟨hl, hd⟩ := hs
  have hd : ∀ r, .run r ∈ p.children → ∀ d, .drawing d ∈ r.children → d.NoPicture :=
    fun r hr d hm => hd d ((mem_drawings p d).2 ⟨r, hr, hm⟩)
  unfold Para.str
  generalize p.children = cs at *
  generalize p'.children = cs' at *
  rw [hfile]
  constructor
  · induction hc with
    | nil => rfl
    | @run r r' cs cs' hr _ ih =>
      have e : (PChild.run r').str w' (some to) = (PChild.run r).str w p.file :=
        simple_run_str hr.2.2.2 (hd r (by simp))
      simp only [pchildrenStr, e, ih (fun h hm => hl h (by simp [hm])) fun r hm => hd r (by simp [hm])]
    | @link h h' cs cs' hid hr _ ih =>
      have e : (PChild.link h').str w' (some to) = (PChild.link h).str w p.file := by
        obtain ⟨tgt, h1, h2⟩ := hid
        have h3 := hl h (by simp)
        simp only [PChild.str, Option.bind_some, ht', h1]
        cases hf : p.file with
        | none => simp [World.resolve, hf] at h3
        | some i =>
          cases hw : w[i]? with
          | none => simp [World.resolve, hf, hw] at h3
          | some f =>
            simp only [World.resolve, hf, hw, ne_eq] at h2 h3
            simp only [Option.bind_some, hw]
            cases hrt : f.referTarget h.id with
            | none => exact (h3 hrt).elim
            | some tgt0 => rw [h2 tgt0 hrt, hr.2.2.1]
      simp only [pchildrenStr, e, ih (fun h hm => hl h (by simp [hm])) fun r hm => hd r (by simp [hm])]
    | @dropped h cs cs' hdrop _ _ => exact (hl h (by simp) hdrop).elim
    | @rpr x cs cs' _ ih =>
      have e : (PChild.rpr x).str w' (some to) = (PChild.rpr x).str w p.file := rfl
      simp only [pchildrenStr, e, ih (fun h hm => hl h (by simp [hm])) fun r hm => hd r (by simp [hm])]
  · cases hc with
    | nil => simp
    | run => simp
    | link => simp
    | dropped hdrop _ => exact (hl _ (by simp) hdrop).elim
    | rpr => simp

theorem Each.length_cells {R to} {cs cs' : List Cell} (h : Each (CellCopied R to) cs cs') :
    cs'.length = cs.length := h.length_eq.symm

/-- A copied item whose paragraphs are simple prints as its original. -/
theorem simple_item_str [HashEnv] {w w' : World} {to : DocId} {t t' : Doc} {x x' : BItem}
    (ht' : w'[to]? = some t') (h : ItemCopied (fullRules w to t t') to x x')
    (hs : ∀ p ∈ x.paras, p.Simple w) : itemText w' x' = itemText w x := by
  cases x with
  | para p =>
    obtain ⟨p', rfl, hp⟩ := h
    exact (simple_para_str ht' hp (hs p (by simp [BItem.paras]))).1
  | sect s => have e : x' = .sect s := h; rw [e]; rfl
  | table tb =>
    obtain ⟨tb', rfl, _, _, hr⟩ := h
    have hs : ∀ r ∈ tb.rows, ∀ c ∈ r.cells, ∀ p ∈ c.paras, p.Simple w := by
      intro r hr c hc p hp
      exact hs p (by
        simp only [BItem.paras, List.mem_flatMap]
        exact ⟨r, hr, c, hc, hp⟩)
    have hcell : ∀ c c', CellCopied (fullRules w to t t') to c c' → (∀ p ∈ c.paras, p.Simple w) →
        c'.str w' = c.str w := by
      rintro c c' ⟨_, _, hp⟩ hs
      unfold Cell.str
      generalize c.paras = ps at *
      generalize c'.paras = ps' at *
      cases hp with
      | nil => rfl
      | @cons p p' ps ps' h1 _ =>
        obtain ⟨e1, e2⟩ := simple_para_str ht' h1 (hs p (by simp))
        simp only [e1, e2]
    have hcells : ∀ cs cs', Each (CellCopied (fullRules w to t t') to) cs cs' →
        (∀ c ∈ cs, ∀ p ∈ c.paras, p.Simple w) → cellsStr w' cs' = cellsStr w cs := by
      intro cs cs' h
      induction h with
      | nil => intro _; rfl
      | @cons c c' cs cs' h1 _ ih =>
        intro hs
        simp only [cellsStr, hcell c c' h1 (hs c (by simp)), ih fun c hm => hs c (by simp [hm])]
    have hrows : ∀ rs rs', Each (RowCopied (fullRules w to t t') to) rs rs' →
        (∀ r ∈ rs, ∀ c ∈ r.cells, ∀ p ∈ c.paras, p.Simple w) → rowsStr w' rs' = rowsStr w rs := by
      intro rs rs' h
      induction h with
      | nil => intro _; rfl
      | @cons r r' rs rs' h1 _ ih =>
        intro hs
        simp only [rowsStr, hcells _ _ h1.2 (hs r (by simp)), ih fun c hm => hs c (by simp [hm])]
    show tb'.str w' = tb.str w
    have e := hrows _ _ hr hs
    unfold Table.str
    generalize tb.rows = rs at *
    generalize tb'.rows = rs' at *
    cases hr with
    | nil => rfl
    | cons h1 _ => simp only [e, h1.2.length_cells]

/-- **C36 (partial)**, splitting.  A paragraph or table whose links all resolve and whose drawings are
shapes or canvases prints the same text after the split.  Missing: pictures, which are renamed, and
links that do not resolve, which are left out; for both the claim is false, see
`C36_picture_renamed` and `C36_link_dropped`. -/
theorem C36_split_text_partial [HashEnv] (w w' : World) (d : DocId) (f : Doc)
    (sep : World → Para → Res Bool) (ds : List DocId) (hf : w[d]? = some f)
    (h : w.splitByParagraph d sep = .ok (w', ds)) :
    ∃ chunks : List (List BItem), chunks.flatten = f.items ∧
      Each (fun chunk nd => ∃ t', w'[nd]? = some t' ∧ (t'.rels.length < 2 ^ 64 →
        Each (fun x x' => (∀ p ∈ x.paras, p.Simple w) → itemText w' x' = itemText w x)
          chunk t'.items)) chunks ds := by
  obtain ⟨chunks, h1, h2⟩ := split_full hf h (fun nd t t' => fullRules w nd t t')
    (fun _ _ h0 ha hr => full_obeys h0 ha hr)
  refine ⟨chunks, h1, h2.mono ?_⟩
  rintro chunk nd ⟨_, t', ht', hc⟩
  exact ⟨t', ht', fun hr => (hc hr).mono fun x x' hx hs => simple_item_str ht' hx hs⟩

/-- **C36 (partial)**, appending.  Missing: as above. -/
theorem C36_append_text_partial [HashEnv] (w w' : World) (to src : DocId) (t s t' : Doc)
    (ht : w[to]? = some t) (hs : w[src]? = some s) (h : w.appendFile to src = .ok w')
    (ht' : w'[to]? = some t') (hc : CounterAhead t) (hr : Room t t') :
    ∃ copies, t'.items = t.items ++ copies ∧
      Each (fun x x' => (∀ p ∈ x.paras, p.Simple w) → itemText w' x' = itemText w x) s.items copies := by
  have ha := (counterAhead_iff t).1 hc
  obtain ⟨t2, copies, h1, h2, h3⟩ := append_full ht hs h (R := fun t' => fullRules w to t t')
    (F := fun t' => Before to t') (by
      intro t2 ht2
      rw [ht'] at ht2; obtain rfl := Option.some.inj ht2
      exact ⟨⟨t', ht', .refl _⟩, full_obeys (unique_at ht) ha hr⟩)
  rw [ht'] at h1; obtain rfl := Option.some.inj h1
  exact ⟨copies, h2, h3.mono fun x x' hx hs => simple_item_str ht' hx hs⟩

/-! ## C37, C38: what AppendFile changes -/

/-- **C37.** `f.AppendFile(af)` keeps the items, relationships and media of `f` as prefixes, adds one
copy for each item of `af`, and changes no other document. -/
theorem C37_append (w w' : World) (to src : DocId) (t s : Doc) (ht : w[to]? = some t)
    (hs : w[src]? = some s) (h : w.appendFile to src = .ok w') :
    ∃ t' copies, w'[to]? = some t' ∧ t'.items = t.items ++ copies ∧
      Each (ItemCopied (shapeRules w) to) s.items copies ∧ copies.length = s.items.length ∧
      (∃ rels, t'.rels = t.rels ++ rels) ∧ (∃ media, t'.media = t.media ++ media) ∧
      w'.length = w.length ∧ ∀ d, d ≠ to → w'[d]? = w[d]? := by
  obtain ⟨t', copies, h1, h2, h3⟩ := append_full ht hs h (R := fun _ => shapeRules w)
    (F := fun _ _ => True) (fun t' _ => ⟨trivial, shape_obeys (unique_at ht)⟩)
  unfold World.appendFile at h
  simp only [hs] at h
  have g := appendItems_grow h
  obtain ⟨t2, ht2, e⟩ := g.evo t ht
  rw [h1] at ht2; obtain rfl := Option.some.inj ht2
  obtain ⟨er, hr, _⟩ := e.rels
  obtain ⟨em, hm, _⟩ := e.media
  exact ⟨t', copies, h1, h2, h3, h3.length_eq.symm, ⟨er, hr⟩, ⟨em, hm⟩, g.len, g.other⟩

/-- **C38 (partial)**, any document.  Appending a document to itself ends and doubles the number of items:
after the old items comes one copy of each, in order, whose links resolve as in the original.
Missing: as for C34. -/
theorem C38_self_append_partial (w w' : World) (to : DocId) (t t' : Doc) (ht : w[to]? = some t)
    (h : w.appendFile to to = .ok w') (ht' : w'[to]? = some t') (hc : CounterAhead t) (hr : Room t t') :
    ∃ copies, t'.items = t.items ++ copies ∧ copies.length = t.items.length ∧
      Each (ItemCopied (linkRules w t') to) t.items copies := by
  obtain ⟨copies, h1, h2⟩ := C34_append_links_partial w w' to to t t t' ht ht h ht' hc hr
  exact ⟨copies, h1, h2.length_eq.symm, h2⟩

/-- **C38**, in every history of API calls (with fewer than 2^64 relationships). -/
theorem C38_self_append_history [ImgEnv] (os : List Op) (w w' : World) (to : DocId) (t t' : Doc)
    (hrun : run [] os = .ok w) (ht : w[to]? = some t) (h : w.appendFile to to = .ok w')
    (ht' : w'[to]? = some t') (hl : t'.rels.length < 2 ^ 64) :
    ∃ copies, t'.items = t.items ++ copies ∧ copies.length = t.items.length ∧
      Each (ItemCopied (linkRules w t') to) t.items copies := by
  obtain ⟨copies, h1, h2⟩ := C34_append_history os w w' to to t t t' hrun ht ht h ht' hl
  exact ⟨copies, h1, h2.length_eq.symm, h2⟩

/-! ## C39: when splitting and appending return normally -/

/-- **C39 (partial)**, appending: returns normally when all paragraphs of the appended document can be
copied.  Missing: documents with drawings that cannot be copied, where the claim is false, see
`C39_append_panics`. -/
theorem C39_append_partial (w : World) (to src : DocId) (t s : Doc) (ht : w[to]? = some t)
    (hs : w[src]? = some s) (hm : MediaSafe w)
    (hc : ∀ x ∈ s.items, ∀ p ∈ x.paras, p.Copyable w to) : ∃ w', w.appendFile to src = .ok w' := by
  unfold World.appendFile
  simp only [hs]
  exact appendItems_ok (unique_at ht) ⟨⟨⟨t, ht, .refl t⟩, fun _ _ _ h => h⟩, hm⟩ hc

/-- **C39 (partial)**, splitting: returns normally when all paragraphs can be copied and the rule
returns normally.  Missing: as above. -/
theorem C39_split_partial (w : World) (d : DocId) (f : Doc) (sep : World → Para → Res Bool)
    (hf : w[d]? = some f) (hm : MediaSafe w)
    (hc : ∀ nd, w.length ≤ nd → ∀ x ∈ f.items, ∀ p ∈ x.paras, p.Copyable w nd)
    (hs : ∀ p, .para p ∈ f.items → ∀ w1, Keeps w w1 → ∃ b, sep w1 p = .ok b) :
    ∃ w' ds, w.splitByParagraph d sep = .ok (w', ds) := by
  unfold World.splitByParagraph
  simp only [hf]
  exact splitLoop_ok (Nat.lt_succ_self _) (.refl w) (Nat.le_refl _) hm hc hs

/-! ## Examples -/

/-- A document as `Parse` returns it: a heading, a paragraph with a link and a picture named `logo`, a
second heading, a table with a link in a cell. -/
def exPic : Picture :=
  { nvPicPr := some { cNvPr := ⟨7, "logo"⟩ }, blipFill := some { blip := { embed := "rId2" } } }

def exInline (file : Option DocId) (pic : Picture) : Inline :=
  { docPr := some ⟨7, "logo"⟩, graphic := some { data := some { pic := some pic } }, file := file }

def exText (s : String) : Para := { children := [.run { children := [.text { text := s }] }], file := some 0 }

def exLink (id : String) : PChild := .link { id := id, run := { instr := "link" } }

def exItems : List BItem :=
  [ .para (exText "# one"),
    .para { children := [exLink "rId1", .run { children := [.drawing { inl := some (exInline (some 0) exPic) }] }],
            file := some 0 },
    .para (exText "# two"),
    .table { rows := [{ cells := [{ paras := [{ children := [exLink "rId1"], file := some 0 }] }] }] },
    .sect {} ]

def exDoc (items : List BItem) : Doc :=
  { items := items, rels := [⟨"rId1", "", "http://x", "External"⟩, ⟨"rId2", "", "media/a.png", ""⟩],
    media := [⟨"a.png", [1, 2]⟩], mediaIdx := fun n => if n = "a.png" then some 0 else none,
    rID := 2, imageID := 100000, docID := 100000 }

/-- The rule: the text starts with `#`. -/
def exRule : World → Para → Res Bool := @splitByText hashEnv fun s => s.toList.head? = some '#'

example : ∃ w' t1 t2, World.splitByParagraph [exDoc exItems] 0 exRule = .ok (w', [1, 2]) ∧
    w'[1]? = some t1 ∧ w'[2]? = some t2 ∧ t1.items.length = 2 ∧ t2.items.length = 3 ∧
    t1.referTarget "rId4" = some "http://x" ∧ t1.referTarget "rId5" = some "media/image1.png" ∧
    t1.getMedia "image1.png" = .ok (some ⟨"image1.png", [1, 2]⟩) ∧
    t2.referTarget "rId4" = some "http://x" :=
  ⟨_, _, _, rfl, rfl, rfl, rfl, rfl, by decide, by decide, by decide, by decide⟩

example : ∀ p, .para p ∈ (exDoc exItems).items → p.Printable [exDoc exItems] := by
  have hp : (∃ s, @Para.str hashEnv [exDoc exItems] { children := [exLink "rId1",
      .run { children := [.drawing { inl := some (exInline (some 0) exPic) }] }], file := some 0 } = .ok s) :=
    ⟨_, rfl⟩
  intro p h
  simp only [exDoc, exItems, List.mem_cons, BItem.para.injEq, reduceCtorEq, List.not_mem_nil, or_false] at h
  rcases h with rfl | rfl | rfl
  · exact (@C31_paragraph_iff hashEnv _ _).1 ⟨_, rfl⟩
  · exact (@C31_paragraph_iff hashEnv _ _).1 hp
  · exact (@C31_paragraph_iff hashEnv _ _).1 ⟨_, rfl⟩

example : ∃ w' t' , World.appendFile [exDoc exItems, Doc.new] 1 0 = .ok w' ∧ w'[1]? = some t' ∧
    t'.items.length = 5 ∧ t'.rels.length = 6 ∧ t'.referTarget "rId4" = some "http://x" ∧
    ServesPicture t' "rId5" [1, 2] ∧ t'.referTarget "rId6" = some "http://x" ∧
    Room Doc.new t' :=
  ⟨_, _, rfl, rfl, rfl, rfl, by decide, ⟨"image1.png", ⟨"image1.png", [1, 2]⟩, by decide, by decide, rfl⟩,
    by decide, ⟨by decide, by decide⟩⟩

example : CounterAhead Doc.new := (counterAhead_iff _).2 (base_ahead base_new)

example : ∃ w' t', World.appendFile [exDoc exItems] 0 0 = .ok w' ∧ w'[0]? = some t' ∧
    t'.items.length = 10 ∧ t'.referTarget "rId3" = some "http://x" ∧ Room (exDoc exItems) t' :=
  ⟨_, _, rfl, rfl, rfl, by decide, ⟨by decide, by decide⟩⟩

/-- **C34 is false of the code** for a target that has the largest id: the counter wraps and the second
appended link gets an id in use. -/
theorem C34_append_wraps : ∃ t : Doc, ∃ w' t' p p', World.appendFile [t, exDoc [.para p]] 0 1 = .ok w' ∧
    w'[0]? = some t' ∧ t'.items = [.para p'] ∧ CounterAhead t ∧
    @Para.str hashEnv [t, exDoc [.para p]] p = .ok "[link](http://x)[link](http://x)" ∧
    @Para.str hashEnv w' p' = .ok "[link](http://x)[link](other)" := by
  refine ⟨{ rels := [⟨"rId1", "", "other", ""⟩, ⟨"rId18446744073709551615", "", "y", ""⟩],
            rID := 18446744073709551615 }, _, _,
    { children := [exLink "rId1", exLink "rId1"], file := some 1 }, _, rfl, rfl, rfl, ?_, ?_, ?_⟩
  · intro n hn
    have := UInt64.lt_iff_toNat_lt.1 hn
    have := n.toNat_lt
    simp only [UInt64.toNat_ofNat, Nat.reducePow, Nat.reduceMod] at *
    omega
  · decide
  · decide

/-- **C36 is false of the code** (1): the copy of a picture is renamed, so the text changes. -/
theorem C36_picture_renamed : ∃ f : Doc, ∃ w' t' p p', World.splitByParagraph [f] 0 exRule = .ok (w', [1]) ∧
    w'[1]? = some t' ∧ f.items = [.para p] ∧ t'.items = [.para p'] ∧
    @Para.str hashEnv [f] p = .ok "![inlnim logo](md5:2)" ∧
    @Para.str hashEnv w' p' = .ok "![inlnim 图片 1](md5:2)" := by
  refine ⟨exDoc [.para { children := [.run { children :=
    [.drawing { inl := some (exInline (some 0) exPic) }] }], file := some 0 }], _, _, _, _, rfl, rfl, rfl,
    rfl, ?_, ?_⟩ <;> decide

/-- **C36 is false of the code** (2): a link whose id does not resolve is left out of the copy. -/
theorem C36_link_dropped : ∃ f : Doc, ∃ w' t' p p', World.splitByParagraph [f] 0 exRule = .ok (w', [1]) ∧
    w'[1]? = some t' ∧ f.items = [.para p] ∧ t'.items = [.para p'] ∧
    @Para.str hashEnv [f] p = .ok "[link](#here)" ∧ @Para.str hashEnv w' p' = .ok "" := by
  refine ⟨exDoc [.para { children := [exLink "#here"], file := some 0 }], _, _, _, _, rfl, rfl, rfl,
    rfl, ?_, ?_⟩ <;> decide

/-- **C35 does not extend to groups**: a drawing that is a group is emptied by the copy. -/
theorem C35_group_lost : ∃ f : Doc, ∃ w' t' i,
    World.splitByParagraph [f] 0 (fun _ _ => .ok false) = .ok (w', [1]) ∧ w'[1]? = some t' ∧
    f.items = [.para { children := [.run { children := [.drawing { inl := some i }] }], file := some 0 }] ∧
    t'.items = [.para { children := [.run { children := [.drawing {}] }], file := some 1 }] :=
  let i : Inline := { graphic := some { data := some { group := some {} } }, file := some 0 }
  ⟨exDoc [.para { children := [.run { children := [.drawing { inl := some i }] }], file := some 0 }],
    _, _, _, rfl, rfl, rfl, rfl⟩

/-- **C39 is false of the code** (1): after a document got a picture through the API, appending it
to another one panics. -/
theorem C39_append_panics : ∃ w, @run pngEnv [] [.new, .addParagraph 0, .addInlineDrawing 0 (.body 0) [1], .new]
      = .ok w ∧ w.appendFile 1 0 = .panic := ⟨_, rfl, rfl⟩

/-- **C39 is false of the code** (2): so does splitting it, under any rule that returns normally. -/
theorem C39_split_panics : ∃ w, @run pngEnv [] [.new, .addParagraph 0, .addInlineDrawing 0 (.body 0) [1]]
      = .ok w ∧ ∀ b, w.splitByParagraph 0 (fun _ _ => .ok b) = .panic :=
  ⟨_, rfl, fun b => by cases b <;> rfl⟩

/-- **C39 is false of the code** (3): a picture without non-visual properties, which `Parse` accepts. -/
theorem C39_no_names_panics : World.splitByParagraph [exDoc [.para { children := [.run { children :=
    [.drawing { inl := some (exInline (some 0) { exPic with nvPicPr := none }) }] }], file := some 0 }]] 0
      (fun _ _ => .ok false) = .panic := rfl

/-- Paragraphs of the example document can be copied, to any new document. -/
example : ∃ w' ds, World.splitByParagraph [exDoc exItems] 0 exRule = .ok (w', ds) := by
  refine C39_split_partial _ _ _ _ rfl ?_ ?_ ?_
  · intro d f hf name
    cases d with
    | zero =>
      simp only [List.getElem?_cons_zero, Option.some.injEq] at hf; subst hf
      simp only [Doc.getMedia, exDoc]
      by_cases hn : name = "a.png" <;> simp [hn]
    | succ d => simp at hf
  · have hpic : ∀ nd, 1 ≤ nd → Para.Copyable [exDoc exItems] nd { children := [exLink "rId1",
        .run { children := [.drawing { inl := some (exInline (some 0) exPic) }] }], file := some 0 } := by
      intro nd _
      constructor
      · intro r hr d hd
        simp only [exLink, List.mem_cons, reduceCtorEq, PChild.run.injEq, List.not_mem_nil, or_false,
          false_or] at hr
        subst hr
        simp only [List.mem_cons, RChild.drawing.injEq, List.not_mem_nil, or_false] at hd
        subst hd
        refine ⟨_, _, rfl, rfl, ?_⟩
        intro pic bf h1 h2
        simp only [Option.some.injEq] at h1
        subst h1
        simp only [exPic, Option.some.injEq] at h2
        subst h2
        exact ⟨⟨0, _, rfl, rfl⟩, by simp [exPic], .inl ⟨"media/a.png", by decide, by decide⟩⟩
      · intro h hm
        simp only [exLink, List.mem_cons, reduceCtorEq, PChild.link.injEq, List.not_mem_nil, or_false] at hm
        subst hm
        exact ⟨⟨0, _, rfl, rfl⟩, by intro d hd; simp at hd⟩
    have htext : ∀ nd s, Para.Copyable [exDoc exItems] nd (exText s) := by
      intro nd s
      constructor
      · intro r hr d hd
        simp only [exText, List.mem_cons, PChild.run.injEq, List.not_mem_nil, or_false] at hr
        subst hr
        simp at hd
      · intro h hm; simp [exText] at hm
    intro nd hn x hx p hp
    simp only [exDoc, exItems, List.mem_cons, List.not_mem_nil, or_false] at hx
    rcases hx with rfl | rfl | rfl | rfl | rfl
    · simp only [BItem.paras, List.mem_cons, List.not_mem_nil, or_false] at hp; subst hp; exact htext _ _
    · simp only [BItem.paras, List.mem_cons, List.not_mem_nil, or_false] at hp; subst hp; exact hpic _ hn
    · simp only [BItem.paras, List.mem_cons, List.not_mem_nil, or_false] at hp; subst hp; exact htext _ _
    · simp only [BItem.paras, List.flatMap_cons, List.flatMap_nil, List.append_nil, List.mem_cons,
        List.not_mem_nil, or_false] at hp
      subst hp
      constructor
      · intro r hr; simp [exLink] at hr
      · intro h hm
        simp only [exLink, List.mem_cons, PChild.link.injEq, List.not_mem_nil, or_false] at hm
        subst hm
        exact ⟨⟨0, _, rfl, rfl⟩, by intro d hd; simp at hd⟩
    · simp [BItem.paras] at hp
  · intro p hp w1 hk
    have key : ∀ p s, @Para.str hashEnv [exDoc exItems] p = .ok s → ∃ b, exRule w1 p = .ok b := by
      intro p s hs
      exact ⟨_, by unfold exRule splitByText; rw [@str_keeps hashEnv _ _ hk p s hs]; rfl⟩
    simp only [exDoc, exItems, List.mem_cons, BItem.para.injEq, reduceCtorEq, List.not_mem_nil, or_false] at hp
    rcases hp with rfl | rfl | rfl <;> exact key _ _ rfl

end Docx
