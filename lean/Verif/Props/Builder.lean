import Verif.Lemmas.DocIds
import Verif.Props.Api
import Verif.Props.Ids
import Verif.Props.Split

/-!
# Histories of builder calls (C02, C07, C10, C11, C13)
-/

namespace Docx

/-! ## C02, C07: the relationship that a call adds -/

/-- AddLink adds one relationship at the end of the list: a new id, the hyperlink type, the link as
target and mode External.  The returned link carries that id. -/
theorem C02_link_relationship (f : Doc) (p : Para) (text link : String) :
    ∃ id, (p.addLink f text link).2.2.id = id ∧
      (p.addLink f text link).1 = { f with
        rID := f.rID + 1
        rels := f.rels ++ [⟨id, "http://schemas.openxmlformats.org/officeDocument/2006/relationships/hyperlink",
          link, "External"⟩] } ∧
      (p.addLink f text link).2.1.children = p.children ++ [.link (p.addLink f text link).2.2] :=
  ⟨_, rfl, rfl, rfl⟩

/-- A successful picture call adds one relationship of image type without a mode, and one media; the
target of the relationship is `media/` and the name of the media. -/
theorem C07_picture_relationship [ImgEnv] (f f' : Doc) (p p' : Para) (pic : Bytes) (r : Run)
    (h : PictureCall p f pic f' p' r) :
    ∃ id name, pictureEmbeds r = [id] ∧ f'.media = f.media ++ [⟨name, pic⟩] ∧
      f'.rels = f.rels ++ [⟨id, "http://schemas.openxmlformats.org/officeDocument/2006/relationships/image",
        "media/" ++ name, ""⟩] := by
  obtain ⟨fmt, g, h1, h2, h3, h4, rfl, h6⟩ := pictureCall_spec h
  refine ⟨_, imageName (g.imageID + 1) fmt, h6, ?_, ?_⟩
  · rw [← h3]; rfl
  · rw [← h1]; rfl

example : ∃ f' p' r, @PictureCall pngEnv {} Doc.new [1] f' p' r ∧ f'.rels.length = 4 ∧ f'.media.length = 1 :=
  ⟨_, _, _, .inl rfl, by decide, by decide⟩

/-! ## C11: paragraphs of cells -/

/-- `AddParagraph` on a cell: the cell gets one more paragraph, empty and belonging to the document of
the cell; every other paragraph of the document stays where and what it is. -/
theorem C11_cell_paragraph [ImgEnv] (w w' : World) (d : DocId) (i r c : Nat)
    (h : step w (.cellAddParagraph d i r c) = .ok w') (f : Doc) (hf : w[d]? = some f)
    (t : Table) (row : Row) (cell : Cell) (ht : f.items[i]? = some (.table t)) (hr : t.rows[r]? = some row)
    (hc : row.cells[c]? = some cell) :
    ∃ f', w'[d]? = some f' ∧
      getPara f'.items (.cell i r c cell.paras.length) = some { file := cell.file } ∧
      (∀ l p, getPara f.items l = some p → getPara f'.items l = some p) ∧
      f'.items.length = f.items.length ∧ f'.rels = f.rels ∧ f'.media = f.media := by
  simp only [step, World.onDoc, hf] at h
  simp only [Res.bind_ok, Res.ok.injEq] at h
  subst h
  refine ⟨_, List.getElem?_set_self (lt_of_getElem? hf), ?_, ?_, by simp, rfl, rfl⟩
  · simp [getPara, ht, hr, hc, Cell.addParagraph]
  · intro l p hp
    cases l with
    | body i' =>
      simp only [getPara] at hp ⊢
      split at hp
      · rename_i q hq
        rw [List.getElem?_modify]
        by_cases e : i = i'
        · subst e; rw [ht] at hq; simp at hq
        · simp [e, hq]; exact Option.some.inj hp
      · simp at hp
    | cell i' r' c' j =>
      simp only [getPara] at hp ⊢
      split at hp
      · rename_i t' ht'
        simp only [Option.bind_eq_bind, Option.bind_eq_some_iff] at hp
        obtain ⟨row', hrow', cell', hcell', hj⟩ := hp
        rw [List.getElem?_modify]
        by_cases e : i = i'
        · subst e
          rw [ht] at ht'
          obtain rfl := BItem.table.inj (Option.some.inj ht')
          simp only [ht, if_true, Option.map_eq_map, Option.map_some, Option.bind_eq_bind]
          rw [List.getElem?_modify]
          by_cases e : r = r'
          · subst e
            rw [hr] at hrow'; obtain rfl := Option.some.inj hrow'
            simp only [hr, if_true, Option.map_eq_map, Option.map_some, Option.bind_some]
            rw [List.getElem?_modify]
            by_cases e : c = c'
            · subst e
              rw [hc] at hcell'; obtain rfl := Option.some.inj hcell'
              simp only [hc, if_true, Option.map_eq_map, Option.map_some, Option.bind_some, Cell.addParagraph]
              rw [List.getElem?_append_left (lt_of_getElem? hj)]
              exact hj
            · simp [e, hcell', hj]
          · simp [e, hrow', hcell', hj]
        · simp [e, ht', hrow', hcell', hj]
      · simp at hp

example : ∃ w w' f f', @run pngEnv [] [.new, .addTable 0 2 2 0 none, .cellAddParagraph 0 0 1 1] = .ok w ∧
    @step pngEnv w (.cellAddParagraph 0 0 1 1) = .ok w' ∧ w[0]? = some f ∧ w'[0]? = some f' ∧
    (getPara f.items (.cell 0 1 1 0)).isSome ∧ (getPara f.items (.cell 0 1 1 1)).isSome = false ∧
    (getPara f'.items (.cell 0 1 1 1)).isSome :=
  ⟨_, _, _, _, rfl, rfl, rfl, rfl, by decide, by decide, by decide⟩

/-! ## C13: in a document built with the API every paragraph can be used -/

/-- In a history of builder calls, whatever paragraph a document has, in its body or in a table, AddText
and AddLink on it return, and the relationship of the link goes to that very document. -/
theorem C13_builder_links [ImgEnv] (os : List Op) (w : World) (hb : ∀ o ∈ os, o.Builds)
    (hn : os.length < 2 ^ 64) (hrun : run [] os = .ok w)
    (d : DocId) (f : Doc) (hf : w[d]? = some f) (hroom : f.rels.length + 1 < 2 ^ 64)
    (l : Loc) (p : Para) (hp : getPara f.items l = some p) (text link : String) :
    (∃ w', step w (.addText d l text) = .ok w') ∧
    ∃ w' f' id, step w (.addLink d l text link) = .ok w' ∧ w'[d]? = some f' ∧
      f'.rels = f.rels ++ [⟨id, "http://schemas.openxmlformats.org/officeDocument/2006/relationships/hyperlink",
          link, "External"⟩] ∧
      f'.referTarget id = some link ∧ ∀ d', d' ≠ d → w'[d']? = w[d']? := by
  have hbuilt := run_built (n := 0) (by omega) hb (by intro d f hf; simp at hf) hrun d f hf
  have hfile := getPara_file hbuilt.owns hp
  have hl := lt_of_getElem? hf
  constructor
  · simp only [step, World.onPara, hf, hp, hfile, Res.bind_ok, List.getElem?_set_self hl]
    exact ⟨_, rfl⟩
  · simp only [step, World.onPara, hf, hp, hfile, Res.bind_ok, List.getElem?_set_self hl]
    have hg := List.getElem?_set_self (l := w) hl
      (a := { (p.addLink f text link).1 with
        items := modPara (p.addLink f text link).1.items l fun _ => (p.addLink f text link).2.1 })
    refine ⟨_, _, (p.addLink f text link).2.2.id, rfl, by rw [List.set_set]; exact hg, rfl, ?_, ?_⟩
    · obtain ⟨b, hb, e⟩ := (run_wevo hrun).new d f hf (Nat.zero_le _)
      obtain ⟨hb1, hb2, _, _⟩ := base_rels hb
      have h3 : b.rels.length = 3 := by rw [hb1]; rfl
      have h3' : b.rID.toNat = 3 := by rw [hb2]; rfl
      have hle : b.rels.length ≤ f.rels.length := by
        obtain ⟨ext, h1, _, _⟩ := e.rels
        rw [h1]; simp
      obtain ⟨ha, hn⟩ := e.ahead (base_ahead hb) (by omega)
      exact addLink_immediately f p text link ((counterAhead_iff _).2 ha) (by omega)
    · intro d' hd'
      rw [List.set_set, List.getElem?_set_ne (Ne.symm hd')]

example : ∃ w f p, @run pngEnv [] [.new, .new, .addTable 1 1 1 0 none, .cellAddParagraph 1 0 0 0,
      .addInlineDrawing 1 (.cell 0 0 0 0) [1]] = .ok w ∧ w[1]? = some f ∧
    getPara f.items (.cell 0 0 0 0) = some p ∧ f.rels.length + 1 < 2 ^ 64 :=
  ⟨_, _, _, rfl, rfl, rfl, by decide⟩

/-! ## C10 -/

/-- In a history of builder calls on documents made with New the ids of all drawings of a document are
different.  Missing: AppendFile, which keeps the ids of shapes and canvases
(`C10_appended_shape_repeats`); for appended pictures see `C10_append_pictures`. -/
theorem C10_builder_partial [ImgEnv] (os : List Op) (w : World) (hb : ∀ o ∈ os, o.Builds)
    (hn : os.length < 2 ^ 64) (hrun : run [] os = .ok w) (d : DocId) (f : Doc) (hf : w[d]? = some f) :
    f.docPrIds.Nodup ∧ ∀ i ∈ f.docPrIds, i.toUInt64 ≤ f.docID := by
  have hbuilt := run_built (n := 0) (by omega) hb (by intro d f hf; simp at hf) hrun d f hf
  exact ⟨hbuilt.nodup, fun i hi => UInt64.le_iff_toNat_le.2 (hbuilt.ids i hi)⟩

example : ∃ w f, @run pngEnv [] [.new, .addParagraph 0, .addTable 0 1 1 0 none, .cellAddParagraph 0 1 0 0,
      .addInlineDrawing 0 (.cell 1 0 0 0) [1], .addAnchorShape 0 (.body 0) 1 1 "n" "b" "p" none,
      .addAnchorDrawing 0 (.body 0) [2], .addInlineShape 0 (.cell 1 0 0 0) 1 1 "n" "b" "p" none] = .ok w ∧
    w[0]? = some f ∧ f.docPrIds = [2, 3, 1, 4] :=
  ⟨_, _, rfl, rfl, by decide⟩

/-- Appending a document whose drawings are pictures gives the copies ids that the target has not used,
so the ids stay different and the counter stays ahead of them. -/
theorem C10_append_pictures (w w' : World) (to fr : DocId) (t a : Doc) (ht : w[to]? = some t)
    (ha : w[fr]? = some a) (hpic : ∀ d ∈ a.draws, d.NoShape)
    (hids : t.docPrIds.Nodup) (hahead : ∀ i ∈ t.docPrIds, i.toUInt64 ≤ t.docID)
    (hroom : t.docID.toNat + a.draws.length < 2 ^ 64) (h : w.appendFile to fr = .ok w') :
    ∃ t' new, w'[to]? = some t' ∧ t'.docPrIds = t.docPrIds ++ new ∧ t'.docPrIds.Nodup ∧
      ∀ i ∈ t'.docPrIds, i.toUInt64 ≤ t'.docID := by
  unfold World.appendFile at h
  rw [ha] at h
  obtain ⟨t', new, h1, h2, k, hk, hd, hs⟩ := appendItems_alloc hpic ht h
  change k ≤ a.draws.length at hk
  obtain ⟨hnd, hlt⟩ := nextIds_nodup (a := t.docID) (k := k) (by omega)
  have hcnt : t'.docID.toNat = t.docID.toNat + k := by
    rw [hd, UInt64.toNat_add, UInt64.toNat_ofNat']; omega
  refine ⟨t', new, h1, h2, ?_, ?_⟩
  · rw [h2, List.nodup_append]
    refine ⟨hids, hs.nodup hnd, ?_⟩
    intro x hx y hy e
    subst e
    have h3 := UInt64.le_iff_toNat_le.1 (hahead x hx)
    have h4 := (hlt x (hs.subset hy)).1
    omega
  · intro i hi
    rw [h2] at hi
    refine UInt64.le_iff_toNat_le.2 ?_
    rw [hcnt]
    rcases List.mem_append.1 hi with hi | hi
    · have := UInt64.le_iff_toNat_le.1 (hahead i hi); omega
    · exact (hlt i (hs.subset hi)).2

/-- A source document with one picture. -/
example : ∃ w' t', World.appendFile [exDoc exItems, Doc.new] 1 0 = .ok w' ∧ w'[1]? = some t' ∧
    (∀ d ∈ (exDoc exItems).draws, d.NoShape) ∧ (exDoc exItems).draws.length = 1 ∧ t'.docPrIds = [1] := by
  refine ⟨_, _, rfl, rfl, ?_, by decide, by decide⟩
  intro d hd
  have : (exDoc exItems).draws = [{ inl := some (exInline (some 0) exPic) }] := rfl
  rw [this] at hd
  simp only [List.mem_cons, List.not_mem_nil, or_false] at hd
  subst hd
  refine ⟨?_, by intro a g gd h; simp at h⟩
  intro i g gd hi hg hgd
  simp only [Option.some.injEq] at hi; subst hi
  simp only [exInline, Option.some.injEq] at hg; subst hg
  simp only [Option.some.injEq] at hgd; subst hgd
  exact ⟨rfl, rfl⟩

/-- AppendFile does not give a copied shape a new id: after appending a document with one shape to
another with one shape, both shapes have id 1. -/
theorem C10_appended_shape_repeats : ∃ w f, @run pngEnv []
      [.new, .addParagraph 0, .addInlineShape 0 (.body 0) 1 1 "n" "b" "p" none,
       .new, .addParagraph 1, .addInlineShape 1 (.body 0) 1 1 "n" "b" "p" none, .append 0 1] = .ok w ∧
    w[0]? = some f ∧ f.docPrIds = [1, 1] :=
  ⟨_, _, rfl, rfl, by decide⟩

end Docx
