import Verif.Lemmas.Bytes
import Verif.Lemmas.Str
import Verif.Props.Api

/-!
# When printing works (C31)
-/

namespace Docx

theorem Res.bind_ok_iff {α β} {x : Res α} {f : α → β} :
    (∃ b, (x >>= fun a => Res.ok (f a)) = .ok b) ↔ ∃ a, x = .ok a := by
  cases x <;> simp

theorem picTarget_ok [HashEnv] (w : World) (file : Option DocId) (pic : Picture) :
    (∃ s, picTarget w file pic = .ok s) ↔ ∀ bf, pic.blipFill = some bf → Owned w file ∧
      (w.resolve file bf.blip.embed = none ∨ ∃ data, HasPicture w file bf.blip.embed data) := by
  unfold picTarget
  cases hb : pic.blipFill with
  | none => simp
  | some bf =>
    simp only [Option.some.injEq, forall_eq']
    cases file with
    | none => simp [Owned]
    | some i =>
      simp only [Option.bind_some]
      cases hf : w[i]? with
      | none => simp [Owned, hf]
      | some f =>
        have ho : Owned w (some i) := ⟨i, f, rfl, hf⟩
        simp only [ho, true_and, resolve_some hf, hasPicture_iff hf]
        cases hr : f.referTarget bf.blip.embed with
        | none => simp
        | some tgt =>
          simp only [reduceCtorEq, false_or, Option.some.injEq]
          split
          · rename_i m hm
            simp only [Res.ok.injEq, exists_eq', true_iff]
            exact ⟨m.data, tgt, m, rfl, hm, rfl⟩
          · rename_i hm
            simp only [reduceCtorEq, exists_false, false_iff, not_exists]
            rintro data t m ⟨rfl, h, _⟩; rw [hm] at h; simp at h
          · rename_i e hm
            simp only [reduceCtorEq, exists_false, false_iff, not_exists]
            rintro data t m ⟨rfl, h, _⟩; rw [hm] at h; simp at h
          · rename_i hm
            simp only [reduceCtorEq, exists_false, false_iff, not_exists]
            rintro data t m ⟨rfl, h, _⟩; rw [hm] at h; simp at h

theorem picLabel_ok (dp : Option IdName) (pic : Picture) :
    (∃ s, picLabel dp pic = .ok s) ↔ (dp ≠ none ∨ pic.nvPicPr ≠ none ∨ pic.blipFill ≠ none) := by
  unfold picLabel
  cases dp <;> cases pic.nvPicPr <;> cases pic.blipFill <;> simp

theorem gdata_ok [HashEnv] (w : World) (tag : String) (file : Option DocId) (dp : Option IdName)
    (gd : GraphicData) : (∃ s, gd.str w tag file dp = .ok s) ↔
      ∀ pic, gd.pic = some pic → PicturePrintable w file dp pic := by
  unfold GraphicData.str
  cases hp : gd.pic with
  | none =>
    cases gd.shape with
    | some s => simp
    | none => cases gd.canvas <;> simp
  | some pic =>
    simp only [Option.some.injEq, forall_eq', PicturePrintable, ← picLabel_ok, ← picTarget_ok]
    cases picLabel dp pic <;> cases picTarget w file pic <;> simp

theorem drawing_ok [HashEnv] (w : World) (d : Drawing) :
    (∃ s, (RChild.drawing d).str w = .ok s) ↔ d.Printable w := by
  simp only [RChild.str, Drawing.Printable]
  cases hi : d.inl with
  | some i =>
    simp only [Inline.str]
    cases i.graphic with
    | none => simp
    | some g => cases hd : g.data with
      | none => simp [hd]
      | some gd => simp [hd, gdata_ok]
  | none =>
    cases ha : d.anchor with
    | none => simp
    | some a =>
      simp only [Anchor.str, Option.some.injEq]
      cases hg : a.graphic with
      | none =>
        simp only [Res.ok.injEq, exists_eq', true_iff]
        rintro _ g gd pic rfl h; simp [hg] at h
      | some g => cases hd : g.data with
        | none =>
          simp only [hd, Res.ok.injEq, exists_eq', true_iff]
          rintro _ g' gd pic rfl h h2
          rw [hg] at h; obtain rfl := Option.some.inj h
          simp [hd] at h2
        | some gd =>
          simp only [hd, gdata_ok]
          constructor
          · rintro h _ g' gd' pic rfl h1 h2 h3
            rw [hg] at h1; obtain rfl := Option.some.inj h1
            rw [hd] at h2; obtain rfl := Option.some.inj h2
            exact h pic h3
          · intro h pic hp
            exact h a g gd pic rfl hg hd hp

theorem rchildren_ok [HashEnv] (w : World) (cs : List RChild) :
    (∃ s, rchildrenStr w cs = .ok s) ↔ ∀ d, .drawing d ∈ cs → d.Printable w := by
  induction cs with
  | nil => simp [rchildrenStr]
  | cons c cs ih =>
    have : (∃ s, rchildrenStr w (c :: cs) = .ok s) ↔
        (∃ s, c.str w = .ok s) ∧ ∃ s, rchildrenStr w cs = .ok s := by
      simp only [rchildrenStr]
      cases c.str w <;> cases rchildrenStr w cs <;> simp
    rw [this, ih]
    cases c with
    | drawing d => simp [drawing_ok]
    | text t => simp [RChild.str]
    | tab t => simp [RChild.str]
    | br t => simp [RChild.str]

theorem pchild_ok [HashEnv] (w : World) (file : Option DocId) (c : PChild) :
    (∃ s, c.str w file = .ok s) ↔
      ((∀ r, c = .run r → ∀ d, .drawing d ∈ r.children → d.Printable w) ∧
       (∀ h, c = .link h → Owned w file)) := by
  cases c with
  | run r => simp [PChild.str, rchildren_ok]
  | link h =>
    simp only [PChild.str, Owned]
    cases file with
    | none => simp
    | some i => cases hf : w[i]? <;> simp [hf]
  | rpr x => simp [PChild.str]

theorem pchildren_ok [HashEnv] (w : World) (file : Option DocId) (cs : List PChild) :
    (∃ s, pchildrenStr w file cs = .ok s) ↔ ∀ c ∈ cs, ∃ s, c.str w file = .ok s := by
  induction cs with
  | nil => simp [pchildrenStr]
  | cons c cs ih =>
    have : (∃ s, pchildrenStr w file (c :: cs) = .ok s) ↔
        (∃ s, c.str w file = .ok s) ∧ ∃ s, pchildrenStr w file cs = .ok s := by
      simp only [pchildrenStr]
      cases c.str w file <;> cases pchildrenStr w file cs <;> simp
    rw [this, ih]; simp

theorem mem_drawings (p : Para) (d : Drawing) :
    d ∈ p.drawings ↔ ∃ r, .run r ∈ p.children ∧ .drawing d ∈ r.children := by
  unfold Para.drawings
  rw [List.mem_flatMap]
  constructor
  · rintro ⟨c, hc, h⟩
    cases c with
    | run r =>
      rw [List.mem_filterMap] at h
      obtain ⟨x, hx, e⟩ := h
      cases x <;> simp [RChild.drawing?] at e
      subst e; exact ⟨r, hc, hx⟩
    | link h => simp at h
    | rpr x => simp at h
  · rintro ⟨r, hr, hd⟩
    exact ⟨_, hr, List.mem_filterMap.2 ⟨_, hd, rfl⟩⟩

/-- **C31** (exact form).  `Paragraph.String` returns normally exactly for the printable paragraphs;
in every other case it panics. -/
theorem C31_paragraph_iff [HashEnv] (w : World) (p : Para) :
    (∃ s, p.str w = .ok s) ↔ p.Printable w := by
  unfold Para.str Para.Printable
  rw [pchildren_ok]
  simp only [pchild_ok, mem_drawings]
  constructor
  · intro h
    refine ⟨?_, ?_⟩
    · rintro d ⟨r, hr, hd⟩; exact (h _ hr).1 r rfl d hd
    · rintro ⟨l, hl⟩; exact (h _ hl).2 l rfl
  · rintro ⟨h1, h2⟩ c hc
    refine ⟨?_, ?_⟩
    · rintro r rfl d hd; exact h1 d ⟨r, hc, hd⟩
    · rintro l rfl; exact h2 ⟨l, hc⟩

theorem cell_ok [HashEnv] (w : World) (c : Cell) :
    (∃ s, c.str w = .ok s) ↔ ∀ p, c.paras.head? = some p → p.Printable w := by
  unfold Cell.str
  cases hc : c.paras with
  | nil => simp
  | cons p ps =>
    simp only [List.head?_cons, Option.some.injEq, forall_eq']
    split
    · rename_i h
      simp only [Res.ok.injEq, exists_eq', true_iff]
      refine ⟨?_, ?_⟩
      · intro d hd; rw [mem_drawings] at hd; obtain ⟨r, hr, _⟩ := hd; simp [h] at hr
      · rintro ⟨l, hl⟩; simp [h] at hl
    · rw [← C31_paragraph_iff]
      cases p.str w <;> simp

theorem cells_ok [HashEnv] (w : World) (cs : List Cell) :
    (∃ s, cellsStr w cs = .ok s) ↔ ∀ c ∈ cs, ∀ p, c.paras.head? = some p → p.Printable w := by
  induction cs with
  | nil => simp [cellsStr]
  | cons c cs ih =>
    have : (∃ s, cellsStr w (c :: cs) = .ok s) ↔
        (∃ s, c.str w = .ok s) ∧ ∃ s, cellsStr w cs = .ok s := by
      simp only [cellsStr]
      cases c.str w <;> cases cellsStr w cs <;> simp
    rw [this, ih, cell_ok]; simp

theorem rows_ok [HashEnv] (w : World) (rs : List Row) :
    (∃ s, rowsStr w rs = .ok s) ↔
      ∀ r ∈ rs, ∀ c ∈ r.cells, ∀ p, c.paras.head? = some p → p.Printable w := by
  induction rs with
  | nil => simp [rowsStr]
  | cons r rs ih =>
    have : (∃ s, rowsStr w (r :: rs) = .ok s) ↔
        (∃ s, cellsStr w r.cells = .ok s) ∧ ∃ s, rowsStr w rs = .ok s := by
      simp only [rowsStr]
      cases cellsStr w r.cells <;> cases rowsStr w rs <;> simp
    rw [this, ih, cells_ok]; simp

/-- **C31** (exact form).  `Table.String` returns normally exactly for the printable tables. -/
theorem C31_table_iff [HashEnv] (w : World) (t : Table) :
    (∃ s, t.str w = .ok s) ↔ t.Printable w := by
  unfold Table.str Table.Printable
  cases hr : t.rows with
  | nil => simp
  | cons r rs =>
    simp only [List.head?_cons, Option.some.injEq, exists_eq_left', ne_eq]
    split
    · rename_i h
      have : r.cells = [] := List.eq_nil_of_length_eq_zero h
      simp [this]
    · rename_i h
      have : r.cells ≠ [] := fun e => h (by simp [e])
      have e := rows_ok w (r :: rs)
      simp only [this, not_false_eq_true, forall_const, ← e]
      cases rowsStr w (r :: rs) <;> simp

/-- **C31 is false of the code** (1): after `AddInlineDrawing` the paragraph cannot be printed. -/
theorem C31_picture_panics : ∃ w f p,
    @run pngEnv [] [.new, .addParagraph 0, .addInlineDrawing 0 (.body 0) [1]] = .ok w ∧ w[0]? = some f ∧
    f.items = [.para p] ∧ @Para.str hashEnv w p = .panic := ⟨_, _, _, rfl, rfl, rfl, rfl⟩

/-- **C31 is false of the code** (2): an inline drawing without a graphic, which `Parse` accepts. -/
theorem C31_no_graphic_panics [HashEnv] (w : World) : Para.str w
    { children := [.run { children := [.drawing { inl := some {} }] }], file := some 0 } = .panic := rfl

/-- **C31 is false of the code** (3): a picture whose target is shorter than `media/`, or not a media
file, which `Parse` accepts. -/
theorem C31_bad_target_panics : ∀ tgt ∈ ["x.png", "media/other.png"],
    let gd : GraphicData :=
      { pic := some { nvPicPr := some {}, blipFill := some { blip := { embed := "rId1" } } } }
    let d : Drawing := { anchor := some { graphic := some { data := some gd }, file := some 0 } }
    @Para.str hashEnv [{ rels := [⟨"rId1", "", tgt, ""⟩], rID := 1 }]
      { children := [.run { children := [.drawing d] }], file := some 0 } = .panic := by
  intro tgt h
  simp only [List.mem_cons, List.not_mem_nil, or_false] at h
  rcases h with rfl | rfl <;> rfl

/-- Printable: a link, a shape and a picture whose media is there. -/
example : ∃ w f p s, @run pngEnv [] [.new, .addParagraph 0, .addText 0 (.body 0) "a\tb",
      .addLink 0 (.body 0) "link" "http://x", .addAnchorShape 0 (.body 0) 5 5 "box" "auto" "rect" none]
      = .ok w ∧ w[0]? = some f ∧ f.items = [.para p] ∧
    @Para.str hashEnv w p = .ok s ∧ s = "a\tb[link](http://x)![anchsp box 1](rect)" :=
  ⟨_, _, _, _, rfl, rfl, rfl, rfl, by decide⟩

end Docx
