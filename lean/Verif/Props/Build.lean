import Verif.Props.Setters
import Verif.Lemmas.Num

/-! # C16 to C20 and C47: tables, pictures and numbers -/

namespace Docx

/-! ## C16 -/

/-- The cells of the rows of a table, as a list of lists. -/
def Table.cells (t : Table) : List (List Cell) := t.rows.map (·.cells)

/-- **C16, AddTable.** It panics exactly for `row < 0`, or `row > 0` and `col < 0`; … -/
theorem C16_addTable_panics (f : Doc) (self : DocId) (row col tw : Int64) (bc : Option BorderColors) :
    f.addTable self row col tw bc = .panic ↔ (row < 0 ∨ (row > 0 ∧ col < 0)) := by
  unfold Doc.addTable
  split
  · simp [*]
  · split
    · simp [*]
    · rename_i h1 h2
      simp only [reduceCtorEq, false_iff]
      exact fun h => h.elim h1 h2

/-- … otherwise the result is a table with exactly `row` rows of exactly `col` cells each, none of
which has a width, and it is the new last item of the body. -/
theorem C16_addTable_dims (f : Doc) (self : DocId) (row col tw : Int64) (bc : Option BorderColors)
    (h : ¬ (row < 0 ∨ (row > 0 ∧ col < 0))) :
    ∃ f' t bc', f.addTable self row col tw bc = .ok (f', t, bc') ∧
      (t.rows.length : Int) = row.toInt ∧
      (∀ r ∈ t.rows, (r.cells.length : Int) = col.toInt ∧ ∃ p, r.props = some p ∧ p.height = none) ∧
      (∀ r ∈ t.rows, ∀ c ∈ r.cells, c.paras = [] ∧ c.file = some self ∧
        ∃ p, c.props = some p ∧ p.width = some { w := 0, type := "auto" }) ∧
      f'.items = f.items ++ [.table t] := by
  unfold Doc.addTable
  rw [if_neg (fun x => h (.inl x)), if_neg (fun x => h (.inr x))]
  have hr : 0 ≤ row.toInt := by
    have := mt Int64.lt_iff_toInt_lt.2 (fun x => h (.inl x)); simpa using this
  refine ⟨_, _, _, rfl, ?_, ?_, ?_, rfl⟩
  · simp only [List.length_replicate]; omega
  · intro r hr'
    simp only [List.mem_replicate] at hr'
    obtain ⟨hn, rfl⟩ := hr'
    refine ⟨?_, _, rfl, rfl⟩
    have hpos : row > 0 := Int64.lt_iff_toInt_lt.2 (by
      have : (0 : Int64).toInt = 0 := rfl
      omega)
    have hc : 0 ≤ col.toInt := by
      have := mt Int64.lt_iff_toInt_lt.2 (fun x => h (.inr ⟨hpos, x⟩)); simpa using this
    simp only [List.length_replicate]; omega
  · intro r hr' c hc
    simp only [List.mem_replicate] at hr'
    obtain ⟨_, rfl⟩ := hr'
    simp only [List.mem_replicate] at hc
    obtain ⟨_, rfl⟩ := hc
    exact ⟨rfl, rfl, _, rfl, rfl⟩

/-- **C16, AddTableTwips.** One row per height with that height (none when it is not positive), each
with one cell per width having that width, and one grid column per width. -/
theorem C16_addTableTwips_dims (f : Doc) (self : DocId) (hs ws : List Int64) (tw : Int64)
    (bc : Option BorderColors) :
    ∃ f' t bc', f.addTableTwips self hs ws tw bc = (f', t, bc') ∧
      t.rows.length = hs.length ∧ (∀ r ∈ t.rows, r.cells.length = ws.length) ∧
      (∀ (i : Nat) (h : Int64) (r : Row), hs[i]? = some h → t.rows[i]? = some r → ∃ p, r.props = some p ∧
        p.height = if h > 0 then some { val := h } else none) ∧
      (∀ r ∈ t.rows, ∀ (j : Nat) (w : Int64) (c : Cell), ws[j]? = some w → r.cells[j]? = some c →
        c.paras = [] ∧ c.file = some self ∧ ∃ p, c.props = some p ∧ p.width = some { w := w, type := "dxa" }) ∧
      (∃ g, t.grid = some g ∧ g.length = ws.length ∧
        ∀ (j : Nat) (w : Int64), ws[j]? = some w → g[j]? = some (if w > 0 then some w else none)) ∧
      f'.items = f.items ++ [.table t] := by
  refine ⟨_, _, _, rfl, ?_, ?_, ?_, ?_, ⟨_, rfl, ?_, ?_⟩, rfl⟩
  · simp
  · intro r hr
    simp only [List.mem_map] at hr
    obtain ⟨_, _, rfl⟩ := hr
    simp
  · intro i h r h1 h2
    simp only [List.getElem?_map, h1, Option.map_some, Option.some.injEq] at h2
    subst h2
    exact ⟨_, rfl, rfl⟩
  · intro r hr j w c h1 h2
    simp only [List.mem_map] at hr
    obtain ⟨_, _, rfl⟩ := hr
    simp only [List.getElem?_map, h1, Option.map_some, Option.some.injEq] at h2
    subst h2
    exact ⟨rfl, rfl, _, rfl, rfl⟩
  · simp
  · intro j w h1
    simp [List.getElem?_map, h1]

example : ∃ f' t bc', Doc.new.addTable 0 2 3 0 none = .ok (f', t, bc') ∧
    t.cells.map (·.length) = [3, 3] := ⟨_, _, _, rfl, by decide⟩
example : Doc.new.addTable 0 1 (-1) 0 none = .panic := rfl
example : ∃ f' t bc', Doc.new.addTable 0 0 (-1) 0 none = .ok (f', t, bc') ∧ t.rows.length = 0 :=
  ⟨_, _, _, rfl, by decide⟩

/-! ## C17 -/

/-- The six sides of a border. -/
inductive Side where
  | top | left | bottom | right | insideH | insideV

/-- The requested colour of a side. -/
def BorderColors.side (b : BorderColors) : Side → String
  | .top => b.top | .left => b.left | .bottom => b.bottom | .right => b.right
  | .insideH => b.insideH | .insideV => b.insideV

/-- The border of a side. -/
def Borders.side (b : Borders) : Side → Option Border
  | .top => b.top | .left => b.left | .bottom => b.bottom | .right => b.right
  | .insideH => b.insideH | .insideV => b.insideV

/-- The colour a side must get: the requested one, black where it is empty or nothing is requested. -/
def wantedColor (bc : Option BorderColors) (s : Side) : String :=
  match bc with
  | none => "#000000"
  | some b => if b.side s = "" then "#000000" else b.side s

/-- The borders of a table have the wanted colours, and so has the struct of the caller, if any. -/
def ColorsRight (bc bc' : Option BorderColors) (t : Table) : Prop :=
  (∃ p bs, t.props = some p ∧ p.borders = some bs ∧
    ∀ s, ∃ b, bs.side s = some b ∧ b.color = wantedColor bc s ∧ b.val = "single") ∧
  (bc = none → bc' = none) ∧ (∀ b, bc = some b → ∃ b', bc' = some b' ∧ ∀ s, b'.side s = wantedColor bc s)

theorem colorsRight (bc : Option BorderColors) (tw : Int64) (g rows) :
    ColorsRight bc (bc.map (·.applyDefault))
      { props := some (mkTblPr tw ((bc.getD {}).applyDefault)), grid := g, rows := rows } := by
  refine ⟨⟨_, _, rfl, rfl, ?_⟩, ?_, ?_⟩
  · intro s
    cases bc <;> cases s <;> exact ⟨_, rfl, rfl, rfl⟩
  · rintro rfl; rfl
  · rintro b rfl
    refine ⟨_, rfl, ?_⟩
    intro s; cases s <;> rfl

/-- **C17.** The colours of the borders made by `AddTable` and `AddTableTwips`. -/
theorem C17_colors (f : Doc) (self : DocId) (tw : Int64) (bc : Option BorderColors) :
    (∀ row col f' t bc', f.addTable self row col tw bc = .ok (f', t, bc') → ColorsRight bc bc' t) ∧
    (∀ hs ws f' t bc', f.addTableTwips self hs ws tw bc = (f', t, bc') → ColorsRight bc bc' t) := by
  constructor
  · intro row col f' t bc' h
    unfold Doc.addTable at h
    split at h
    · simp at h
    · split at h
      · simp at h
      · simp only [Res.ok.injEq, Prod.mk.injEq] at h
        rw [← h.2.1, ← h.2.2]
        exact colorsRight ..
  · intro hs ws f' t bc' h
    simp only [Doc.addTableTwips, Prod.mk.injEq] at h
    rw [← h.2.1, ← h.2.2]
    exact colorsRight ..

example : wantedColor (some { top := "#ff0000" }) .top = "#ff0000" ∧
    wantedColor (some { top := "#ff0000" }) .left = "#000000" := by decide

/-! ## C18 -/

/-- The display size `(x, y)` a picture of `w` by `h` pixels must get: as wide as the text of an A4
page when `w / h > 1.2`, half as wide otherwise, and `y` is `x * h / w` rounded down. -/
def GoodSize (w h x y : Int) : Prop :=
  x = (if 10 * w > 12 * h then 5274310 else 2637155) ∧ y * w ≤ x * h ∧ x * h < (y + 1) * w

theorem bmod_small {i : Int} (h1 : 0 ≤ i) (h2 : i < 2 ^ 63) : i.bmod (2 ^ 64) = i := by
  rw [Int.bmod_eq_of_le] <;> omega

theorem scaleSize_good (w h : Int64) (hw : 0 < w.toInt) (hh : 0 ≤ h.toInt) (hb : h.toInt < 2 ^ 40) :
    ∃ x y, scaleSize w h = some (x, y) ∧ GoodSize w.toInt h.toInt x.toInt y.toInt := by
  have hw0 : w ≠ 0 := by rintro rfl; simp at hw
  have hM : a4EmuMaxWidth.toInt = 5274310 := rfl
  have h2 : (2 : Int64).toInt = 2 := rfl
  have hmul : (a4EmuMaxWidth * h).toInt = 5274310 * h.toInt := by
    rw [Int64.toInt_mul, hM, bmod_small] <;> omega
  have hq0 : 0 ≤ 5274310 * h.toInt / w.toInt := Int.ediv_nonneg (by omega) (by omega)
  have hq1 : 5274310 * h.toInt / w.toInt ≤ 5274310 * h.toInt := Int.ediv_le_self _ (by omega)
  have hdiv : (a4EmuMaxWidth * h / w).toInt = 5274310 * h.toInt / w.toInt := by
    rw [Int64.toInt_div, hmul, Int.tdiv_eq_ediv_of_nonneg (by omega), bmod_small] <;> omega
  have hq2 : 5274310 * h.toInt / w.toInt / 2 = 2637155 * h.toInt / w.toInt := by
    rw [Int.ediv_ediv_of_nonneg (by omega), Int.mul_comm w.toInt 2,
      show 5274310 * h.toInt = 2 * (2637155 * h.toInt) by omega, Int.mul_ediv_mul_of_pos _ _ (by omega)]
  have hdiv2 : (a4EmuMaxWidth * h / w / 2).toInt = 2637155 * h.toInt / w.toInt := by
    rw [Int64.toInt_div, hdiv, h2, Int.tdiv_eq_ediv_of_nonneg hq0, hq2, bmod_small]
    · rw [← hq2]; omega
    · rw [← hq2]; omega
  unfold scaleSize
  rw [if_neg hw0, if_neg hw0]
  by_cases hr : wideRatio w h
  · rw [if_pos hr]
    refine ⟨_, _, rfl, ?_⟩
    unfold GoodSize
    unfold wideRatio at hr
    simp only [decide_eq_true_eq] at hr
    rw [if_pos (by omega), hdiv, hM]
    exact ⟨rfl, Int.ediv_mul_le _ (by omega), Int.lt_ediv_add_one_mul_self _ hw⟩
  · rw [if_neg hr]
    refine ⟨_, _, rfl, ?_⟩
    unfold GoodSize
    unfold wideRatio at hr
    simp only [decide_eq_true_eq] at hr
    rw [if_neg (by omega), hdiv2]
    exact ⟨rfl, Int.ediv_mul_le _ (by omega), Int.lt_ediv_add_one_mul_self _ hw⟩

/-- The sizes of a drawing: the outer extents, and the extents of its pictures. -/
def Drawing.sizes (d : Drawing) : List (Option Ext × Option Ext) :=
  let ofG (g : Option Graphic) : Option Ext :=
    (g.bind (·.data)).bind (·.pic) |>.bind (·.spPr) |>.map (·.xfrm.ext)
  (d.inl.toList.map fun i => (i.extent, ofG i.graphic)) ++
  (d.anchor.toList.map fun a => (a.extent, ofG a.graphic))

/-- **C18, size.** When the picture decodes to a positive width (and a height below 2^40, far above
what image formats allow) both picture calls succeed; the drawing they add has, outside and in the
picture itself, the good size. -/
theorem C18_size [ImgEnv] (f : Doc) (p : Para) (pic : Bytes) (w h : Int64) (fmt : String)
    (hdec : ImgEnv.decodeSize pic = some (w, h, fmt))
    (hw : 0 < w.toInt) (hh : 0 ≤ h.toInt) (hb : h.toInt < 2 ^ 40) :
    ∃ x y, GoodSize w.toInt h.toInt x.toInt y.toInt ∧
      ∀ call ∈ [p.addInlineDrawing f pic, p.addAnchorDrawing f pic],
        ∃ r d, call.2.2 = .ok r ∧ r.children = [.drawing d] ∧
          d.sizes = [(some { cx := x, cy := y }, some { cx := x, cy := y })] ∧
          call.2.1.children = p.children ++ [.run r] := by
  obtain ⟨x, y, hs, hg⟩ := scaleSize_good w h hw hh hb
  refine ⟨x, y, hg, ?_⟩
  intro call hcall
  simp only [List.mem_cons, List.not_mem_nil, or_false] at hcall
  rcases hcall with rfl | rfl
  · simp only [Para.addInlineDrawing, Doc.addPicture, hdec, hs]
    exact ⟨_, _, rfl, rfl, rfl, rfl⟩
  · simp only [Para.addAnchorDrawing, Doc.addPicture, hdec, hs]
    exact ⟨_, _, rfl, rfl, rfl, rfl⟩

/-- **C18, panic.** The picture calls panic exactly when the picture decodes to width 0. -/
theorem C18_panics_iff [ImgEnv] (f : Doc) (p : Para) (pic : Bytes) :
    ((p.addInlineDrawing f pic).2.2 = .panic ↔ ∃ h fmt, ImgEnv.decodeSize pic = some (0, h, fmt)) ∧
    ((p.addAnchorDrawing f pic).2.2 = .panic ↔ ∃ h fmt, ImgEnv.decodeSize pic = some (0, h, fmt)) := by
  have hp : (f.addPicture pic).2 = .panic ↔ ∃ h fmt, ImgEnv.decodeSize pic = some (0, h, fmt) := by
    unfold Doc.addPicture
    split
    · rename_i h; simp [h]
    · rename_i w h fmt hd
      simp only [hd, Option.some.injEq, Prod.mk.injEq]
      have : scaleSize w h = none ↔ w = 0 := by
        unfold scaleSize
        by_cases h0 : w = 0
        · simp [h0]
        · simp only [h0, if_false, iff_false]; split <;> simp
      split
      · rename_i hn; simp [this.1 hn]
      · rename_i x y hn
        simp only [reduceCtorEq, false_iff, not_exists, not_and]
        intro _ _ h0
        rw [this.2 h0] at hn; simp at hn
  constructor
  · rw [← hp]
    unfold Para.addInlineDrawing
    split <;> simp [*]
  · rw [← hp]
    unfold Para.addAnchorDrawing
    split <;> simp [*]

example : GoodSize 1000 500 5274310 2637155 ∧ GoodSize 100 100 2637155 2637155 ∧
    ¬ GoodSize 100 100 5274310 5274310 := by
  unfold GoodSize; decide

/-! ## C19 -/

/-- All sizes of a graphic set to zero. -/
def Graphic.noSize (g : Graphic) : Graphic :=
  { g with data := g.data.map fun gd => { gd with pic := gd.pic.map fun pc => { pc with
      spPr := pc.spPr.map fun sp => { sp with xfrm := { sp.xfrm with ext := {} } } } } }

/-- **C19, inline.** `Size(w, h)` sets the outer extent and the extent of the picture where they are
present, and nothing else: with the extents blanked out the drawing is the same as before. -/
theorem C19_inline (i : Inline) (w h : Int64) :
    ({ inl := some (i.setSize w h) } : Drawing).sizes =
      ({ inl := some i } : Drawing).sizes.map
        (fun (a, b) => (a.map fun _ => { cx := w, cy := h }, b.map fun _ => { cx := w, cy := h })) ∧
    { i.setSize w h with extent := (i.setSize w h).extent.map fun _ => {},
                         graphic := (i.setSize w h).graphic.map Graphic.noSize } =
      { i with extent := i.extent.map fun _ => {}, graphic := i.graphic.map Graphic.noSize } := by
  obtain ⟨_, _, _, _, extent, _, _, _, graphic, _⟩ := i
  rcases graphic with _ | ⟨xa, _ | ⟨uri, _ | ⟨xp, nv, bf, _ | sp⟩, _, _, _⟩⟩ <;>
    cases extent <;> exact ⟨rfl, rfl⟩

/-- **C19, anchored.** The same for an anchored drawing. -/
theorem C19_anchor (a : Anchor) (w h : Int64) :
    ({ anchor := some (a.setSize w h) } : Drawing).sizes =
      ({ anchor := some a } : Drawing).sizes.map
        (fun (a, b) => (a.map fun _ => { cx := w, cy := h }, b.map fun _ => { cx := w, cy := h })) ∧
    { a.setSize w h with extent := (a.setSize w h).extent.map fun _ => {},
                         graphic := (a.setSize w h).graphic.map Graphic.noSize } =
      { a with extent := a.extent.map fun _ => {}, graphic := a.graphic.map Graphic.noSize } := by
  obtain ⟨_, _, _, _, _, _, _, _, _, _, _, _, _, extent, _, _, _, _, _, graphic, _⟩ := a
  rcases graphic with _ | ⟨xa, _ | ⟨uri, _ | ⟨xp, nv, bf, _ | sp⟩, _, _, _⟩⟩ <;>
    cases extent <;> exact ⟨rfl, rfl⟩

example : ({ inl := some ((mkInlinePic 1 1 "rId4" 10 20).setSize 3 4) } : Drawing).sizes
    = [(some ⟨3, 4⟩, some ⟨3, 4⟩)] := by decide

/-! ## C20 -/

/-- **C20.** A picture call returns an error exactly when the picture cannot be decoded, and then
document and paragraph are as before. -/
theorem C20_failed_call [ImgEnv] (f : Doc) (p : Para) (pic : Bytes) :
    ∀ call ∈ [p.addInlineDrawing f pic, p.addAnchorDrawing f pic],
      ((∃ e, call.2.2 = .err e) ↔ ImgEnv.decodeSize pic = none) ∧
      ((∃ e, call.2.2 = .err e) → call.1 = f ∧ call.2.1 = p) := by
  have key : ImgEnv.decodeSize pic = none → f.addPicture pic = (f, .err .decode) := by
    intro h; simp [Doc.addPicture, h]
  intro call hcall
  simp only [List.mem_cons, List.not_mem_nil, or_false] at hcall
  rcases hcall with rfl | rfl
  · have h1 : (∃ e, (p.addInlineDrawing f pic).2.2 = .err e) → ImgEnv.decodeSize pic = none := by
      rintro ⟨e, he⟩
      exact addInlineDrawing_err (f' := (p.addInlineDrawing f pic).1)
        (p' := (p.addInlineDrawing f pic).2.1) (e := e) (by rw [← he])
    have h2 : ImgEnv.decodeSize pic = none → p.addInlineDrawing f pic = (f, p, .err .decode) := by
      intro h; simp [Para.addInlineDrawing, key h]
    refine ⟨⟨h1, fun h => ⟨_, by rw [h2 h]⟩⟩, fun h => ?_⟩
    rw [h2 (h1 h)]; exact ⟨rfl, rfl⟩
  · have h1 : (∃ e, (p.addAnchorDrawing f pic).2.2 = .err e) → ImgEnv.decodeSize pic = none := by
      rintro ⟨e, he⟩
      exact addAnchorDrawing_err (f' := (p.addAnchorDrawing f pic).1)
        (p' := (p.addAnchorDrawing f pic).2.1) (e := e) (by rw [← he])
    have h2 : ImgEnv.decodeSize pic = none → p.addAnchorDrawing f pic = (f, p, .err .decode) := by
      intro h; simp [Para.addAnchorDrawing, key h]
    refine ⟨⟨h1, fun h => ⟨_, by rw [h2 h]⟩⟩, fun h => ?_⟩
    rw [h2 (h1 h)]; exact ⟨rfl, rfl⟩

/-- An environment in which no picture can be decoded, and one where every picture has no width. -/
@[instance_reducible] def brokenEnv : ImgEnv := ⟨fun _ => none⟩
@[instance_reducible] def flatEnv : ImgEnv := ⟨fun _ => some (0, 7, "png")⟩

example : (@Para.addInlineDrawing brokenEnv {} Doc.new [1]).2.2 = .err .decode := rfl

/-- **C20** for pictures from files: the call returns an error exactly when the file cannot be read, with the
error of reading, or its picture cannot be decoded; then document and paragraph are as before. When the file
can be read the call is the one with its contents. -/
theorem C20_from [ImgEnv] (f : Doc) (p : Para) (read : Except Err Bytes) :
    ∀ call ∈ [p.addInlineDrawingFrom f read, p.addAnchorDrawingFrom f read],
      ((∃ e, call.2.2 = .err e) ↔ (∃ e, read = .error e) ∨ ∃ pic, read = .ok pic ∧ ImgEnv.decodeSize pic = none) ∧
      ((∃ e, call.2.2 = .err e) → call.1 = f ∧ call.2.1 = p) ∧
      (∀ e, read = .error e → call.2.2 = .err e) ∧
      (∀ pic, read = .ok pic → call ∈ [p.addInlineDrawing f pic, p.addAnchorDrawing f pic]) := by
  intro call hcall
  cases read with
  | error e =>
    have : call = (f, p, .err e) := by
      simp only [List.mem_cons, List.not_mem_nil, or_false] at hcall
      rcases hcall with rfl | rfl <;> rfl
    subst this
    simp
  | ok pic =>
    have hc := C20_failed_call f p pic call hcall
    refine ⟨?_, hc.2, by simp, ?_⟩
    · rw [hc.1]; simp
    · intro pic' h
      obtain rfl := Except.ok.inj h
      exact hcall

/-- A file that cannot be read -/
example [ImgEnv] : (Para.addInlineDrawingFrom {} Doc.new (.error .notExist)).2.2 = .err .notExist := rfl

/-- Not part of C20, but close to it: a picture of width 0 panics after the media was added. -/
theorem C20_panic_leaves_media :
    (@Para.addInlineDrawing flatEnv {} Doc.new [1]).2.2 = .panic ∧
    (@Para.addInlineDrawing flatEnv {} Doc.new [1]).1.media.length = 1 := by
  constructor
  · exact ((@C18_panics_iff flatEnv Doc.new {} [1]).1).2 ⟨7, "png", rfl⟩
  · decide

/-! ## C47 -/

/-- **C47.** Reading back a written integer gives that integer and no error, for all 64-bit integers
and whatever `ParseFloat` does. -/
theorem C47_integers [GoEnv] (n : Int64) : getInt (itoa n) = (n, none) := by
  simp [getInt, atoi_itoa]

example [GoEnv] : getInt "-9223372036854775808" = (-9223372036854775808, none) := by
  have : itoa (-9223372036854775808) = "-9223372036854775808" := by decide
  rw [← this]; exact C47_integers _

end Docx
